import Verif.Manager.Egg
/-
What loading the XML of milters into a configuration should do.
-/
namespace Verif.Spec.XmlLoader
open Verif
open Verif.Egg (Egg Condition)
open Verif.Connection (Net parseSpec)

/-- an address milter-manager can read -/
def GoodSpec (net : Net) (s : Bytes) : Prop := ∃ a, parseSpec net s = .ok a

/-- a milter that the XML can carry: it has a name, an address that can be read if any, both a
command and options or neither, one of the four statuses a fallback status can be, and
conditions that are known -/
structure Loadable (net : Net) (conds : List Condition) (e : Egg) : Prop where
  name : e.name ≠ none
  spec : ∀ s ∈ e.connectionSpec, s ≠ [] ∧ GoodSpec net s
  command : e.command = none ↔ e.commandOptions = none
  fallback : e.fallback = .accept ∨ e.fallback = .reject ∨ e.fallback = .temporaryFailure ∨ e.fallback = .discard
  conditions : ∀ c ∈ e.conditions, c.name ≠ none ∧ conds.find? (fun x => x.name = c.name) = some c

/-- milters that are in use: each has a name and an address that can be read if any -/
def InUse (net : Net) (es : List Egg) : Prop :=
  ∀ e ∈ es, e.name ≠ none ∧ ∀ s ∈ e.connectionSpec, GoodSpec net s

/-- the milter `e` as it is after its XML was loaded over a milter of the same name, if there is
one.  Timeouts and user name are not in the XML, and what is absent in the XML stays. -/
def restored (old : Option Egg) (e : Egg) : Egg :=
  { e with
    description := e.description <|> old.bind (·.description)
    connectionSpec := e.connectionSpec <|> old.bind (·.connectionSpec)
    timeouts := (old.map (·.timeouts)).getD Egg.defaultTimeouts
    userName := old.bind (·.userName)
    command := e.command <|> old.bind (·.command)
    commandOptions := if e.command = none then old.bind (fun o => if o.command = none then none else o.commandOptions)
      else e.commandOptions }

/-- the milters after `e` was loaded: it takes the place of the one with its name, at the end -/
def put (es : List Egg) (e : Egg) : List Egg :=
  es.eraseP (fun x => x.name = e.name) ++ [restored (es.find? fun x => x.name = e.name) e]

end Verif.Spec.XmlLoader
