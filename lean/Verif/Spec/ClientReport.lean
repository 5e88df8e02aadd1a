import Verif.Client.Context
/-
What is reported about messages to those who listen to "message-processed" at a milter.
-/
namespace Verif.Spec.ClientReport
open Verif Verif.Client

/-- the reports -/
def reports (log : List Event) : List Status :=
  log.filterMap fun
    | .processed v => some v
    | _ => none

/-- one event: the reports that are due, and whether there is something to be reported -/
def account (b : List Status × Bool) : Event → List Status × Bool
  | .got .abort => (b.1, false)
  | .got (.defineMacro _ _) | .got .quit => b
  | .got _ => (b.1, true)
  | .answered .endOfMessage v => if b.2 then (b.1 ++ [if v = .default then .continue_ else v], false) else b
  | _ => b

/-- a report is due whenever the end of a message is answered, with this answer; once until the next command -/
def due (log : List Event) : List Status := (log.foldl account ([], false)).1

/-- the milter does not answer the end of a message while it is told of an abort -/
def Sane : Op → Prop
  | .command .abort handlers _ _ => ∀ h ∈ handlers, ∀ v, Call.respond .endOfMessage v ∉ h.calls
  | _ => True

end Verif.Spec.ClientReport
