import Verif.Spec.Xml
import Verif.Manager.ConfigurationXml
/-
What the XML of a configuration should say, as a tree.
-/
namespace Verif.Spec.ConfigurationXml
open Verif Verif.Configuration
open Verif.Egg (Egg Condition)
open Verif.Spec.Xml

/-- text that XML 1.0 can carry and carries unchanged: no control characters but tabulator
and newline -/
def Plain (s : Bytes) : Prop := ∀ c ∈ s, 0x20 ≤ c ∨ c = 9 ∨ c = 10

/-- an element for a setting that may be absent -/
def maybe (name : String) : Option Bytes → List Node
  | some t => [.leaf (ascii name) t]
  | none => []

/-- an element for a setting that is on or off -/
def truth (name : String) (b : Bool) : Node := .leaf (ascii name) (ascii (if b then "true" else "false"))

/-- an element that is left out if it has nothing in it -/
def group (name : String) : List Node → List Node
  | [] => []
  | n :: ns => [.branch (ascii name) (n :: ns)]

/-- a milter -/
def milter (e : Egg) : Node :=
  .branch (ascii "milter")
    (maybe "name" e.name ++ maybe "description" e.description ++
      [truth "enabled" e.enabled, .leaf (ascii "fallback-status") (statusNick e.fallback),
        truth "evaluation-mode" e.evaluation] ++
      maybe "connection-spec" e.connectionSpec ++ maybe "command" e.command ++
      maybe "command-options" e.commandOptions ++
      group "applicable-conditions"
        (e.conditions.map fun c => .leaf (ascii "applicable-condition") (conditionName c)))

/-- an applicable condition -/
def condition (c : Condition) : Node :=
  .branch (ascii "applicable-condition") (.leaf (ascii "name") (conditionName c) :: maybe "description" c.description)

/-- what a configuration is made of -/
def parts (modified : Option Bytes) (c : Conf) : List Node :=
  maybe "last-modified" modified ++ group "applicable-conditions" (c.conditions.map condition) ++
    group "milters" (c.eggs.map milter)

/-- the document -/
def document (modified : Option Bytes) (c : Conf) : Node :=
  match parts modified c with
  | [] => .leaf (ascii "configuration") [10]
  | n :: ns => .branch (ascii "configuration") (n :: ns)

/-- all texts of a milter are plain -/
def PlainEgg (e : Egg) : Prop :=
  (∀ t ∈ e.name, Plain t) ∧ (∀ t ∈ e.description, Plain t) ∧ (∀ t ∈ e.connectionSpec, Plain t) ∧
  (∀ t ∈ e.command, Plain t) ∧ (∀ t ∈ e.commandOptions, Plain t) ∧ ∀ c ∈ e.conditions, Plain (conditionName c)

/-- all texts of a configuration are plain -/
def PlainConf (modified : Option Bytes) (c : Conf) : Prop :=
  (∀ t ∈ modified, Plain t) ∧ (∀ e ∈ c.eggs, PlainEgg e) ∧
  ∀ x ∈ c.conditions, Plain (conditionName x) ∧ ∀ t ∈ x.description, Plain t

end Verif.Spec.ConfigurationXml
