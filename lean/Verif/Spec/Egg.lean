import Verif.Manager.Egg
/-
What a configuration file says about milters: a history of definitions and removals, and
for each name the definition in force after it.
-/
namespace Verif.Spec.Egg
open Verif Verif.Egg

/-- one statement of a configuration file -/
inductive Op where
  /-- `define_milter(name) do |milter| ... end`: the block as a function on definitions -/
  | define (name : Bytes) (change : Egg → Egg)
  /-- `remove_milter(name)` -/
  | remove (name : Bytes)

/-- what the block of a definition of `n` is given: a fresh definition or, if there is one
already, `again` of it -/
def given (again : Egg → Egg) (n : Bytes) : Option Egg → Egg
  | none => { name := some n }
  | some old => again old

/-- the definition in force for each name, if the block of a repeated definition starts
from `again old` -/
def inForce (again : Egg → Egg) : List Op → Bytes → Option Egg
  | [], _ => none
  | .define n f :: before, m =>
    if m = n then some (f (given again n (inForce again before n))) else inForce again before m
  | .remove n :: before, m => if m = n then none else inForce again before m

/-- what a repeated definition starts from: everything the old one said, except that the
fallback status and the evaluation mode are back at their defaults and that options
without a command are dropped -/
def kept (old : Egg) : Egg :=
  { old with
    fallback := .accept
    evaluation := false
    commandOptions := if old.command.isSome then old.commandOptions else none }

/-- the milters a session is to consult: enabled, with a connection spec, in order -/
def consulted (es : List Egg) : List Egg := es.filter fun e => e.enabled && e.connectionSpec.isSome

end Verif.Spec.Egg
