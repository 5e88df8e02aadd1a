import Verif.Core.Status
/-
The order of the decisions of milters.
-/
namespace Verif.Props
open Verif

/-- Severity of a decision; other statuses are not decisions. -/
def severity : Status → Nat
  | .discard => 6
  | .reject => 5
  | .temporaryFailure => 4
  | .continue_ => 3
  | .skip => 2
  | .accept => 1
  | _ => 0

def IsDecision (s : Status) : Prop := severity s ≠ 0

instance (s : Status) : Decidable (IsDecision s) := inferInstanceAs (Decidable (_ ≠ _))

end Verif.Props
