import Verif.Core.SessionResult
/-!
What the result of a session is meant to hold.
-/
namespace Verif.Spec.SessionResult

open Verif.Core.SessionResult

/-- The message results there are after a call. -/
def after (ms : List Nat) : Op → List Nat
  | .add m => ms ++ [m]
  | .remove m => ms.filter (· ≠ m)
  | .setMessages l => l
  | _ => ms

/-- … and after a history. -/
def messages (os : List Op) : List Nat := os.foldl after []

/-- No message result is added while it is there. -/
def Once (os : List Op) : Prop := ∀ h t, os = h ++ t → (messages h).Nodup

/-- A call that has nothing to do with times. -/
def Timeless : Op → Prop
  | .add _ | .remove _ | .setMessages _ | .setOwn | .setDisconnected _ => True
  | _ => False

end Verif.Spec.SessionResult
