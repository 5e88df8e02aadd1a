import Verif.Client.Later
import Verif.Spec.Client
/-
What a milter that answers later relies on.
-/
namespace Verif.Spec.Later
open Verif Verif.Client Verif.Later
open Verif.Ruby (Prog)

/-- one after the other -/
def andThen {σ : Type} : Prog σ → Prog σ → Prog σ
  | .done, q => q
  | .raise, _ => .raise
  | .act a k, q => .act a fun b => andThen (k b) q
  | .own f k, q => .own f fun x => andThen (k x) q
  | .symbol n k, q => .symbol n fun v => andThen (k v) q

/-- `delay_response`, at the end of a callback -/
def delay {σ : Type} : Prog σ := .act .delayResponse fun _ => .done

/-- The child whose end the MTA waits for, after some events.  Each end of a message starts one; `started` were before. -/
def due : Option Nat → Nat → List Ev → Option Nat
  | w, _, [] => w
  | _, started, .command (.endOfMessage _) :: rest => due (some started) (started + 1) rest
  | _, started, .command .abort :: rest => due none started rest
  | w, started, .command _ :: rest => due w started rest
  | w, started, .exits n :: rest => due (if w = some n then none else w) started rest

/-- what the MTA is to read for an event, if it waits for a child or not: an answer to a message only when its own child has ended -/
def told (w : Option Nat) : Ev → List Reply
  | .command (.endOfMessage _) => []
  | .command c => if Client.expectsReply c then [.cont] else []
  | .exits n => if w = some n then [.accept] else []

/-- what it is to read for each of the events after some -/
def Told (before : List Ev) : List Ev → List (List Reply) → Prop
  | [], [] => True
  | e :: rest, g :: gs => g.filter (· ≠ .progress) = told (due none 0 before) e ∧ Told (before ++ [e]) rest gs
  | _, _ => False

/-- an MTA that waits for an answer sends nothing, or gives the message up; it has negotiated before, and the session has not ended -/
def Patient (before : List Ev) : List Ev → Prop
  | [] => True
  | .exits n :: rest => Patient (before ++ [.exits n]) rest
  | .command c :: rest => (∀ o, c ≠ .negotiate o) ∧ c ≠ .quit ∧ (due none 0 before ≠ none → c = .abort) ∧ Patient (before ++ [.command c]) rest

end Verif.Spec.Later
