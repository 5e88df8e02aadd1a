import Verif.Spec.Phase
/-
Milters that a condition keeps away from a command.
-/
namespace Verif.Spec.Stop
open Verif Verif.Children Verif.Spec.Children Verif.Spec.Phase
open Verif.Server (St)

/-- a milter kept away from the start of the session is dismissed -/
def dismisses (st : St) : Bool := decide (st = .connect) || decide (st = .helo)

/-- the commands meant here: the connection, the greeting, the sender and the recipients -/
def Stoppable (st : St) : Prop := st = .connect ∨ st = .helo ∨ st = .envelopeFrom ∨ st = .envelopeRecipient

/-- what the environment answers while milter `k` is offered the command, somebody else following it:
whether a condition stops it, and that everything can be written -/
def wish (k : Kid) (st : St) (stop : Bool) : List (Bool × Bool) :=
  if stop then (true, true) :: List.replicate (if dismisses st then 3 else 2) (false, true)
  else if declines k st then [(false, true), (false, true)]
  else [(false, true)]

/-- what the environment answers while the milters are offered the command one after the other: the
conditions stop those of `stop` -/
def wishes (s : Sys) (st : St) (stop : Nat → Bool) : List Nat → List (Bool × Bool)
  | [] => []
  | [i] => [(stop i, true)]
  | i :: l => wish (s.kids i) st (stop i) ++ wishes s st stop l

/-- where a milter is that was kept away from the command: about to leave before there is a message, out
of the message when this was the sender, else in it -/
def place (st : St) : Pos :=
  if dismisses st then .leaving else if st = .envelopeFrom then .settled else .answered

/-- what it counts for: nothing that would keep others from deciding -/
def ballot (st : St) : Status := if dismisses st then .accept else .continue_

/-- what is sent to milter `i`: the command, unless it declined it; instead it may be told to leave -/
def sends (s : Sys) (st : St) (stop : Nat → Bool) (cmd : Cmd) (i : Nat) : List (Nat × Cmd) :=
  if stop i then (if dismisses st then [(i, .abort), (i, .quit)] else [])
  else if declines (s.kids i) st then [] else [(i, cmd)]

/-- the command arrives -/
def start (s : Sys) (who : List Nat) (st : St) (stop : Nat → Bool) : Talk where
  pos := fun i => if i ∈ who then
      (if stop i then place st else if declines (s.kids i) st then .answered else .written) else .none
  votes := (who.filter fun i => stop i || declines (s.kids i) st).map fun i => if stop i then ballot st else .continue_
  code := s.code
  dismissed := []

/-- nobody is kept away from a message they are already in, and nobody who has something to report is
dismissed -/
def Fresh (k : Kid) (st : St) : Prop :=
  (st = .envelopeFrom → k.ctx.processingMessage = false) ∧ (dismisses st = true → k.ctx.result = none)

end Verif.Spec.Stop
