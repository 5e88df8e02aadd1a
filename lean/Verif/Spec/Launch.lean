import Verif.Manager.Launch
/-
What a user expects when the manager looks for its milters (C120, C121).
-/
namespace Verif.Spec.Launch
open Verif.Launch

/-- the manager may start milter `i` itself: it runs privileged, has a launcher, and the milter is
configured with a command -/
def Launchable (c : Setup) (i : Nat) : Prop :=
  c.privileged = true ∧ c.launcher = true ∧ c.command i = true

instance (c : Setup) (i : Nat) : Decidable (Launchable c i) := by unfold Launchable; infer_instance

/-- how often something is in a log -/
def times (o : Out) (log : List Out) : Nat := log.count o

/-- how often it was decided what milter `i` has to do with the session: it answered the offer, or
it was given up -/
def decisions (i : Nat) (log : List Out) : Nat := times (.accepted i) log + times (.gone i) log

/-- milter `i` answered the offer, or was given up -/
def Decided (i : Nat) (log : List Out) : Prop := .accepted i ∈ log ∨ .gone i ∈ log

/-- events by which milter `i` answers or leaves -/
def ofMilter (i : Nat) : Event → Bool
  | .accepts j | .leaves j => j = i
  | _ => false

/-- what a connection attempt to milter `i` leads to, unless it fails at once -/
def onConnection (i : Nat) : Event → Bool
  | .ready j | .failed j _ _ | .timeout j => j = i
  | _ => false

end Verif.Spec.Launch
