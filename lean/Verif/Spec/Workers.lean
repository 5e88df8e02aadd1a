import Verif.Client.Workers
import Verif.Spec.Service
/-
What is said about a client with worker processes, in terms of what happened (`Event`) and what was seen (`Seen`).
-/
namespace Verif.Spec.Workers
open Verif.Workers

/-- what worker `i` was seen doing -/
def of (i : Nat) : List Seen → List Service.Out
  | [] => []
  | .worker j o :: t => if j = i then o :: of i t else of i t
  | _ :: t => of i t

/-- how many workers there are: all were forked up to the first fork that failed -/
def forked (forks : List Bool) : Nat := (forks.takeWhile id).length

/-- the master has gone: it was shut down, it died, or it gave up because it could not fork -/
def Gone (forks : List Bool) (events : List Event) : Prop := .shutdown ∈ events ∨ .masterKilled ∈ events ∨ false ∈ forks

/-- every worker has got to work, or is dead -/
def AllSetOut (forks : List Bool) (events : List Event) : Prop := ∀ j < forked forks, .enter j ∈ events ∨ .killed j ∈ events

/-- the connections worker `i` has accepted and not let go -/
def serving (i : Nat) (seen : List Seen) : Nat := Spec.Service.sessions (of i seen)

/-- all sessions there are, in `n` workers -/
def total (n : Nat) (seen : List Seen) : Nat := ((List.range n).map fun i => serving i seen).sum

/-- the configuration file is changed, or the master reads it again -/
def concernsMaster : Event → Bool
  | .edit _ => true
  | .reload => true
  | _ => false

/-- no worker reads the configuration again -/
def unread : Event → Bool
  | .reloadWorker _ => false
  | _ => true

/-- the master is left alone -/
def spares : Event → Bool
  | .shutdown => false
  | .masterKilled => false
  | _ => true

end Verif.Spec.Workers
