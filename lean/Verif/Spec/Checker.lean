import Verif.Manager.Checker
/-
What is said about the check of whether the SMTP clients are still there.
-/
namespace Verif.Spec.Checker
open Verif.Checker

/-- the leaders which were let go -/
def freed : List Out → List Nat
  | [] => []
  | .freed id :: t => id :: freed t
  | _ :: t => freed t

/-- how many sessions began -/
def begun : List Op → Nat
  | [] => 0
  | .established :: ops => begun ops + 1
  | _ :: ops => begun ops

/-- how often the time for a check came -/
def checks : List Op → Nat
  | [] => 0
  | .check _ _ :: ops => checks ops + 1
  | _ :: ops => checks ops

/-- the session goes on during `ops`: it does not end, and its client stays -/
def Stays (id : Nat) (ops : List Op) : Prop := ∀ op ∈ ops, match op with
  | .finished i => i ≠ id
  | .check connected _ => connected id = true
  | _ => True

/-- the leader said that it has finished: of itself, or when it was found that its client had gone -/
def Said (id : Nat) (ops : List Op) : Prop :=
  .finished id ∈ ops ∨ ∃ connected atOnce, .check connected atOnce ∈ ops ∧ connected id = false ∧ atOnce id = true

/-- the interval stays as it is -/
def Steady (ops : List Op) : Prop := ∀ i, .configure i ∉ ops

end Verif.Spec.Checker
