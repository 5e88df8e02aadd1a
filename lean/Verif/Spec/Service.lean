import Verif.Client.Service
/-
What is said about a client which serves connections, in terms of what was seen of it (`Out`) and what happened to it (`Op`).
-/
namespace Verif.Spec.Service
open Verif.Service

/-- the sessions whose connection was accepted, in that order -/
def accepted : List Out → List Nat
  | [] => []
  | .accepted id :: t => id :: accepted t
  | _ :: t => accepted t

/-- the sessions which are over and gone -/
def freed : List Out → List Nat
  | [] => []
  | .freed id :: t => id :: freed t
  | _ :: t => freed t

/-- how many sessions there are: accepted and not gone -/
def sessions (seen : List Out) : Nat := (accepted seen).length - (freed seen).length

/-- the session was begun: its context exists -/
def Begun (seen : List Out) (id : Nat) : Prop := .established id ∈ seen ∨ .startError id ∈ seen

/-- the session has come to its end: its context said so, or it could not be started -/
def Ended (ops : List Op) (seen : List Out) (id : Nat) : Prop := .finish id ∈ ops ∨ .startError id ∈ seen

/-- the event is one which happens without another thread in between -/
def whole : Op → Bool
  | .load => false
  | .store => false
  | _ => true

/-- the event leaves the configuration alone -/
def steady : Op → Bool
  | .configure _ => false
  | _ => true

/-- the configuration in force after `ops` -/
def inForce (config : Config) : List Op → Config
  | [] => config
  | .configure c :: ops => inForce c ops
  | _ :: ops => inForce config ops

/-- a multiple of `interval` is reached when the number of sessions served goes from `before` to `after` -/
def Reaches (interval before after : Nat) : Prop := ∃ k, before < k * interval ∧ k * interval ≤ after

end Verif.Spec.Service
