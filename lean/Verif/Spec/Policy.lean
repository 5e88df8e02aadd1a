import Verif.Manager.Policy
/-
What a policy is for: the milters it lists are to be used for the sessions that meet its criteria only, and it is to change nothing else.
-/
namespace Verif.Spec.Policy
open Verif Verif.Policy
open Verif.Conditions (Address Event Told)

/-- what the MTA says of a session with one message -/
structure Session where
  host : Bytes
  address : Address
  fqdn : Bytes
  sender : Bytes
  recipients : List Bytes

/-- the commands of the session up to DATA -/
def Session.events (s : Session) : List Event :=
  [.connect s.host s.address, .helo s.fqdn, .envelopeFrom s.sender] ++ s.recipients.map .envelopeRecipient ++ [.data]

/-- a criterion that was given says yes -/
def Met {α : Type} (c : Option (Criterion α)) (x : α) : Prop := ∃ f, c = some f ∧ f x = some true

/-- a criterion that was given says yes; one that was not given asks for nothing -/
def Allows {α : Type} (c : Option (Criterion α)) (x : α) : Prop := c = none ∨ Met c x

/-- the session meets the criteria of the policy -/
def Fits (p : Policy) (s : Session) : Prop :=
  Allows p.host s.host ∧ Allows p.address s.address ∧ Allows p.fqdn s.fqdn ∧ Allows p.sender s.sender ∧ ∀ r ∈ s.recipients, Allows p.recipient r

/-- the milter is to be used: the session fits every policy that lists it -/
def Wanted (ps : List Policy) (milter : Bytes) (s : Session) : Prop := ∀ p ∈ ps, milter ∈ p.milters → Fits p s

/-- what the code makes of it: every policy lists the milter and has a host or an address, a sender and, if there are recipients, a recipient, all of which are met -/
def Strict (p : Policy) (s : Session) : Prop :=
  (Met p.host s.host ∨ Met p.address s.address) ∧ Met p.sender s.sender ∧ ∀ r ∈ s.recipients, Met p.recipient r

/-- no criterion raises an exception -/
structure Quiet (p : Policy) : Prop where
  host : ∀ f, p.host = some f → ∀ x, f x ≠ none
  address : ∀ f, p.address = some f → ∀ x, f x ≠ none
  sender : ∀ f, p.sender = some f → ∀ x, f x ≠ none
  recipient : ∀ f, p.recipient = some f → ∀ x, f x ≠ none

end Verif.Spec.Policy
