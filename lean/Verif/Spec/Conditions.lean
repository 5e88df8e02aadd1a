import Verif.Manager.Conditions
/-
What applicable conditions are to decide.  No function of the model but the types of conditions, events and addresses is used.
-/
namespace Verif.Spec.Conditions
open Verif Verif.Conditions Verif.Macros

/-- the blocks an event is for, each given what the documentation says it is given -/
def asked (c : Condition) : Event → List Block
  | .connect host address => c.connect.map fun b => b host address
  | .helo fqdn => c.helo.map fun b => b fqdn
  | .envelopeFrom sender => c.envelopeFrom.map fun b => b sender
  | .envelopeRecipient recipient => c.envelopeRecipient.map fun b => b recipient
  | .data => c.data
  | .header name value => c.header.map fun b => b name value
  | .endOfHeader => c.endOfHeader
  | .body chunk => c.body.map fun b => b chunk
  | .endOfMessage => c.endOfMessage

/-- an event of which blocks are told what the documentation says -/
def notBody : Event → Bool
  | .body _ => false
  | _ => true

/-- the macros after some blocks were asked -/
def after : List Block → Agent → Agent
  | [], a => a
  | b :: bs, a => after bs (b a).2

/-- some block says stop, having been asked after those before it, none of which said so; a block that raises an exception does not say so -/
def SaysStop (bs : List Block) (a : Agent) : Prop :=
  ∃ before b later, bs = before ++ b :: later ∧ (b (after before a)).1 = some true

/-- the addresses that are local whatever is configured: 127.0.0.0/8, 10.0.0.0/8, 172.16.0.0/12, 192.168.0.0/16, ::1, fe80::/10, a UNIX domain socket -/
def LocalByNature : Address → Prop
  | .ipv4 n => 127 * 2 ^ 24 ≤ n ∧ n < 128 * 2 ^ 24 ∨ 10 * 2 ^ 24 ≤ n ∧ n < 11 * 2 ^ 24 ∨ (172 * 256 + 16) * 2 ^ 16 ≤ n ∧ n < (172 * 256 + 32) * 2 ^ 16 ∨
      (192 * 256 + 168) * 2 ^ 16 ≤ n ∧ n < (192 * 256 + 169) * 2 ^ 16
  | .ipv6 n => n = 1 ∨ 0xfe80 * 2 ^ 112 ≤ n ∧ n < 0xfec0 * 2 ^ 112
  | .unix => True
  | .unknown => False

/-- an address is in a network: same family, and it differs from the network's address in the last bits only -/
def InNetwork (v6 : Bool) (base length : Nat) : Address → Prop
  | .ipv4 n => v6 = false ∧ ∃ first low low', low < 2 ^ (32 - length) ∧ low' < 2 ^ (32 - length) ∧ n = first * 2 ^ (32 - length) + low ∧ base = first * 2 ^ (32 - length) + low'
  | .ipv6 n => v6 = true ∧ ∃ first low low', low < 2 ^ (128 - length) ∧ low' < 2 ^ (128 - length) ∧ n = first * 2 ^ (128 - length) + low ∧ base = first * 2 ^ (128 - length) + low'
  | _ => False

/-- what "remote" is to mean: known, and either in a network declared remote or neither local by nature nor in a network declared local -/
def Remote (locals remotes : List (Bool × Nat × Nat)) (x : Address) : Prop :=
  x ≠ .unknown ∧ ((∃ n ∈ remotes, InNetwork n.1 n.2.1 n.2.2 x) ∨ (¬ LocalByNature x ∧ ∀ n ∈ locals, ¬ InNetwork n.1 n.2.1 n.2.2 x))

/-- what "Restrict Accounts" is to mean: the milters get a message if it has a recipient that is one of the accounts -/
def Wanted (restricted : Bytes → Bool) (recipients : List Bytes) : Prop := ∃ r ∈ recipients, restricted r = true

end Verif.Spec.Conditions
