import Verif.Core.Bytes
/-
What netstat's output says of a connection: no function of the model is used.
-/
namespace Verif.Spec.Netstat

abbrev Bytes := List UInt8

/-- neither `:` nor `.` is in a part of an address -/
def Part (p : Bytes) : Prop := p ≠ [] ∧ 0x3a ∉ p ∧ 0x2e ∉ p

/-- the parts of an address, separated by `:` or `.` -/
inductive Written : List Bytes → Bytes → Prop where
  | last (p : Bytes) : Written [p] p
  | more (p : Bytes) (ps : List Bytes) (c : UInt8) (t : Bytes) (hc : c = 0x3a ∨ c = 0x2e) (h : Written ps t) : Written (p :: ps) (p ++ c :: t)

/-- a line says that a connection over IPv4 from a client has a state: the protocol is `tcp` or `tcp4`, the fifth word is written as the four numbers of the address and the port, and the
sixth, if there is one, is the state -/
def Says (tcp tcp4 : Bytes) (client : List Bytes) (line : List Bytes) (state : Option Bytes) : Prop :=
  ∃ protocol recvq sendq localAddress foreign rest, line = protocol :: recvq :: sendq :: localAddress :: foreign :: rest ∧ (protocol = tcp ∨ protocol = tcp4) ∧
    Written client foreign ∧ state = rest.head?

/-- the last line about the client says that its connection has a state -/
def LastSays (tcp tcp4 : Bytes) (client : List Bytes) (output : List (List Bytes)) (state : Option Bytes) : Prop :=
  ∃ before line later, output = before ++ line :: later ∧ Says tcp tcp4 client line state ∧ ∀ l ∈ later, ∀ s, ¬ Says tcp tcp4 client l s

end Verif.Spec.Netstat
