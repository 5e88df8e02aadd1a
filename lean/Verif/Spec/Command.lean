import Verif.Core.Types
/-
Independent description of what command packets mean, used by the round-trip
properties.
-/
namespace Verif.Spec
open Verif

/-- The name of a macro without enclosing braces: `{abc}` names `abc`, `j` names `j`. -/
def macroName (k : Bytes) : Bytes :=
  if 2 ≤ k.length ∧ k.head? = some 0x7b ∧ k.getLast? = some 0x7d then k.tail.dropLast else k

/-- The definitions a macro table stands for: entries with an empty name mean nothing,
braces do not matter, a missing value is the empty value. -/
def definitions (t : MacroTable) : MacroTable :=
  (t.filter (fun e => !e.1.isEmpty)).map (fun e => (macroName e.1, some (e.2.getD [])))

/-- Two commands mean the same; macro tables are compared by what each name is
defined to. -/
def SameCmd : Cmd → Cmd → Prop
  | .defineMacro c t, .defineMacro c' t' =>
    c = c' ∧ ∀ name, t'.lookup name = (definitions t).lookup name
  | a, b => a = b

/-- Laws of `inet_ntop`/`inet_pton` for addresses of `size` bytes: printing gives a
non-empty text without NUL which parses back. -/
structure InetTextLaws (x : InetText) (size : Nat) : Prop where
  parse : ∀ a, a.length = size → x.pton (x.ntop a) = some a
  noNul : ∀ a, a.length = size → IsCStr (x.ntop a)
  nonempty : ∀ a, a.length = size → x.ntop a ≠ []

structure InetLaws (i : Inet) : Prop where
  v4 : InetTextLaws i.v4 4
  v6 : InetTextLaws i.v6 16

/-- Addresses the protocol can transport. -/
def AddrOk : Addr → Prop
  | .inet _ _ a => a.length = 4
  | .inet6 _ _ a => a.length = 16
  | .unix path => IsCStr path ∧ path ≠ [] ∧ path.length < 108
  | .unspec => True

/-- Stages a macro definition may be for: C H M R T L N B E U. -/
def macroStages : Bytes := ascii "CHMRTLNBEU"

/-- Arguments the protocol can transport: C strings, non-empty where the protocol
demands a value, one body chunk of at most 65535 bytes, distinct macro names. -/
def CmdOk : Cmd → Prop
  | .negotiate _ => True
  | .defineMacro ctx t => ctx ∈ macroStages ∧ (∀ e ∈ t, IsCStr e.1 ∧ IsCStr (e.2.getD [])) ∧
      ((definitions t).map (·.1)).Nodup
  | .connect host addr => IsCStr host ∧ host ≠ [] ∧ AddrOk addr
  | .helo s | .envelopeFrom s | .envelopeRecipient s | .unknown s => IsCStr s ∧ s ≠ []
  | .header n v => IsCStr n ∧ n ≠ [] ∧ IsCStr v
  | .body chunk => chunk.length ≤ 65535
  | _ => True

/-- Packets other than the three malformed kinds for which the command decoder looks at
bytes outside the packet: the empty packet, the define-macro packet without a stage, and
the connect packet that stops after the host name. -/
def SelfContained (p : Bytes) : Prop :=
  p ≠ [] ∧ p ≠ [0x44] ∧ ∀ host, IsCStr host → host ≠ [] → p ≠ 0x43 :: (host ++ [0])

end Verif.Spec
