import Verif.Core.Types
/-
Independent description of what reply packets mean, used by the round-trip properties.
-/
namespace Verif.Spec
open Verif

/-- Stages for which macros can be requested: C H M R T E N. -/
def requestStages : Bytes := ascii "CHMRTEN"

/-- A macro request table the protocol can transport: at least one stage, known stages,
each once, each with a non-empty list of blank-free C strings that is not just one empty
string. -/
def RequestsOk (r : Requests) : Prop :=
  r ≠ [] ∧ (r.map (·.1)).Nodup ∧
  ∀ e ∈ r, e.1 ∈ requestStages ∧ e.2 ≠ [] ∧ e.2 ≠ [[]] ∧
    ∀ s ∈ e.2, IsCStr s ∧ (0x20 : UInt8) ∉ s

/-- Two replies mean the same; macro requests are compared stage by stage. -/
def SameReply : Reply → Reply → Prop
  | .negotiate o (some r), .negotiate o' (some r') =>
    o = o' ∧ ∀ stage, r'.lookup stage = r.lookup stage
  | a, b => a = b

/-- A one-line message text. -/
def OneLine (m : Bytes) : Prop :=
  IsCStr m ∧ m ≠ [] ∧ (0x0a : UInt8) ∉ m ∧ m.getLast? ≠ some 0x0d

/-- optional second argument -/
def ParamOk : Option Bytes → Prop
  | none => True
  | some p => IsCStr p ∧ p ≠ []

/-- Arguments the reply protocol can transport. -/
def ReplyOk : Reply → Prop
  | .negotiate _ none => True
  | .negotiate _ (some r) => RequestsOk r
  | .replyCode code ext msg => 400 ≤ code ∧ code < 600 ∧ IsCStr ext ∧ (0x20 : UInt8) ∉ ext ∧
      ∃ m, msg = some m ∧ OneLine m
  | .addHeader n v => IsCStr n ∧ n ≠ [] ∧ IsCStr v
  | .insertHeader i n v => i < 4294967296 ∧ IsCStr n ∧ n ≠ [] ∧ ParamOk v
  | .changeHeader n i v => i < 4294967296 ∧ IsCStr n ∧ n ≠ [] ∧ IsCStr v ∧ v ≠ []
  | .deleteHeader n i => i < 4294967296 ∧ IsCStr n ∧ n ≠ []
  | .changeFrom s p | .addRecipient s p => IsCStr s ∧ s ≠ [] ∧ ParamOk p
  | .deleteRecipient s | .quarantine s => IsCStr s ∧ s ≠ []
  | .replaceBody chunk => chunk ≠ [] ∧ chunk.length ≤ 65535
  | _ => True

/-- Reply packets other than the malformed kinds for which the reply decoder looks at
bytes outside the packet:
* the empty packet,
* a custom reply with a blank after its terminating NUL,
* an insert/change-header that does not hold an index and two terminated strings (or the
  name is empty), unless it is shorter than three bytes,
* an add-recipient without a NUL. -/
def SelfContainedReply (p : Bytes) : Prop :=
  p ≠ [] ∧
  (∀ a b, p = 0x79 :: (a ++ 0 :: b) → IsCStr a → (0x20 : UInt8) ∉ b) ∧
  ((p.head? = some 0x69 ∨ p.head? = some 0x6d) →
    p.length ≤ 2 ∨
    (∃ idx rest, p.tail = idx ++ 0 :: rest ∧ idx.length = 4) ∨
    (∃ idx name value rest, p.tail = idx ++ (name ++ 0 :: (value ++ 0 :: rest)) ∧
      idx.length = 4 ∧ IsCStr name ∧ IsCStr value)) ∧
  (p.head? = some 0x2b → (0 : UInt8) ∈ p)

end Verif.Spec
