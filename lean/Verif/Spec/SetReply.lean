/-
Which custom SMTP replies are legal (RFC 3463 enhanced codes, as the documentation of
`milter_client_context_set_reply` states it).  Independent of the model.
-/
namespace Verif.Spec

/-- one to three decimal digits -/
def OneToThreeDigits (s : List UInt8) : Prop :=
  1 ≤ s.length ∧ s.length ≤ 3 ∧ ∀ c ∈ s, 0x30 ≤ c ∧ c ≤ 0x39

/-- `e` is `class.subject.detail` with the class being the first digit of `code` -/
def EnhancedCodeFor (code : Nat) (e : List UInt8) : Prop :=
  ∃ subject detail, OneToThreeDigits subject ∧ OneToThreeDigits detail ∧
    e = [UInt8.ofNat (48 + code / 100), 0x2e] ++ subject ++ [0x2e] ++ detail

/-- a reply that may be set -/
def LegalReply (code : Nat) (ext : Option (List UInt8)) : Prop :=
  400 ≤ code ∧ code ≤ 599 ∧ ∀ e, ext = some e → EnhancedCodeFor code e

end Verif.Spec
