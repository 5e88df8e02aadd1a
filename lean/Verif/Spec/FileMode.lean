/-
What a file mode string means.
-/
namespace Verif.Spec.FileMode

/-- the letter of the class a permission bit belongs to: bits 0-2 other, 3-5 group, 6-8 user -/
def classLetter (bit : Nat) : Char := if bit < 3 then 'o' else if bit < 6 then 'g' else 'u'

/-- the letter of the permission a bit grants: x, w, r from the low bit of each class -/
def permLetter (bit : Nat) : Char := if bit % 3 = 0 then 'x' else if bit % 3 = 1 then 'w' else 'r'

/-- a character as a byte -/
def byte (c : Char) : UInt8 := c.toNat.toUInt8

/-- `s` spells `mode` in octal with one to three digits -/
def Octal (s : List UInt8) (mode : Nat) : Prop :=
  1 ≤ s.length ∧ s.length ≤ 3 ∧ (∀ c ∈ s, byte '0' ≤ c ∧ c ≤ byte '7') ∧
    mode = s.foldl (fun n c => 8 * n + (c.toNat - 48)) 0

/-- `s` is `targets=perms` and the bits of `mode` are those of a named permission in a
named class (`a` names all classes) -/
def Symbolic (s : List UInt8) (mode : Nat) : Prop :=
  ∃ targets perms, s = targets ++ [byte '='] ++ perms ∧ targets ≠ [] ∧ perms ≠ [] ∧
    (∀ c ∈ targets, c ∈ [byte 'a', byte 'u', byte 'g', byte 'o']) ∧
    (∀ c ∈ perms, c ∈ [byte 'r', byte 'w', byte 'x']) ∧
    ∀ bit, mode.testBit bit = true ↔
      bit < 9 ∧ (byte 'a' ∈ targets ∨ byte (classLetter bit) ∈ targets) ∧
        byte (permLetter bit) ∈ perms

/-- the modes a string may denote; the empty string is mode 0 -/
def Denotes (s : List UInt8) (mode : Nat) : Prop :=
  (s = [] ∧ mode = 0) ∨ Octal s mode ∨ Symbolic s mode

end Verif.Spec.FileMode
