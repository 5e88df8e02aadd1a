import Verif.Tool.Statistics
/-!
What a process is, and what a report is meant to say of it.
-/
namespace Verif.Spec.Statistics

open Verif Verif.Tool.Statistics
open Verif.Testing (space)

/-- A process: what the kernel says in its file `status` (after the colons), its arguments, and its
open files. -/
structure Real where
  fields : List (Bytes × Bytes)
  args : List Bytes
  fds : List Bytes

/-- Names of fields are without colons and white space, and different; values are on one line; arguments have
no NUL, and the last is not empty. -/
structure Real.Proper (p : Real) : Prop where
  keys : ∀ f ∈ p.fields, f.1 ≠ [] ∧ 0x3a ∉ f.1 ∧ ∀ b ∈ f.1, space b = false
  values : ∀ f ∈ p.fields, 0x0a ∉ f.2 ∧ f.2.getLast? ≠ some 0x0d
  once : (p.fields.map (·.1)).Nodup
  args : ∀ a ∈ p.args, (0 : UInt8) ∉ a
  last : p.args.getLast? ≠ some []

/-- How the kernel shows it. -/
def Real.shown (p : Real) : Process :=
  ⟨some (p.fields.flatMap fun f => f.1 ++ 0x3a :: f.2 ++ [0x0a]),
    some (p.args.flatMap fun a => a ++ [0]), some p.fds⟩

/-- The value of a field: what follows the colon and the white space. -/
def Real.value (p : Real) (key : Bytes) : Option Bytes := (p.fields.lookup key).map (·.dropWhile space)

/-- The arguments with spaces between them. -/
def words : List Bytes → Bytes
  | [] => []
  | [a] => a
  | a :: b :: as => a ++ [0x20] ++ words (b :: as)

/-- A process is reported if it is not the report itself, its program has one of the names, possibly with
libtool's "lt-" in front, and its command line matches all patterns. -/
def Reported (own : Bytes) (targets : List Bytes) (filters : List (Bytes → Bool)) (p : Real) : Prop :=
  p.value [0x50, 0x69, 0x64] ≠ some own ∧
  (∃ program ∈ p.args.head?, basename program ≠ [] ∧
    ∃ t ∈ targets, basename program = t ∨ basename program = [0x6c, 0x74, 0x2d] ++ t) ∧
  ∀ f ∈ filters, f (words p.args) = true

end Verif.Spec.Statistics
