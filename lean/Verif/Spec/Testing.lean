import Verif.Tool.Testing
/-
What texts milter-test-server prints so that they can be told apart.
-/
namespace Verif.Spec.Testing
open Verif

/-- white space, and NUL -/
def whites : Bytes := [0x00, 0x09, 0x0a, 0x0b, 0x0c, 0x0d, 0x20]

/-- a text on one line -/
def OneLine (b : Bytes) : Prop := 0x0a ∉ b ∧ b.getLast? ≠ some 0x0d

/-- an address: on one line, without white space at its end -/
def Address (b : Bytes) : Prop := 0x0a ∉ b ∧ ∀ c, b.getLast? = some c → c ∉ whites

/-- the name of a header: without a colon, and without white space at its beginning -/
def Name (b : Bytes) : Prop := 0x0a ∉ b ∧ 0x3a ∉ b ∧ ∀ c, b.head? = some c → c ∉ whites

/-- a value: on one line, without white space at its beginning -/
def Value (b : Bytes) : Prop := OneLine b ∧ ∀ c, b.head? = some c → c ∉ whites

end Verif.Spec.Testing
