/-
The syntax of connection specs, independent of the parser.
-/
namespace Verif.Spec.Connection

/-- a text as bytes -/
def text (s : String) : List UInt8 := s.toList.map (fun c => c.toNat.toUInt8)

/-- a run of decimal digits -/
def Digits (s : List UInt8) : Prop := ∀ c ∈ s, 0x30 ≤ c ∧ c ≤ 0x39

/-- its value -/
def value (s : List UInt8) : Nat := s.foldl (fun n c => 10 * n + (c.toNat - 48)) 0

/-- the host part after the port: nothing (any address), `@[numeric address]`, or `@name` -/
inductive Host (any : List UInt8) (pton resolve : List UInt8 → Option (List UInt8)) :
    List UInt8 → List UInt8 → Prop
  | none : Host any pton resolve [] any
  | numeric (t a : List UInt8) : pton t = some a →
      Host any pton resolve (text "@[" ++ t ++ text "]") a
  | name (t a : List UInt8) : t.head? ≠ some 0x5b → resolve t = some a →
      Host any pton resolve (text "@" ++ t) a

end Verif.Spec.Connection
