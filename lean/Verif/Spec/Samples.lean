import Verif.Spec.Client
/-
What the sample milters are for: the message as the MTA has it, and what is to become of it.
-/
namespace Verif.Spec.Samples
open Verif Verif.Client

/-- a message: its headers and its body -/
structure Mail where
  headers : List (Bytes × Bytes) := []
  body : Bytes := []
deriving DecidableEq, Repr

/-- the message under way, as the MTA has shown it -/
def shown (cmds : List Cmd) : Mail := cmds.foldl (fun m c => match c with
  | .envelopeFrom _ => {}
  | .header name value => { m with headers := m.headers ++ [(name, value)] }
  | .body chunk => { m with body := m.body ++ chunk }
  | _ => m) {}

/-! ### What an MTA does with the replies -/

def lower (b : UInt8) : UInt8 := if 0x41 ≤ b ∧ b ≤ 0x5a then b + 0x20 else b

/-- names of headers are the same whatever the case -/
def sameName (a b : Bytes) : Bool := a.map lower == b.map lower

/-- the value of the i-th header of a name is replaced, the first is number 1; with an empty value the header is deleted -/
def setNth (name : Bytes) (value : Bytes) : Nat → List (Bytes × Bytes) → List (Bytes × Bytes)
  | _, [] => []
  | i, (n, v) :: rest =>
    if sameName n name then if i = 1 then (if value = [] then rest else (n, value) :: rest) else (n, v) :: setNth name value (i - 1) rest
    else (n, v) :: setNth name value i rest

/-- the MTA's copy of the message, and whether a new body has begun to arrive -/
structure Copy where
  mail : Mail
  replacing : Bool := false
deriving DecidableEq, Repr

/-- The first piece of a new body replaces the old one, the others are added to it. -/
def Copy.read (c : Copy) : Reply → Copy
  | .changeHeader name i value => { c with mail := { c.mail with headers := setNth name value i c.mail.headers } }
  | .replaceBody b => { mail := { c.mail with body := (if c.replacing then c.mail.body else []) ++ b }, replacing := true }
  | _ => c

/-- what an MTA has after some replies -/
def copyAfter (mail : Mail) (read : List Reply) : Mail := (read.foldl Copy.read { mail := mail }).mail

/-! ### What is to become of a message -/

/-- the first of the patterns that changes a text does -/
def replaced : List (Bytes → Bytes) → Bytes → Bytes
  | [], v => v
  | g :: gs, v => if g v = v then replaced gs v else g v

def Mail.replaced (patterns : List (Bytes → Bytes)) (m : Mail) : Mail :=
  { headers := m.headers.map fun h => (h.1, Samples.replaced patterns h.2), body := Samples.replaced patterns m.body }

/-- a name is spelled in one way only -/
def OneSpelling (m : Mail) : Prop := ∀ a ∈ m.headers, ∀ b ∈ m.headers, sameName a.1 b.1 = true → a.1 = b.1

/-- all the bodies the MTA has shown in a session -/
def bodies (cmds : List Cmd) : Bytes := cmds.flatMap fun c => match c with
  | .body chunk => chunk
  | _ => []

/-- white space only: space, tab, line feed, vertical tab, form feed, carriage return -/
def Blank (b : Bytes) : Prop := ∀ c ∈ b, c ∈ [0x20, 0x09, 0x0a, 0x0b, 0x0c, 0x0d]

instance (b : Bytes) : Decidable (Blank b) := inferInstanceAs (Decidable (∀ c ∈ b, _))

/-- letters, digits and the underscore -/
def inWords : Bytes := ascii "abcdefghijklmnopqrstuvwxyzABCDEFGHIJKLMNOPQRSTUVWXYZ0123456789_"

/-- the word occurs in the text: not as a part of a longer one -/
def HasWord (word text : Bytes) : Prop := ∃ a b, text = a ++ word ++ b ∧ (∀ c, a.getLast? = some c → c ∉ inWords) ∧ (∀ c, b.head? = some c → c ∉ inWords)

/-- a character of Unicode: no half of a pair -/
def Scalar (n : Nat) : Prop := n < 0xd800 ∨ (0xe000 ≤ n ∧ n < 0x110000)

/-- its bytes -/
def utf8 (n : Nat) : Bytes :=
  if n < 0x80 then [n.toUInt8]
  else if n < 0x800 then [(0xc0 + n / 64).toUInt8, (0x80 + n % 64).toUInt8]
  else if n < 0x10000 then [(0xe0 + n / 4096).toUInt8, (0x80 + n / 64 % 64).toUInt8, (0x80 + n % 64).toUInt8]
  else [(0xf0 + n / 262144).toUInt8, (0x80 + n / 4096 % 64).toUInt8, (0x80 + n / 64 % 64).toUInt8, (0x80 + n % 64).toUInt8]

/-- a text in UTF-8 -/
def Text (b : Bytes) : Prop := ∃ characters : List Nat, (∀ n ∈ characters, Scalar n) ∧ b = characters.flatMap utf8

end Verif.Spec.Samples
