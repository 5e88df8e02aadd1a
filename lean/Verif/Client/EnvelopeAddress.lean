import Verif.Manager.Shipped
/-
Addresses given to Ruby milters: binding/ruby/lib/milter/client/envelope-address.rb.

Strings are byte strings (`force_encoding("BINARY")`, 15), so that `downcase` changes ASCII letters only.  `address_spec=`, by which a program can say the address itself, is
not modelled.  Regular expressions are matched from the leftmost place where they match, each repetition as long as possible.
-/
namespace Verif.EnvelopeAddress
open Verif.Conditions (downcase isBlank)

/-- `[^<>]` -/
def notAngle (c : UInt8) : Bool := c != 0x3c && c != 0x3e

/-- `[^\s<>]` -/
def inWord (c : UInt8) : Bool := !isBlank c && notAngle c

/-- `address[/<([^<>]*)>/, 1]`, 16 -/
def angle : Bytes → Option Bytes
  | [] => none
  | c :: s =>
    if c = 0x3c ∧ (s.dropWhile notAngle).head? = some 0x3e then some (s.takeWhile notAngle) else angle s

/-- `address[/[^\s<>]+@[^\s<>]+/]`, 17 -/
def mailbox : Bytes → Option Bytes
  | [] => none
  | c :: s =>
    let w := (c :: s).takeWhile inWord
    if 0x40 ∈ (w.drop 1).dropLast then some w else mailbox s

/-- `address[/[^\s<>]+/]`, 18 -/
def word (s : Bytes) : Option Bytes :=
  let w := (s.dropWhile fun c => !inWord c).takeWhile inWord
  if w = [] then none else some w

/-- `extract_address`, 12-20 -/
def extract (address : Bytes) : Bytes := (((angle address).or (mailbox address)).or (word address)).getD address

/-- `address_spec`, 22-30 -/
def addressSpec (address : Option Bytes) : Option Bytes := address.map fun a => downcase (extract a)

/-- what follows the last `@` that something follows -/
def afterAt : Bytes → Option Bytes
  | [] => none
  | c :: s =>
    match afterAt s with
    | some d => some d
    | none => if c = 0x40 ∧ s ≠ [] then some s else none

/-- `slice(/\A(.+)@(.+)\z/, 2)`, 35: a line feed is nothing `.` stands for -/
def slice (s : Bytes) : Option Bytes := if 0x0a ∈ s then none else afterAt (s.drop 1)

/-- `domain`, 32-36 -/
def domain (address : Option Bytes) : Option Bytes := (addressSpec address).bind slice

end Verif.EnvelopeAddress
