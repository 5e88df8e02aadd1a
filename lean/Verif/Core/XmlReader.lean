import Verif.Core.Bytes
/-
A reader for XML documents without attributes, comments, processing instructions and
declarations, after XML 1.0 (fifth edition).  It stands for every XML reader a client of the
controller may use, and for REXML's stream parser, which is not part of the repository.
Whether the bytes are UTF-8 is not looked at.
-/
namespace Verif.Xml

/-- what a stream parser reports; character data byte by byte -/
inductive Event where
  | start (name : Bytes)
  | stop (name : Bytes)
  | char (c : UInt8)
deriving DecidableEq, Repr

/-- production [2]: the characters a document may hold -/
def isChar (n : Nat) : Bool :=
  n == 9 || n == 10 || n == 13 || (0x20 ≤ n && n ≤ 0xd7ff) || (0xe000 ≤ n && n ≤ 0xfffd) ||
    (0x10000 ≤ n && n ≤ 0x10ffff)

/-- UTF-8 -/
def utf8 (n : Nat) : Bytes :=
  if n < 0x80 then [UInt8.ofNat n]
  else if n < 0x800 then [UInt8.ofNat (0xc0 + n / 64), UInt8.ofNat (0x80 + n % 64)]
  else if n < 0x10000 then
    [UInt8.ofNat (0xe0 + n / 4096), UInt8.ofNat (0x80 + n / 64 % 64), UInt8.ofNat (0x80 + n % 64)]
  else [UInt8.ofNat (0xf0 + n / 262144), UInt8.ofNat (0x80 + n / 4096 % 64),
    UInt8.ofNat (0x80 + n / 64 % 64), UInt8.ofNat (0x80 + n % 64)]

/-- the value of a digit -/
def digit (base : Nat) (c : UInt8) : Option Nat :=
  let v := if 0x30 ≤ c && c ≤ 0x39 then some (c.toNat - 0x30)
    else if 0x61 ≤ c && c ≤ 0x66 then some (c.toNat - 0x57)
    else if 0x41 ≤ c && c ≤ 0x46 then some (c.toNat - 0x37)
    else none
  v.filter (· < base)

/-- the value of digits -/
def number (base : Nat) (acc : Nat) : Bytes → Option Nat
  | [] => some acc
  | c :: r => (digit base c).bind fun d => number base (acc * base + d) r

/-- productions [66] and [68]: what stands between `&` and `;` -/
def reference (s : Bytes) : Option Bytes :=
  match s with
  | 0x23 :: 0x78 :: c :: r => (number 16 0 (c :: r)).bind fun n => if isChar n then some (utf8 n) else none
  | 0x23 :: c :: r => (number 10 0 (c :: r)).bind fun n => if isChar n then some (utf8 n) else none
  | _ =>
    if s = ascii "amp" then some [0x26]
    else if s = ascii "lt" then some [0x3c]
    else if s = ascii "gt" then some [0x3e]
    else if s = ascii "apos" then some [0x27]
    else if s = ascii "quot" then some [0x22]
    else none

/-- a letter, `_` or a byte of a letter beyond ASCII -/
def nameStart (c : UInt8) : Bool :=
  (0x61 ≤ c && c ≤ 0x7a) || (0x41 ≤ c && c ≤ 0x5a) || c == 0x5f || 0x80 ≤ c

/-- a name, production [5], without colons -/
def isName : Bytes → Bool
  | [] => false
  | c :: r => nameStart c && r.all fun d => nameStart d || (0x30 ≤ d && d ≤ 0x39) || d == 0x2d || d == 0x2e

/-- a tag, between `<` and `>` -/
def tag (s : Bytes) : Option Event :=
  match s with
  | 0x2f :: n => if isName n then some (.stop n) else none
  | n => if isName n then some (.start n) else none

/-- where the reader is -/
inductive Mode where
  | text
  | ref (s : Bytes)
  | tag (s : Bytes)

/-- the events of a document -/
def tokens : Mode → Bytes → Option (List Event)
  | .text, [] => some []
  | .ref _, [] => none
  | .tag _, [] => none
  | .text, c :: r =>
    if c = 0x3c then tokens (.tag []) r
    else if c = 0x26 then tokens (.ref []) r
    else if c < 0x20 && c != 9 && c != 10 && c != 13 then none
    else (tokens .text r).map (.char c :: ·)
  | .ref s, c :: r =>
    if c = 0x3b then (reference s).bind fun t => (tokens .text r).map (t.map .char ++ ·)
    else tokens (.ref (s ++ [c])) r
  | .tag s, c :: r =>
    if c = 0x3e then (tag s).bind fun e => (tokens .text r).map (e :: ·)
    else tokens (.tag (s ++ [c])) r

/-- section 2.11: ends of lines -/
def lineEnds : Bytes → Bytes
  | [] => []
  | [c] => if c = 13 then [10] else [c]
  | c :: d :: r => if c = 13 then (if d = 10 then 10 :: lineEnds r else 10 :: lineEnds (d :: r)) else c :: lineEnds (d :: r)

/-- what a reader reports for a document -/
def events (document : Bytes) : Option (List Event) := tokens .text (lineEnds document)

end Verif.Xml
