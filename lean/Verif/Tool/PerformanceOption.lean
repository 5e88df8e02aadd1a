import Verif.Tool.Testing
/-!
Periods in the options of milter-performance-check (`tool/milter-performance-check`): `--period`, `--interval`, `--flood`,
`--report-periodically`.  Texts are ASCII; numbers are exact, where the program rounds them to a Float.
-/
namespace Verif.Tool.PerformanceOption

open Verif

/-- `\d` (milter-performance-check:1038). -/
def digit (b : UInt8) : Bool := 0x30 ≤ b && b ≤ 0x39

/-- `downcase`, and `/i` (milter-performance-check:1038,1043). -/
def lower (b : UInt8) : UInt8 := if 0x41 ≤ b ∧ b ≤ 0x5a then b + 0x20 else b

/-- `(s|sec|seconds?|m|min|minutes?|h|hours?)?` (milter-performance-check:1038). -/
def units : List Bytes := [[], [0x73], [0x73, 0x65, 0x63], [0x73, 0x65, 0x63, 0x6f, 0x6e, 0x64],
  [0x73, 0x65, 0x63, 0x6f, 0x6e, 0x64, 0x73], [0x6d], [0x6d, 0x69, 0x6e], [0x6d, 0x69, 0x6e, 0x75, 0x74, 0x65],
  [0x6d, 0x69, 0x6e, 0x75, 0x74, 0x65, 0x73], [0x68], [0x68, 0x6f, 0x75, 0x72], [0x68, 0x6f, 0x75, 0x72, 0x73]]

/-- Whether a text is a unit, or nothing (milter-performance-check:1038). -/
def isUnit (u : Bytes) : Bool := units.contains (u.map lower)

/-- The numbers in the clauses of `case` (milter-performance-check:1042-1049); only texts that are units come here. -/
def factor (u : Bytes) : Nat := match u.map lower with
  | 0x6d :: _ => 60
  | 0x68 :: _ => 60 * 60
  | _ => 1

/-- The number that digits are: `Float(numeric)` (milter-performance-check:1041). -/
def value (s : Bytes) : Nat := s.foldl (fun a b => 10 * a + (b.toNat - 0x30)) 0
/-- The number that hexadecimal digits are, of which only 0 to 9 come here (milter-performance-check:1041). -/
def hex (s : Bytes) : Nat := s.foldl (fun a b => 16 * a + (b.toNat - 0x30)) 0

/-- The result: seconds, as a number and how many of its digits are decimals; OptionParser::InvalidArgument, which is reported;
ArgumentError, which ends the program with a backtrace (milter-performance-check:1041,1045-1054). -/
inductive Result
  | seconds (n : Nat) (decimals : Nat)
  | invalid
  | argumentError
deriving DecidableEq, Repr

/-- `(?:.\d+)?` and what follows it (milter-performance-check:1038).  (Trying fewer digits does not help the regular
expression: no unit begins with a digit.) -/
def fraction : Bytes → Option (UInt8 × Bytes × Bytes)
  | [] => none
  | c :: r =>
    if c ≠ 0x0a ∧ r.takeWhile digit ≠ [] ∧ isUnit (r.dropWhile digit) then
      some (c, r.takeWhile digit, r.dropWhile digit)
    else none

/-- `Float(numeric)` for digits, another byte and digits (milter-performance-check:1041): a point, an underscore, an exponent,
or a hexadecimal number. -/
def float (a : Bytes) (c : UInt8) (b : Bytes) (f : Nat) : Result :=
  if c = 0x2e then .seconds (value (a ++ b) * f) b.length
  else if c = 0x5f then .seconds (value (a ++ b) * f) 0
  else if c = 0x65 ∨ c = 0x45 then .seconds (value a * 10 ^ value b * f) 0
  else if (c = 0x78 ∨ c = 0x58) ∧ a = [0x30] then .seconds (hex b * f) 0
  else .argumentError

/-- `parse_period` (milter-performance-check:1037-1056). -/
def parsePeriod (p : Bytes) : Result :=
  if p.takeWhile digit = [] then .invalid
  else match fraction (p.dropWhile digit) with
    | some (c, b, u) => float (p.takeWhile digit) c b (factor u)
    | none =>
      if isUnit (p.dropWhile digit) then .seconds (value (p.takeWhile digit) * factor (p.dropWhile digit)) 0
      else .invalid

end Verif.Tool.PerformanceOption
