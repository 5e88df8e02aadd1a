import Verif.Tool.Testing
/-!
milter-performance-analyzer (`tool/milter-performance-analyzer`): from the periodical report of
milter-performance-check to the numbers that are drawn.  Not modelled: the options and gnuplot.
-/
namespace Verif.Tool.PerformanceAnalyzer

open Verif
open Verif.Testing (lines chomp space)

/-- The pieces between white space, as `split` finds them (milter-performance-analyzer:55,60). -/
def cut : Bytes → List Bytes
  | [] => [[]]
  | b :: bs => if space b then [] :: cut bs else match cut bs with
    | p :: ps => (b :: p) :: ps
    | [] => [[b]]

/-- `split` without arguments (milter-performance-analyzer:55,60). -/
def words (s : Bytes) : List Bytes := (cut s).filter (· ≠ [])

/-- The pieces between colons: `split(/:/)`, without the empty ones at its end, which do not count here (milter-performance-analyzer:63). -/
def colons : Bytes → List Bytes
  | [] => [[]]
  | b :: bs => if b = 0x3a then [] :: colons bs else match colons bs with
    | p :: ps => (b :: p) :: ps
    | [] => [[b]]

/-- `to_i` of digits (milter-performance-analyzer:63). -/
def toI (s : Bytes) : Nat :=
  (s.takeWhile fun b => 0x30 ≤ b && b ≤ 0x39).foldl (fun a b => 10 * a + (b.toNat - 0x30)) 0

/-- `Time.local(1970, 1, 1, *item.split(/:/).collect(&:to_i))` (milter-performance-analyzer:63), in seconds since midnight.
(A time that does not exist raises an error there.) -/
def clock (item : Bytes) : Nat := match (colons item).map toI with
  | h :: m :: s :: _ => h * 3600 + m * 60 + s
  | [h, m] => h * 3600 + m * 60
  | [h] => h * 3600
  | [] => 0

/-- A value of a row (milter-performance-analyzer:65,67). -/
inductive Value
  | text (b : Bytes)
  | seconds (n : Int)
deriving DecidableEq, Repr

/-- `"Time"` (milter-performance-analyzer:62,77) -/
def timeName : Bytes := [0x54, 0x69, 0x6d, 0x65]

/-- The items of a line (milter-performance-analyzer:60-69): the row, and `base_time`. -/
def items : List Bytes → Option Nat → List Bytes → List (Option Bytes × Value) × Option Nat
  | _, base, [] => ([], base)
  | [], base, x :: xs =>
    let r := items [] base xs
    ((none, .text x) :: r.1, r.2)
  | h :: hs, base, x :: xs =>
    if h = timeName then
      let b := base.getD (clock x)
      let r := items hs (some b) xs
      ((some h, .seconds ((clock x : Int) - b)) :: r.1, r.2)
    else
      let r := items hs base xs
      ((some h, .text x) :: r.1, r.2)

/-- The lines after the first (milter-performance-analyzer:57-70): an empty line ends them. -/
def rows (headers : List Bytes) : Option Nat → List Bytes → List (List (Option Bytes × Value))
  | _, [] => []
  | base, l :: ls =>
    if chomp l = [] then []
    else
      let r := items headers base (words (chomp l))
      r.1 :: rows headers r.2 ls

/-- `"Sent"` (milter-performance-analyzer:78) -/
def sentName : Bytes := [0x53, 0x65, 0x6e, 0x74]
/-- `"Max(s)"` (milter-performance-analyzer:79) -/
def maxName : Bytes := [0x4d, 0x61, 0x78, 0x28, 0x73, 0x29]
/-- `"Min(s)"` (milter-performance-analyzer:80) -/
def minName : Bytes := [0x4d, 0x69, 0x6e, 0x28, 0x73, 0x29]
/-- `"Avg(s)"` (milter-performance-analyzer:81) -/
def avgName : Bytes := [0x41, 0x76, 0x67, 0x28, 0x73, 0x29]

/-- `data[name]`: the last counts (milter-performance-analyzer:67,77-81). -/
def column (row : List (Option Bytes × Value)) (name : Bytes) : Option Value := row.reverse.lookup (some name)

/-- `run` and the data that `report` writes (milter-performance-analyzer:49-82). -/
def analyze (text : Bytes) : List (List (Option Value)) := match lines text with
  | [] => []
  | h :: ls => (rows (words h) none ls).map fun row =>
    [timeName, sentName, maxName, minName, avgName].map (column row)

end Verif.Tool.PerformanceAnalyzer
