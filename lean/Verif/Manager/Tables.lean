import Verif.Manager.Conditions
/-
Tables in the format of Postfix: binding/ruby/lib/milter/manager/postfix-regexp-table.rb and postfix-cidr-table.rb.

A regular expression is the function that says what it matches: the groups of the match, the first of which is the whole of it; a group that took no part is `none`.  How a line of
text is taken apart (`each_line` of postfix-condition-table-parser.rb and the regular expressions of `parse`) is not modelled: a line is given as what it means.
A table is a mutable array which may be referred to from several places: a number names it.
-/
namespace Verif.Tables
open Verif Verif.Conditions

abbrev Groups := List (Option Bytes)
abbrev Pattern := Bytes → Option Groups

/-- a line of a table of regular expressions, postfix-regexp-table.rb:33-54 -/
inductive Line where
  /-- `if /pattern/`, `if !/pattern/` -/
  | «if» (negative : Bool) (pattern : Pattern)
  /-- `/pattern/ action`, `!/pattern/ action` -/
  | rule (negative : Bool) (pattern : Pattern) (action : Bytes)
  | endif
  /-- anything else -/
  | invalid

/-- an element of a table, 40 and 49 -/
inductive Entry where
  | table (negative : Bool) (pattern : Pattern) (id : Nat)
  | action (negative : Bool) (pattern : Pattern) (action : Bytes)

/-- the tables that exist, and the local variables of `parse` (30-32); table 0 is `@table` -/
structure State where
  table : Nat → List Entry := fun _ => []
  next : Nat := 1
  current : Option Nat := some 0
  tables : List Nat := []

/-- `table << entry` -/
def State.push (s : State) (id : Nat) (e : Entry) : State := { s with table := fun i => if i = id then s.table i ++ [e] else s.table i }

/-- a line, 34-53; `none` is an exception.  `current_table << ...` with nil raises NoMethodError; `tables.pop` of an empty array is nil. -/
def line (s : State) : Line → Option State
  | .if neg p =>
    match s.current with
    | none => none
    | some c => some { (s.push c (.table neg p s.next)) with next := s.next + 1, current := some s.next, tables := s.next :: s.tables }
  | .rule neg p a =>
    match s.current with
    | none => none
    | some c => some (s.push c (.action neg p a))
  | .endif => some { s with current := s.tables.head?, tables := s.tables.tail }
  | .invalid => none

/-- all lines, until an exception: the tables then, and whether there was none -/
def lines : State → List Line → State × Bool
  | s, [] => (s, true)
  | s, l :: ls =>
    match line s l with
    | none => (s, false)
    | some s => lines s ls

/-- `parse`, 29-59: at last, there must be no table left (the exception raised in this case is a NoMethodError, for want of a `.new`, 57) -/
def parse (ls : List Line) : State × Bool :=
  match lines {} ls with
  | (s, true) => (s, s.tables.isEmpty)
  | (s, false) => (s, false)

/-- a decimal digit -/
def digit (c : UInt8) : Bool := decide (0x30 ≤ c ∧ c ≤ 0x39)

/-- `to_i` of digits -/
def number (ds : Bytes) : Nat := ds.foldl (fun n d => 10 * n + (d.toNat - 0x30)) 0

/-- `match_data[n]`; nil becomes the empty string in `gsub` -/
def group (g : Groups) (n : Nat) : Bytes :=
  match g[n]? with
  | some (some t) => t
  | _ => []

/-- what `\$(?:(\$)|(\d+)|\((\d+)\)|\{(\d+)\})` matches after the `$`: what to put there, and how much of the text after the `$` is used -/
def placeholder (g : Groups) (rest : Bytes) : Option (Bytes × Nat) :=
  match rest with
  | 0x24 :: _ => some ([0x24], 1)
  | 0x28 :: more =>
    let ds := more.takeWhile digit
    if ds ≠ [] ∧ more[ds.length]? = some 0x29 then some (group g (number ds), ds.length + 2) else none
  | 0x7b :: more =>
    let ds := more.takeWhile digit
    if ds ≠ [] ∧ more[ds.length]? = some 0x7d then some (group g (number ds), ds.length + 2) else none
  | _ =>
    let ds := rest.takeWhile digit
    if ds ≠ [] then some (group g (number ds), ds.length) else none

/-- `gsub`, 101-109; the number is how much of the text belongs to a variable already replaced -/
def gsub (g : Groups) : Nat → Bytes → Bytes
  | _, [] => []
  | skip + 1, _ :: text => gsub g skip text
  | 0, c :: text =>
    if c = 0x24 then
      match placeholder g text with
      | some (t, used) => t ++ gsub g used text
      | none => c :: gsub g 0 text
    else c :: gsub g 0 text

/-- `expand_variables`, 99-110 -/
def expand (action : Bytes) : Option Groups → Bytes
  | none => action
  | some g => gsub g 0 action

/-- the match data of an entry (82-88): `none` if it is passed over, else what `expand_variables` is given -/
def takes (negative : Bool) (p : Pattern) (text : Bytes) : Option (Option Groups) :=
  if negative then (if (p text).isSome then none else some none)
  else match p text with
    | some g => some (some g)
    | none => none

/-- `find_action`, 80-97: over the entries of a table; `inner` is the call for an inner table -/
def findIn (inner : Nat → Option Bytes) (text : Bytes) : List Entry → Option Bytes
  | [] => none
  | .action neg p a :: es =>
    match takes neg p text with
    | some m => some (expand a m)
    | none => findIn inner text es
  | .table neg p id :: es =>
    match takes neg p text with
    | some m =>
      match inner id with
      | some a => some (expand a m)
      | none => findIn inner text es
    | none => findIn inner text es

/-- the recursion of `find_action`; a table is only ever put into an older one, so that it ends before there are as many calls as there are tables -/
def findAction (s : State) (text : Bytes) : Nat → Nat → Option Bytes
  | 0, _ => none
  | fuel + 1, id => findIn (findAction s text fuel) text (s.table id)

/-- `find`, 61-63 -/
def find (s : State) (text : Bytes) : Option Bytes := findAction s text s.next 0

/-- `create_regexp`, 66-71: is the regular expression to ignore case?  `flag` is what is after the second slash.  `IGNORECASE & IGNORECASE` is `IGNORECASE`. -/
def ignoreCase (flag : Option Bytes) : Bool :=
  let regexpFlag := true
  match flag with
  | none => regexpFlag
  | some f => if f.contains 0x69 then regexpFlag && true else regexpFlag

/-! ## postfix-cidr-table.rb -/

/-- `find`, 51-57, for an IP address -/
def findCidr (table : List (Network × Bytes)) (x : Address) : Option Bytes :=
  match table with
  | [] => none
  | (n, action) :: rest => if n.includes x then some action else findCidr rest x

end Verif.Tables
