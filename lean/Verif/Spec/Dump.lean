import Verif.Manager.Dump
/-
C127: what the output of `milter-manager --show-config` means as a configuration file.

The reader knows the part of Ruby the output is written in: a statement takes a line; a line that is
empty or begins with `#` says nothing; values are `nil`, `true`, `false`, numbers (in octal after a
leading `0`), numbers with `.0`, and texts in double quotes with the escapes of Ruby.
-/
namespace Verif.Spec.Dump
open Verif Verif.Dump
open Verif.Egg (Egg Condition)
open Verif.Connection (Net parseSpec)

/-- letters, digits, `_` and `.`: what names and numbers consist of -/
def wordByte (c : UInt8) : Bool := (0x61 ≤ c && c ≤ 0x7a) || isDigit c || c == 0x5f || c == 0x2e

/-- the longest word at the beginning, and the rest -/
def word (s : Bytes) : Bytes × Bytes := (s.takeWhile wordByte, s.dropWhile wordByte)

/-- the value of a hexadecimal digit as `\xHH` has it -/
def hexDigit (c : UInt8) : Option Nat :=
  if 0x30 ≤ c ∧ c ≤ 0x39 then some (c.toNat - 48)
  else if 0x41 ≤ c ∧ c ≤ 0x46 then some (c.toNat - 55)
  else none

/-- what a letter after `\` stands for -/
def unescape (c : UInt8) : UInt8 :=
  if c = 0x6e then 0x0a
  else if c = 0x72 then 0x0d
  else if c = 0x74 then 0x09
  else if c = 0x66 then 0x0c
  else if c = 0x76 then 0x0b
  else if c = 0x62 then 0x08
  else if c = 0x61 then 0x07
  else if c = 0x65 then 0x1b
  else c

/-- the rest of a text in double quotes: the text, and what follows the closing quote.  A text with a
value inserted (`#{`, `#$`, `#@`) is not understood. -/
def text : Bytes → Option (Bytes × Bytes)
  | [] => none
  | c :: s =>
    if c = 0x22 then some ([], s)
    else if c = 0x5c then
      match s with
      | [] => none
      | d :: s =>
        if d = 0x78 then
          match s with
          | a :: b :: s =>
            match hexDigit a, hexDigit b with
            | some a, some b => (text s).map fun r => (UInt8.ofNat (16 * a + b) :: r.1, r.2)
            | _, _ => none
          | _ => none
        else (text s).map fun r => (unescape d :: r.1, r.2)
    else if c = 0x23 ∧ (s.head? = some 0x7b ∨ s.head? = some 0x24 ∨ s.head? = some 0x40) then none
    else (text s).map fun r => (c :: r.1, r.2)

/-- the number some digits stand for -/
def number (base : Nat) (ds : Bytes) : Nat := ds.foldl (fun n c => base * n + (c.toNat - 48)) 0

/-- a word that is a value -/
def wordValue (w : Bytes) : Option Lit :=
  if w = ascii "nil" then some .nil
  else if w = ascii "true" then some (.bool true)
  else if w = ascii "false" then some (.bool false)
  else if w ≠ [] ∧ w.all isDigit then
    if w.head? = some 0x30 then (if w.all (· ≤ 0x37) then some (.num (number 8 w)) else none)
    else some (.num (number 10 w))
  else
    let ds := w.takeWhile isDigit
    if ds ≠ [] ∧ w.drop ds.length = ascii ".0" then some (.seconds (number 10 ds)) else none

/-- a value at the beginning, and the rest -/
def value (s : Bytes) : Option (Lit × Bytes) :=
  if s.head? = some 0x22 then (text s.tail).map fun r => (.str r.1, r.2)
  else (wordValue (word s).1).map fun v => (v, (word s).2)

/-- what `pre` is followed by -/
def after (pre s : Bytes) : Option Bytes := if pre <+: s then some (s.drop pre.length) else none

/-- a line: a statement, nothing (`some none`), or not understood -/
def line (s : Bytes) : Option (Option Stmt) :=
  let s := s.dropWhile (· == 0x20)
  if s = [] ∨ s.head? = some 0x23 then some none
  else if s = ascii "]" then some (some .closeList)
  else if s = ascii "end" then some (some .fin)
  else
    match after (ascii " = ") (word s).2 with
    | some r =>
      if r = ascii "[]" then some (some (.emptyList (word s).1))
      else if r = ascii "[" then some (some (.openList (word s).1))
      else
        match value r with
        | some (v, []) => some (some (.set (word s).1 v))
        | _ => none
    | none =>
      match after [0x28] (word s).2 with
      | some r =>
        match value r with
        | some (v, r) =>
          match after (ascii ") do |") r with
          | some r => if (word r).2 = [0x7c] then some (some (.begin_ (word s).1 v (word r).1)) else none
          | none => none
        | none => none
      | none =>
        match value s with
        | some (v, [0x2c]) => some (some (.entry v))
        | _ => none

/-- the statements of a file -/
def statements : List Bytes → Option (List Stmt)
  | [] => some []
  | l :: ls =>
    match line l, statements ls with
    | some none, some r => some r
    | some (some s), some r => some (s :: r)
    | _, _ => none

/-- a file is loaded: `raised` also if it is not understood or ends within a block -/
def load (net : Net) (p : Process) (file : Bytes) : XmlLoader.Out Process :=
  match statements (splitOn 0x0a file) with
  | none => .raised
  | some ss =>
    match run net p .top ss with
    | .on (p, .top) => .on p
    | .on _ => .raised
    | .raised => .raised
    | .ub => .ub

/-- a condition without what a file does not show of it -/
def shown (c : Condition) : Condition := { c with data := none }

/-- a milter whose conditions are such -/
def shownEgg (e : Egg) : Egg := { e with conditions := e.conditions.map shown }

/-- `q` is configured like `p`: all settings are the same, the conditions have the same names and
descriptions, the milters have the same settings and conditions.  Nothing is said about the load
paths, handlers and places. -/
structure Like (q p : Process) : Prop where
  level : q.level = p.level
  logPath : q.logPath = p.logPath
  db : q.db = { p.db with extra := q.db.extra }
  conf : q.conf = { p.conf with
    conditions := p.conf.conditions.map shown
    eggs := p.conf.eggs.map shownEgg
    loadPaths := q.conf.loadPaths
    handlers := q.conf.handlers
    locations := q.conf.locations }

/-- the statuses a configuration file may give as a fallback -/
def givable (s : Status) : Prop := s = .accept ∨ s = .reject ∨ s = .temporaryFailure ∨ s = .discard

/-- a milter that can be defined as it is shown -/
structure FineEgg (net : Net) (conds : List Condition) (e : Egg) : Prop where
  named : e.name.isSome
  spec : ∃ s a, e.connectionSpec = some s ∧ parseSpec net s = .ok a
  options : e.commandOptions.isSome
  fallback : givable e.fallback
  conditions : ∀ c ∈ e.conditions, c ∈ conds

/-- a configuration that can be loaded as it is shown -/
structure Fine (net : Net) (p : Process) : Prop where
  spec : ∀ s, p.conf.managerSpec = some s → ∃ a, parseSpec net s = .ok a
  controllerSpec : ∀ s, p.conf.controllerSpec = some s → ∃ a, parseSpec net s = .ok a
  fallback : givable p.conf.fallback
  level : p.level &&& 0x3ff = p.level
  conditions : ∀ c ∈ p.conf.conditions, c.name.isSome
  conditionNames : (p.conf.conditions.map (·.name)).Nodup
  eggs : ∀ e ∈ p.conf.eggs, FineEgg net p.conf.conditions e
  eggNames : (p.conf.eggs.map (·.name)).Nodup
  places : ∀ l ∈ p.conf.locations, (0x0a : UInt8) ∉ l.2.1

end Verif.Spec.Dump
