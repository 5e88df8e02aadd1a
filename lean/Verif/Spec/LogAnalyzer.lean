import Verif.Tool.LogAnalyzer
/-
What C149 means by the statistics of a log.
-/
namespace Verif.Spec.LogAnalyzer
open Verif Verif.LogAnalyzer

/-- the number of the minute of a time -/
def minute (t : Nat) : Nat := t / 60

/-- what the lines of a minute say -/
def during (lines : List Line) (m : Nat) : List Stat := (lines.filter fun l => minute l.1 == m).map (·.2)

/-- A table has a row for each minute from the first to the last that has anything to count; there is none if nothing is. -/
def table (counts : Stat → Bool) (row : List Stat → List Nat) (lines : List Line) : Option (List (Nat × List Nat)) :=
  match (lines.filter fun l => counts l.2).map fun l => minute l.1 with
  | [] => none
  | first :: rest =>
    let last := ((first :: rest).getLast?).getD first
    some ((List.range' first (last + 1 - first)).map fun m => (60 * m, row (during lines m)))

/-- names of items are the same with dashes and underscores -/
def sameItem (a b : Bytes) : Bool := (a.map fun c => if c = 0x2d then 0x5f else c) == (b.map fun c => if c = 0x2d then 0x5f else c)

def endOfSession : Stat → Bool
  | .sessionEnd _ => true
  | _ => false

def endOfMilter : Stat → Bool
  | .milterEnd _ _ => true
  | _ => false

def open_ : Stat → Nat
  | .finished n => n
  | _ => 0

/-- sessions: those that ended, milters' sessions that ended, clients gone; and the most that were open at a time -/
def sessionsRow (said : List Stat) : List Nat :=
  [said.countP endOfSession, said.countP endOfMilter, said.countP (· == .disconnected), (said.map open_).foldl max 0]

def sessionsCount : Stat → Bool
  | .sessionEnd _ | .milterEnd _ _ | .disconnected | .finished _ => true
  | _ => false

/-- what became of sessions -/
def statuses : List Bytes :=
  [ascii "pass", ascii "accept", ascii "reject", ascii "discard", ascii "temporary-failure", ascii "quarantine", ascii "abort", ascii "error"]

def statusRow (said : List Stat) : List Nat :=
  statuses.map fun s => said.countP fun x => match x with | .sessionEnd t => sameItem t s | _ => false

/-- what became of the sessions of a milter -/
def milterRow (milter : Bytes) (said : List Stat) : List Nat :=
  (statuses ++ [ascii "stop"]).map fun s => said.countP fun x => match x with | .milterEnd n t => n == milter && sameItem t s | _ => false

def milterCounts (milter : Bytes) : Stat → Bool
  | .milterEnd n _ => n == milter
  | _ => false

/-- what headers report -/
def findings : List Bytes :=
  [ascii "spam", ascii "virus", ascii "uribl", ascii "greylisting-pass", ascii "spf-pass", ascii "spf-fail", ascii "sender-id-pass", ascii "sender-id-fail", ascii "dkim-pass", ascii "dkim-fail",
    ascii "dkim-adsp-pass", ascii "dkim-adsp-fail", ascii "tarpitting-pass"]

def found (keys : Bytes → Bytes → List Bytes) : Stat → List Bytes
  | .headerAdd _ name value => if name.isEmpty || value.isEmpty then [] else keys name value
  | _ => []

def reportRow (keys : Bytes → Bytes → List Bytes) (said : List Stat) : List Nat :=
  findings.map fun k => (said.flatMap (found keys)).countP fun f => sameItem f k

def rows (db : Option Db) : Option (List (Nat × List Nat)) := db.map (·.rows)

/-- the databases have what the lines say -/
structure Exact (keys : Bytes → Bytes → List Bytes) (disk : Disk) (lines : List Line) : Prop where
  sessions : rows disk.sessions = table sessionsCount sessionsRow lines
  status : rows disk.status = table endOfSession statusRow lines
  report : rows disk.report = table (fun s => !(found keys s).isEmpty) (reportRow keys) lines
  milters : ∀ name, rows (disk.milterStatus name) = table (milterCounts name) (milterRow name) lines

/-- The log is in the order of the minutes; each run, not earlier than the one before, is given all lines since the run before until its own minute, and maybe some from before or after (`whole` is all that is ever logged).
`before` is the minute of the run before. -/
def Fed (whole : List Line) : Nat → List (Nat × List Line) → Prop
  | _, [] => True
  | before, (now, seen) :: rest =>
    before ≤ minute now ∧
    (∃ old new, whole = old ++ seen ++ new ∧ (∀ l ∈ old, minute l.1 < before) ∧ ∀ l ∈ new, minute now ≤ minute l.1) ∧
    Fed whole (minute now) rest

/-- the lines of the minutes before one -/
def before (whole : List Line) (m : Nat) : List Line := whole.filter fun l => minute l.1 < m

/-- each number is at most the other one -/
def Below (a b : List Nat) : Prop := a.length = b.length ∧ ∀ p ∈ a.zip b, p.1 ≤ p.2

/-- A table has a row for each of some minutes one after the other, and none has more than one of the logs says of its minute. -/
structure Never (row : List Stat → List Nat) (rows : Option (List (Nat × List Nat))) (logs : List (List Line)) : Prop where
  minutes : ∀ rs, rows = some rs → ∃ first, rs.map (·.1) = (List.range' first rs.length).map (60 * ·)
  below : ∀ rs, rows = some rs → ∀ r ∈ rs, ∃ log ∈ logs, Below r.2 (row (during log (minute r.1)))

/-- what the headers of a milter report -/
def foundBy (keys : Bytes → Bytes → List Bytes) (milter : Bytes) : Stat → List Bytes
  | .headerAdd m name value => if m == milter then found keys (.headerAdd m name value) else []
  | _ => []

def milterReportRow (keys : Bytes → Bytes → List Bytes) (milter : Bytes) (said : List Stat) : List Nat :=
  findings.map fun k => (said.flatMap (foundBy keys milter)).countP fun f => sameItem f k

/-- no database has more than the logs say -/
structure NeverMore (keys : Bytes → Bytes → List Bytes) (disk : Disk) (logs : List (List Line)) : Prop where
  sessions : Never sessionsRow (rows disk.sessions) logs
  status : Never statusRow (rows disk.status) logs
  report : Never (reportRow keys) (rows disk.report) logs
  milters : ∀ name, Never (milterRow name) (rows (disk.milterStatus name)) logs
  reports : ∀ name, Never (milterReportRow keys name) (rows (disk.milterReport name)) logs

end Verif.Spec.LogAnalyzer
