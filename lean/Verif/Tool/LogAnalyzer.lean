import Verif.Core.Bytes
/-
milter-manager-log-analyzer: from the statistics lines of the log to the databases behind the graphs (tool/milter-manager-log-analyzer).

A line of the log is its time and what it says; the regular expressions of the tool are applied here to the formats the manager writes (milter-manager.c:682, milter-manager-children.c:905, 1871, 1911, 1952,
milter-manager-leader.c:219, milter-client-context.c:3265, milter-client.c:689).  A database is the list of the updates it got, with their times; rrdtool refuses an update that is not later than the one before.
`tool` below stands for tool/milter-manager-log-analyzer.

Left out: the year, which the log does not have, and time zones (`update`, tool:1163-1208), the patterns for the results in headers (`report_key`, tool:807-890: a function), older formats of the log, renaming and adding
items to databases of older versions (`migrate_if_needed`), graphs and HTML.
-/
namespace Verif.LogAnalyzer
open Verif

/-- what a statistics line of the manager says -/
inductive Stat where
  /-- `[session][end][state][status][elapsed](tag)` -/
  | sessionEnd (status : Bytes)
  /-- `[session][disconnected][elapsed](tag)` -/
  | disconnected
  /-- `[sessions][finished] processed(+finished) rest` -/
  | finished (rest : Nat)
  /-- `[milter][end][state][status][elapsed](tag): name` -/
  | milterEnd (name status : Bytes)
  /-- `[milter][header][add](tag): <name>=<value>: milter` -/
  | headerAdd (milter name value : Bytes)
  /-- `[reply][end-of-message][quarantine](tag)` -/
  | quarantine
  | other
deriving DecidableEq, Repr

abbrev Line := Nat × Stat

inductive Kind where | count | max
deriving DecidableEq, Repr

/-- what `find_data` yields -/
structure Datum where
  key : Bytes
  kind : Kind := .count
  count : Nat := 1
deriving DecidableEq, Repr

/-- `normalize_name`, tool:546-550 -/
def normalize (name : Bytes) : Bytes := name.map fun b => if b = 0x2d then 0x5f else b

/-- what the kinds of generators differ in: `@items` and `find_data` -/
structure Source where
  items : List Bytes
  find : Stat → List Datum

/-- `SessionGraphGenerator`, tool:553-606 -/
def sessions : Source where
  items := [ascii "smtp", ascii "child", ascii "disconnected", ascii "concurrent"]
  find
    | .milterEnd _ _ => [{ key := ascii "child" }]
    | .sessionEnd _ => [{ key := ascii "smtp" }]
    | .disconnected => [{ key := ascii "disconnected" }]
    | .finished rest => [{ key := ascii "concurrent", kind := .max, count := rest }]
    | _ => []

/-- the items of `MilterManagerStatusGraphGenerator`, tool:640-647 -/
def statusItems : List Bytes :=
  [ascii "pass", ascii "accept", ascii "reject", ascii "discard", ascii "temporary-failure", ascii "quarantine", ascii "abort", ascii "error"]

/-- `MilterManagerStatusGraphGenerator`, tool:629-719.  The pattern for `[reply]` wants a `]` at the end of the line, where the manager writes the tag. -/
def status : Source where
  items := statusItems
  find
    | .sessionEnd s => [{ key := s }]
    | _ => []

/-- the items of `MilterManagerReportGraphGenerator`, tool:746-758 -/
def reportItems : List Bytes :=
  [ascii "spam", ascii "virus", ascii "uribl", ascii "greylisting-pass", ascii "spf-pass", ascii "spf-fail", ascii "sender-id-pass", ascii "sender-id-fail", ascii "dkim-pass", ascii "dkim-fail",
    ascii "dkim-adsp-pass", ascii "dkim-adsp-fail", ascii "tarpitting-pass"]

/-- `MilterManagerReportGraphGenerator`, tool:735-888: `keys` is `report_key`; neither the name nor the value may be empty -/
def report (keys : Bytes → Bytes → List Bytes) : Source where
  items := reportItems
  find
    | .headerAdd _ name value => if name = [] ∨ value = [] then [] else (keys name value).map fun k => { key := k }
    | _ => []

/-- `MilterStatusGraphGenerator`, tool:946-985 -/
def milterStatus (milter : Bytes) : Source where
  items := statusItems ++ [ascii "stop"]
  find
    | .milterEnd name s => if name = milter then [{ key := s }] else []
    | _ => []

/-- `MilterReportGraphGenerator`, tool:987-1009 -/
def milterReport (keys : Bytes → Bytes → List Bytes) (milter : Bytes) : Source where
  items := reportItems
  find
    | .headerAdd m name value => if name = [] ∨ value = [] ∨ milter ≠ m then [] else (keys name value).map fun k => { key := k }
    | _ => []

/-- a database: the time it was created for, and its updates -/
structure Db where
  start : Nat
  rows : List (Nat × List Nat) := []
deriving DecidableEq, Repr

/-- `RRD.last`: of a database without updates the second before the first -/
def Db.last (d : Db) : Nat := match d.rows.getLast? with
  | some r => r.1
  | none => d.start - 1

/-- a generator; `data` is a hash -/
structure Gen where
  db : Option Db
  last : Option Nat := none
  current : Option Nat := none
  data : List (Bytes × Nat) := []

/-- `normalize_time`, tool:498-500; `@step` is 60 -/
def normalizeTime (t : Nat) : Nat := t - t % 60

/-- `prepare`, tool:257-268 -/
def prepare (db : Option Db) : Gen := match db with
  | some d => { db := db, last := some (normalizeTime d.last), current := some (normalizeTime d.last + 60) }
  | none => { db := none }

/-- `@data[key] || 0` -/
def value (k : Bytes) (data : List (Bytes × Nat)) : Nat := (data.lookup k).getD 0

/-- `update_data`, tool:531-544; the keys are those of `feed` -/
def updateData (data : List (Bytes × Nat)) (ds : List Datum) : List (Bytes × Nat) :=
  ds.foldl (fun data d =>
    let k := normalize d.key
    (k, match d.kind with | .count => value k data + d.count | .max => Nat.max (value k data) d.count) :: data) data

/-- the times `fill_no_data_span` goes through, tool:318-323 -/
def gap (start stop : Nat) : List Nat := (List.range ((stop - start) / 60)).map fun i => start + 60 * i

/-- `flush`, tool:296-316, with `create_rrd` -/
def flush (src : Source) (g : Gen) (next : Option Nat) : Gen :=
  match g.current with
  | none => g
  | some c =>
    if next = some c then g
    else
      let d := g.db.getD { start := c }
      let counts := src.items.map fun i => value (normalize i) g.data
      let d := if g.data = [] then d else { d with rows := d.rows ++ [(c, counts)] }
      let start := if g.data = [] then c else c + 60
      let d := match next with
        | some n => { d with rows := d.rows ++ (gap start n).map fun t => (t, src.items.map fun _ => 0) }
        | none => d
      { g with db := some d, data := [], current := some (next.getD c) }

/-- `feed`, tool:274-294; `now` is `@update_time` -/
def feed (src : Source) (now : Nat) (g : Gen) (l : Line) : Gen :=
  let t := normalizeTime l.1
  if g.last.any fun last => t < last then g
  else if normalizeTime now ≤ t then g
  else if src.find l.2 = [] then g
  else
    let c := g.current.getD t
    if t < c then { g with current := some c, data := [] }
    else
      let g := flush src { g with current := some c } (some t)
      { g with data := updateData g.data (src.find l.2) }

/-- the files in the output directory; the last two are by the names of milters, `names` are those that have one -/
structure Disk where
  sessions : Option Db := none
  status : Option Db := none
  report : Option Db := none
  names : List Bytes := []
  milterStatus : Bytes → Option Db := fun _ => none
  milterReport : Bytes → Option Db := fun _ => none

/-- `MiltersGraphGenerator#feed`, tool:908-931: the milters seen in this run -/
def feedMilters (keys : Bytes → Bytes → List Bytes) (now : Nat) (disk : Disk) (gens : List (Bytes × Gen × Gen)) (l : Line) : List (Bytes × Gen × Gen) :=
  let gens := match l.2 with
    | .milterEnd name _ =>
      if (gens.find? fun g : Bytes × Gen × Gen => g.1 == name).isSome then gens else gens ++ [(name, prepare (disk.milterStatus name), prepare (disk.milterReport name))]
    | _ => gens
  gens.map fun g : Bytes × Gen × Gen => (g.1, feed (milterStatus g.1) now g.2.1 l, feed (milterReport keys g.1) now g.2.2 l)

/-- the last update of all milters' files, tool:898-906: the earliest -/
def lastOfMilters (disk : Disk) : Option Nat :=
  ((disk.names.filterMap disk.milterStatus ++ disk.names.filterMap disk.milterReport).map Db.last).min?

/-- lines before that time are not looked at, tool:1166-1171, 1197 -/
def lastUpdate (disk : Disk) : Nat :=
  (([(prepare disk.sessions).last, (prepare disk.status).last, (prepare disk.report).last, lastOfMilters disk].map fun t => t.getD 0).max?).getD 0

/-- one of the three generators that are always there, in a run -/
def runOne (src : Source) (now : Nat) (db : Option Db) (lines : List Line) : Option Db :=
  (flush src (lines.foldl (feed src now) (prepare db)) none).db

/-- a run of the tool: `prepare` and `update`, tool:1143-1208 -/
def run (keys : Bytes → Bytes → List Bytes) (now : Nat) (disk : Disk) (log : List Line) : Disk :=
  let lines := log.filter fun l => ! decide (l.1 < lastUpdate disk)
  let gens := lines.foldl (feedMilters keys now disk) []
  { sessions := runOne sessions now disk.sessions lines
    status := runOne status now disk.status lines
    report := runOne (report keys) now disk.report lines
    names := disk.names ++ (gens.map (·.1)).filter fun n => n ∉ disk.names
    milterStatus := fun n => match gens.find? fun g : Bytes × Gen × Gen => g.1 == n with
      | some g => (flush (milterStatus n) g.2.1 none).db
      | none => disk.milterStatus n
    milterReport := fun n => match gens.find? fun g : Bytes × Gen × Gen => g.1 == n with
      | some g => (flush (milterReport keys n) g.2.2 none).db
      | none => disk.milterReport n }

/-- runs of the tool one after the other: the time of each, and the log it is given -/
def runs (keys : Bytes → Bytes → List Bytes) (disk : Disk) (rs : List (Nat × List Line)) : Disk :=
  rs.foldl (fun d r => run keys r.1 d r.2) disk

end Verif.LogAnalyzer
