import Verif.Tool.Testing
/-!
milter-report-statistics on Linux (`tool/milter-report-statistics`).

Not modelled: the options, the times, the widths of the columns, Solaris.  A regular expression is a
test of command lines.
-/
namespace Verif.Tool.Statistics

open Verif
open Verif.Testing (lines chomp space)

/-- A process as /proc shows it (milter-report-statistics:26, 155-170).  A file or directory that cannot be read is
`none`.  `fd` has the names in the directory except "." and "..". -/
structure Process where
  status : Option Bytes
  cmdline : Option Bytes
  fd : Option (List Bytes)

/-- `line.chomp.split(/\s*:\s*/, 2)` (milter-report-statistics:175).  An empty line has no key. -/
def splitField (line : Bytes) : Option Bytes × Option Bytes :=
  let l := chomp line
  if l = [] then (none, none)
  else if 0x3a ∈ l then
    (some (((l.takeWhile (· ≠ 0x3a)).reverse.dropWhile space).reverse),
      some (((l.dropWhile (· ≠ 0x3a)).drop 1).dropWhile space))
  else (some l, none)

/-- `parse_status` (milter-report-statistics:172-179): the last line with a key counts. -/
def parseStatus (text : Bytes) : List (Option Bytes × Option Bytes) :=
  ((lines text).map splitField).reverse

/-- `@status[key]`. -/
def lookup (status : List (Option Bytes × Option Bytes)) (key : Bytes) : Option Bytes :=
  (status.lookup (some key)).join

/-- The pieces between NULs. -/
def pieces : Bytes → List Bytes
  | [] => [[]]
  | b :: bs => if b = 0 then [] :: pieces bs else match pieces bs with
    | p :: ps => (b :: p) :: ps
    | [] => [[b]]

/-- `command_line`: `read_proc_path("cmdline").split(/\0/)` (milter-report-statistics:151-153, 156-162); `split`
leaves out empty strings at the end. -/
def commandLine (p : Process) : List Bytes :=
  (((pieces (p.cmdline.getD [])).reverse).dropWhile (· = [])).reverse

/-- `File.basename`. -/
def basename (s : Bytes) : Bytes :=
  let t := (s.reverse.dropWhile (· = 0x2f)).reverse
  if t = [] then s.take 1 else (t.reverse.takeWhile (· ≠ 0x2f)).reverse

/-- `name` (milter-report-statistics:123-125). -/
def name (p : Process) : Bytes := basename ((commandLine p).head?.getD [])

/-- `"lt-"` -/
def lt : Bytes := [0x6c, 0x74, 0x2d]

/-- `target_process?` (milter-report-statistics:411-416). -/
def isTarget (targets : List Bytes) (n : Bytes) : Bool :=
  if n = [] then false
  else
    let short := if lt.isPrefixOf n then n.drop lt.length else n
    targets.any fun t => n == t || short == t

/-- `join(" ")`. -/
def joined : List Bytes → Bytes
  | [] => []
  | [a] => a
  | a :: as => a ++ 0x20 :: joined as

/-- What `top` says of a process: `%CPU` and `TIME+`. -/
abbrev Top := Bytes → Option (Bytes × Bytes)

/-- `Top#retrieve` (milter-report-statistics:91-112): `top` is asked about the processes in `@pids` only. -/
def retrieve (top : Top) (pids : List Bytes) (pid : Option Bytes) : Option (Bytes × Bytes) :=
  match pid with
  | none => none
  | some p => if p ∈ pids then top p else none

/-- `@pids` of the object that `LinuxStatuses` has: `Top#<<` (milter-report-statistics:67-69) is called nowhere. -/
def topPids (_statuses : List Process) : List Bytes := []

/-- A line of the report (milter-report-statistics:330-338, 400-403). -/
structure Row where
  pid : Option Bytes
  vss : Option Bytes
  rss : Option Bytes
  cpuPercent : Option Bytes
  cpuTime : Option Bytes
  fds : Nat
  command : Bytes
deriving DecidableEq, Repr

/-- The values of `Status` (milter-report-statistics:127-149); `entries` has "." and ".." too. -/
def row (top : Top) (statuses : List Process) (p : Process) : Row :=
  let status := parseStatus (p.status.getD [])
  let cpu := retrieve top (topPids statuses) (lookup status [0x50, 0x69, 0x64])
  ⟨lookup status [0x50, 0x69, 0x64], lookup status [0x56, 0x6d, 0x53, 0x69, 0x7a, 0x65],
    lookup status [0x56, 0x6d, 0x52, 0x53, 0x53], cpu.map (·.1), cpu.map (·.2),
    (match p.fd with | none => 0 | some l => l.length + 2), joined (commandLine p)⟩

/-- The block of `report` (milter-report-statistics:319-325).  `own` is the id of the process itself; numbers are
compared by their digits. -/
def wanted (own : Bytes) (targets : List Bytes) (filters : List (Bytes → Bool)) (p : Process) : Bool :=
  if lookup (parseStatus (p.status.getD [])) [0x50, 0x69, 0x64] = some own then false
  else if !isTarget targets (name p) then false
  else filters.all fun f => f (joined (commandLine p))

/-- What a report prints: the lines, or that nothing was found. -/
inductive Printed
  | rows (rs : List Row)
  | notFound
  /-- NoMethodError -/
  | raised
deriving DecidableEq, Repr

/-- `report` (milter-report-statistics:316-340).  `find_pid` (33-39) hands on a String instead of a Pathname, and a
String with "status" at its end has no method `read`. -/
def report (top : Top) (own : Bytes) (targets : List Bytes) (filters : List (Bytes → Bool)) (pids : List Bytes)
    (processes : List Process) : Printed :=
  if pids = [] then
    let statuses := processes.filter (wanted own targets filters)
    if statuses = [] then .notFound else .rows (statuses.map (row top statuses))
  else .raised

end Verif.Tool.Statistics
