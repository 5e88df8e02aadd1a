import Verif.Tool.PerformanceCheck
/-!
milter-performance-check: what becomes of each mail, and the statistics of it (`tool/milter-performance-check`).
Times are in microseconds, not `Float`.
-/
namespace Verif.Tool.PerformanceStatistics

open Verif.Tool.PerformanceCheck (Mail)

/-- How sending a mail ends. -/
inductive Ending
  | sent
  /-- the server answers a command with a code that means failure -/
  | code (n : Nat) (message : List UInt8)
  /-- `Timeout::Error` -/
  | timeout
  /-- `SystemCallError` -/
  | system (message : List UInt8)
  /-- the server closes the connection: `EOFError` -/
  | eof
deriving DecidableEq, Repr

/-- The exceptions of Ruby's Net::SMTP; not part of this repository. -/
inductive Exception
  | serverBusy
  | syntax
  | authentication
  | fatal
  | unknown
deriving DecidableEq, Repr

/-- `Net::SMTP::Response#exception_class`; not part of this repository. -/
def exceptionOf (n : Nat) : Exception :=
  if n / 100 = 4 then .serverBusy
  else if n / 10 = 50 then .syntax
  else if n / 10 = 53 then .authentication
  else if n / 100 = 5 then .fatal
  else .unknown

/-- What `send_mail` hands to `update_statistics` (milter-performance-check:967-969): the failure, the refusal, the error. -/
structure Noted where
  temporary : Option (List UInt8) := none
  reject : Option (List UInt8) := none
  error : Option (List UInt8) := none
deriving DecidableEq, Repr

/-- The `rescue` clauses of `send_mail` (milter-performance-check:955-963); `none`: the exception is not rescued, and
`Thread.abort_on_exception` (628) ends the program.  `EOFError` is no `SystemCallError`. -/
def rescued : Ending → Option Noted
  | .sent => some {}
  | .code n message => match exceptionOf n with
    | .serverBusy => some { temporary := some message }
    | .fatal => some { reject := some message }
    | .syntax | .authentication | .unknown => none
  | .timeout => some { error := some [] }
  | .system message => some { error := some message }
  | .eof => none

/-- `Statistics` (milter-performance-check:37-51). -/
structure Statistics where
  sources : List (Nat × Mail) := []
  rejectedSources : List Mail := []
  temporarySources : List Mail := []
  accumulated : Nat := 0
  max : Nat := 0
  min : Option Nat := none
  temporaries : List (List UInt8) := []
  rejects : List (List UInt8) := []
  errors : List (List UInt8) := []
  n : Nat := 0
deriving DecidableEq, Repr

/-- `<< x if x` -/
def push {α : Type} (l : List α) : Option α → List α
  | none => l
  | some a => l ++ [a]

/-- `Statistics#update` (milter-performance-check:53-72), under a mutex. -/
def update (s : Statistics) (source : Option Mail) (time : Nat) (x : Noted) : Statistics where
  sources := push s.sources (source.map fun m => (time, m))
  rejectedSources := push s.rejectedSources (if x.reject.isSome then source else none)
  temporarySources := push s.temporarySources (if x.temporary.isSome then source else none)
  accumulated := s.accumulated + time
  n := s.n + 1
  max := Nat.max time s.max
  min := some (match s.min with | none => time | some t => Nat.min time t)
  temporaries := push s.temporaries x.temporary
  rejects := push s.rejects x.reject
  errors := push s.errors x.error

/-- `min_response_time` (milter-performance-check:113-115). -/
def minimum (s : Statistics) : Nat := s.min.getD 0

/-- A mail that was sent: its file if it has one, the time, the ending. -/
structure Job where
  source : Option Mail
  time : Nat
  ending : Ending
deriving DecidableEq, Repr

/-- The mails in the order in which they end; `none`: the program ends without a report. -/
def process : Statistics → List Job → Option Statistics
  | s, [] => some s
  | s, j :: js => match rescued j.ending with
    | none => none
    | some x => process (update s j.source j.time x) js

end Verif.Tool.PerformanceStatistics
