/-!
The periodical report of milter-performance-check (`tool/milter-performance-check`, `--report-periodically`): the thread
that reports, and the threads that send mails and count them.  A step is what one thread does without giving another the
chance to see something in between.  Not modelled: what is counted apart from the mail.
-/
namespace Verif.Tool.PerformancePeriod

/-- Where the reporting thread is (milter-performance-check:265-274). -/
inductive Phase
  | new | measuring | measured
deriving DecidableEq, Repr

/-- The state: `@statistics` of the checker (`total`), and of the reporter: whether it is set, the mails counted in the
statistics of the current period, the lines written; and the mails of which a thread has read the reporter's statistics
but not updated them, with the number of their period (milter-performance-check:662-678). -/
structure State where
  total : List Nat
  phase : Phase
  period : Nat
  current : List Nat
  lines : List (List Nat)
  pending : List (Nat × Option Nat)
deriving DecidableEq, Repr

/-- `initialize`, then `report_header` (milter-performance-check:252-258,264). -/
def State.initial : State := ⟨[], .new, 0, [], [], []⟩

/-- The steps of the reporting thread (milter-performance-check:263-274) and of the others (662-678). -/
inductive Step
  | begin
  | sleepOver
  | report
  | read (mail : Nat)
  | count (thread : Nat)
deriving DecidableEq, Repr

/-- A step; a step that its thread cannot do changes nothing.
`begin`: `Statistics.new`, `@statistics = statistics` (266-268).  `sleepOver`: `@statistics = nil` (270).
`report`: `report(statistics)` (272).  `read`: `@statistics.update`, `@periodical_statistics_reporter.statistics` (671-673).
`count`: one of the threads that have read updates what it has read, if that is something (674-678); what it counts
in the statistics of a period that has been reported is never looked at. -/
def step (s : State) : Step → State
  | .begin => match s.phase with
    | .new => { s with phase := .measuring, current := [] }
    | _ => s
  | .sleepOver => match s.phase with
    | .measuring => { s with phase := .measured }
    | _ => s
  | .report => match s.phase with
    | .measured => { s with phase := .new, period := s.period + 1, lines := s.lines ++ [s.current], current := [] }
    | _ => s
  | .read mail =>
    { s with total := s.total ++ [mail],
             pending := s.pending ++ [(mail, if s.phase = .measuring then some s.period else none)] }
  | .count thread => match s.pending[thread]? with
    | none => s
    | some (mail, p) =>
      if p = some s.period then { s with pending := s.pending.eraseIdx thread, current := s.current ++ [mail] }
      else { s with pending := s.pending.eraseIdx thread }

/-- Steps in the order the threads do them (milter-performance-check:260-278). -/
def run (s : State) (steps : List Step) : State := steps.foldl step s

end Verif.Tool.PerformancePeriod
