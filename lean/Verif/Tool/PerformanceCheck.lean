import Init
/-!
milter-performance-check: sending mails over several connections (`tool/milter-performance-check`,
`send_mails_in_parallel`).

Not modelled: the other ways of sending (`--interval`, `--period`, `--flood`), several worker processes, each of which
does the same.
-/
namespace Verif.Tool.PerformanceCheck

/-- The name of a mail file. -/
abbrev Mail := List UInt8

/-- Where a thread is (milter-performance-check:787-792). -/
inductive Phase
  /-- before `queue.pop`, not started or waiting -/
  | pop
  /-- in `send_mail` -/
  | work (m : Mail)
  /-- before `queue.empty?` -/
  | check
  /-- behind the loop -/
  | ended
deriving DecidableEq, Repr

/-- The queue, the threads, and the mails that have been sent; the last is not in the code. -/
structure State where
  queue : List Mail
  threads : List Phase
  sent : List Mail
deriving DecidableEq, Repr

/-- `send_mails_in_parallel` up to the threads (milter-performance-check:779-786). -/
def start (mails : List Mail) (connections : Nat) : State :=
  ⟨mails, List.replicate (min mails.length connections) .pop, []⟩

/-- A thread goes on (milter-performance-check:787-792).  `pop` waits while the queue is empty; nothing is pushed after the
start. -/
def step (s : State) (i : Nat) : State :=
  match s.threads[i]? with
  | some .pop => match s.queue with
    | [] => s
    | m :: q => { s with queue := q, threads := s.threads.set i (.work m) }
  | some (.work m) => { s with threads := s.threads.set i .check, sent := s.sent ++ [m] }
  | some .check => { s with threads := s.threads.set i (if s.queue = [] then .ended else .pop) }
  | some .ended => s
  | none => s

/-- The threads run as the scheduler chooses. -/
def run (s : State) (schedule : List Nat) : State := schedule.foldl step s

/-- All `thread.join` return, and `report` is called (milter-performance-check:734-736, 1106-1107). -/
def reported (s : State) : Bool := s.threads.all (· = .ended)

end Verif.Tool.PerformanceCheck
