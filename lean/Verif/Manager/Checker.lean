/-
manager/milter-manager.c: the leaders of the sessions, and the periodical check of whether their SMTP clients are still there.

A leader is named by the number of sessions which began before it. Not modelled here: what a check does to a session (`milter_manager_leader_check_connection`,
manager/milter-manager-leader.c:159-243) apart from its answer and from whether the leader says at once that it has finished.
-/
namespace Verif.Checker

inductive Out where
  /-- `milter_manager_leader_check_connection` was called -/
  | checked (id : Nat)
  /-- the leader was let go -/
  | freed (id : Nat)
  /-- a list node was used which is no more there -/
  | dangling
  deriving DecidableEq, Repr

/-- `MilterManagerPrivate`, manager/milter-manager.c:43-58 -/
structure State where
  /-- `milter_manager_configuration_get_connection_check_interval` -/
  interval : Nat := 0
  /-- how many sessions have begun; not in the code: it names the leaders -/
  count : Nat := 0
  /-- the leaders to whose "finished" `cb_leader_finished` is connected -/
  heard : List Nat := []
  /-- `leaders` -/
  leaders : List Nat := []
  /-- `finished_leaders` -/
  finished : List Nat := []
  /-- `next_connection_checked_leader`: the leader in that node of `leaders` -/
  next : Option Nat := none
  /-- `periodical_connection_checker_id` is not 0 -/
  hasId : Bool := false
  /-- the event loop calls `connection_check` each so many seconds -/
  timer : Option Nat := none
  /-- `current_periodical_connection_check_interval` -/
  current : Nat := 0
  deriving DecidableEq, Repr

/-- `dispose_periodical_connection_checker`, manager/milter-manager.c:238-253 -/
def disposeChecker (s : State) : State := if s.hasId then { s with current := 0, timer := none, hasId := false } else { s with current := 0 }

/-- `start_periodical_connection_checker`, manager/milter-manager.c:396-425 -/
def startChecker (s : State) : State :=
  if 0 < s.interval then
    if s.hasId = false ∨ s.interval ≠ s.current then
      { disposeChecker s with current := s.interval, timer := some s.interval, hasId := true }
    else s
  else disposeChecker s

/-- `connection_established` with `setup_context_signals`, manager/milter-manager.c:765-826 -/
def established (s : State) : State :=
  startChecker { s with count := s.count + 1, heard := s.count :: s.heard, leaders := s.count :: s.leaders }

/-- the leader in the node after that of `id` -/
def after (id : Nat) : List Nat → Option Nat
  | [] => none
  | a :: l => if a = id then l.head? else after id l

/-- `cb_leader_finished` outside of a check, manager/milter-manager.c:732-763; nobody hears a leader which says so again -/
def leaderFinished (s : State) (id : Nat) : State :=
  if id ∉ s.heard then s else
  let s := { s with heard := s.heard.erase id }
  let s1 := if id ∈ s.leaders then { s with next := if s.next = some id then after id s.leaders else s.next, leaders := s.leaders.erase id } else s
  let s2 := if s1.leaders = [] then disposeChecker s1 else s1
  { s2 with finished := id :: s2.finished }

/-- the loop of `connection_check`, manager/milter-manager.c:380-390: `nodes` are those from `node` on, and `n` may still be checked. A leader whose client
has gone is taken out; if it says at once that it has finished, `cb_leader_finished` only puts it among the finished ones. -/
def checkLoop (connected atOnce : Nat → Bool) : Nat → List Nat → State → State × List Out
  | 0, nodes, s => ({ s with next := nodes.head? }, [])
  | _ + 1, [], s => ({ s with next := none }, [])
  | n + 1, id :: nodes, s =>
    let s := if connected id then s
      else if atOnce id ∧ id ∈ s.heard then
        { s with leaders := s.leaders.erase id, heard := s.heard.erase id, finished := id :: s.finished }
      else { s with leaders := s.leaders.erase id }
    let r := checkLoop connected atOnce n nodes s
    (r.1, .checked id :: r.2)

/-- `n_leaders_per_connection_check`, manager/milter-manager.c:370 -/
def perCheck : Nat := 30

/-- the nodes from that of `id` on -/
def nodesFrom (id : Nat) : List Nat → List Nat
  | [] => []
  | a :: l => if a = id then a :: l else nodesFrom id l

/-- `connection_check`, manager/milter-manager.c:363-394; the event loop drops the timer when the answer is no -/
def check (s : State) (connected atOnce : Nat → Bool) : State × List Out :=
  match s.next with
  | none =>
    let r := checkLoop connected atOnce perCheck s.leaders s
    (if r.1.leaders = [] then { r.1 with timer := none } else r.1, r.2)
  | some id =>
    if id ∈ s.leaders then
      let r := checkLoop connected atOnce perCheck (nodesFrom id s.leaders) s
      (if r.1.leaders = [] then { r.1 with timer := none } else r.1, r.2)
    else (s, [.dangling])

inductive Op where
  /-- a session begins -/
  | established
  /-- a leader says it has finished -/
  | finished (id : Nat)
  /-- the time has come for a check: whose client is still there, and who says at once it has finished -/
  | check (connected atOnce : Nat → Bool)
  /-- the signal "sessions-finished": `sessions_finished` and `dispose_finished_leaders`, manager/milter-manager.c:255-272, 1202-1211 -/
  | disposed
  /-- the configuration is changed -/
  | configure (interval : Nat)

/-- one event. A check happens only if the event loop has a timer for it. -/
def step (s : State) : Op → State × List Out
  | .established => (established s, [])
  | .finished id => (leaderFinished s id, [])
  | .check connected atOnce => if s.timer.isSome then check s connected atOnce else (s, [])
  | .disposed => ({ s with finished := [] }, s.finished.map .freed)
  | .configure interval => ({ s with interval := interval }, [])

def run (s : State) : List Op → State × List Out
  | [] => (s, [])
  | op :: ops =>
    let r := step s op
    let r' := run r.1 ops
    (r'.1, r.2 ++ r'.2)

end Verif.Checker
