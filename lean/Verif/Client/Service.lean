import Verif.Core.Bytes
/-
client/milter-client.c: accepting connections, counting sessions, disposing of finished ones, maintenance and shutdown.

A session is named by the number of connections accepted before it.

Not modelled: opening the listening socket, daemonising, the PID file, the processes of `n_workers` themselves (`Client/Workers`: each one runs this
machine, with a count of its own), and the multi thread mode (`multi_thread_mode`, client/milter-client.c:1556-1717; `multi_thread_process_client_channel_thread` takes
its two arguments in the wrong order).
-/
namespace Verif.Service

/-- the properties of a `MilterClient` read here; 0 is "no limit" / "never" -/
structure Config where
  /-- `max-connections` -/
  maxConnections : UInt32 := 0
  /-- `maintenance-interval` -/
  interval : UInt32 := 0
  /-- `max-pending-finished-sessions` -/
  maxPending : UInt32 := 0
  deriving DecidableEq, Repr

/-- the ways `milter_client_run_loop` (client/milter-client.c:2261-2319) and `run_worker` accept connections -/
inductive Mode where
  /-- `single_thread_single_loop_run`, client/milter-client.c:2238-2258: the default -/
  | singleLoop
  /-- `single_thread_start_accept`, client/milter-client.c:1519-1554: MILTER_USE_ACCEPT_LOOP=yes, a thread of its own accepts -/
  | acceptLoop
  /-- `run_worker`, client/milter-client.c:2458-2517: one of the processes of `n_workers` -/
  | worker
  deriving DecidableEq, Repr

/-- the result of `accept` -/
inductive Accept where
  | ok
  | again
  | error
  deriving DecidableEq, Repr

/-- what can be seen from outside -/
inductive Out where
  /-- a connection was accepted -/
  | accepted (id : Nat)
  /-- the signal "error" of the client: `accept` failed -/
  | acceptError
  /-- the signal "connection-established": the session begins -/
  | established (id : Nat)
  /-- the session could not be started -/
  | startError (id : Nat)
  /-- the session's context was let go -/
  | freed (id : Nat)
  /-- the signal "sessions-finished" -/
  | sessionsFinished (n : UInt32)
  /-- the signal "maintain" -/
  | maintain
  /-- the event loop was told to quit: `milter_client_run` returns -/
  | quit
  deriving DecidableEq, Repr

/-- `MilterClientPrivate`, client/milter-client.c:77-136 -/
structure State where
  config : Config
  mode : Mode
  /-- the number of connections accepted so far; not in the code: it names the sessions -/
  next : Nat := 0
  /-- `n_processing_sessions` -/
  nProcessing : UInt32 := 0
  /-- `n_processed_sessions` -/
  nProcessed : UInt32 := 0
  /-- the idle callbacks `single_thread_cb_idle_client_channel_setup` which wait to run -/
  setups : List Nat := []
  /-- `processing_data` -/
  processing : List Nat := []
  /-- `finished_data`; no array is the same as an empty one -/
  finished : List Nat := []
  /-- `finisher_id` is not 0 -/
  finisher : Bool := false
  /-- `accept_watch_id` is not 0 -/
  watching : Bool := true
  /-- `quitting` -/
  quitting : Bool := false
  /-- the event loop runs -/
  running : Bool := true
  /-- the thread of the event loop is in the loop of `accept_connection_fd` -/
  stalled : Bool := false
  /-- the accepting thread has read `n_processing_sessions` and not yet written it back -/
  register : Option UInt32 := none

/-- what the step changed, and what was seen -/
abbrev Result := State × List Out

/-- `milter_client_session_finished` and the rest of `finish_processing`, client/milter-client.c:582-630, 2889-2897 -/
def finishProcessing (r : Result) (id : Nat) : Result :=
  let s := { r.1 with processing := r.1.processing.erase id, nProcessing := r.1.nProcessing - 1, nProcessed := r.1.nProcessed + 1 }
  let quits := s.quitting && s.nProcessing == 0
  ({ s with running := s.running && !quits }, r.2 ++ (if quits then [.quit] else []) ++ [.freed id])

/-- `milter_client_need_maintain`, client/milter-client.c:652-670 -/
def needMaintain (s : State) (n : UInt32) : Bool :=
  if s.nProcessing == 0 && 0 < n then true
  else if s.config.interval == 0 then false
  else s.nProcessed % s.config.interval < n

/-- `dispose_finished_data`, client/milter-client.c:672-696 -/
def disposeFinished (s : State) : Result :=
  if s.finished = [] then (s, [])
  else
    let before := s.nProcessed
    let r := s.finished.foldl finishProcessing (s, [])
    let s := { r.1 with finished := [] }
    let n := s.nProcessed - before
    (s, r.2 ++ [.sessionsFinished n] ++ (if needMaintain s n then [.maintain] else []))

/-- `single_thread_cb_finished`, client/milter-client.c:1176-1208 -/
def cbFinished (s : State) (id : Nat) : Result :=
  let s := { s with finished := s.finished ++ [id] }
  if 0 < s.config.maxPending ∧ s.config.maxPending.toNat < s.finished.length then disposeFinished { s with finisher := false }
  else ({ s with finisher := true }, [])

/-- `single_thread_client_channel_setup`, client/milter-client.c:1267-1308; `started` is what `milter_agent_start` answers -/
def setup (s : State) (id : Nat) (started : Bool) : Result :=
  let s := { s with processing := id :: s.processing }
  if started then (s, [.established id])
  else
    let r := cbFinished s id
    (r.1, .startError id :: r.2)

/-- the test of the loop of `accept_connection_fd`, client/milter-client.c:1360-1362: no more connections may be accepted now -/
def full (s : State) : Bool := 0 < s.config.maxConnections && s.config.maxConnections ≤ s.nProcessing

/-- `accept_connection_fd` with `single_thread_accept_connection`, `single_thread_single_loop_accept_connection` and `worker_accept_watch_func`,
client/milter-client.c:1346-1459, 2205-2222, 2434-2456: there is a connection to accept. While the client is full the loop sleeps: a thread of its own
sleeps until the next call, the thread of the event loop sleeps for ever, because nothing else can change `n_processing_sessions`. -/
def connect (s : State) (accept : Accept) (started : Bool) : Result :=
  if !s.watching then (s, [])
  else if full s then ({ s with stalled := decide (s.mode ≠ .acceptLoop) }, [])
  else match accept with
    | .again => (s, [])
    | .error => ({ s with watching := decide (s.mode ≠ .worker) }, [.acceptError])
    | .ok =>
      let id := s.next
      let s := { s with next := id + 1, nProcessing := s.nProcessing + 1 }
      if s.mode = .singleLoop then
        let r := setup s id started
        (r.1, .accepted id :: r.2)
      else ({ s with setups := s.setups ++ [id] }, [.accepted id])

/-- `milter_client_shutdown`, client/milter-client.c:2518-2548 -/
def shutdown (s : State) : Result :=
  if s.quitting then (s, [])
  else
    let quits := s.nProcessing == 0
    ({ s with quitting := true, watching := false, running := s.running && !quits }, if quits then [.quit] else [])

/-- what can happen -/
inductive Op where
  /-- a connection waits: `accept` will answer `accept` and starting the session `started` -/
  | connect (accept : Accept) (started : Bool)
  /-- the event loop runs the next `single_thread_cb_idle_client_channel_setup`, client/milter-client.c:1310-1322 -/
  | setup (started : Bool)
  /-- the context of a session says it has finished -/
  | finish (id : Nat)
  /-- the event loop runs `single_thread_finisher`, client/milter-client.c:1163-1174 -/
  | idle
  /-- `milter_client_shutdown` is called -/
  | shutdown
  /-- the properties are changed -/
  | configure (config : Config)
  /-- the accepting thread reads `n_processing_sessions` in `milter_client_session_started`, client/milter-client.c:2879-2887 -/
  | load
  /-- the accepting thread writes it back, and goes on -/
  | store

/-- the event loop, or the accepting thread, does one thing -/
def act (s : State) : Op → Result
  | .connect accept started => connect s accept started
  | .setup started => match s.setups with
    | [] => (s, [])
    | id :: rest => setup { s with setups := rest } id started
  | .finish id => if id ∈ s.processing ∧ id ∉ s.finished then cbFinished s id else (s, [])
  | .idle => if s.finisher then disposeFinished { s with finisher := false } else (s, [])
  | .shutdown => shutdown s
  | .configure config => ({ s with config := config }, [])
  | .load =>
    if s.mode = .acceptLoop ∧ s.register = none ∧ s.watching = true ∧ full s = false then ({ s with register := some s.nProcessing }, [])
    else (s, [])
  | .store => match s.register with
    | none => (s, [])
    | some n => ({ s with register := none, next := s.next + 1, nProcessing := n + 1, setups := s.setups ++ [s.next] }, [.accepted s.next])

/-- the event is one which nobody has to wait for -/
def outside : Op → Bool
  | .configure _ => true
  | _ => false

/-- one event. When the event loop has been left or never comes back, nothing happens any more. -/
def step (s : State) (op : Op) : Result := if (!s.running || s.stalled) && !outside op then (s, []) else act s op

/-- a client which has just begun to listen: `milter_client_prepare`, client/milter-client.c:2004-2053 -/
def start (mode : Mode) (config : Config) : State := { config := config, mode := mode }

def run (s : State) : List Op → Result
  | [] => (s, [])
  | op :: ops =>
    let r := step s op
    let r' := run r.1 ops
    (r'.1, r.2 ++ r'.2)

/-- `dispose` of the client, client/milter-client.c:747-833, as far as sessions are concerned: all contexts are let go, and then those of the finished
sessions again -/
def dispose (s : State) : List Out :=
  s.processing.map .freed ++ (disposeFinished { s with processing := [] }).2

end Verif.Service
