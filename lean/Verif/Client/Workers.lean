import Verif.Client.Service
/-
client/milter-client.c: the processes of `n_workers`. The process that was started, the master, opens the socket, makes a pipe, forks the workers and waits;
each worker accepts connections from the socket they share and serves them with a machine of its own (`Client/Service`). The pipe is never written to: that
its writing end is closed is how the workers learn that the master has gone.

A file descriptor is inherited by a forked process and open until it is closed or its process has ended. The socket, the fork and the pipe are the
operating system's.

Simplified: the forks happen one after the other before anything else (a worker that has been forked can be entered at any time after that). A `Config` is
what one process knows of the configuration, as far as `Client/Service` needs it; the file is read as a whole.
-/
namespace Verif.Workers
open Verif.Service (Config Op)

/-- a worker process -/
structure Worker where
  machine : Service.State
  /-- it has the writing end of the pipe, which it got from the master, open -/
  writer : Bool := true
  /-- `worker_watch_master` is watching the reading end -/
  watching : Bool := false
  /-- the process has not ended -/
  alive : Bool := true

/-- all processes -/
structure Group where
  /-- what the configuration file says now -/
  file : Config
  /-- the configuration of the master -/
  config : Config
  /-- `milter_client_run` of the master has not returned -/
  running : Bool := true
  /-- the master has the writing end of the pipe open: `workers.control`, client/milter-client.c:2206 -/
  writer : Bool := true
  /-- how many workers were forked -/
  count : Nat
  worker : Nat → Worker

/-- what can be seen from outside -/
inductive Seen where
  /-- worker `i` does something -/
  | worker (i : Nat) (o : Service.Out)
  /-- worker `i` has come to its end, client/milter-client.c:2187-2189 -/
  | exited (i : Nat)
  /-- `milter_client_run` of the master returns -/
  | returned
  deriving DecidableEq, Repr

/-- what can happen -/
inductive Event where
  /-- worker `i` begins: it closes the writing end and watches the reading end, and `run_worker` begins, client/milter-client.c:2179-2187, 2458-2516 -/
  | enter (i : Nat)
  /-- something happens to worker `i`, or its event loop does something -/
  | worker (i : Nat) (op : Op)
  /-- the event loop of worker `i` finds the reading end of the pipe ready -/
  | hear (i : Nat)
  /-- worker `i` dies -/
  | killed (i : Nat)
  /-- `milter_client_shutdown` is called in the master -/
  | shutdown
  /-- the master dies -/
  | masterKilled
  /-- the configuration file is changed -/
  | edit (config : Config)
  /-- the master reloads the configuration (SIGHUP), manager/milter-manager-main.c:213-243 -/
  | reload
  /-- worker `i` reloads the configuration -/
  | reloadWorker (i : Nat)

/-- change worker `i` -/
def set (g : Group) (i : Nat) (w : Worker) : Group := { g with worker := fun j => if j = i then w else g.worker j }

/-- worker `i` takes the step; if it has left its event loop, `run_worker` returns and the process ends (client/milter-client.c:2187-2189: the
`milter_client_shutdown` there finds nothing left to do) -/
def advance (g : Group) (i : Nat) (w : Worker) (op : Op) : Group × List Seen :=
  let r := Service.step w.machine op
  let w := { w with machine := r.1, alive := r.1.running }
  (set g i w, r.2.map (.worker i) ++ if r.1.running then [] else [.exited i])

/-- no process has the writing end of the pipe open: reading gives the end of the file -/
def closed (g : Group) : Bool := !g.writer && (List.range g.count).all fun i => !((g.worker i).alive && (g.worker i).writer)

/-- the worker has begun and not ended -/
def up (g : Group) (i : Nat) : Bool := decide (i < g.count) && (g.worker i).alive && !(g.worker i).writer

/-- what may happen to a single worker by itself -/
def own : Op → Bool
  | .configure _ => false
  | .load => false
  | .store => false
  | _ => true

/-- one event -/
def step (g : Group) : Event → Group × List Seen
  | .enter i =>
    if i < g.count ∧ (g.worker i).alive = true ∧ (g.worker i).writer = true then
      (set g i { g.worker i with writer := false, watching := true }, [])
    else (g, [])
  | .worker i op => if up g i = true ∧ own op = true then advance g i (g.worker i) op else (g, [])
  -- `worker_watch_master`, client/milter-client.c:2109-2138; nothing is ever written
  | .hear i =>
    if up g i = true ∧ (g.worker i).watching = true ∧ (g.worker i).machine.stalled = false ∧ closed g = true then
      advance g i { g.worker i with watching := false } .shutdown
    else (g, [])
  -- `watch_worker_process`, client/milter-client.c:698-703, does nothing in the master
  | .killed i => if i < g.count then (set g i { g.worker i with alive := false }, []) else (g, [])
  -- client/milter-client.c:2518-2548: the master serves no sessions
  | .shutdown => if g.running then ({ g with running := false, writer := false }, [.returned]) else (g, [])
  | .masterKilled => ({ g with running := false, writer := false }, [])
  | .edit c => ({ g with file := c }, [])
  | .reload => if g.running then ({ g with config := g.file }, []) else (g, [])
  | .reloadWorker i => if up g i = true then advance g i (g.worker i) (.configure g.file) else (g, [])

/-- a history -/
def run (g : Group) : List Event → Group × List Seen
  | [] => (g, [])
  | e :: rest =>
    let r := step g e
    let r' := run r.1 rest
    (r'.1, r.2 ++ r'.2)

/-- `client_run_workers`, client/milter-client.c:2140-2210: `forks` are the results of the forks, up to the first that fails. If one fails, the pipe is
closed and `milter_client_run` of the master fails. -/
def start (config : Config) (forks : List Bool) : Group :=
  let good := forks.all id
  { file := config, config := config, running := good, writer := good, count := (forks.takeWhile id).length
    worker := fun _ => { machine := Service.start .worker config } }

end Verif.Workers
