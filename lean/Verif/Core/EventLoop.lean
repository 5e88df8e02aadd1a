import Verif.Core.Bytes
/-
The event loop on libev: core/milter-libev-event-loop.c, and running and quitting of any event loop: core/milter-event-loop.c.

The program and libev take turns.  A function of the program that libev calls may itself add and remove sources, run the loop and quit it, and so may
the function that is to be told of the removal of a source; therefore a state has a stack of what is going on.  `State.step` has one event for each thing that
the program or libev may do next.  libev calls a watcher only while it is started, and starts and stops exactly the watchers it is told to; a timer without a
repeat interval it stops before it calls it (libev, `timers_reify`).

Sources have a number of their own, `serial`, which is not in the code.  Not modelled: priorities (the code ignores them), conditions of channels, disposing of
the loop, custom functions to run and iterate, the functions for release and acquire.
-/
namespace Verif.EventLoop

/-- the four kinds of watchers -/
inductive Kind where
  | io
  | child
  /-- `add_timeout_full` with this interval, in some unit -/
  | timer (interval : Nat)
  | idle
deriving DecidableEq, Repr

/-- `WatcherPrivate`, core/milter-libev-event-loop.c:299-307 -/
structure Source where
  serial : Nat
  kind : Kind
  /-- libev has it among those it calls -/
  started : Bool := true
deriving DecidableEq, Repr

/-- what is going on, the innermost first -/
inductive Frame where
  /-- `milter_event_loop_run_without_custom`, with its local variable `depth`, core/milter-event-loop.c:202-215 -/
  | running (depth : Nat)
  /-- `io_func`, `child_func`, `timer_func` or `idle_func` has called the function of the source; `id` is its local variable -/
  | calling (id : UInt32) (source : Source)
  /-- `destroy_watcher` has called the function to be told of the removal -/
  | notifying (serial : Nat)
deriving DecidableEq, Repr

/-- what can be seen from outside -/
inductive Item where
  /-- a new source and the id returned for it -/
  | added (serial : Nat) (kind : Kind) (id : UInt32)
  /-- `milter_event_loop_remove` was called with this id; its result -/
  | removed (id : UInt32) (result : Bool)
  /-- the function of a source is called -/
  | called (serial : Nat)
  /-- it has returned this -/
  | answered (serial : Nat) (again : Bool)
  /-- the function to be told of the removal is called -/
  | notified (serial : Nat)
  /-- the loop is run, and leaves -/
  | run
  | left
  /-- it is told to quit; FALSE: a warning -/
  | quit (ok : Bool)
deriving DecidableEq, Repr

/-- `MilterLibevEventLoopPrivate`, core/milter-libev-event-loop.c:39-51, and `MilterEventLoopPrivate`, core/milter-event-loop.c:36-43 -/
structure State where
  id : UInt32 := 0
  /-- `watchers` -/
  table : List (UInt32 × Source) := []
  depth : Nat := 0
  stack : List Frame := []
  next : Nat := 0
deriving DecidableEq, Repr

/-- is there a watcher with this id -/
def used (table : List (UInt32 × Source)) (id : UInt32) : Bool := table.any fun x => x.1 == id

/-- the loop of `add_watcher`, core/milter-libev-event-loop.c:319-331, for at most so many rounds -/
def nextId (table : List (UInt32 × Source)) : Nat → UInt32 → UInt32
  | 0, id => id
  | n + 1, id =>
    let id := id + 1
    if id = 0 then nextId table n id
    else if used table id then nextId table n id
    else id

/-- `add_watcher`, 309-344; the loop goes on for ever if every id is in use, which is left out -/
def add (s : State) (kind : Kind) : State × List Item :=
  let id := nextId s.table (2 ^ 32) s.id
  ({ s with id := id, table := (id, { serial := s.next, kind := kind }) :: s.table, next := s.next + 1 }, [.added s.next kind id])

/-- `remove_watcher`, 368-375, with `destroy_watcher`, 346-366, up to the call of the function to be told.  (One that is NULL is one that does
nothing.) -/
def removeWatcher (s : State) (id : UInt32) : State × Bool × List Item :=
  match s.table.find? fun x => x.1 == id with
  | none => (s, false, [])
  | some x => ({ s with table := s.table.filter (fun y => !(y.1 == id)), stack := .notifying x.2.serial :: s.stack }, true, [.notified x.2.serial])

/-- `remove`, 671-676: what is told of the removal runs before it returns -/
def remove (s : State) (id : UInt32) : State × List Item :=
  let r := removeWatcher s id
  (r.1, .removed id r.2.1 :: r.2.2)

/-- libev stops a timer that is not to be repeated before it calls it -/
def stopOnce (x : UInt32 × Source) : UInt32 × Source :=
  if x.2.kind = .timer 0 then (x.1, { x.2 with started := false }) else x

/-- libev calls a watcher, if it may: `io_func` and the like up to the call of `function`, 446-465, 516-531, 572-589, 634-651.  It does so only from within `ev_run`, 377-391. -/
def dispatch (s : State) (id : UInt32) : State × List Item :=
  match s.stack with
  | .running _ :: _ =>
    match s.table.find? fun x => x.1 == id && x.2.started with
    | none => (s, [])
    | some x => ({ s with table := s.table.map (fun y => if y.1 == id then stopOnce y else y), stack := .calling id x.2 :: s.stack }, [.called x.2.serial])
  | _ => (s, [])

/-- the rest of `io_func`, `child_func`, `timer_func` and `idle_func` -/
def answer (s : State) (again : Bool) : State × List Item :=
  match s.stack with
  | .calling id source :: stack =>
    let s := { s with stack := stack }
    if source.kind ≠ .child && again then (s, [.answered source.serial again])
    else
      let r := removeWatcher s id
      (r.1, .answered source.serial again :: r.2.2)
  | _ => (s, [])

/-- the function that was told of a removal returns -/
def told (s : State) : State × List Item :=
  match s.stack with
  | .notifying _ :: stack => ({ s with stack := stack }, [])
  | _ => (s, [])

/-- `milter_event_loop_run_without_custom`, core/milter-event-loop.c:202-215, up to its loop -/
def run (s : State) : State × List Item := ({ s with depth := s.depth + 1, stack := .running s.depth :: s.stack }, [.run])

/-- the condition of its loop, 212: `iterate` has returned -/
def check (s : State) : State × List Item :=
  match s.stack with
  | .running depth :: stack => if s.depth > depth then (s, []) else ({ s with stack := stack }, [.left])
  | _ => (s, [])

/-- `milter_event_loop_quit`, 301-315 -/
def quit (s : State) : State × List Item := if s.depth > 0 then ({ s with depth := s.depth - 1 }, [.quit true]) else (s, [.quit false])

/-- what may happen next -/
inductive Event where
  | add (kind : Kind)
  | remove (id : UInt32)
  | dispatch (id : UInt32)
  | answer (again : Bool)
  | told
  | run
  | check
  | quit
deriving DecidableEq, Repr

/-- one event -/
def step (s : State) : Event → State × List Item
  | .add kind => add s kind
  | .remove id => remove s id
  | .dispatch id => dispatch s id
  | .answer again => answer s again
  | .told => told s
  | .run => run s
  | .check => check s
  | .quit => quit s

/-- a history -/
def history (s : State) : List Event → State × List Item
  | [] => (s, [])
  | e :: es =>
    let a := step s e
    let b := history a.1 es
    (b.1, a.2 ++ b.2)

end Verif.EventLoop
