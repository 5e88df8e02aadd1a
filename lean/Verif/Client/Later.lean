import Verif.Client.Python
/-
Answers given later: `delay_response` (binding/ruby/lib/milter/client/session.rb:61-63, binding/python/gi/overrides/MilterClient/session.py:76-77) and the answer that a block run by the event loop gives
in the end (`add_timeout`, session.rb:162-164; `_watch_child`, session.py:135-136), with the two samples that do so: binding/ruby/sample/milter-tarpit.rb and binding/python/sample/milter-external.py.

Left out: what time it is.  A timer fires, and a child ends, at any time, in any order.
-/
namespace Verif.Later
open Verif Verif.Client
open Verif.Ruby (Act Prog Ran Session statusOf)

/-- What comes of a block that ends with `@context.signal_emit("…_response", @context.status)`, milter-tarpit.rb:23-25, milter-external.py:39-42, in the class's own handlers of client/milter-client-context.c:3569-3884.
If an exception leaves it, there is no answer (binding/ruby/lib/milter/core/callback.rb:20-33).  Nothing clears the status of the session context: client.rb:181, client.py:76 come after callbacks only. -/
def answer {σ : Type} (order : Requests → Requests) (k : Kind) (r : Ran σ) (x : Session σ) : Session σ :=
  { x with context := if r.raised then r.context else callNoted order r.context (.respond k (statusOf r.status)), own := r.own, status := r.status }

/-- the block runs, in Ruby -/
def later {σ : Type} (order : Requests → Requests) (m : Ruby.Class σ) (x : Session σ) (k : Kind) (p : Prog σ) : Session σ :=
  answer order k (p.exec order m.reset x.context x.status x.own) x

/-- the block runs, in Python -/
def laterPython {σ : Type} (order : Requests → Requests) (m : Python.Class σ) (x : Session σ) (k : Kind) (p : Prog σ) : Session σ :=
  answer order k (Python.exec order m.reset p x.context x.status x.own) x

/-! ### milter-tarpit.rb -/

/-- `MilterTarpit`, milter-tarpit.rb:20-33; the timer is that of `Tarpit` -/
def tarpit : Ruby.Class Unit where
  start := ()
  reset := id
  endOfMessage := some (.act .delayResponse fun _ => .done)
  abort := some fun _ => .done

/-- what happens to it -/
inductive Tick where
  | command (c : Cmd)
  /-- the timer that was set first fires -/
  | fires
deriving DecidableEq

/-- the session, and how many timers run -/
structure Tarpit where
  session : Session Unit
  timers : Nat := 0

/-- `end_of_message` sets a timer, milter-tarpit.rb:22-26; it fires once (`false`) -/
def Tarpit.step (order : Requests → Requests) (fallback : Ruby.Value) (t : Tarpit) : Tick → Tarpit
  | .command c =>
    { session := Ruby.receive order fallback (tarpit.object order) t.session c
      timers := match c with | .endOfMessage _ => t.timers + 1 | _ => t.timers }
  | .fires =>
    if t.timers = 0 then t
    else { session := later order tarpit t.session .endOfMessage (.act .accept fun _ => .done), timers := t.timers - 1 }

/-- a whole session -/
def Tarpit.run (order : Requests → Requests) (fallback : Ruby.Value) (t : Tarpit) (l : List Tick) : Tarpit := l.foldl (Tarpit.step order fallback) t

/-! ### milter-external.py -/

/-- the instance variable `_source_id`, and what the event loop watches: the children whose end it tells of.  A source is called what its child is, in the order in which they were started. -/
structure Watch where
  source : Option Nat := none
  sources : List Nat := []
  next : Nat := 0
deriving DecidableEq, Repr

/-- `_remove_source(self._source_id)`, session.py:138-139 -/
def Watch.remove (w : Watch) : Watch :=
  match w.source with
  | none => w
  | some n => { w with sources := w.sources.filter (· ≠ n) }

/-- `MilterExternal`, milter-external.py:26-51 -/
def external : Python.Class Watch where
  start := {}
  reset := fun w => { w with source := none }
  endOfMessage := some (.own (fun w => { source := some w.next, sources := w.sources ++ [w.next], next := w.next + 1 }) fun _ => .act .delayResponse fun _ => .done)
  abort := some fun _ => .own Watch.remove fun _ => .done

/-- `on_exit`, milter-external.py:38-42.  `_remove_source(None)` raises. -/
def onExit : Prog Watch := .own id fun w =>
  if w.source = none then .raise else .own Watch.remove fun _ => .act .accept fun _ => .done

/-- what happens to it -/
inductive Ev where
  | command (c : Cmd)
  /-- the child of that number, counted from 0, ends -/
  | exits (n : Nat)
deriving DecidableEq

/-- A child that is not watched any more ends without notice; one that is watched is told of once. -/
def External.step (order : Requests → Requests) (fallback : Ruby.Value) (x : Session Watch) : Ev → Session Watch
  | .command c => Python.receive order fallback (external.object order) x c
  | .exits n =>
    if n ∈ x.own.sources then
      let x := laterPython order external x .endOfMessage onExit
      { x with own := { x.own with sources := x.own.sources.filter (· ≠ n) } }
    else x

/-- a whole session -/
def External.run (order : Requests → Requests) (fallback : Ruby.Value) (x : Session Watch) (l : List Ev) : Session Watch := l.foldl (External.step order fallback) x

end Verif.Later
