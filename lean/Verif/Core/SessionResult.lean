import Mathlib.Data.List.Basic
/-!
The results of sessions (`core/milter-session-result.c`).

Message results are known by numbers.  Times are pairs of seconds and microseconds as in
`GTimeVal`, without overflow; elapsed times are in microseconds instead of `gdouble`.
-/
namespace Verif.Core.SessionResult

/-- `GTimeVal`. -/
structure Time where
  sec : Int
  usec : Int
deriving DecidableEq, Repr

/-- `MilterSessionResultPrivate` (milter-session-result.c:36-44) and, for each message result,
how many references to it were taken and not given back. -/
structure State where
  messages : List Nat := []
  refs : Nat → Int := fun _ => 0
  start : Time := ⟨0, 0⟩
  stop : Time := ⟨0, 0⟩
  elapsed : Int := 0
  elapsedSet : Bool := false
  disconnected : Bool := false

/-- `g_object_ref`, `g_object_unref`. -/
def addRefs (r : Nat → Int) (m : Nat) (n : Int) : Nat → Int :=
  fun x => if x = m then r x + n else r x

/-- `milter_session_result_add_message_result` (milter-session-result.c:198-208). -/
def add (s : State) (m : Nat) : State :=
  { s with messages := s.messages ++ [m], refs := addRefs s.refs m 1 }

/-- The loop of `milter_session_result_remove_message_result` (milter-session-result.c:210-227):
what is left, and how many references are given back.  `g_list_remove_link` cuts the node off,
so that `g_list_next` of it is NULL and the loop ends.  (The node is not freed.) -/
def removeLoop (m : Nat) : List Nat → List Nat × Int
  | [] => ([], 0)
  | x :: xs => if x = m then (xs, 1) else (x :: (removeLoop m xs).1, (removeLoop m xs).2)

/-- `milter_session_result_remove_message_result` (milter-session-result.c:210-227). -/
def remove (s : State) (m : Nat) : State :=
  let r := removeLoop m s.messages
  { s with messages := r.1, refs := addRefs s.refs m (-r.2) }

/-- `dispose_message_results` (milter-session-result.c:113-121). -/
def disposeMessages (s : State) : State :=
  { s with messages := [], refs := s.messages.foldl (fun r m => addRefs r m (-1)) s.refs }

/-- `milter_session_result_set_message_results` (milter-session-result.c:274-288) for a list
other than the object's own. -/
def setMessages (s : State) (ms : List Nat) : State := ms.foldl add (disposeMessages s)

/-- `compute_elapsed` (milter-session-result.c:229-234). -/
def computeElapsed (a b : Time) : Int := (b.sec - a.sec) * 1000000 + (b.usec - a.usec)

/-- `milter_session_result_set_elapsed_time` (milter-session-result.c:371-380). -/
def setElapsed (s : State) (e : Int) : State := { s with elapsed := e, elapsedSet := true }

/-- `milter_session_result_stop` at the time `t` (milter-session-result.c:236-252). -/
def stopAt (s : State) (t : Time) : State :=
  let s := { s with stop := t }
  if s.start.sec > 0 then setElapsed s (computeElapsed s.start t) else s

/-- `milter_session_result_get_elapsed_time` (milter-session-result.c:357-369). -/
def getElapsed (s : State) : Int :=
  if !s.elapsedSet && decide (s.start.sec > 0) && decide (s.stop.sec > 0) then
    computeElapsed s.start s.stop
  else s.elapsed

/-- Calls.  `setOwn` is `set_message_results` with what `get_message_results`, which does not
copy, has returned. -/
inductive Op
  | start (t : Time)
  | stop (t : Time)
  | setStart (t : Option Time)
  | setEnd (t : Option Time)
  | setElapsed (e : Int)
  | setDisconnected (b : Bool)
  | add (m : Nat)
  | remove (m : Nat)
  | setMessages (ms : List Nat)
  | setOwn
deriving DecidableEq, Repr

/-- One call; `none` if freed memory is read.  `milter_session_result_start`
(milter-session-result.c:189-196), `..._set_start_time` (315-328), `..._set_end_time`
(342-355), `..._set_disconnected` (296-301).  With its own list, `set_message_results` frees the
nodes and then goes through them (274-288); an empty list has none. -/
def step (s : State) : Op → Option State
  | .start t => some { s with start := t }
  | .stop t => some (stopAt s t)
  | .setStart t => some { s with start := t.getD ⟨0, 0⟩ }
  | .setEnd t => some { s with stop := t.getD ⟨0, 0⟩ }
  | .setElapsed e => some (setElapsed s e)
  | .setDisconnected b => some { s with disconnected := b }
  | .add m => some (add s m)
  | .remove m => some (remove s m)
  | .setMessages ms => some (setMessages s ms)
  | .setOwn => if s.messages = [] then some s else none

/-- A history. -/
def run : State → List Op → Option State
  | s, [] => some s
  | s, o :: os => (step s o).bind fun s => run s os

end Verif.Core.SessionResult
