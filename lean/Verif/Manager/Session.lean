import Verif.Manager.Leader
import Verif.Spec.Chain
/-
A session of the manager as a whole: the context the MTA talks to, the leader, and the children object with its milters.

The signals of the children object are heard by the leader while its function is still running; as the leader calls back
into it in one case only ("abort", which is emitted when a negotiation fails), they are heard after it here, in the same order.
Otherwise as in `Manager/Leader.lean` and `Manager/Children.lean`.
-/
namespace Verif.Session
open Verif Verif.Leader
open Verif.Children (Emit Sys)
open Verif.Spec.Children (told)

structure Session where
  front : Front
  milters : Sys

/-- a new session with these milters; the manager reads its fallback statuses, the size of the packet buffer and the chunk size
from the configuration -/
def new (fallback atDisconnect : Status) (bufferSize : Nat) (kids : List Children.Kid) (chunkSize : Nat) : Session :=
  ⟨Leader.new fallback atDisconnect bufferSize .ready, Children.init kids chunkSize⟩

/-- the function of the children object that the leader calls for a command, manager/milter-manager-leader.c:987-1308 (macros
are kept apart: C48) -/
def eventOf : Cmd → Option Children.Event
  | .negotiate o => some (.negotiate o)
  | .connect h a => some (.connect h a)
  | .helo f => some (.helo f)
  | .envelopeFrom f => some (.envelopeFrom f)
  | .envelopeRecipient r => some (.envelopeRecipient r)
  | .data => some .data
  | .unknown c => some (.unknown c)
  | .header n v => some (.header n v)
  | .endOfHeader => some .endOfHeader
  | .body b => some (.body b)
  | .endOfMessage b => some (.endOfMessage b)
  | .abort => some .abort
  | .quit => some .quit
  | .defineMacro _ _ => none

/-- what the children object emitted between two states -/
def toldSince (m m' : Sys) : List Emit := (told m'.out).drop (told m.out).length

/-- something happens at the milters, and the leader hears what comes of it -/
def consult (order : Requests → Requests) (n : Nat) (s : Session) (e : Children.Event) (answers : List (Bool × Bool)) : Option Session :=
  (Children.next n s.milters e answers).map fun m => ⟨(toldSince s.milters m).foldl (Front.hear order) s.front, m⟩

/-- an event at a milter, not a command of the MTA -/
def fromMilter : Children.Event → Bool
  | .idleReply | .reply _ _ | .flushed _ | .timeout _ | .connected _ _ | .retry _ | .error _ | .finished _ => true
  | _ => false

/-- `milter_manager_children_is_waiting_reply`, manager/milter-manager-children.c:962-991 -/
def waiting (m : Sys) : Bool :=
  match m.state with
  | .negotiate | .connect | .helo | .envelopeFrom | .envelopeRecipient | .data | .unknown => !m.replyQueue.isEmpty
  | .header | .endOfHeader | .body | .endOfMessage => match m.waitingQueue with
    | [] => false
    | i :: _ => Children.isProcessing m i
  | _ => false

/-- what can happen; the lists are the answers of the environment to the children object -/
inductive Event where
  /-- a command of the MTA arrives -/
  | command (c : Cmd) (answers : List (Bool × Bool))
  /-- something happens at a milter -/
  | milter (e : Children.Event) (answers : List (Bool × Bool))
  /-- `milter_manager_leader_check_connection`; `connected` is what the handlers of "connection-check" say -/
  | check (connected : Bool) (aborting quitting : List (Bool × Bool))
  /-- the MTA is silent for too long -/
  | timeout (answers : List (Bool × Bool))
  /-- nothing can be written to the MTA any more -/
  | close

/-- one event.  `n` bounds the depth of calls in the children object; `none` if it is too small. -/
def step (order : Requests → Requests) (n : Nat) (s : Session) : Event → Option Session
  | .command c answers =>
    if !s.front.attached then some { s with front := s.front.command order c [] true none none }
    else match eventOf c with
      | none => some { s with front := s.front.command order c [] true none none }
      | some .quit => consult order n { s with front := s.front.command order c [] true none none } .quit answers
      | some e =>
        (Children.command (Children.dispatch n) e { s.milters with oracle := answers }).map fun (ok, m) =>
          ⟨s.front.command order c (toldSince s.milters m) ok (match c with | .negotiate o => some o | _ => none) none, m⟩
  | .milter e answers => if s.front.attached && fromMilter e then consult order n s e answers else some s
  | .check connected aborting quitting =>
    let w := waiting s.milters
    let s' := { s with front := s.front.check order w connected }
    if !s.front.attached || !s.front.leader.processing || !s.front.leader.hasChildren || !w || connected then some s'
    else (consult order n s' .abort aborting).bind fun s' => consult order n s' .quit quitting
  | .timeout answers =>
    let s' := { s with front := Leader.step order s.front .timeout }
    if s.front.client.timer && s.front.attached then consult order n s' .quit answers else some s'
  | .close => some { s with front := Leader.step order s.front .close }

/-- a history -/
def run (order : Requests → Requests) (n : Nat) (s : Session) : List Event → Option Session
  | [] => some s
  | e :: es => (step order n s e).bind fun s' => run order n s' es

end Verif.Session
