import Verif.Client.Context
import Verif.Client.Agrees
import Verif.Manager.Children
/-
The object between the context of the MTA's session and the children object:
milter/manager/milter-manager-leader.c, with the handlers of milter/manager/milter-manager.c that connect
it to the context (`cb_client_*`, 422-690, `cb_leader_finished`, 733-763).

The children object is an arbitrary source of signals (`Children.Emit`) here; `Manager/Session.lean` puts the model
of it in its place.

Left out: logging and statistics, the tag, the launcher's channels, reference counts, `dispose`, and the macros
requests of the negotiation reply (C18).
-/
namespace Verif.Leader
open Verif
open Verif.Client (Kind kindOf Call)
open Verif.Children (Emit)

/-- `MilterManagerLeaderState`, manager/milter-manager-leader.h -/
inductive St where
  | start
  | doing (k : Kind)
  | replied (k : Kind)
  | quit | quitReplied | abort | abortReplied | invalid
deriving DecidableEq, Repr

/-- `MilterManagerLeaderPrivate`, manager/milter-manager-leader.c:34-45, as initialised in 142-157, with the two
values it reads from the configuration -/
structure Leader where
  st : St := .start
  /-- `sent_end_of_message` -/
  sentEnd : Bool := false
  processing : Bool := false
  /-- `children` is not NULL -/
  hasChildren : Bool := false
  /-- `milter_manager_configuration_get_fallback_status` -/
  fallback : Status := .accept
  /-- `milter_manager_configuration_get_fallback_status_at_disconnect` -/
  atDisconnect : Status := .temporaryFailure
deriving DecidableEq, Repr

/-- what the leader does on hearing a signal -/
inductive Act where
  /-- a call on the context of the MTA's session, or the emission of one of its response signals.  (If a
  modification fails the leader emits "error" too.) -/
  | call (c : Call)
  /-- `milter_agent_shutdown` on the context -/
  | shutdown
  /-- emission of "error" because nothing can be replied now, or the reply code is not valid -/
  | complain
  /-- `g_signal_emit_by_name` with the name of a signal that does not exist: GLib logs a warning -/
  | noSuchSignal
  /-- emission of "finished" -/
  | finished
deriving DecidableEq, Repr

/-- `next_state`, 439-508 -/
def nextState (l : Leader) : St → St
  | .doing .body | .replied .body => if l.sentEnd then .doing .endOfMessage else .replied .body
  | .doing k => .replied k
  | .quit => .quitReplied
  | .abort => .abortReplied
  | _ => .invalid

/-- `state_to_response_signal_name`, 385-437, and the emission of the signal; `none` if there is no name -/
def response (status : Status) : St → Option Act
  | .doing .negotiate => some (.call (.respondNegotiate none none status))
  | .doing k => some (.call (.respond k status))
  | .replied .body => some (.call (.respond .body status))
  | .quit => some .noSuchSignal
  | .abort => some (.call (.respondAbort status))
  | _ => none

/-- `reply`, 525-563 -/
def reply (l : Leader) (status : Status) : Leader × List Act :=
  match response status l.st with
  | some a => ({ l with st := nextState l l.st }, [a])
  | none => (l, [.complain])

/-- the header callbacks for the edits the children object emits, 631-723; the index -1 of a header that is not found is
passed as `guint` -/
def editCall : HeaderDiff.Edit → Call
  | .add name value => .addHeader (some name) value
  | .insert index name value => .insertHeader index (some name) value
  | .change name index value => .changeHeader (some name) index value
  | .delete name index => .deleteHeader (some name) (index.getD 4294967295)

/-- the callback for a reply signal of the children object, 565-867 -/
def hearReply (l : Leader) : Reply → Leader × List Act
  | .negotiate _ _ => (l, [])
  | .cont => reply l .continue_
  | .replyCode code ext message =>
    let set := Act.call (.setReply code (some ext) message)
    if (SetReply.setReply {} code (some ext) message).1 then
      let (l, acts) := reply l (if code / 100 = 4 then .temporaryFailure else .reject)
      (l, set :: acts)
    else (l, [set, .complain])
  | .temporaryFailure => reply l .temporaryFailure
  | .reject => reply l .reject
  | .accept => reply l .accept
  | .discard => reply l .discard
  | .skip => reply l .skip
  | .addHeader n v => (l, [.call (.addHeader (some n) (some v))])
  | .insertHeader i n v => (l, [.call (.insertHeader i (some n) v)])
  | .changeHeader n i v => (l, [.call (.changeHeader (some n) i (some v))])
  | .deleteHeader n i => (l, [.call (.deleteHeader (some n) i)])
  | .changeFrom f p => (l, [.call (.changeFrom (some f) p)])
  | .addRecipient r p => (l, [.call (.addRecipient (some r) p)])
  | .deleteRecipient r => (l, [.call (.deleteRecipient (some r))])
  | .replaceBody b => (l, [.call (.replaceBody b)])
  | .progress => (l, [.call .progress])
  | .quarantine r => (l, [.call (.quarantine (some r))])
  | .connectionFailure | .shutdown => (l, [])

/-- The callback for a signal of the children object, 511-915.  ("error" is emitted again by the leader in any
case; what is recorded is its own complaints.) -/
def hear (l : Leader) : Emit → Leader × List Act
  | .reply r => hearReply l r
  | .edit e => (l, [.call (editCall e)])
  | .negotiateReply o => ({ l with processing := true }, [.call (.respondNegotiate (some o) none .continue_)])
  | .abort => (l, [.shutdown, .finished])
  | .error own => if own then reply l l.fallback else (l, [])
  | .finished => (l, [.finished])

/-- several signals, one after the other -/
def hearAll (l : Leader) : List Emit → Leader × List Act
  | [] => (l, [])
  | e :: es =>
    let (l, a) := hear l e
    let (l, b) := hearAll l es
    (l, a ++ b)

/-- `is_replied_state`, 1223-1245 -/
def isReplied : St → Bool
  | .doing _ | .quit | .abort => false
  | _ => true

/-- the state set by the functions for the commands, 987-1308, before the children object is called.  Only negotiation
makes one. -/
def begin (l : Leader) : Cmd → Leader
  | .endOfMessage _ => if isReplied l.st then { l with st := .doing .endOfMessage } else { l with sentEnd := true }
  | .negotiate _ => { l with st := .doing .negotiate, hasChildren := true }
  | .abort => { l with st := .abort }
  | .quit => { l with st := .quit }
  | c => match kindOf c with
    | some (k, _) => { l with st := .doing k }
    | none => l

/-- what they return to the context; `ok` is what the children object returned -/
def returns (l : Leader) (c : Cmd) (ok : Bool) : Status :=
  match c with
  | .abort | .quit => if l.hasChildren then .default else l.fallback
  | _ => if l.hasChildren ∧ ok then .progress else l.fallback

/-! ### Together with the context of the MTA's session -/

/-- the leader and the context it serves -/
structure Front where
  leader : Leader
  client : Client.State
  /-- the handlers of the manager are connected to the context's signals -/
  attached : Bool := true
  /-- how often the leader complained -/
  complaints : Nat := 0

/-- a new session -/
def new (fallback atDisconnect : Status) (bufferSize : Nat) (link : Client.Link) : Front :=
  { leader := { fallback := fallback, atDisconnect := atDisconnect }, client := Client.new bufferSize link }

/-- `milter_manager_leader_quit`, 1274-1290, called by `cb_client_finished` and `cb_client_timeout` -/
def Front.quit (f : Front) : Front :=
  if f.attached then { f with leader := { f.leader with st := .quit } } else f

/-- what the leader does, done.  The context is shut down: it emits "finished", which calls the leader's quit.
The leader emits "finished": 376-383, and the manager disconnects its handlers from the context, milter-manager.c:733-763. -/
def Front.perform (order : Requests → Requests) (f : Front) : Act → Front
  | .call c => { f with client := Client.callNoted order f.client c }
  | .shutdown => Front.quit { f with client := Client.shutdown f.client }
  | .complain => { f with complaints := f.complaints + 1 }
  | .noSuchSignal => f
  | .finished => { f with leader := { f.leader with processing := false }, attached := false }

/-- a signal of the children object -/
def Front.hear (order : Requests → Requests) (f : Front) (e : Emit) : Front :=
  let (l, acts) := Leader.hear f.leader e
  acts.foldl (Front.perform order) { f with leader := l }

/-- the calls on the context among what the leader does -/
def callsOf (acts : List Act) : List Call := acts.filterMap fun a => match a with | .call c => some c | _ => none

/-- A command of the MTA arrives; the children object emits `during` while it is called, and returns `ok`.  For a
negotiation `chosen` and `requests` are the option and the macros requests it leaves.  (The children object is not called for
"define-macro" here.  Nothing but calls is done with what it emits in a handler but counting complaints: it emits "abort" and
"finished" at other times only.) -/
def Front.command (order : Requests → Requests) (f : Front) (c : Cmd) (during : List Emit) (ok : Bool)
    (chosen : Option Opt) (requests : Option Requests) : Front :=
  if !f.attached then { f with client := Client.receive order f.client c [] chosen requests }
  else match c with
    | .defineMacro _ _ => { f with client := Client.receive order f.client c [] chosen requests }
    | .quit => Front.quit { f with client := Client.receive order f.client c [] chosen requests }
    | _ =>
      let (l, acts) := hearAll (begin f.leader c) during
      { f with
        leader := l
        client := Client.receive order f.client c [⟨callsOf acts, returns l c ok⟩] chosen requests
        complaints := f.complaints + acts.count .complain }

/-- `milter_manager_leader_check_connection`, 159-245, up to where the milters are told to abort and quit.  `waiting` is
`milter_manager_children_is_waiting_reply`, `connected` what the handlers of "connection-check" say. -/
def Front.check (order : Requests → Requests) (f : Front) (waiting connected : Bool) : Front :=
  if !f.leader.processing || (f.leader.hasChildren && !waiting) || connected then f
  else
    let (l, acts) := Leader.reply f.leader f.leader.atDisconnect
    acts.foldl (Front.perform order) { f with leader := l }

/-- what can happen -/
inductive Op where
  | command (c : Cmd) (during : List Emit) (ok : Bool) (chosen : Option Opt) (requests : Option Requests)
  | heard (e : Emit)
  | check (waiting connected : Bool)
  /-- the context's timeout -/
  | timeout
  /-- the context's writer is closed -/
  | close
deriving DecidableEq

def step (order : Requests → Requests) (f : Front) : Op → Front
  | .command c during ok chosen requests => f.command order c during ok chosen requests
  | .heard e => f.hear order e
  | .check waiting connected => f.check order waiting connected
  | .timeout =>
    if f.client.timer then Front.quit { f with client := Client.step order f.client .timeout } else f
  | .close => { f with client := Client.step order f.client .close }

def run (order : Requests → Requests) (f : Front) (ops : List Op) : Front := ops.foldl (step order) f

end Verif.Leader
