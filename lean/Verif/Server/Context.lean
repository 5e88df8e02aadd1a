import Verif.Core.Option
import Verif.Core.Status
import Verif.Core.CommandEncoder
import Verif.Core.Headers
/-
The manager's (or a test server's) end of a connection to one milter:
`milter/server/milter-server-context.c`.

A function of that file is modelled as a list of actions.  Whenever an action emits a signal,
execution stops there and the rest of the function is kept as a frame on `State.stack`; the
signal's handlers may then do anything - they are simply the events that follow - and the event
`handlerReturns` resumes the topmost frame.  So handlers that call back into the context, to any
depth, are covered.

Simplifications: the elapsed-time timer, the times of the message result, logging and tags are
left out; the handlers of the stop-on-* signals are represented by the
value they return; the macro packet put in front of a command (`prepend_macro`) is modelled
separately in `Server/Macros.lean`; packets are represented by the command they encode; the
socket calls of `milter_server_context_establish_connection` are represented by their result.
If the agent has no writer, `milter_agent_write_packet` silently drops the packet and reports
success; that counts as written here.
-/
namespace Verif.Server
open Verif

/-- `MilterServerContextState`, server/milter-server-context.h, in declaration order -/
inductive St where
  | invalid | start | defineMacro | negotiate | connect | helo | envelopeFrom
  | envelopeRecipient | data | unknown | header | endOfHeader | body | endOfMessage | quit | abort
deriving DecidableEq, Repr

/-- position in the declaration -/
def St.rank : St → Nat
  | .invalid => 0 | .start => 1 | .defineMacro => 2 | .negotiate => 3 | .connect => 4
  | .helo => 5 | .envelopeFrom => 6 | .envelopeRecipient => 7 | .data => 8 | .unknown => 9
  | .header => 10 | .endOfHeader => 11 | .body => 12 | .endOfMessage => 13 | .quit => 14
  | .abort => 15

/-- which timeout `priv->timeout_id` belongs to; `fired` is the identifier left behind by a
timeout that went off (the callbacks 882-958 do not clear it) -/
inductive Timer where
  | connection | writing | reading | endOfMessage | fired
deriving DecidableEq, Repr

/-- `MilterMessageResult` (core/milter-message-result.c 30-50) without its times; `none` in a list
of recipients is a NULL list element.  The state and the status are those of a new object, 0, until
they are set; the status is set when the result is reported and is a part of the signal here.
`replied` tells a state X_REPLIED from the state X. -/
structure Result where
  recipients : List (Option Bytes) := []
  temporaryFailed : List (Option Bytes) := []
  rejected : List (Option Bytes) := []
  from_ : Option Bytes := none
  headers : List Header := []
  bodySize : Nat := 0
  added : List Header := []
  removed : List Header := []
  quarantine : Bool := false
  state : St := .invalid
  replied : Bool := false
deriving DecidableEq, Repr

/-- errors passed to `milter_error_emittable_emit` -/
inductive Err where
  | busy | ioError | newerVersion | invalidState | connectionFailure
deriving DecidableEq, Repr

/-- signals of a context; a reply signal carries the reply -/
inductive Signal where
  | reply (r : Reply)
  | stopped
  | messageProcessed (status : Status) (r : Result)
  | error (e : Err)
  | stateTransited (s : St)
  | connectionTimeout | writingTimeout | readingTimeout | endOfMessageTimeout
  | ready
deriving DecidableEq, Repr

/-- what can be seen from outside -/
inductive Item where
  /-- a packet with this command was handed to the agent, which reported no error -/
  | wrote (c : Cmd)
  | emit (s : Signal)
  /-- the value an API function returns.  (It is listed when the value is settled; handlers
  of a signal emitted by that function run before it actually returns.) -/
  | ret (b : Bool)
  /-- `milter_agent_shutdown` -/
  | shutdown
  /-- undefined behaviour: a NULL pointer is followed -/
  | ub
deriving DecidableEq, Repr

/-- when is "message-processed" emitted -/
inductive Cond where
  | always
  /-- state from ENVELOPE_FROM to END_OF_MESSAGE -/
  | inMessage
  /-- the same but not ENVELOPE_RECIPIENT -/
  | inMessageNotRecipient
  /-- state END_OF_MESSAGE -/
  | atEndOfMessage
deriving DecidableEq, Repr

/-- pieces of functions; see `act` -/
inductive Action where
  | enter (s : St)
  | abortFlushed
  | invalidNext
  | transited (s : St)
  | processed (c : Cond)
  | dropResult
  | resetMessage
  | clearIfBody
  | clearBody
  | setSkip
  | enterIfSent
  | flushRest
  | notProcessing
  | shutdownAgent
  | record (r : Reply)
deriving DecidableEq, Repr

/-- `struct _MilterServerContextPrivate` (79-119) and the interrupted functions -/
structure State where
  status : Status := .notChange
  rcptStatus : Status := .default
  state : St := .start
  nextStates : List St := []
  lastState : St := .start
  option : Option Opt := none
  /-- `timeout_id`, `none` for 0 -/
  timer : Option Timer := none
  skipBody : Bool := false
  body : Bytes := []
  bodyQueue : List Nat := []
  processBodyCount : Nat := 0
  sentEom : Bool := false
  negotiated : Bool := false
  processingMessage : Bool := false
  quitted : Bool := false
  currentRecipient : Option Bytes := none
  result : Option Result := none
  stack : List (List Action) := []
deriving DecidableEq, Repr

/-- `milter_server_context_init` (450-496) -/
def State.init : State := {}

/-- `milter_server_context_set_state` (786-831) -/
def setState (s : State) (n : St) : State :=
  { s with
    lastState := if St.negotiate.rank ≤ n.rank ∧ n.rank ≤ St.endOfMessage.rank then n else s.lastState
    state := n }

/-- `milter_server_context_is_processing` (960-968) -/
def isProcessing (s : State) : Bool := s.timer.isSome

/-- the step flag that tells that no reply is given in a state, in
`milter_server_context_need_reply` (1118-1149); 0 for the states without one -/
def noReplyFlag : St → UInt32
  | .connect => 0x1000
  | .helo => 0x2000
  | .envelopeFrom => 0x4000
  | .envelopeRecipient => 0x8000
  | .data => 0x10000
  | .header => 0x80
  | .endOfHeader => 0x40000
  | .body => 0x80000
  | .unknown => 0x20000
  | _ => 0

/-- `milter_server_context_need_reply` (1108-1150); `none` when there is no option (a NULL
pointer is followed) -/
def needReply (o : Option Opt) (st : St) : Option Bool :=
  o.map fun o => o.step &&& noReplyFlag st == 0

/-- `milter_server_context_is_enable_step` (1763-1772) -/
def isEnableStep (o : Option Opt) (flag : UInt32) : Bool :=
  match o with
  | some o => o.step &&& flag != 0
  | none => true

/-- `ensure_message_result` (545-552), and then something is written to it -/
def ensureResult (s : State) (f : Result → Result := id) : State :=
  { s with result := some (f (s.result.getD {})) }

/-- what is written to the result for a command (1888-1890, 1949-1951, 2006, 2093-2095, 2150-2151,
2205-2206, 2255-2257); `milter_headers_add_header` puts a header before others of its name; the
size is a `guint64`, which is not exceeded -/
def Result.told (c : Cmd) (x : Result) : Result :=
  match c with
  | .envelopeFrom f => { x with from_ := some f, state := .envelopeFrom, replied := false }
  | .envelopeRecipient r =>
    { x with recipients := x.recipients ++ [some r], state := .envelopeRecipient, replied := false }
  | .data => { x with state := .data, replied := false }
  | .header n v => { x with headers := Headers.add x.headers n (some v), state := .header, replied := false }
  | .endOfHeader => { x with state := .endOfHeader, replied := false }
  | .body b => { x with bodySize := x.bodySize + b.length, state := .body, replied := false }
  | .endOfMessage b => { x with bodySize := x.bodySize + b.length, state := .endOfMessage, replied := false }
  | _ => x

/-- the state set in `emit_message_processed_signal` (1071-1098).  It is set in what is reported;
the result in the context is dropped when the handlers return. -/
def Result.reported (x : Result) (st : St) : Result :=
  match st with
  | .envelopeFrom | .envelopeRecipient | .data | .header | .endOfHeader | .body | .endOfMessage =>
    { x with state := st, replied := true }
  | _ => x

/-- what is written to the result for a modification (2920-2922, 2955-2957, 2990-2992, 3023-3025,
3178-3179); `milter_headers_add_header` puts a header before others of its name -/
def Result.noted (r : Reply) (x : Result) : Result :=
  match r with
  | .addHeader n v => { x with added := Headers.add x.added n (some v) }
  | .insertHeader _ n v => { x with added := Headers.add x.added n v }
  | .changeHeader n _ v => { x with added := Headers.add x.added n (some v) }
  | .deleteHeader n _ => { x with removed := Headers.add x.removed n none }
  | .quarantine _ => { x with quarantine := true }
  | _ => x

/-- `milter_server_context_reset_message_related_data` (1824-1847) -/
def resetMessage (s : State) : State :=
  { s with
    skipBody := false
    processingMessage := false
    rcptStatus := .default
    bodyQueue := []
    processBodyCount := 0
    sentEom := false
    result := none }

/-- the tests guarding `emit_message_processed_signal` in the callers -/
def Cond.holds (s : State) : Cond → Bool
  | .always => true
  | .inMessage =>
    decide (St.envelopeFrom.rank ≤ s.state.rank ∧ s.state.rank ≤ St.endOfMessage.rank)
  | .inMessageNotRecipient =>
    decide (St.envelopeFrom.rank ≤ s.state.rank ∧ s.state.rank ≤ St.endOfMessage.rank ∧
      s.state ≠ .envelopeRecipient)
  | .atEndOfMessage => decide (s.state = .endOfMessage)

/-- what became of one action: it went through, or it emitted a signal (the last item), the
function going on with `after` when the handlers return -/
structure Out where
  st : State
  out : List Item
  paused : Bool
  after : List Action

def go (s : State) (out : List Item := []) : Out := ⟨s, out, false, []⟩
def pause (s : State) (out : List Item) (after : List Action := []) : Out := ⟨s, out, true, after⟩

/-- `write_packet` (1477-1622) for the command `c` leading to the state `next`; `ok` tells
whether the agent takes the packet.  The flag tells whether TRUE is returned. -/
def writePacket (s : State) (c : Cmd) (next : St) (ok : Bool) : Out × Bool :=
  if next ≠ .abort ∧ next ≠ .quit ∧ isProcessing s = true then
    (pause s [.emit (.error .busy)], false)
  else
    let s := if next = .abort ∨ next = .quit then s else { s with timer := some .writing }
    if ok then
      (go { s with nextStates := s.nextStates ++ [next] } [.wrote c], true)
    else (pause { s with timer := none } [.emit (.error .ioError)], false)

/-- a node with 0 is added to the queue of awaited answers, `append_body_response_queue`
(1183-1191) -/
def appendBodyQueue (s : State) : State := { s with bodyQueue := s.bodyQueue ++ [0] }

/-- `increment_process_body_count` (1193-1206), a `guint` -/
def incrementBodyQueue (s : State) : State :=
  match s.bodyQueue.getLast? with
  | some n => { s with bodyQueue := s.bodyQueue.dropLast ++ [(n + 1) % 4294967296] }
  | none => s

/-- `flush_body` (1208-1256).  The command written carries what
`milter_command_encoder_encode_body` puts in the packet. -/
def flushBody (s : State) (ok : Bool) : Out × Bool :=
  let s := appendBodyQueue s
  match writePacket s (.body (s.body.take (Enc.bodyPackedSize s.body))) .body ok with
  | (o, true) =>
    ({ o with st := incrementBodyQueue { o.st with body := o.st.body.drop (Enc.bodyPackedSize s.body) } },
      true)
  | (o, false) => (o, false)

/-- `process_next_state` (1301-1418) without the cases ABORT and INVALID, including
`process_next_state_body` (1258-1299) and `reset_end_of_message_timeout` (1152-1181) -/
def enter (s : State) (n : St) (ok : Bool) : Out :=
  let s := { s with timer := none }
  match n with
  | .endOfMessage =>
    let s := if s.processBodyCount = 0 then setState s n else { s with sentEom := true }
    go { s with timer := some .endOfMessage }
  | .body =>
    let s := setState s n
    if s.body.length = 0 then go s
    else match needReply s.option .body with
      | none => go s [.ub]
      | some true => go { s with timer := some .reading }
      | some false => (flushBody s ok).1
  | .quit => go (setState s n) [.shutdown]
  | n =>
    let s := if n = .envelopeFrom then { s with processingMessage := true } else s
    let s := setState s n
    match needReply s.option n with
    | none => go s [.ub]
    | some true => go { s with timer := some .reading }
    | some false => go s

/-- the case ABORT of `process_next_state` up to `emit_message_processed_signal` (1354,
1372-1383) -/
def abortFlushed (s : State) : State :=
  let s := { s with timer := none }
  let s :=
    if s.status.isPass = true ∧ St.defineMacro.rank ≤ s.state.rank ∧
        s.state.rank < St.endOfMessage.rank then
      if s.state = .envelopeRecipient ∧ s.rcptStatus ≠ .default then
        { s with status := s.rcptStatus }
      else { s with status := .abort }
    else s
  setState s .abort

/-- `clear_process_body_count` (2462-2476) -/
def clearBody (s : State) : State :=
  let s := { s with bodyQueue := [] }
  if s.sentEom then setState s .endOfMessage else s

/-- one action; `ok` is the answer of the agent should it be asked to write -/
def act (s : State) (ok : Bool) : Action → Out
  | .enter n => enter s n ok
  | .abortFlushed => go (abortFlushed s)
  | .invalidNext => pause s [.emit (.error .invalidState)]      -- 1329-1352
  | .transited n => pause s [.emit (.stateTransited n)]         -- 1469
  | .processed c =>                                             -- 1061-1106
    if c.holds s then
      match s.result with
      | some r => pause s [.emit (.messageProcessed s.status (r.reported s.state))] [.dropResult]
      | none => go s
    else go s
  | .dropResult => go { s with result := none }                 -- 1104-1105
  | .resetMessage => go (resetMessage s)
  | .clearIfBody => go (if s.state = .body then clearBody s else s)
  | .clearBody => go (clearBody s)
  | .setSkip => go { s with skipBody := true }                  -- 3271
  | .enterIfSent => go (if s.sentEom then setState s .endOfMessage else s)  -- 2513-2515
  | .flushRest =>                                               -- 2551-2557
    if 0 < s.body.length then (flushBody s ok).1 else go s
  | .notProcessing => go { s with processingMessage := false }  -- 2323
  | .shutdownAgent => go s [.shutdown]
  | .record r => go (ensureResult s (Result.noted r))

/-- run a function until it ends or emits a signal -/
def exec (s : State) (ok : Bool) : List Action → State × List Item
  | [] => (s, [])
  | a :: rest =>
    let o := act s ok a
    if o.paused then ({ o.st with stack := (o.after ++ rest) :: o.st.stack }, o.out)
    else
      let (s', out) := exec o.st ok rest
      (s', o.out ++ out)

/-- go on after a computed outcome -/
def andThen (ok : Bool) (o : Out) (rest : List Action) : State × List Item :=
  if o.paused then ({ o.st with stack := (o.after ++ rest) :: o.st.stack }, o.out)
  else
    let (s', out) := exec o.st ok rest
    (s', o.out ++ out)

/-- what `flushed` (1420-1475) does for one waiting state -/
def flushActions : St → List Action
  | .invalid => [.invalidNext, .transited .invalid]
  | .abort => [.abortFlushed, .processed .always, .resetMessage, .transited .abort]
  | n => [.enter n, .transited n]

/-- `flushed` (1420-1475) -/
def flushed (s : State) (ok : Bool) : State × List Item :=
  exec { s with nextStates := [] } ok (s.nextStates.flatMap flushActions)

/-- the step flag with which a milter declines a command, and the state the command leads
to; `none` for the flag: it cannot be declined -/
def commandStep : Cmd → Option UInt32 × St
  | .negotiate _ => (none, .negotiate)
  | .defineMacro _ _ => (none, .defineMacro)
  | .connect _ _ => (some 0x1, .connect)
  | .helo _ => (some 0x2, .helo)
  | .envelopeFrom _ => (some 0x4, .envelopeFrom)
  | .envelopeRecipient _ => (some 0x8, .envelopeRecipient)
  | .data => (some 0x200, .data)
  | .header _ _ => (some 0x20, .header)
  | .endOfHeader => (some 0x40, .endOfHeader)
  | .body _ => (some 0x10, .body)
  | .endOfMessage _ => (none, .endOfMessage)
  | .abort => (none, .abort)
  | .quit => (none, .quit)
  | .unknown _ => (some 0x100, .unknown)

/-- the return value is listed first: a paused function returns it after its handlers -/
def returning (o : Out × Bool) (rest : List Action := []) : State × List Item :=
  let (s, out) := andThen true o.1 rest
  (s, out ++ [.ret o.2])

/-- `stop_on_state` (1624-1652), the caller returning TRUE -/
def stopOn (s : State) (n : St) : State × List Item :=
  returning (pause (setState { s with status := .stop } n) [.emit .stopped], true)
    [.processed .inMessage]

/-- a command the milter declined: `set_state` and an answer on its behalf -/
def answer (s : State) (n : St) (r : Reply) : State × List Item :=
  returning (pause (setState s n) [.emit (.reply r)], true)

/-- the command functions 1654-2325; `stop` is the value returned by the handlers of the
stop-on-* signal of the command, `ok` the answer of the agent if asked to write -/
def command (s : State) (c : Cmd) (stop ok : Bool) : State × List Item :=
  match c with
  | .negotiate o =>                                             -- 1654-1692
    returning (writePacket { s with option := some o } c .negotiate ok)
  | .connect _ _ =>                                             -- 1774-1822
    if stop then stopOn s .connect
    else if isEnableStep s.option 0x1 then answer s .connect .cont
    else returning (writePacket s c .connect ok)
  | .helo _ =>                                                  -- 1694-1732
    if stop then stopOn s .helo
    else if isEnableStep s.option 0x2 then answer s .helo .cont
    else returning (writePacket s c .helo ok)
  | .envelopeFrom _ =>                                          -- 1849-1919
    let s := ensureResult { s with status := .notChange } (Result.told c)
    if stop then stopOn s .envelopeFrom
    else
      let s := { s with processingMessage := true }
      if isEnableStep s.option 0x4 then answer s .envelopeFrom .cont
      else returning (writePacket s c .envelopeFrom ok)
  | .envelopeRecipient r =>                                     -- 1921-1983
    let s := ensureResult { s with currentRecipient := some r } (Result.told c)
    if stop then stopOn s .envelopeRecipient
    else if isEnableStep s.option 0x8 then answer s .envelopeRecipient .cont
    else returning (writePacket s c .envelopeRecipient ok)
  | .data =>                                                    -- 1985-2034
    let s := ensureResult s (Result.told c)
    if stop then stopOn s .data
    else match s.option with
      | none => (s, [.ub])
      | some o =>
        if o.version < 4 ∨ isEnableStep s.option 0x200 = true then answer s .data .cont
        else returning (writePacket s c .data ok)
  | .unknown _ =>                                               -- 2036-2069
    if isEnableStep s.option 0x100 then answer s .unknown .cont
    else returning (writePacket s c .unknown ok)
  | .header _ _ =>                                              -- 2071-2126
    let s := ensureResult s (Result.told c)
    if stop then stopOn s .header
    else if isEnableStep s.option 0x20 then answer s .header .cont
    else returning (writePacket s c .header ok)
  | .endOfHeader =>                                             -- 2128-2181
    let s := ensureResult s (Result.told c)
    if stop then stopOn s .endOfHeader
    else if isEnableStep s.option 0x40 then answer s .endOfHeader .cont
    else returning (writePacket s c .endOfHeader ok)
  | .body chunk =>                                              -- 2183-2230
    let s := ensureResult s (Result.told c)
    if stop then stopOn s .body
    else if isEnableStep s.option 0x10 then answer s .body .skip
    else returning (flushBody { s with body := s.body ++ chunk } ok)
  | .endOfMessage _ =>                                          -- 2232-2278
    let s := ensureResult s (Result.told c)
    if stop then stopOn s .endOfMessage
    else returning (writePacket s c .endOfMessage ok)
  | .quit =>                                                    -- 2280-2300
    returning (writePacket { s with quitted := true } c .quit ok)
  | .abort =>                                                   -- 2303-2325
    returning (writePacket s c .abort ok) [.notProcessing]
  | .defineMacro _ _ => (s, [])   -- no such function: macros travel with the commands

/-- the states in which `cb_decoder_continue` and `cb_decoder_reply_code` report (2547-2568,
2639-2652) -/
def answerable : St → Bool
  | .connect | .helo | .envelopeFrom | .envelopeRecipient | .unknown | .data | .header
  | .endOfHeader | .body | .endOfMessage => true
  | _ => false

/-- `milter_message_result_remove_recipient` (core/milter-message-result.c 486-502):
`g_list_remove_link` detaches the node, so the loop ends at the first match.  `none` as
argument is NULL, which `strcmp` must not be given. -/
def removeRecipient (l : List (Option Bytes)) (r : Option Bytes) : List (Option Bytes) := l.erase r

/-- a refused recipient: the head of `cb_decoder_reply_code` (2614-2627),
`cb_decoder_temporary_failure` (2683-2691) and `cb_decoder_reject` (2745-2753) -/
def refuseRecipient (s : State) (st : Status) : State × List Item :=
  let s := ensureResult { s with rcptStatus := st }
  match s.result with
  | none => (s, [])
  | some r =>
    if s.currentRecipient = none ∧ r.recipients ≠ [] then (s, [.ub])
    else
      let r := { r with recipients := removeRecipient r.recipients s.currentRecipient }
      let r := if st = .temporaryFailure
        then { r with temporaryFailed := r.temporaryFailed ++ [s.currentRecipient] }
        else { r with rejected := r.rejected ++ [s.currentRecipient] }
      ({ s with result := some r, currentRecipient := none }, [])

/-- the status a refusal leaves behind -/
def refuse (s : State) (st : Status) : State × List Item :=
  if s.state = .envelopeRecipient then refuseRecipient s st else ({ s with status := st }, [])

/-- `400 <= code && code < 500` (2608-2612) -/
def codeStatus (code : Nat) : Status :=
  if 400 ≤ code ∧ code < 500 then .temporaryFailure else .reject

/-- `decrement_process_body_count` (2478-2519) followed by the rest of the body case of
`cb_decoder_continue` (2551-2557) -/
def continueBody (s : State) (ok : Bool) : State × List Item :=
  match s.bodyQueue with
  | [] => exec s ok [.flushRest]
  | n :: q =>
    let n := (n + 4294967295) % 4294967296
    if n = 0 then
      andThen ok (pause { s with bodyQueue := q } [.emit (.reply .cont)]) [.enterIfSent, .flushRest]
    else exec { s with bodyQueue := n :: q } ok [.flushRest]

/-- `invalid_state` (2353-2390) -/
def invalidState (s : State) : State × List Item :=
  andThen true (pause s [.emit (.error .invalidState)]) []

/-- report a reply unless quit was sent (`check_reply_after_quit`, 2327-2351), then go on -/
def report (s : State) (r : Reply) (rest : List Action) : State × List Item :=
  if s.quitted then (s, []) else andThen true (pause s [.emit (.reply r)]) rest

/-- the modification replies (2896-3183): only at end of message -/
def modification (s : State) (r : Reply) (rest : List Action) : State × List Item :=
  if s.state = .endOfMessage then report s r rest else invalidState s

/-- the decoder callbacks 2392-3275 -/
def reply (s : State) (r : Reply) (ok : Bool) : State × List Item :=
  match r with
  | .negotiate o _ =>                                           -- 2392-2460
    let s := { s with timer := none }
    let (combined, s) := match s.option with
      | some mine => ((Opt.combine mine o).1, { s with option := some (Opt.combine mine o).2 })
      | none => (true, { s with option := some o })
    if !combined then andThen true (pause s [.emit (.error .newerVersion)]) []
    else if s.state = .negotiate then
      if s.quitted then (s, [])
      else report { s with negotiated := true } r []
    else invalidState s
  | .cont =>                                                    -- 2521-2585
    let s := { s with timer := none }
    if s.state = .body then (if s.quitted then (s, []) else continueBody s ok)
    else if answerable s.state then report s .cont [.processed .atEndOfMessage]
    else invalidState s
  | .replyCode code _ _ =>                                      -- 2587-2673
    let (s, out) := refuse s (codeStatus code)
    let s := { s with timer := none }
    let (s, o) :=
      if answerable s.state then
        let s := if s.state = .body ∧ s.quitted = false then clearBody s else s
        report s r [.processed .inMessageNotRecipient]
      else invalidState s
    (s, out ++ o)
  | .temporaryFailure =>                                        -- 2675-2735
    let (s, out) := refuse s .temporaryFailure
    let (s, o) := report { s with timer := none } r [.processed .inMessageNotRecipient, .clearIfBody]
    (s, out ++ o)
  | .reject =>                                                  -- 2737-2797
    let (s, out) := refuse s .reject
    let (s, o) := report { s with timer := none } r [.processed .inMessageNotRecipient, .clearIfBody]
    (s, out ++ o)
  | .accept =>                                                  -- 2799-2846
    report { s with status := .accept, timer := none } r [.processed .inMessage, .clearIfBody]
  | .discard =>                                                 -- 2848-2894
    report { s with status := .discard, timer := none } r [.processed .inMessage, .clearIfBody]
  | .addHeader _ _ | .insertHeader _ _ _ | .changeHeader _ _ _ | .deleteHeader _ _ =>
    modification s r [.record r]                                -- 2896-3029
  | .changeFrom _ _ | .addRecipient _ _ | .deleteRecipient _ | .replaceBody _ =>
    modification s r []                                         -- 3031-3132
  | .progress =>                                                -- 3134-3154
    if s.state = .endOfMessage ∧ s.quitted = false
    then report { s with timer := some .endOfMessage } r []
    else modification s r []
  | .quarantine _ =>                                            -- 3156-3183
    modification { s with status := .quarantine } r [.record r]
  | .connectionFailure =>                                       -- 3185-3214
    report { s with status := .error, timer := none } r []
  | .shutdown =>                                                -- 3216-3242
    report { s with timer := none } r []
  | .skip =>                                                    -- 3244-3275
    let s := { s with timer := none }
    if s.state = .body then report s r [.clearBody, .setSkip] else invalidState s

/-- the timeout callbacks 882-958 and 3348-3371 -/
def timeout (s : State) : State × List Item :=
  match s.timer with
  | some .writing =>
    andThen true (pause { s with timer := some .fired } [.emit .writingTimeout]) [.shutdownAgent]
  | some .reading =>
    andThen true (pause { s with timer := some .fired } [.emit .readingTimeout]) [.shutdownAgent]
  | some .endOfMessage =>
    andThen true (pause { s with timer := some .fired } [.emit .endOfMessageTimeout]) [.shutdownAgent]
  | some .connection =>
    andThen true (pause { s with timer := some .fired } [.emit .connectionTimeout]) []
  | some .fired | none => (s, [])

/-- what can happen to a context -/
inductive Event where
  | command (c : Cmd) (stop ok : Bool)
  /-- the milter's reply was decoded -/
  | reply (r : Reply) (ok : Bool)
  /-- the writer reports that everything was written -/
  | flushed (ok : Bool)
  /-- the handlers of the last signal emitted return -/
  | handlerReturns (ok : Bool)
  | timeout
  /-- `milter_server_context_establish_connection` (3461-3578); FALSE when it fails -/
  | establish (ok : Bool)
  /-- `connect_watch_func` (3403-3459) -/
  | connected (ok : Bool)
  /-- setters used by the manager (773-778, 786-831, 3700-3705, 3718-3723) -/
  | setStatus (st : Status)
  | setState (st : St)
  | setProcessingMessage (b : Bool)
  | setQuitted (b : Bool)
deriving DecidableEq, Repr

/-- one event -/
def step (s : State) : Event → State × List Item
  | .command c stop ok => command s c stop ok
  | .reply r ok => reply s r ok
  | .flushed ok => flushed s ok
  | .handlerReturns ok =>
    match s.stack with
    | [] => (s, [])
    | f :: stack => exec { s with stack := stack } ok f
  | .timeout => timeout s
  | .establish ok => ({ s with timer := if ok then some .connection else none }, [.ret ok])
  | .connected ok =>
    andThen true (pause { s with timer := none }
      [.emit (if ok then .ready else .error .connectionFailure)]) []
  | .setStatus st => ({ s with status := st }, [])
  | .setState n => (setState s n, [])
  | .setProcessingMessage b => ({ s with processingMessage := b }, [])
  | .setQuitted b => ({ s with quitted := b }, [])

/-- one line of a history: the option in force before the event, the event, what it led to,
and the state the context reports afterwards -/
structure Line where
  option : Option Opt
  event : Event
  state : St
  out : List Item

/-- a history -/
def run (s : State) : List Event → State × List Line
  | [] => (s, [])
  | e :: es =>
    let (s1, out) := step s e
    let (s2, t) := run s1 es
    (s2, ⟨s.option, e, s1.state, out⟩ :: t)

/-- `milter_server_context_has_accepted_recipient` (3763-3785) -/
def hasAcceptedRecipient (s : State) : Bool :=
  match s.result with
  | none => true
  | some r =>
    if r.rejected = [] ∧ r.temporaryFailed = [] then true else decide (r.recipients ≠ [])

/-- `milter_server_context_is_quitted` (3707-3716) -/
def isQuitted (s : State) : Bool := if !s.negotiated then true else s.quitted

/-- `milter_server_context_is_processing_message` (3680-3691) -/
def isProcessingMessage (s : State) : Bool :=
  if !s.negotiated then false else if s.quitted then false else s.processingMessage

end Verif.Server
