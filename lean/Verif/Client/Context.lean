import Verif.Core.BodyChunks
import Verif.Core.Status
import Verif.Core.ProtocolAgent
import Verif.Client.SetReply
/-
The context a milter talks to the MTA through: milter/client/milter-client-context.c, with the part of
milter/core/milter-agent.c it inherits.

Everything that happens is recorded in `log`: commands that arrive, calls the milter makes with their result,
responses, the packets given to the writer, errors and finished messages.  How the writer passes
bytes to the socket is `Core/Writer.lean`; here it is ready, closed or absent.

Left out: logging, message results (only whether there is one), socket address, private data, the
reference counts of the objects, what the handlers of `*-response`, `define-macro`, `error`, `timeout`
and `message-processed` do besides the context's own, `set_state`, `set_status`, `set_option`,
`set_message_result`, `set_timeout` and `feed` (the API sets fields directly with them).  `use_bytes`
only selects which of two signals with the same content is emitted.
-/
namespace Verif.Client
open Verif

/-- commands the milter answers -/
inductive Kind where
  | negotiate | connect | helo | envelopeFrom | envelopeRecipient | data | unknown | header | endOfHeader
  | body | endOfMessage
deriving DecidableEq, Repr

/-- `MilterClientContextState`, client/milter-client-context.h:378-409 (`INVALID` and `QUIT_REPLIED` are never
set) -/
inductive St where
  | start
  | doing (k : Kind)
  | replied (k : Kind)
  | quit | abort | abortReplied | finished
deriving DecidableEq, Repr

/-- the writer of the agent: none, started, or shut down (`milter_writer_write` and `milter_writer_flush` fail
exactly then, core/milter-writer.c:434-452, 485-503) -/
inductive Link where
  | absent | ready | closed
deriving DecidableEq, Repr

/-- calls of the milter on its context; a NULL string is `none` -/
inductive Call where
  | setReply (code : Nat) (ext message : Option Bytes)
  | addHeader (name value : Option Bytes)
  | insertHeader (index : Nat) (name value : Option Bytes)
  | changeHeader (name : Option Bytes) (index : Nat) (value : Option Bytes)
  | deleteHeader (name : Option Bytes) (index : Nat)
  | changeFrom (sender parameters : Option Bytes)
  | addRecipient (recipient parameters : Option Bytes)
  | deleteRecipient (recipient : Option Bytes)
  | replaceBody (body : Bytes)
  | progress
  | quarantine (reason : Option Bytes)
  | flush
  | setBufferSize (size : Nat)
  | setShelf (key : Bytes) (value : Bytes)
  /-- emission of `negotiate-response` -/
  | respondNegotiate (option : Option Opt) (requests : Option Requests) (status : Status)
  /-- emission of `connect-response`, ..., `end-of-message-response` -/
  | respond (k : Kind) (status : Status)
  /-- emission of `abort-response` -/
  | respondAbort (status : Status)
deriving DecidableEq, Repr

/-- what happens on a context -/
inductive Event where
  | got (c : Cmd)
  | called (c : Call) (ok : Bool)
  | answeredNegotiate (option : Option Opt) (status : Status)
  | answered (k : Kind) (status : Status)
  | wrote (packet : Bytes)
  | error
  | processed (status : Status)
  | timedOut
  | shutdown
deriving DecidableEq, Repr

/-- `MilterClientContextPrivate`, client/milter-client-context.c:96-118, and what is used of the agent -/
structure State where
  st : St := .start
  last : St := .start
  status : Status := .notChange
  option : Option Opt := none
  custom : SetReply.Custom := {}
  quarantine : Option Bytes := none
  buffered : Bytes := []
  buffering : Bool := false
  bufferSize : Nat := 0
  /-- a message result exists -/
  result : Bool := false
  /-- the timeout for the next command is running -/
  timer : Bool := false
  shelf : List (Bytes × Bytes) := []
  agent : Macros.Agent := Macros.Agent.init
  /-- buffer of the reply encoder -/
  enc : Bytes := []
  link : Link := .ready
  log : List Event := []

/-- record an event -/
def State.note (s : State) (e : Event) : State := { s with log := s.log ++ [e] }

/-- `milter_writer_write`, core/milter-writer.c:427-476, as far as the caller sees it: an empty chunk is
ignored -/
def writerWrite (s : State) (p : Bytes) : Bool × State :=
  match s.link with
  | .ready => (true, if p = [] then s else s.note (.wrote p))
  | _ => (false, s)

/-- `flush` of the parent class, core/milter-agent.c:336-350 -/
def parentFlush (s : State) : Bool :=
  match s.link with
  | .closed => false
  | _ => true

/-- `write_packet_without_error_handling`, client/milter-client-context.c:2637-2671, with
`milter_agent_write_packet`, core/milter-agent.c:520-539, while no packets are being buffered -/
def writeInner (s : State) (p : Bytes) : Bool × State :=
  let s := { s with timer := true }
  match s.link with
  | .absent => (true, s)
  | _ =>
    let (ok, s) := writerWrite s p
    if ok then (parentFlush s, s) else (false, s)

/-- `flush`, client/milter-client-context.c:4302-4349 -/
def flush (s : State) : Bool × State :=
  if s.buffering then
    let (ok, s') := writeInner { s with buffering := false } s.buffered
    let s' := if ok then s' else s'.note .error
    let s' := { s' with buffered := [] }
    if ok then (parentFlush s', s') else (false, s')
  else (parentFlush s, s)

/-- `write_packet`, client/milter-client-context.c:2673-2692: after the packet the agent is flushed, buffered packets
included -/
def writePacket (s : State) (p : Bytes) : Bool × State :=
  let s := { s with timer := true }
  match s.link with
  | .absent => (true, s)
  | _ =>
    let (ok, s) := writerWrite s p
    if ok then
      let (ok, s) := flush s
      (ok, if ok then s else s.note .error)
    else (false, s.note .error)

/-- `write_packet_on_end_of_message`, client/milter-client-context.c:2763-2804 -/
def writeOnEndOfMessage (s : State) (p : Bytes) : Bool × State :=
  let s := { s with buffered := s.buffered ++ p, buffering := true }
  if s.buffered.length > s.bufferSize then
    let (ok, s) := flush s
    (ok, if ok then s else s.note .error)
  else (true, s)

/-- encode a reply: the packet (empty for none) and the state with the encoder's new buffer -/
def encode (order : Requests → Requests) (s : State) (r : Reply) : Bytes × State :=
  let (enc, p) := Enc.encodeReply order s.enc r
  (p.getD [], { s with enc := enc })

/-- action flags, core/milter-option.h:37-56: ADD_HEADERS 1, CHANGE_BODY 2, ADD_ENVELOPE_RECIPIENT 4,
DELETE_ENVELOPE_RECIPIENT 8, CHANGE_HEADERS 16, QUARANTINE 32, CHANGE_ENVELOPE_FROM 64 -/
def addHeadersFlag : UInt32 := 0x01
@[inherit_doc addHeadersFlag] def changeBodyFlag : UInt32 := 0x02
@[inherit_doc addHeadersFlag] def addRecipientFlag : UInt32 := 0x04
@[inherit_doc addHeadersFlag] def deleteRecipientFlag : UInt32 := 0x08
@[inherit_doc addHeadersFlag] def changeHeadersFlag : UInt32 := 0x10
@[inherit_doc addHeadersFlag] def changeFromFlag : UInt32 := 0x40

/-- `validate_state` for the end of the message, client/milter-client-context.c:2694-2721 -/
def validState (s : State) : Bool := s.st == .doing .endOfMessage

/-- `validate_action`, client/milter-client-context.c:2723-2761 -/
def validAction (s : State) (flag : UInt32) : Bool :=
  match s.option with
  | none => false
  | some o => o.action &&& flag == flag

/-- a modification with one packet: checks, encoding and writing, client/milter-client-context.c:2826-2847,
2869-2891, 2914-2935, 2958-2978, 3011-3032, 3065-3087, 3116-3135 -/
def modify (order : Requests → Requests) (s : State) (flag : UInt32) (r : Reply) : Bool × State :=
  if !validState s then (false, s)
  else if !validAction s flag then (false, s)
  else
    let (p, s) := encode order s r
    writeOnEndOfMessage s p

/-- the loop of `milter_client_context_replace_body`, client/milter-client-context.c:3179-3197, over the packets
`replaceBodyLoop` encodes -/
def writeBody : List Bytes → State → Bool × State
  | [], s => (true, s)
  | p :: ps, s =>
    let (ok, s) := writeOnEndOfMessage { s with enc := p } p
    if ok then writeBody ps s else (false, s)

/-- `milter_client_context_replace_body`, client/milter-client-context.c:3152-3200 -/
def replaceBody (order : Requests → Requests) (s : State) (body : Bytes) : Bool × State :=
  if !validState s then (false, s)
  else if !validAction s changeBodyFlag then (false, s)
  else writeBody (Enc.replaceBodyLoop order s.enc body) s

/-- the custom reply as text, `milter_client_context_format_reply`, client/milter-client-context.c:2616-2626 -/
def formatReply (s : State) : Option Bytes :=
  ReplyCode.format s.custom.code s.custom.ext s.custom.message

/-- the packet of content `c`, which replaces what the encoder's buffer held -/
def packContent (s : State) (c : Bytes) : Option Bytes × State :=
  (some (Enc.pack c), { s with enc := Enc.pack c })

/-- `create_reply_packet`, client/milter-client-context.c:3291-3341, with
`milter_reply_encoder_encode_reply_code`, core/milter-reply-encoder.c:142-165 -/
def createReplyPacket (s : State) (status : Status) : Option Bytes × State :=
  match status with
  | .continue_ => packContent s [0x63]
  | .temporaryFailure =>
    match formatReply s with
    | some text => packContent s (0x79 :: (text ++ [0]))
    | none => packContent s [0x74]
  | .reject =>
    match formatReply s with
    | some text => packContent s (0x79 :: (text ++ [0]))
    | none => packContent s [0x72]
  | .accept => packContent s [0x61]
  | .discard => packContent s [0x64]
  | .skip => packContent s [0x73]
  | _ => (none, s)

/-- `reply`, client/milter-client-context.c:3343-3355 -/
def reply (s : State) (status : Status) : State :=
  match createReplyPacket s status with
  | (none, s) => s
  | (some p, s) => (writePacket s p).2

/-- `reply_on_end_of_message`, client/milter-client-context.c:3357-3406.  (An empty reason has no packet.) -/
def replyOnEndOfMessage (order : Requests → Requests) (s : State) (status : Status) : State :=
  match flush s with
  | (false, s) => s.note .error
  | (true, s) =>
    match createReplyPacket s status with
    | (none, s) => s
    | (some p, s) =>
      match s.quarantine with
      | none => (writePacket s p).2
      | some reason =>
        let (q, s) := encode order s (.quarantine reason)
        (writePacket s (q ++ p)).2

/-- `milter_client_context_set_state`, client/milter-client-context.c:4393-4418 -/
def setSt (s : State) (st : St) : State :=
  match st with
  | .doing k => { s with st := st, last := .doing k }
  | _ => { s with st := st }

/-- DEFAULT becomes CONTINUE, client/milter-client-context.c:3574-3575 and the like -/
def orContinue (status : Status) : Status := if status = .default then .continue_ else status

/-- `emit_message_processed_signal`, client/milter-client-context.c:3812-3855 -/
def messageProcessed (s : State) : State :=
  if s.result then { s.note (.processed s.status) with result := false } else s

/-- `negotiate_response`, client/milter-client-context.c:3506-3567 -/
def respondNegotiate (order : Requests → Requests) (s : State) (option : Option Opt) (requests : Option Requests)
    (status : Status) : State :=
  let status := if status = .default then .allOptions else status
  let s := setSt { s with status := status } (.replied .negotiate)
  let s := if status = .continue_ then { s with option := option } else s
  if status = .continue_ ∨ status = .allOptions then
    let content := Enc.negotiateContent s.option ++
      (match requests with | none => [] | some r => Enc.macrosRequests order r)
    let p := Enc.pack (s.enc ++ content)
    (writePacket { s with enc := p } p).2
  else if status = .reject then
    match packContent s [0x72] with
    | (some p, s) => (writePacket s p).2
    | (none, s) => s
  else s

/-- `connect_response`, ..., `body_response`, client/milter-client-context.c:3569-3810, and
`end_of_message_response`, 3857-3884 -/
def respond (order : Requests → Requests) (s : State) (k : Kind) (status : Status) : State :=
  let status := orContinue status
  let s := setSt { s with status := status } (.replied k)
  match k with
  | .negotiate => s
  | .endOfMessage => messageProcessed (replyOnEndOfMessage order s status)
  | _ => reply s status

/-- the last command was one up to the body, client/milter-client-context.c:3911-3913 -/
def beforeEndOfMessage : St → Bool
  | .doing k => k != .endOfMessage
  | _ => false

/-- `abort_response`, client/milter-client-context.c:3886-3919 -/
def respondAbort (s : State) (status : Status) : State :=
  let status := if status = .default ∨ status = .notChange then .abort else status
  let s := if s.status.isPass && beforeEndOfMessage s.last then { s with status := status } else s
  setSt s .abortReplied

/-- a string that is there, and not empty -/
def nonEmpty : Option Bytes → Option Bytes
  | some [] => none
  | x => x

/-- One call of the API: its result, and the state after it.  Calls without a result count as successful. -/
def call (order : Requests → Requests) (s : State) : Call → Bool × State
  | .setReply code ext message =>                                       -- 2568-2614
    let (ok, custom) := SetReply.setReply s.custom code ext message
    (ok, { s with custom := custom })
  | .addHeader name value =>                                            -- 2806-2847
    match name, value with
    | some n, some v => modify order s addHeadersFlag (.addHeader n v)
    | _, _ => (false, s)
  | .insertHeader index name value =>                                   -- 2849-2892
    match name, value with
    | some n, some v => modify order s addHeadersFlag (.insertHeader index n (some v))
    | _, _ => (false, s)
  | .changeHeader name index value =>                                   -- 2894-2936
    match name with
    | some n => modify order s changeHeadersFlag (match value with
      | some v => .changeHeader n index v
      | none => .deleteHeader n index)
    | none => (false, s)
  | .deleteHeader name index =>                                         -- 2938-2979
    match name with
    | some n => modify order s changeHeadersFlag (.deleteHeader n index)
    | none => (false, s)
  | .changeFrom sender parameters =>                                    -- 2981-3033
    match nonEmpty sender with
    | some f => modify order s changeFromFlag (.changeFrom f parameters)
    | none => (false, s)
  | .addRecipient recipient parameters =>                               -- 3035-3088
    match nonEmpty recipient with
    | some r => modify order s addRecipientFlag (.addRecipient r parameters)
    | none => (false, s)
  | .deleteRecipient recipient =>                                       -- 3090-3136
    match nonEmpty recipient with
    | some r => modify order s deleteRecipientFlag (.deleteRecipient r)
    | none => (false, s)
  | .replaceBody body => replaceBody order s body                       -- 3152-3200
  | .progress =>                                                        -- 3237-3252
    let (p, s) := encode order s .progress
    writePacket s p
  | .quarantine reason => (true, { s with quarantine := reason })       -- 3254-3274
  | .flush => flush s                                                   -- core/milter-agent.c:541-548
  | .setBufferSize size => (true, { s with bufferSize := size })        -- 4546-4554
  | .setShelf key value =>                                              -- g_hash_table_replace
    (true, { s with shelf := (key, value) :: s.shelf.filter (fun e => e.1 != key) })
  | .respondNegotiate option requests status => (true, respondNegotiate order s option requests status)
  | .respond k status => (true, respond order s k status)
  | .respondAbort status => (true, respondAbort s status)

/-- what is recorded of a call: the response itself before what it writes, other calls with their result after -/
def callNoted (order : Requests → Requests) (s : State) (c : Call) : State :=
  match c with
  | .respondNegotiate option _ status => (call order (s.note (.answeredNegotiate option status)) c).2
  | .respond k status => (call order (s.note (.answered k status)) c).2
  | _ =>
    let (ok, s) := call order s c
    s.note (.called c ok)

/-- a signal handler of the milter: the calls it makes and what it returns -/
structure Handler where
  calls : List Call
  returns : Status
deriving DecidableEq, Repr

/-- the calls of a handler -/
def runCalls (order : Requests → Requests) (s : State) (calls : List Call) : State :=
  calls.foldl (callNoted order) s

/-- `status_accumulator`, client/milter-client-context.c:4351-4367: the new accumulated status and whether the
emission goes on -/
def accumulate (acc returned : Status) : Status × Bool :=
  let acc := if returned ≠ .notChange then returned else acc
  (acc, acc = .default ∨ acc = .continue_ ∨ acc = .allOptions)

/-- `g_signal_emit` with that accumulator: the handlers in order, until it says stop -/
def emit (order : Requests → Requests) : List Handler → State → Status → State × Status
  | [], s, acc => (s, acc)
  | h :: hs, s, acc =>
    let s := runCalls order s h.calls
    let (acc, more) := accumulate acc h.returns
    if more then emit order hs s acc else (s, acc)

/-- handlers followed by the class's own (`default_connect`, ..., 3409-3495), which returns `own` -/
def emitAll (order : Requests → Requests) (s : State) (handlers : List Handler) (own : Status) : State × Status :=
  emit order (handlers ++ [⟨[], own⟩]) s .default

/-- kind and macro context of a command, client/milter-client-context.c:3985-4239 (`unknown` sets no macro
context) -/
def kindOf : Cmd → Option (Kind × Option Macros.Context)
  | .negotiate _ => some (.negotiate, none)
  | .connect _ _ => some (.connect, some 0x43)
  | .helo _ => some (.helo, some 0x48)
  | .envelopeFrom _ => some (.envelopeFrom, some 0x4d)
  | .envelopeRecipient _ => some (.envelopeRecipient, some 0x52)
  | .unknown _ => some (.unknown, none)
  | .data => some (.data, some 0x54)
  | .header _ _ => some (.header, some 0x4c)
  | .endOfHeader => some (.endOfHeader, some 0x4e)
  | .body _ => some (.body, some 0x42)
  | .endOfMessage _ => some (.endOfMessage, some 0x45)
  | .defineMacro _ _ | .abort | .quit => none

/-- what each `cb_decoder_*` of a command with an answer does before the signal: state, message result, timer,
macro context; the end of the message forgets the quarantine reason, 4206-4209 -/
def enter (s : State) (k : Kind) (context : Option Macros.Context) : State :=
  let s := setSt s (.doing k)
  let s := { s with result := true, timer := false }
  let s := match context with | some c => { s with agent := s.agent.setContext c } | none => s
  if k = .endOfMessage then { s with quarantine := none } else s

/-- `milter_client_context_reset_message_related_data`, client/milter-client-context.c:3276-3289 -/
def resetMessage (s : State) : State :=
  { s with agent := s.agent.clearMessage, shelf := [], result := false }

/-- `milter_agent_shutdown`, core/milter-agent.c:644-674: the writer is closed and dropped.  (Reader and `finished`:
only the state is set, `finished`, client/milter-client-context.c:3921-3937.) -/
def shutdown (s : State) : State :=
  setSt { s.note .shutdown with link := .absent } .finished

/-- a macro table as a hash table -/
def tableOf (t : MacroTable) : Macros.Table := fun n => (t.lookup n).getD none

/-- A command arrives, `cb_decoder_*`, client/milter-client-context.c:3940-4263.  For a negotiation `chosen` and
`requests` are the option and the macros requests as the handlers leave them. -/
def receive (order : Requests → Requests) (s : State) (c : Cmd) (handlers : List Handler)
    (chosen : Option Opt) (requests : Option Requests) : State :=
  let s := s.note (.got c)
  match c with
  | .defineMacro context macros =>
    { s with timer := false, agent := s.agent.setTable context (tableOf macros) }
  | .quit => shutdown (setSt s .quit)
  | .abort =>
    let s := { setSt s .abort with timer := false }
    let (s, status) := emitAll order s handlers .default
    let s := resetMessage s
    if status = .progress then s else callNoted order s (.respondAbort status)
  | .negotiate o =>
    let s := { enter s .negotiate none with option := some o }
    let (s, status) := emitAll order s handlers .notChange
    if status = .progress then s else callNoted order s (.respondNegotiate chosen requests status)
  | c =>
    match kindOf c with
    | none => s
    | some (k, context) =>
      let s := enter s k context
      let (s, status) := emitAll order s handlers .notChange
      if status = .progress then s else callNoted order s (.respond k status)

/-- what can happen to a context from outside -/
inductive Op where
  | command (c : Cmd) (handlers : List Handler) (chosen : Option Opt) (requests : Option Requests)
  | call (c : Call)
  /-- `cb_timeout`, client/milter-client-context.c:2628-2635; only while the timer runs -/
  | timeout
  /-- the writer is closed, e.g. after an error on the socket -/
  | close
deriving DecidableEq

/-- one step -/
def step (order : Requests → Requests) (s : State) : Op → State
  | .command c handlers chosen requests => receive order s c handlers chosen requests
  | .call c => callNoted order s c
  | .timeout => if s.timer then shutdown { s.note .timedOut with timer := false } else s
  | .close => if s.link = .ready then { s with link := .closed } else s

/-- a whole session -/
def run (order : Requests → Requests) (s : State) (ops : List Op) : State := ops.foldl (step order) s

end Verif.Client
