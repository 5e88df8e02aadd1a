import Verif.Server.Context
import Verif.Core.Headers
import Verif.Manager.HeaderDiff
/-
The manager's aggregate of milters: `milter/manager/milter-manager-children.c`.

Each milter is a complete server context (`Server/Context.lean`) plus what the manager keeps
about it.  Functions are written in the state monad `M`.  The only recursion in the C file goes
through signals: a handler calls a function of a context, which emits a signal before it returns,
whose handler runs.  It is represented by the parameter `d` of type `Dispatch`; `dispatch n`
allows at most `n` nested emissions, and a computation that needs more has no result.  Theorems
about all results, for all `n`, therefore are about every execution that returns.

Simplifications: logging, statistics and tags are left out, and so are the macros and macro
requests (`define_macro`, see `Server/Macros.lean` and `Core/MacrosRequests.lean`).  Milters are
not launched (`milter_manager_children_start_child` fails, which is what it does when the manager
does not run privileged or has no launcher).  Opening, writing, seeking and reading the temporary
file for large bodies succeed.  Handlers of the signals of the children object do not call back
before they return (the only user is `milter-manager-leader.c`, whose handlers just write to the
MTA).
-/
namespace Verif.Children
open Verif
open Verif.Server (St)

/-- `MAX_ON_MEMORY_BODY_SIZE` (31) -/
@[irreducible] def maxOnMemory : Nat := 5242880

/-- `MAX_SUPPORTED_MILTER_PROTOCOL_VERSION` (33) -/
def maxVersion : UInt32 := 6

/-- `PendingMessageRequest` (see 300-400): a message command kept while a DATA command is
emulated -/
inductive Pending where
  | header (name value : Bytes)
  | endOfHeader
  | body (chunk : Bytes)
  | endOfMessage (chunk : Bytes)
deriving DecidableEq, Repr

/-- one milter: its context, configuration, whether the handlers of the children object are
connected to its signals, and its `NegotiateData` (114-124), if any: `is_retry`, and whether the
retry timer is running -/
structure Kid where
  ctx : Server.State := {}
  fallback : Status := .accept
  evaluation : Bool := false
  linked : Bool := false
  tryRetry : Option Bool := none
  waiting : Bool := false

/-- the signals the children object itself emits -/
inductive Emit where
  /-- a reply signal -/
  | reply (r : Reply)
  /-- "insert-header", "add-header", "change-header", "delete-header" -/
  | edit (e : HeaderDiff.Edit)
  | negotiateReply (o : Opt)
  | abort
  /-- "error"; `own` if its domain is MILTER_MANAGER_CHILDREN_ERROR -/
  | error (own : Bool)
  | finished
deriving DecidableEq, Repr

/-- what can be seen from outside -/
inductive Out where
  /-- a packet with this command was handed to the agent of milter `i` -/
  | sent (i : Nat) (c : Cmd)
  /-- a signal of the context of milter `i` was handled by the children object -/
  | heard (i : Nat) (s : Server.Signal)
  /-- the connection to milter `i` is closed -/
  | closed (i : Nat)
  | emit (e : Emit)
  /-- undefined behaviour -/
  | ub
deriving DecidableEq, Repr

/-- `struct _MilterManagerChildrenPrivate` (47-112) with the milters 0, ..., `count` - 1.
`oracle` is consumed by the calls of contexts: whether the handlers of the stop-on-* signal say
stop, and whether the agent takes the packet. -/
structure Sys where
  count : Nat
  kids : Nat → Kid
  /-- the `chunk_size` of the configuration -/
  chunkSize : Nat
  replyQueue : List Nat := []
  waitingQueue : List Nat := []
  commandQueue : List St := []
  pending : Option Pending := none
  option : Option Opt := none
  initialYes : UInt32 := 0
  requestedYes : UInt32 := 0
  negotiated : Bool := false
  allExpired : Bool := false
  state : St := .start
  processingState : St := .start
  statuses : St → Status := fun _ => .notChange
  code : Option (Nat × Bytes × Option Bytes) := none
  originalHeaders : Option (List Header) := none
  headers : Option (List Header) := none
  headerIndex : Nat := 0
  body : Option Bytes := none
  /-- content and position of the temporary file -/
  bodyFile : Option (Bytes × Nat) := none
  eomChunk : Bytes := []
  sendingBody : Bool := false
  sentOffset : Nat := 0
  replacedForEach : Bool := false
  replaced : Bool := false
  changeFrom : Option (Bytes × Option Bytes) := none
  quarantine : Option Bytes := none
  finished : Bool := false
  emittedReply : Bool := false
  out : List Out := []
  oracle : List (Bool × Bool) := []

abbrev M := StateT Sys Option

/-- what is still to be done by somebody else: handlers of a signal of a context, the handlers of
the signal "finished" of its agent, or the rest of the function that emitted a signal -/
inductive Job where
  | signal (i : Nat) (s : Server.Signal)
  | finished (i : Nat)
  | resume (i : Nat)
  /-- `cb_continue` called directly -/
  | again (i : Nat)

abbrev Dispatch := Job → M Unit

/-! ## Contexts -/

def log (o : Out) : M Unit := modify fun s => { s with out := s.out ++ [o] }
def emit (e : Emit) : M Unit := log (.emit e)

def updKid (f : Nat → Kid) (i : Nat) (k : Kid) : Nat → Kid := fun j => if j = i then k else f j

def modifyKid (i : Nat) (f : Kid → Kid) : M Unit :=
  modify fun s => { s with kids := updKid s.kids i (f (s.kids i)) }

def modifyCtx (i : Nat) (f : Server.State → Server.State) : M Unit :=
  modifyKid i fun k => { k with ctx := f k.ctx }

def getCtx (i : Nat) : M Server.State := do return ((← get).kids i).ctx

/-- the environment's next answer -/
def ask : M (Bool × Bool) := do
  let s ← get
  match s.oracle with
  | [] => return (false, true)
  | a :: rest => set { s with oracle := rest }; return a

/-- carry out what a step of a context led to; the result is what the function returned -/
def drive (d : Dispatch) (i : Nat) : List Server.Item → M Bool
  | [] => return true
  | .wrote c :: rest => do log (.sent i c); drive d i rest
  | .emit sig :: rest => do
    d (.signal i sig)
    d (.resume i)
    drive d i rest
  | .ret b :: rest => do let _ ← drive d i rest; return b
  | .shutdown :: rest => do log (.closed i); drive d i rest
  | .ub :: rest => do log .ub; drive d i rest

/-- a step of the context of milter `i` -/
def stepCtx (d : Dispatch) (i : Nat) (e : Server.Event) : M Bool := do
  let c ← getCtx i
  let r := Server.step c e
  modifyCtx i fun _ => r.1
  drive d i r.2

/-- call a command function of the context of milter `i` -/
def call (d : Dispatch) (i : Nat) (c : Cmd) : M Bool := do
  let (stop, ok) ← ask
  stepCtx d i (.command c stop ok)

/-- `milter_server_context_need_reply` (server/milter-server-context.c 1108-1150) -/
def needReply (i : Nat) (st : St) : M Bool := do
  let c ← getCtx i
  match Server.needReply c.option st with
  | some b => return b
  | none => log .ub; return true

/-- the milters in configuration order -/
def milters (s : Sys) : List Nat := List.range s.count

def isQuitted (s : Sys) (i : Nat) : Bool := Server.isQuitted (s.kids i).ctx
def isProcessing (s : Sys) (i : Nat) : Bool := Server.isProcessing (s.kids i).ctx
def isProcessingMessage (s : Sys) (i : Nat) : Bool := Server.isProcessingMessage (s.kids i).ctx
def hasAccepted (s : Sys) (i : Nat) : Bool := Server.hasAcceptedRecipient (s.kids i).ctx

/-! ## Data of a message -/

/-- `dispose_pending_message_request` (405-412) -/
def disposePending : M Unit := modify fun s => { s with pending := none }

/-- `dispose_body_related_data` (414-434) -/
def bodyDisposed (s : Sys) : Sys := { s with emittedReply := false, body := none, bodyFile := none }

/-- `dispose_message_related_data` (452-498) -/
def messageDisposed (s : Sys) : Sys :=
  { bodyDisposed s with
    pending := none
    waitingQueue := []
    commandQueue := []
    originalHeaders := none
    headers := none
    eomChunk := []
    changeFrom := none
    quarantine := none }

/-- `dispose_reply_related_data` (436-450) -/
def codeDisposed (s : Sys) : Sys := { s with code := none }

/-! ## Statuses -/

/-- `status_to_signal_name` (714-747) -/
def statusReply : Status → Reply
  | .reject => .reject
  | .discard => .discard
  | .accept => .accept
  | .temporaryFailure => .temporaryFailure
  | .skip => .skip
  | .progress => .progress
  | _ => .cont

/-- `state_to_command` (749-774): the commands are named by the state they lead to; `none` is
`MILTER_COMMAND_UNKNOWN` -/
def stateCommand : St → Option St
  | .data => some .data
  | .header => some .header
  | .endOfHeader => some .endOfHeader
  | .body => some .body
  | .endOfMessage => some .endOfMessage
  | _ => none

def setStatusOf (f : St → Status) (st : St) (v : Status) : St → Status :=
  fun t => if t = st then v else f t

/-- `compile_reply_status` (793-807) with `milter_manager_children_is_important_status`
(4155-4164) and `get_reply_status_for_state` (776-791).  (A status of value 0, DEFAULT, would read
back as NOT_CHANGE; `Status.compile` treats both alike.) -/
def compile (st : St) (v : Status) : M Unit :=
  modify fun s => { s with statuses := setStatusOf s.statuses st (Status.compile (s.statuses st) v) }

/-- `expire_child` (913-920) -/
def expire (i : Nat) : M Unit :=
  modifyKid i fun k => { k with ctx := { k.ctx with quitted := true }, linked := false }

/-- `emit_reply_status_of_state` (928-960) -/
def emitStatusOf (st : St) : M Unit := do
  let s ← get
  let status := s.statuses st
  match s.code with
  | some (code, extended, message) =>
    if (code / 100 = 4 ∧ status = .temporaryFailure) ∨ (code / 100 = 5 ∧ status = .reject) then
      emit (.reply (.replyCode code extended message))
      modify codeDisposed
    else if status ≠ .notChange then emit (.reply (statusReply status))
  | none => if status ≠ .notChange then emit (.reply (statusReply status))
  if st = .endOfMessage then modify messageDisposed

/-! ## Sending message commands to one milter -/

/-- `need_header_value_leading_space_conversion` (1732-1747) -/
def needConversion (s : Sys) (i : Nat) : M Bool := do
  if Server.isEnableStep (s.kids i).ctx.option 0x100000 then return false
  else match s.option with
    | some o => return o.step &&& 0x100000 != 0
    | none => log .ub; return false

/-- the value as it is sent: the leading space is left out for a milter that does not expect it
(3577-3585) -/
def sentValue (convert : Bool) (v : Option Bytes) : Bytes :=
  match v with
  | some (b :: rest) => if convert = true ∧ b = 0x20 then rest else b :: rest
  | _ => []

/-- `normalize_header_value` (1749-1760) followed by the choice of its callers -/
def normalized (convert : Bool) (v : Option Bytes) : Option Bytes :=
  match v with
  | none => none
  | some [] => if convert then some [0x20] else some []
  | some (b :: rest) => if convert = true ∧ b ≠ 0x20 then some (0x20 :: b :: rest) else some (b :: rest)

/-- `send_next_header_to_child` (3560-3595) -/
def sendNextHeader (d : Dispatch) (i : Nat) : M Status := do
  modify fun s => { s with processingState := .header, headerIndex := s.headerIndex + 1 }
  let s ← get
  match s.headers with
  | none => log .ub; return .notChange
  | some hs =>
    match Headers.getNth hs s.headerIndex with
    | none => return .notChange
    | some h =>
      let convert ← needConversion s i
      if ← call d i (.header h.name (sentValue convert h.value)) then
        if !(← needReply i (← get).processingState) then
          d (.signal i (.reply .cont))
        return .progress
      else return ((← get).kids i).fallback

/-- does something wait for its turn: `init_command_waiting_child_queue` (3003-3031) -/
def initWaitingLoop (d : Dispatch) : List Nat → M Unit
  | [] => return ()
  | i :: rest => do
    let s ← get
    if isProcessingMessage s i then
      if hasAccepted s i then
        modify fun s => { s with waitingQueue := s.waitingQueue ++ [i] }
      else
        let _ ← call d i .abort
    initWaitingLoop d rest

def initWaitingQueue (d : Dispatch) (c : St) : M Unit := do
  modify fun s =>
    { s with commandQueue := if c ∈ s.commandQueue then s.commandQueue else s.commandQueue ++ [c] }
  let s ← get
  if s.waitingQueue = [] then initWaitingLoop d (milters s)

/-- `send_body_to_child_string` (3974-4003) -/
def sendBodyString (d : Dispatch) (i : Nat) (body : Bytes) : M Status := do
  let s ← get
  if body.length ≤ s.sentOffset then return .notChange
  else
    let size := min (body.length - s.sentOffset) s.chunkSize
    if ← call d i (.body ((body.drop s.sentOffset).take size)) then
      modify fun s => { s with sentOffset := s.sentOffset + size }
      initWaitingQueue d .body
      return .progress
    else return ((← get).kids i).fallback

/-- `send_body_to_child_file` (3914-3972) -/
def sendBodyFile (d : Dispatch) (i : Nat) : M Status := do
  let s ← get
  match s.bodyFile with
  | none => return .notChange
  | some (content, pos) =>
    let chunk := (content.drop pos).take s.chunkSize
    if chunk = [] then return .notChange
    else
      modify fun s => { s with bodyFile := some (content, pos + chunk.length) }
      if ← call d i (.body chunk) then return .progress
      else return ((← get).kids i).fallback

/-- `send_body_to_child` (4005-4032) -/
def sendBody (d : Dispatch) (i : Nat) : M Status := do
  modify fun s => { s with processingState := .body }
  let s ← get
  if (s.kids i).ctx.skipBody then
    modify fun s => { s with sendingBody := false }
    return .notChange
  else
    let status ← match s.body with
      | some b => sendBodyString d i b
      | none => sendBodyFile d i
    if status = .progress then
      if !(← needReply i (← get).processingState) then d (.signal i (.reply .cont))
    if status ≠ .progress then modify fun s => { s with sendingBody := false }
    return status

/-- `send_command_to_child` (1178-1221) -/
def sendCommand (d : Dispatch) (i : Nat) (c : St) : M Status := do
  let fallback := ((← get).kids i).fallback
  match c with
  | .header => sendNextHeader d i
  | .endOfHeader =>
    modify fun s => { s with processingState := .endOfHeader }
    if ← call d i .endOfHeader then
      if !(← needReply i (← get).processingState) then d (.signal i (.reply .cont))
      return .progress
    else return fallback
  | .body => sendBody d i
  | .endOfMessage =>
    modify fun s => { s with headerIndex := 0, processingState := .endOfMessage }
    if ← call d i (.endOfMessage (← get).eomChunk) then return .progress
    else return fallback
  | _ => return fallback

/-- `init_child_for_body` (3887-3912) with 3849-3885: nothing can fail -/
def initBody : M Unit :=
  modify fun s =>
    match s.body with
    | some _ =>
      { s with
        processingState := .body, replacedForEach := false, sendingBody := true, sentOffset := 0 }
    | none =>
      { s with
        processingState := .body, replacedForEach := false, sendingBody := true
        bodyFile := s.bodyFile.map fun f => (f.1, 0) }

/-- the command after `c` in a list -/
def nextIn (c : Option St) : List St → Option St
  | [] => none
  | x :: rest => if some x = c then rest.head? else nextIn c rest

/-- `send_next_command` (2981-3001) with `get_next_command` (2960-2979) -/
def sendNextCommand (d : Dispatch) (i : Nat) (st : St) : M Status := do
  match nextIn (stateCommand st) (← get).commandQueue with
  | none => return .notChange
  | some c =>
    if c = .body ∧ st ≠ .body then initBody
    sendCommand d i c

/-! ## Answers of milters -/

/-- `emit_replace_body_signal_string` (1145-1163) and `emit_replace_body_signal_file`
(1098-1143): the pieces.  With a chunk size of 0 the loops of the program would not end. -/
def pieces (size : Nat) (b : Bytes) : List Bytes :=
  if _h : b = [] ∨ size = 0 then []
  else b.take size :: pieces size (b.drop size)
termination_by b.length
decreasing_by
  have : 0 < b.length := List.length_pos_iff.mpr (by simp_all)
  simp only [List.length_drop]; omega

/-- `emit_replace_body_signal` (1165-1176); without string and file nothing is emitted (the file
functions of GLib refuse a NULL channel) -/
def replaceBodyEmits (s : Sys) : List Emit :=
  match s.body with
  | some b => (pieces s.chunkSize b).map fun p => .reply (.replaceBody p)
  | none =>
    match s.bodyFile with
    | some (content, _) => (pieces s.chunkSize content).map fun p => .reply (.replaceBody p)
    | none => []

/-- `emit_signals_on_end_of_message` (1287-1304) -/
def eomEmits (s : Sys) : List Emit :=
  (if s.replaced then replaceBodyEmits s else []) ++
  (match s.originalHeaders with
    | some o => (HeaderDiff.emit o (s.headers.getD [])).map .edit
    | none => []) ++
  (match s.changeFrom with
    | some (f, p) => [.reply (.changeFrom f p)]
    | none => []) ++
  (match s.quarantine with
    | some r => [.reply (.quarantine r)]
    | none => [])

/-- `emit_reply_for_message_oriented_command` (1306-1323) -/
def emitReplyForMessage (st : St) : M Unit := do
  let s ← get
  if s.emittedReply then return ()
  else
    modify fun s => { s with emittedReply := true }
    if st = .endOfMessage then
      modify fun s => { s with out := s.out ++ (eomEmits s).map .emit }
    emitStatusOf st

/-- `send_first_command_to_next_child` (1341-1370); it always returns PROGRESS -/
def sendFirstToNext (d : Dispatch) (i : Nat) : M Unit := do
  modify fun s => { s with headerIndex := 0, waitingQueue := s.waitingQueue.erase i }
  let s ← get
  match s.waitingQueue with
  | [] => emitReplyForMessage s.state
  | next :: _ =>
    match s.commandQueue with
    | [] => emit (.reply .cont)
    | c :: _ => let _ ← sendCommand d next c

/-- `handle_status` (1372-1380) -/
def handleStatus (v : Status) : M Unit :=
  if v = .progress then return () else emit (.reply (statusReply v))

/-- `milter_manager_children_abort` (4118-4152) -/
def abortLoop (d : Dispatch) : List Nat → M Unit
  | [] => return ()
  | i :: rest => do
    let s ← get
    if isProcessingMessage s i = true ∨ (s.kids i).ctx.state = .envelopeFrom then
      let _ ← call d i .abort
    abortLoop d rest

def resetLoop : List Nat → M Unit
  | [] => return ()
  | i :: rest => do
    if !isQuitted (← get) i then modifyCtx i Server.resetMessage
    resetLoop rest

def abortAll (d : Dispatch) : M Unit := do
  modify fun s => { s with state := .abort, processingState := .abort }
  let s ← get
  abortLoop d (milters s)
  modify messageDisposed
  resetLoop (milters s)

/-! ## Commands of the MTA -/

/-- `milter_manager_children_check_alive` (3210-3244) -/
def checkAlive : M Bool := do
  let s ← get
  if s.allExpired then return false
  else if (milters s).any fun i => !isQuitted s i then return true
  else emit (.error true); return false

/-- `milter_manager_children_check_processing_message` (3246-3273) -/
def checkProcessing : M Bool := do
  let s ← get
  if (milters s).any fun i => isProcessingMessage s i then return true
  else emit (.error true); return false

/-- `init_reply_queue` (3075-3088) -/
def initReplyQueue (st : St) : M Unit :=
  modify fun s =>
    { s with
      state := st, processingState := st, replyQueue := []
      statuses := setStatusOf s.statuses st .notChange }

/-- `need_data_commmand_emulation` (3597-3602) -/
def needEmulation (s : Sys) : M Bool := do
  if s.state = .envelopeRecipient then
    match s.option with
    | some o => return decide (4 ≤ o.version)
    | none => log .ub; return false
  else return false

/-- the loop calling the contexts; TRUE if one of them succeeds -/
def callLoop (d : Dispatch) (c : Cmd) : List Nat → M Bool
  | [] => return false
  | i :: rest => do
    let b ← call d i c
    let r ← callLoop d c rest
    return b || r

/-- the milters a command to all is sent to are queued: all that have not quitted -/
def queueAlive : M Unit :=
  modify fun s => { s with replyQueue := (milters s).filter fun i => !isQuitted s i }

/-- the milters processing the message are queued (3434-3440) -/
def queueProcessing : M Unit :=
  modify fun s => { s with replyQueue := (milters s).filter fun i => isProcessingMessage s i }

/-- those of them which accepted a recipient are queued, the others are told to abort
(3473-3483) -/
def queueAccepted (d : Dispatch) : List Nat → M Unit
  | [] => return ()
  | i :: rest => do
    let s ← get
    if isProcessingMessage s i then
      if hasAccepted s i then modify fun s => { s with replyQueue := s.replyQueue ++ [i] }
      else let _ ← call d i .abort
    queueAccepted d rest

/-- the loop at the end, calling `cb_continue` -/
def noReplyLoop (d : Dispatch) (st : St) : List Nat → M Unit
  | [] => return ()
  | i :: rest => do
    if !(← needReply i st) then d (.again i)
    noReplyLoop d st rest

/-- what connect, helo, envelope-from, envelope-recipient, data and unknown have in common
(3275-3558) -/
def toAll (d : Dispatch) (check : M Bool) (fill : M Unit) (st : St)
    (c : Cmd) : M Bool := do
  if !(← check) then return false
  else
    initReplyQueue st
    fill
    let targets := (← get).replyQueue
    let success ← callLoop d c targets
    noReplyLoop d st targets
    return success

/-- `milter_manager_children_data` (3458-3504) -/
def data (d : Dispatch) : M Bool := do
  let s ← get
  toAll d checkProcessing (queueAccepted d (milters s)) .data .data

/-- a message command arriving while DATA has to be emulated is kept -/
def keep (d : Dispatch) (p : Pending) : M Bool := do
  let success ← data d
  if success then modify fun s => { s with pending := some p }
  return success

/-- `send_command_to_first_waiting_child` (3506-3515), compared with PROGRESS -/
def sendToFirst (d : Dispatch) (c : St) : M Bool := do
  match (← get).waitingQueue with
  | [] => return false
  | i :: _ => return decide ((← sendCommand d i c) = .progress)

/-- `milter_manager_children_header` (3604-3641) -/
def header (d : Dispatch) (name value : Bytes) : M Bool := do
  if !(← checkProcessing) then return false
  else if ← needEmulation (← get) then keep d (.header name value)
  else
    modify fun s =>
      { s with
        state := .header, processingState := .header
        headers := some (Headers.append (s.headers.getD []) name (some value)) }
    initWaitingQueue d .header
    sendToFirst d .header

/-- `milter_manager_children_end_of_header` (3643-3676) -/
def endOfHeader (d : Dispatch) : M Bool := do
  if !(← checkProcessing) then return false
  else if ← needEmulation (← get) then keep d .endOfHeader
  else
    modify fun s => { s with state := .endOfHeader, processingState := .endOfHeader }
    initWaitingQueue d .endOfHeader
    sendToFirst d .endOfHeader

/-- overwrite from a position on -/
def writeAt (content : Bytes) (pos : Nat) (chunk : Bytes) : Bytes :=
  content.take pos ++ chunk ++ content.drop (pos + chunk.length)

/-- `write_body` (3772-3785) with `write_body_to_string` and `write_body_to_file` (3678-3770) -/
def bodyWritten (s : Sys) (chunk : Bytes) : Sys :=
  match s.bodyFile with
  | some (content, pos) => { s with bodyFile := some (writeAt content pos chunk, pos + chunk.length) }
  | none =>
    let b := s.body.getD [] ++ chunk
    if maxOnMemory < b.length then { s with body := none, bodyFile := some (b, b.length) }
    else { s with body := some b }

/-- `milter_manager_children_body` (3787-3847) -/
def body (d : Dispatch) (chunk : Bytes) : M Bool := do
  if !(← checkProcessing) then return false
  else if ← needEmulation (← get) then keep d (.body chunk)
  else
    initWaitingQueue d .body
    match (← get).waitingQueue with
    | [] => return false
    | i :: _ =>
      modify fun s => bodyWritten s chunk
      modify fun s =>
        { s with state := .body, processingState := .body, replacedForEach := false, sendingBody := false }
      if ((← get).kids i).ctx.skipBody then
        modifyCtx i fun c => Server.setState c .body
        d (.signal i (.reply .cont))
        return true
      else call d i (.body chunk)

/-- `milter_manager_children_end_of_message` (4034-4083).  (The chunk is copied with `g_strdup`
although its size is kept; the model keeps the whole chunk, as for a chunk without NUL.) -/
def endOfMessage (d : Dispatch) (chunk : Bytes) : M Bool := do
  if !(← checkProcessing) then return false
  else if ← needEmulation (← get) then keep d (.endOfMessage chunk)
  else
    initWaitingQueue d .endOfMessage
    modify fun s =>
      { s with
        headerIndex := 0
        headers := some (s.headers.getD [])
        originalHeaders := some (s.originalHeaders.getD (s.headers.getD []))
        eomChunk := chunk
        bodyFile := s.bodyFile.map fun f => (f.1, 0)
        state := .endOfMessage
        processingState := .endOfMessage }
    sendToFirst d .endOfMessage

/-- `process_pending_message_request` (994-1052) -/
def processPending (d : Dispatch) : Pending → M Bool
  | .header n v => header d n v
  | .endOfHeader => endOfHeader d
  | .body b => body d b
  | .endOfMessage b => endOfMessage d b

/-- `remove_child_from_queue` (1054-1096) -/
def removeFromQueue (d : Dispatch) (i : Nat) : M Unit := do
  modify fun s => { s with replyQueue := s.replyQueue.erase i }
  let s ← get
  if s.replyQueue ≠ [] then return ()
  else
    let status := s.statuses s.processingState
    match s.pending with
    | some p =>
      let processed ← if status = .continue_
        then processPending d p
        else pure false
      disposePending
      if processed = true ∨ status = .progress then return ()
      else finish status
    | none => finish status
where
  finish (status : Status) : M Unit := do
    let st := (← get).processingState
    emitStatusOf st
    match status with
    | .reject | .temporaryFailure => if st ≠ .envelopeRecipient then abortAll d
    | .discard => abortAll d
    | _ => return ()

/-- `cb_continue` (1382-1430) -/
def cbContinue (d : Dispatch) (i : Nat) : M Unit := do
  let st := (← getCtx i).state
  compile st .continue_
  match st with
  | .endOfHeader => handleStatus (← sendNextCommand d i st)
  | .header =>
    let s ← get
    if s.state.rank < st.rank then handleStatus .notChange
    else match s.headers with
      | none => log .ub
      | some hs =>
        if s.headerIndex < hs.length then handleStatus (← sendNextHeader d i)
        else handleStatus (← sendNextCommand d i st)
  | .body =>
    let s ← get
    if s.state.rank < st.rank then handleStatus .notChange
    else
      let status ← if s.sendingBody then sendBody d i else pure .notChange
      if status = .notChange then handleStatus (← sendNextCommand d i st)
      else handleStatus status
  | .endOfMessage => sendFirstToNext d i
  | _ => removeFromQueue d i

/-- the message is of no further interest to the milter -/
def notProcessing (i : Nat) : M Unit := modifyCtx i fun c => { c with processingMessage := false }

/-- `cb_temporary_failure` (1432-1501) and `cb_reject` (1503-1571); with `quits := false`,
`cb_discard` (1647-1711), where CONNECT and HELO fall under the default case, which quits too -/
def cbRefuse (d : Dispatch) (i : Nat) (v : Status) : M Unit := do
  let k := (← get).kids i
  let st := k.ctx.state
  compile st (if k.evaluation then .accept else v)
  match st with
  | .envelopeFrom | .data => notProcessing i; removeFromQueue d i
  | .envelopeRecipient => removeFromQueue d i
  | .header | .endOfHeader | .body | .endOfMessage =>
    notProcessing i
    emitReplyForMessage st
    abortAll d
  | _ => let _ ← call d i .quit

/-- `cb_reply_code` (1573-1595) -/
def cbReplyCode (d : Dispatch) (i : Nat) (code : Nat) (extended : Bytes) (message : Option Bytes) :
    M Unit := do
  modify fun s => { s with code := some (code, extended, message) }
  cbRefuse d i (if code / 100 = 4 then .temporaryFailure else .reject)

/-- `cb_accept` (1597-1645) -/
def cbAccept (d : Dispatch) (i : Nat) : M Unit := do
  let st := (← getCtx i).state
  compile st .accept
  match st with
  | .envelopeFrom | .data | .envelopeRecipient => notProcessing i; removeFromQueue d i
  | .header | .endOfHeader | .body | .endOfMessage => notProcessing i; sendFirstToNext d i
  | _ => let _ ← call d i .quit

/-- `cb_skip` (1713-1730) -/
def cbSkip (d : Dispatch) (i : Nat) : M Unit := do
  let st := (← getCtx i).state
  compile st .skip
  if (← get).state.rank < St.endOfMessage.rank then emit (.reply .cont)
  else let _ ← sendNextCommand d i st

/-- the modification callbacks (1853-2138): only at end of message (`is_end_of_message_state`,
1762-1810), and not in evaluation mode (`is_evaluation_mode`, 1812-1851) -/
def cbModify (d : Dispatch) (i : Nat) (act : Sys → M Unit) : M Unit := do
  let s ← get
  if (s.kids i).ctx.state ≠ .endOfMessage then let _ ← call d i .quit
  else if (s.kids i).evaluation then return ()
  else act s

/-- the header callbacks (1853-2003) -/
def editHeaders (s : Sys) (f : List Header → List Header) : M Unit :=
  match s.headers with
  | none => log .ub
  | some hs => modify fun s => { s with headers := some (f hs) }

/-- `cb_progress` (2095-2117): evaluation mode makes no difference -/
def cbProgress (d : Dispatch) (i : Nat) : M Unit := do
  if (← getCtx i).state ≠ .endOfMessage then let _ ← call d i .quit
  else emit (.reply .progress)

/-- `cb_stopped` (2154-2208) -/
def cbStopped (d : Dispatch) (i : Nat) : M Unit := do
  let st := (← getCtx i).state
  match st with
  | .connect | .helo =>
    compile st .accept
    let _ ← call d i .abort
    let _ ← call d i .quit
  | .envelopeFrom => compile st .accept; cbContinue d i
  | .envelopeRecipient => modifyCtx i (fun c => { c with status := .notChange }); cbContinue d i
  | .data | .header | .endOfHeader | .body | .endOfMessage =>
    compile st .accept
    let _ ← call d i .abort
    sendFirstToNext d i
  | _ =>
    compile st .temporaryFailure
    let _ ← call d i .abort
    let _ ← call d i .quit

/-- `cb_writing_timeout`, `cb_reading_timeout`, `cb_end_of_message_timeout` and `cb_error`
(2210-2372) -/
def cbFailed (d : Dispatch) (i : Nat) : M Unit := do
  let k := (← get).kids i
  compile k.ctx.state k.fallback
  expire i
  removeFromQueue d i

/-! ## Negotiation -/

/-- `check_fallback_status_on_negotiate` (2615-2678): the most severe fallback of the milters
that did not negotiate -/
def worstFallback (s : Sys) : Status :=
  ((milters s).filter fun i => !(s.kids i).ctx.negotiated).foldl
    (fun v i => Status.compile v (s.kids i).fallback) .continue_

def expireAll : List Nat → M Unit
  | [] => return ()
  | i :: rest => do
    if ((← get).kids i).ctx.negotiated then
      modify fun s => { s with allExpired := true }
      expire i
    expireAll rest

def checkFallback : M Unit := do
  let s ← get
  match worstFallback s with
  | .reject | .temporaryFailure | .discard => expireAll (milters s)
  | _ => return ()

/-- the option reported to the MTA (2698-2703) -/
def offered (s : Sys) (o : Opt) : Opt :=
  { o with
    step := o.step &&& ~~~(Opt.noEventMask ||| (Opt.yesMask &&& ~~~(s.initialYes &&& s.requestedYes))) }

/-- `reply_negotiate` (2680-2708) -/
def replyNegotiate : M Unit := do
  let s ← get
  match s.option with
  | none => emit .abort
  | some o =>
    set { s with option := some (offered s o) }
    emit (.negotiateReply (offered s o))
    checkFallback

/-- `remove_queue_in_negotiate` (2710-2727) -/
def removeInNegotiate (i : Nat) : M Unit := do
  modify fun s => { s with replyQueue := s.replyQueue.erase i }
  let s ← get
  if !s.finished ∧ s.replyQueue = [] then replyNegotiate

/-- `cb_negotiate_reply` (827-859) -/
def cbNegotiateReply (i : Nat) (o : Opt) : M Unit := do
  let s ← get
  match s.option with
  | some mine =>
    set { s with
      option := some (Opt.merge mine o).2
      requestedYes := s.requestedYes ||| (o.step &&& Opt.yesMask)
      negotiated := true }
  | none => emit (.error true)
  removeInNegotiate i

/-- `clear_try_negotiate_data` (2729-2739) -/
def clearTry (i : Nat) : M Unit := do
  removeInNegotiate i
  expire i
  modifyKid i fun k => { k with tryRetry := none, waiting := false }

/-- `child_establish_connection` (2923-2958); `retry` is `is_retry` -/
def establish (d : Dispatch) (i : Nat) (retry : Bool) : M Unit := do
  let (_, ok) ← ask
  if ← stepCtx d i (.establish ok) then
    modifyKid i fun k => { k with tryRetry := some retry, waiting := false }
  else
    emit (.error false)
    if retry then
      removeInNegotiate i
      expire i
      modifyKid i fun k => { k with tryRetry := none, waiting := false }
    else modifyKid i fun k => { k with tryRetry := some true, waiting := true }

def establishLoop (d : Dispatch) : List Nat → M Unit
  | [] => return ()
  | i :: rest => do establish d i false; establishLoop d rest

/-- `milter_manager_children_negotiate` (3099-3160) -/
def negotiate (d : Dispatch) (o : Opt) : M Unit := do
  let o := if maxVersion < o.version then { o with version := maxVersion } else o
  modify fun s => { s with option := some o, initialYes := o.step &&& Opt.yesMask }
  let s ← get
  if milters s = [] then modify fun s => { s with negotiated := true }
  else
    initReplyQueue .negotiate
    modify fun s => { s with replyQueue := milters s }
    establishLoop d (milters s)

/-- the handlers connected by `negotiate_data_new` (2804-2832): `cb_ready` (809-825),
`cb_connection_error` (2755-2802) without launching, `cb_connection_timeout` (2741-2753).  The
option sent is the object shared with `priv->option`, as it is by now. -/
def tryHandler (d : Dispatch) (i : Nat) (sig : Server.Signal) : M Unit := do
  let s ← get
  match (s.kids i).tryRetry, sig with
  | some _, .ready =>
    modifyKid i fun k => { k with linked := true }
    match s.option with
    | some o => let _ ← call d i (.negotiate o)
    | none => log .ub
    modifyKid i fun k => { k with tryRetry := none, waiting := false }
  | some retry, .error _ =>
    if retry then emit (.error false)
    clearTry i
  | some _, .connectionTimeout => clearTry i
  | _, _ => return ()

/-! ## Signals -/

/-- the handlers connected by `setup_server_context_signals` (2437-2475) -/
def handle (d : Dispatch) (i : Nat) : Server.Signal → M Unit
  | .reply r =>
    match r with
    | .negotiate o _ => cbNegotiateReply i o
    | .cont => cbContinue d i
    | .replyCode code extended message => cbReplyCode d i code extended message
    | .temporaryFailure => cbRefuse d i .temporaryFailure
    | .reject => cbRefuse d i .reject
    | .accept => cbAccept d i
    | .discard => cbRefuse d i .discard
    | .addHeader n v => cbModify d i fun s => do
        let c ← needConversion s i
        editHeaders s fun hs => Headers.add hs n (normalized c (some v))
    | .insertHeader p n v => cbModify d i fun s => do
        let c ← needConversion s i
        editHeaders s fun hs => Headers.insert hs p n (normalized c v)
    | .changeHeader n p v => cbModify d i fun s => do
        let c ← needConversion s i
        editHeaders s fun hs => (Headers.change hs n p (normalized c (some v))).2
    | .deleteHeader n p => cbModify d i fun s => editHeaders s fun hs => (Headers.delete hs n p).2
    | .changeFrom f p => cbModify d i fun _ => modify fun s => { s with changeFrom := some (f, p) }
    | .addRecipient r p => cbModify d i fun _ => emit (.reply (.addRecipient r p))
    | .deleteRecipient r => cbModify d i fun _ => emit (.reply (.deleteRecipient r))
    | .replaceBody chunk => cbModify d i fun _ => do
        if !(← get).replacedForEach then modify bodyDisposed
        modify fun s => { bodyWritten s chunk with replacedForEach := true, replaced := true }
    | .progress => cbProgress d i
    | .quarantine r => cbModify d i fun _ => modify fun s => { s with quarantine := some r }
    | .connectionFailure => emit (.reply .connectionFailure)
    | .shutdown => emit (.reply .shutdown)
    | .skip => cbSkip d i
  | .stopped => cbStopped d i
  | .writingTimeout => cbFailed d i
  | .readingTimeout => cbFailed d i
  | .endOfMessageTimeout => cbFailed d i
  | .error _ => cbFailed d i
  | .messageProcessed _ _ | .stateTransited _ | .connectionTimeout | .ready => return ()

/-- `cb_finished` (2374-2435) -/
def cbFinished (d : Dispatch) (i : Nat) : M Unit := do
  let k := (← get).kids i
  if Server.isProcessing k.ctx then
    modifyCtx i fun c => { c with status := k.fallback }
    compile k.ctx.state k.fallback
  expire i
  let s ← get
  match s.processingState with
  | .negotiate => removeInNegotiate i
  | .header | .endOfHeader | .body | .endOfMessage =>
    if s.emittedReply = false ∧ isProcessing s i = true then sendFirstToNext d i
  | _ => removeFromQueue d i

/-- `n` bounds the nesting of emissions -/
def dispatch : Nat → Dispatch
  | 0 => fun _ => failure
  | n + 1 => fun job => do
    match job with
    | .signal i sig =>
      tryHandler (dispatch n) i sig
      if ((← get).kids i).linked then
        log (.heard i sig)
        handle (dispatch n) i sig
    | .finished i => if ((← get).kids i).linked then cbFinished (dispatch n) i
    | .resume i =>
      let (_, ok) ← ask
      let _ ← stepCtx (dispatch n) i (.handlerReturns ok)
    | .again i => cbContinue (dispatch n) i

/-- what can happen -/
inductive Event where
  /-- the MTA's negotiation arrives -/
  | negotiate (o : Opt)
  /-- `cb_idle_reply_negotiate_on_no_child` (3090-3097) -/
  | idleReply
  | connect (host : Bytes) (addr : Addr)
  | helo (fqdn : Bytes)
  | envelopeFrom (sender : Bytes)
  | envelopeRecipient (recipient : Bytes)
  | data
  | unknown (command : Bytes)
  | header (name value : Bytes)
  | endOfHeader
  | body (chunk : Bytes)
  | endOfMessage (chunk : Bytes)
  | quit
  | abort
  /-- milter `i` replied -/
  | reply (i : Nat) (r : Reply)
  /-- everything written to milter `i` has gone out -/
  | flushed (i : Nat)
  /-- the running timeout of milter `i` goes off -/
  | timeout (i : Nat)
  /-- the connection attempt to milter `i` succeeded or failed -/
  | connected (i : Nat) (ok : Bool)
  /-- the timer for another connection attempt goes off, `retry_establish_connection`
  (2520-2540) -/
  | retry (i : Nat)
  /-- the agent of milter `i` reports an error, e.g. an undecodable reply -/
  | error (i : Nat)
  /-- the connection of milter `i` is closed -/
  | finished (i : Nat)
deriving DecidableEq, Repr

/-- `milter_manager_children_quit` (4085-4116) -/
def quitLoop (d : Dispatch) : List Nat → M Unit
  | [] => return ()
  | i :: rest => do
    let s ← get
    if !isQuitted s i ∧ (s.kids i).ctx.state ≠ .quit then
      let _ ← call d i .quit
    quitLoop d rest

def quit (d : Dispatch) : M Unit := do
  modify fun s => { s with state := .quit, processingState := .quit }
  quitLoop d (milters (← get))
  if !(← get).finished then
    modify fun s => { s with finished := true }
    emit .finished

/-- one event -/
def step (d : Dispatch) : Event → M Unit
  | .negotiate o => negotiate d o
  | .idleReply => do if milters (← get) = [] then replyNegotiate
  | .connect h a => do let _ ← toAll d checkAlive queueAlive .connect (.connect h a)
  | .helo f => do let _ ← toAll d checkAlive queueAlive .helo (.helo f)
  | .envelopeFrom f => do
    let _ ← toAll d checkAlive queueAlive .envelopeFrom (.envelopeFrom f)
  | .envelopeRecipient r => do
    let _ ← toAll d checkProcessing queueProcessing .envelopeRecipient
      (.envelopeRecipient r)
  | .data => do let _ ← data d
  | .unknown c => do let _ ← toAll d checkAlive queueAlive .unknown (.unknown c)
  | .header n v => do let _ ← header d n v
  | .endOfHeader => do let _ ← endOfHeader d
  | .body b => do let _ ← body d b
  | .endOfMessage b => do let _ ← endOfMessage d b
  | .quit => quit d
  | .abort => abortAll d
  | .reply i r => do let (_, ok) ← ask; let _ ← stepCtx d i (.reply r ok)
  | .flushed i => do let (_, ok) ← ask; let _ ← stepCtx d i (.flushed ok)
  | .timeout i => do let _ ← stepCtx d i .timeout
  | .connected i ok => do let _ ← stepCtx d i (.connected ok)
  | .retry i => do if ((← get).kids i).waiting then establish d i true
  | .error i => d (.signal i (.error .ioError))
  | .finished i => d (.finished i)

/-- what the functions for the commands of the MTA return to the caller: TRUE from
`milter_manager_children_negotiate`, the result of the others (the caller does not use that of
quit and abort); not used for other events -/
def command (d : Dispatch) : Event → M Bool
  | .connect h a => toAll d checkAlive queueAlive .connect (.connect h a)
  | .helo f => toAll d checkAlive queueAlive .helo (.helo f)
  | .envelopeFrom f => toAll d checkAlive queueAlive .envelopeFrom (.envelopeFrom f)
  | .envelopeRecipient r =>
    toAll d checkProcessing queueProcessing .envelopeRecipient (.envelopeRecipient r)
  | .data => data d
  | .unknown c => toAll d checkAlive queueAlive .unknown (.unknown c)
  | .header n v => header d n v
  | .endOfHeader => endOfHeader d
  | .body b => body d b
  | .endOfMessage b => endOfMessage d b
  | e => do step d e; return true

theorem step_command (d : Dispatch) (e : Event) (s : Sys) :
    (step d e s).map (·.2) = (command d e s).map (·.2) := by
  have h : ∀ (m : M Bool), ((do let _ ← m : M Unit) s).map (·.2) = (m s).map (·.2) := fun m => by
    show ((m >>= fun _ => (pure () : M Unit)) s).map (·.2) = _
    show ((m s).bind fun x => some ((), x.2)).map (·.2) = _
    cases m s <;> rfl
  have h' : ∀ (m : M Unit), (m s).map (·.2) = ((do m; return true : M Bool) s).map (·.2) := fun m => by
    show _ = ((m s).bind fun x => some (true, x.2)).map (·.2)
    cases m s <;> rfl
  cases e <;> first | exact h _ | exact h' _

/-- one event with given answers of the environment -/
def next (n : Nat) (s : Sys) (e : Event) (answers : List (Bool × Bool)) : Option Sys :=
  (step (dispatch n) e { s with oracle := answers }).map (·.2)

/-- a history -/
def run (n : Nat) (s : Sys) : List (Event × List (Bool × Bool)) → Option Sys
  | [] => some s
  | (e, a) :: rest =>
    match next n s e a with
    | some s' => run n s' rest
    | none => none

/-- a session starts with these milters -/
def init (kids : List Kid) (chunkSize : Nat) : Sys :=
  { count := kids.length, kids := fun i => kids.getD i {}, chunkSize := chunkSize }

end Verif.Children
