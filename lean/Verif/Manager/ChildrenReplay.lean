import Verif.Manager.ChildrenEval
import Verif.Spec.Chain
/-
Sending a stored message to the next milter, exchange by exchange.
-/
namespace Verif.Children
open Verif
open Verif.Server (St)

/-! ## The context -/

/-- the context is between two commands -/
structure Ready (c : Server.State) : Prop where
  quitted : c.quitted = false
  nextStates : c.nextStates = []
  timer : c.timer = none
  body : c.body = []
  queue : c.bodyQueue = []
  count : c.processBodyCount = 0
  sentEom : c.sentEom = false
  skip : c.skipBody = false
  option : ∃ o, c.option = some o ∧ wantsMessage o

/-- the command leading to the state `st` was written -/
structure Wait (c : Server.State) (st : St) : Prop where
  quitted : c.quitted = false
  nextStates : c.nextStates = [st]
  body : c.body = []
  queue : c.bodyQueue = if st = .body then [1] else []
  count : c.processBodyCount = 0
  sentEom : c.sentEom = false
  skip : c.skipBody = false
  option : ∃ o, c.option = some o ∧ wantsMessage o

/-- it has gone out -/
structure At (c : Server.State) (st : St) : Prop where
  state : c.state = st
  quitted : c.quitted = false
  nextStates : c.nextStates = []
  body : c.body = []
  queue : c.bodyQueue = if st = .body then [1] else []
  count : c.processBodyCount = 0
  sentEom : c.sentEom = false
  skip : c.skipBody = false
  option : ∃ o, c.option = some o ∧ wantsMessage o

/-- the states of a message -/
def inContent (st : St) : Prop := st = .header ∨ st = .endOfHeader ∨ st = .body ∨ st = .endOfMessage

theorem wants {o : Opt} (h : wantsMessage o) {m : UInt32} (hm : m ∈ [0x10, 0x20, 0x40, 0x80, 0x40000, 0x80000]) :
    o.step &&& m = 0 := h m hm

theorem flushed_ctx {c : Server.State} {st : St} (h : Wait c st) (hst : inContent st) :
    ∃ c', Server.flushed c true = ({ c' with stack := [] :: c.stack }, [.emit (.stateTransited st)]) ∧
      c'.stack = c.stack ∧ At c' st ∧ c'.option = c.option := by
  obtain ⟨o, ho, hw⟩ := h.option
  have e1 : Server.needReply c.option .header = some true := by
    simp [Server.needReply, ho, Server.noReplyFlag, wants hw]
  have e2 : Server.needReply c.option .endOfHeader = some true := by
    simp [Server.needReply, ho, Server.noReplyFlag, wants hw]
  rcases hst with rfl | rfl | rfl | rfl
  · refine ⟨{ Server.setState { c with nextStates := [], timer := none } .header with timer := some .reading }, ?_, rfl,
      ⟨rfl, h.quitted, rfl, h.body, h.queue, h.count, h.sentEom, h.skip, h.option⟩, rfl⟩
    simp [Server.flushed, h.nextStates, Server.flushActions, Server.exec, Server.act, Server.enter, Server.setState, e1,
      Server.go, Server.pause]
  · refine ⟨{ Server.setState { c with nextStates := [], timer := none } .endOfHeader with timer := some .reading }, ?_, rfl,
      ⟨rfl, h.quitted, rfl, h.body, h.queue, h.count, h.sentEom, h.skip, h.option⟩, rfl⟩
    simp [Server.flushed, h.nextStates, Server.flushActions, Server.exec, Server.act, Server.enter, Server.setState, e2,
      Server.go, Server.pause]
  · refine ⟨Server.setState { c with nextStates := [], timer := none } .body, ?_, rfl,
      ⟨rfl, h.quitted, rfl, h.body, h.queue, h.count, h.sentEom, h.skip, h.option⟩, rfl⟩
    simp [Server.flushed, h.nextStates, Server.flushActions, Server.exec, Server.act, Server.enter, Server.setState,
      h.body, Server.go, Server.pause]
  · refine ⟨{ Server.setState { c with nextStates := [], timer := none } .endOfMessage with timer := some .endOfMessage }, ?_, rfl,
      ⟨rfl, h.quitted, rfl, h.body, h.queue, h.count, h.sentEom, h.skip, h.option⟩, rfl⟩
    simp [Server.flushed, h.nextStates, Server.flushActions, Server.exec, Server.act, Server.enter, Server.setState,
      h.count, Server.go, Server.pause]

/-- the frame left by a continue reply -/
def frame (st : St) : List Server.Action := if st = .body then [.enterIfSent, .flushRest] else [.processed .atEndOfMessage]

theorem cont_ctx {c : Server.State} {st : St} (h : At c st) (hst : st = .header ∨ st = .endOfHeader ∨ st = .body) :
    ∃ c', Server.reply c .cont true = ({ c' with stack := frame st :: c.stack }, [.emit (.reply .cont)]) ∧
      c'.stack = c.stack ∧ Ready c' ∧ c'.state = st ∧ c'.option = c.option := by
  have hs := h.state
  rcases hst with rfl | rfl | rfl
  · refine ⟨{ c with timer := none }, ?_, rfl,
      ⟨h.quitted, h.nextStates, rfl, h.body, h.queue, h.count, h.sentEom, h.skip, h.option⟩, hs, rfl⟩
    simp [Server.reply, hs, Server.answerable, Server.report, h.quitted, Server.andThen, Server.pause, frame]
  · refine ⟨{ c with timer := none }, ?_, rfl,
      ⟨h.quitted, h.nextStates, rfl, h.body, h.queue, h.count, h.sentEom, h.skip, h.option⟩, hs, rfl⟩
    simp [Server.reply, hs, Server.answerable, Server.report, h.quitted, Server.andThen, Server.pause, frame]
  · refine ⟨{ c with timer := none, bodyQueue := [] }, ?_, rfl,
      ⟨h.quitted, h.nextStates, rfl, h.body, rfl, h.count, h.sentEom, h.skip, h.option⟩, hs, rfl⟩
    have hq : c.bodyQueue = [1] := h.queue
    simp [Server.reply, hs, h.quitted, Server.continueBody, hq, Server.andThen, Server.pause, frame]

/-- what is left to do after it -/
theorem frame_ctx {c : Server.State} {st : St} {stack : List (List Server.Action)} (hb : c.body = [])
    (he : c.sentEom = false) (hs : c.state ≠ .endOfMessage) :
    Server.exec { c with stack := stack } true (frame st) = ({ c with stack := stack }, []) := by
  unfold frame
  split
  · simp [Server.exec, Server.act, he, hb, Server.go]
  · simp [Server.exec, Server.act, Server.Cond.holds, hs, Server.go]

/-- the state a message command leads to -/
def cmdState : Cmd → St
  | .header _ _ => .header
  | .endOfHeader => .endOfHeader
  | .body _ => .body
  | _ => .endOfMessage

def isContent : Cmd → Prop
  | .header _ _ | .endOfHeader | .endOfMessage _ => True
  | .body b => b.length ≤ Enc.chunkSize
  | _ => False

theorem command_ctx {c : Server.State} {cmd : Cmd} (h : Ready c) (hc : isContent cmd) :
    ∃ c', Server.command c cmd false true = (c', [.wrote cmd, .ret true]) ∧ Wait c' (cmdState cmd) ∧
      c'.state = c.state ∧ c'.stack = c.stack ∧ c'.option = c.option := by
  obtain ⟨o, ho, hw⟩ := h.option
  have e1 : Server.isEnableStep c.option 0x20 = false := by simp [Server.isEnableStep, ho, wants hw]
  have e2 : Server.isEnableStep c.option 0x40 = false := by simp [Server.isEnableStep, ho, wants hw]
  have e3 : Server.isEnableStep c.option 0x10 = false := by simp [Server.isEnableStep, ho, wants hw]
  cases cmd with
  | header n v =>
    refine ⟨{ Server.ensureResult c (Server.Result.told (.header n v)) with timer := some .writing, nextStates := [.header] }, ?_,
      ⟨h.quitted, rfl, h.body, h.queue, h.count, h.sentEom, h.skip, h.option⟩, rfl, rfl, rfl⟩
    simp [Server.command, Server.ensureResult, e1, Server.returning, Server.writePacket, Server.isProcessing, h.timer,
      Server.andThen, Server.go, Server.exec, h.nextStates]
  | endOfHeader =>
    refine ⟨{ Server.ensureResult c (Server.Result.told .endOfHeader) with timer := some .writing, nextStates := [.endOfHeader] }, ?_,
      ⟨h.quitted, rfl, h.body, h.queue, h.count, h.sentEom, h.skip, h.option⟩, rfl, rfl, rfl⟩
    simp [Server.command, Server.ensureResult, e2, Server.returning, Server.writePacket, Server.isProcessing, h.timer,
      Server.andThen, Server.go, Server.exec, h.nextStates]
  | endOfMessage b =>
    refine ⟨{ Server.ensureResult c (Server.Result.told (.endOfMessage b)) with timer := some .writing, nextStates := [.endOfMessage] }, ?_,
      ⟨h.quitted, rfl, h.body, h.queue, h.count, h.sentEom, h.skip, h.option⟩, rfl, rfl, rfl⟩
    simp [Server.command, Server.ensureResult, Server.returning, Server.writePacket, Server.isProcessing, h.timer,
      Server.andThen, Server.go, Server.exec, h.nextStates]
  | body b =>
    refine ⟨{ Server.ensureResult c (Server.Result.told (.body b)) with timer := some .writing, nextStates := [.body], body := [], bodyQueue := [1] }, ?_,
      ⟨h.quitted, rfl, rfl, rfl, h.count, h.sentEom, h.skip, h.option⟩, rfl, rfl, rfl⟩
    have hb : b.length ≤ Enc.chunkSize := hc
    have hp : Enc.bodyPackedSize b = b.length := by unfold Enc.bodyPackedSize; rw [if_neg (by omega)]
    simp [Server.command, Server.ensureResult, e3, Server.returning, Server.flushBody, Server.appendBodyQueue, h.queue,
      h.body, Server.writePacket, Server.isProcessing, h.timer, Server.andThen, Server.go, Server.exec, h.nextStates, hp,
      Server.incrementBodyQueue]
  | _ => exact hc.elim

/-! ## Contexts stay in the message -/

theorem command_keeps {c : Server.State} {cmd : Cmd} (h : Ready c) (hc : isContent cmd) :
    (Server.command c cmd false true).1.negotiated = c.negotiated ∧
      (Server.command c cmd false true).1.processingMessage = c.processingMessage := by
  obtain ⟨o, ho, hw⟩ := h.option
  have e1 : Server.isEnableStep c.option 0x20 = false := by simp [Server.isEnableStep, ho, wants hw]
  have e2 : Server.isEnableStep c.option 0x40 = false := by simp [Server.isEnableStep, ho, wants hw]
  have e3 : Server.isEnableStep c.option 0x10 = false := by simp [Server.isEnableStep, ho, wants hw]
  cases cmd with
  | header n v =>
    simp [Server.command, Server.ensureResult, e1, Server.returning, Server.writePacket, Server.isProcessing, h.timer,
      Server.andThen, Server.go, Server.exec]
  | endOfHeader =>
    simp [Server.command, Server.ensureResult, e2, Server.returning, Server.writePacket, Server.isProcessing, h.timer,
      Server.andThen, Server.go, Server.exec]
  | endOfMessage b =>
    simp [Server.command, Server.ensureResult, Server.returning, Server.writePacket, Server.isProcessing, h.timer,
      Server.andThen, Server.go, Server.exec]
  | body b =>
    simp [Server.command, Server.ensureResult, e3, Server.returning, Server.flushBody, Server.appendBodyQueue, h.queue,
      Server.writePacket, Server.isProcessing, h.timer, Server.andThen, Server.go, Server.exec, Server.incrementBodyQueue]
  | _ => exact hc.elim

theorem flushed_keeps {c : Server.State} {st : St} (h : Wait c st) (hst : inContent st) :
    (Server.flushed c true).1.negotiated = c.negotiated ∧
      (Server.flushed c true).1.processingMessage = c.processingMessage := by
  obtain ⟨o, ho, hw⟩ := h.option
  have e1 : Server.needReply c.option .header = some true := by
    simp [Server.needReply, ho, Server.noReplyFlag, wants hw]
  have e2 : Server.needReply c.option .endOfHeader = some true := by
    simp [Server.needReply, ho, Server.noReplyFlag, wants hw]
  rcases hst with rfl | rfl | rfl | rfl <;>
    simp [Server.flushed, h.nextStates, Server.flushActions, Server.exec, Server.act, Server.enter, Server.setState, e1, e2,
      h.body, h.count, Server.go, Server.pause]

theorem cont_keeps {c : Server.State} {st : St} (h : At c st) (hst : st = .header ∨ st = .endOfHeader ∨ st = .body) :
    (Server.reply c .cont true).1.negotiated = c.negotiated ∧
      (Server.reply c .cont true).1.processingMessage = c.processingMessage := by
  have hs := h.state
  have hq : st = .body → c.bodyQueue = [1] := fun e => by rw [h.queue, if_pos e]
  rcases hst with rfl | rfl | rfl
  · simp [Server.reply, hs, Server.answerable, Server.report, h.quitted, Server.andThen, Server.pause]
  · simp [Server.reply, hs, Server.answerable, Server.report, h.quitted, Server.andThen, Server.pause]
  · simp [Server.reply, hs, h.quitted, Server.continueBody, hq rfl, Server.andThen, Server.pause]

/-- the milter is processing the message -/
def attending (c : Server.State) : Prop := c.negotiated = true ∧ c.processingMessage = true

/-! ## The children object -/

def stored (s : Sys) : Bytes :=
  match s.body with
  | some b => b
  | none => match s.bodyFile with
    | some f => f.1
    | none => []

def unsent (s : Sys) : Bytes :=
  match s.body with
  | some b => b.drop s.sentOffset
  | none => match s.bodyFile with
    | some f => f.1.drop f.2
    | none => []

def queueOf (hasHeader hasBody : Bool) : List St :=
  (if hasHeader then [.header] else []) ++ [.endOfHeader] ++ (if hasBody then [.body] else []) ++ [.endOfMessage]

/-- the commands the MTA has given when the last one led to the state -/
def queueUpTo (hasHeader hasBody : Bool) : St → List St
  | .header => [.header]
  | .endOfHeader => (if hasHeader then [.header] else []) ++ [.endOfHeader]
  | .body => (if hasHeader then [.header] else []) ++ [.endOfHeader, .body]
  | _ => queueOf hasHeader hasBody

def headerCmd (convert : Bool) (h : Header) : Cmd := .header h.name (sentValue convert h.value)

def bodyCmds (s : Sys) : List Cmd :=
  if St.body ∈ s.commandQueue then (pieces s.chunkSize (stored s)).map .body else []

/-- the end of the message, if it has come -/
def endCmds (s : Sys) : List Cmd := if St.endOfMessage ∈ s.commandQueue then [.endOfMessage s.eomChunk] else []

/-- what follows the headers, as far as it has come -/
def afterHeaders (s : Sys) : List Cmd :=
  if St.endOfHeader ∈ s.commandQueue then .endOfHeader :: (bodyCmds s ++ endCmds s) else []

/-- the commands still to be sent after the one leading to `st` -/
def remaining (s : Sys) (i : Nat) : St → List Cmd
  | .header => ((s.headers.getD []).drop s.headerIndex).map (headerCmd (converts s i)) ++ afterHeaders s
  | .endOfHeader => bodyCmds s ++ endCmds s
  | .body => (pieces s.chunkSize (unsent s)).map .body ++ endCmds s
  | _ => []

/-- what stays the same while the message is sent to milter `i` -/
structure Base (s : Sys) (i : Nat) : Prop where
  oracle : s.oracle = []
  linked : (s.kids i).linked = true
  state : inContent s.state
  waiting : s.waitingQueue ≠ []
  chunkPos : 0 < s.chunkSize
  chunkMax : s.chunkSize ≤ Enc.chunkSize
  option : ∃ o, s.option = some o
  headers : St.header ∈ s.commandQueue → ∃ hs, s.headers = some hs
  queue : ∃ hh hb, s.commandQueue = queueUpTo hh hb s.state
  content : St.body ∈ s.commandQueue → stored s ≠ []
  file : s.state ≠ .endOfMessage → ∀ f, s.bodyFile = some f →
    s.body = none ∧ f.2 ≤ f.1.length ∧ (St.body ∉ s.commandQueue → f.2 = f.1.length)

/-- refusals among the decisions -/
def isRefused : Status → Bool
  | .reject | .temporaryFailure | .discard => true
  | _ => false

/-- for which commands the decision so far is a refusal -/
def refused (s : Sys) : St → Bool := fun st => isRefused (s.statuses st)

theorem isRefused_passes (v w : Status) (h : w = .continue_ ∨ w = .accept) : isRefused (Status.compile v w) = isRefused v := by
  rcases h with rfl | rfl <;> cases v <;> rfl

theorem refused_set (f : St → Status) (st : St) (w : Status) (h : w = .continue_ ∨ w = .accept) :
    (fun x => isRefused (setStatusOf f st (Status.compile (f st) w) x)) = fun x => isRefused (f x) := by
  funext x
  unfold setStatusOf
  split
  · subst_vars; exact isRefused_passes _ _ h
  · rfl

/-- what is not touched while the message is sent to a milter -/
structure Carried where
  waitingQueue : List Nat
  commandQueue : List St
  headers : Option (List Header)
  originalHeaders : Option (List Header)
  stored : Bytes
  chunkSize : Nat
  option : Option Opt
  eomChunk : Bytes
  changeFrom : Option (Bytes × Option Bytes)
  quarantine : Option Bytes
  replaced : Bool
  emittedReply : Bool
  code : Option (Nat × Bytes × Option Bytes)
  status : Status
  state : St
  count : Nat
  apart : Option Pending × Bool × Nat
  refused : St → Bool

def carried (s : Sys) : Carried :=
  ⟨s.waitingQueue, s.commandQueue, s.headers, s.originalHeaders, stored s, s.chunkSize, s.option, s.eomChunk, s.changeFrom,
    s.quarantine, s.replaced, s.emittedReply, s.code, s.statuses .endOfMessage, s.state, s.count,
    (s.pending, s.allExpired, s.count), refused s⟩

/-- it is the turn of milter `i`: the command leading to `st` was written to it -/
structure Turn (s : Sys) (i : Nat) (st : St) : Prop where
  base : Base s i
  wait : Wait (s.kids i).ctx st
  queued : st ∈ s.commandQueue
  sending : st = .body → s.sendingBody = true
  fresh : (St.body ∈ s.commandQueue ∧ (st = .header ∨ st = .endOfHeader)) ∨ s.replacedForEach = false
  index : st = .header → s.headerIndex ≤ (s.headers.getD []).length

/-- the milter has answered -/
structure Answered (s : Sys) (i : Nat) (st : St) : Prop where
  base : Base s i
  ready : Ready (s.kids i).ctx
  state : (s.kids i).ctx.state = st
  queued : st ∈ s.commandQueue
  sending : st = .body → s.sendingBody = true
  fresh : (St.body ∈ s.commandQueue ∧ (st = .header ∨ st = .endOfHeader)) ∨ s.replacedForEach = false
  index : st = .header → s.headerIndex ≤ (s.headers.getD []).length

theorem call_content {d : Dispatch} {i : Nat} {cmd : Cmd} {s : Sys} (ho : s.oracle = []) (h : Ready (s.kids i).ctx)
    (hc : isContent cmd) :
    ∃ c', call d i cmd s = some (true, logged (withCtx s i c') (.sent i cmd)) ∧ Wait c' (cmdState cmd) ∧
      c'.state = (s.kids i).ctx.state ∧ c'.stack = (s.kids i).ctx.stack ∧ c'.option = (s.kids i).ctx.option ∧
      c'.negotiated = (s.kids i).ctx.negotiated ∧ c'.processingMessage = (s.kids i).ctx.processingMessage := by
  obtain ⟨c', h1, h2, h3, h4, h5⟩ := command_ctx h hc
  have hk := command_keeps h hc
  rw [h1] at hk
  exact ⟨c', call_eq ho h1, h2, h3, h4, h5, hk⟩

theorem answer_needed {c : Server.State} {st : St} (h : ∃ o, c.option = some o ∧ wantsMessage o)
    (hst : st = .header ∨ st = .endOfHeader ∨ st = .body) : Server.needReply c.option st = some true := by
  obtain ⟨o, ho, hw⟩ := h
  rcases hst with rfl | rfl | rfl <;> simp [Server.needReply, ho, Server.noReplyFlag, wants hw]

theorem conversion_eq {s : Sys} {i : Nat} {u : Sys} (h : ∃ o, s.option = some o) :
    needConversion s i u = some (converts s i, u) := by
  obtain ⟨o, ho⟩ := h
  unfold needConversion converts
  rw [ho]
  split <;> rfl

theorem converts_eq {s s' : Sys} {i : Nat} (h1 : s'.option = s.option) (h2 : (s'.kids i).ctx.option = (s.kids i).ctx.option) :
    converts s' i = converts s i := by
  unfold converts
  rw [h1, h2]

/-- a milter without the state of its connection -/
def shell (k : Kid) : Kid := { k with ctx := {} }

/-- the configuration of the milters and what they negotiated stays -/
structure SameRoles (s s' : Sys) : Prop where
  option : s'.option = s.option
  ctxOption : ∀ j, (s'.kids j).ctx.option = (s.kids j).ctx.option
  shell : ∀ j, shell (s'.kids j) = shell (s.kids j)
  apart : (s'.pending, s'.allExpired, s'.count) = (s.pending, s.allExpired, s.count)

theorem SameRoles.evaluation {s s' : Sys} (h : SameRoles s s') (j : Nat) : (s'.kids j).evaluation = (s.kids j).evaluation := by
  have := h.shell j
  unfold Children.shell at this
  injection this

theorem SameRoles.linked {s s' : Sys} (h : SameRoles s s') (j : Nat) : (s'.kids j).linked = (s.kids j).linked := by
  have := h.shell j
  unfold Children.shell at this
  injection this

theorem SameRoles.refl (s : Sys) : SameRoles s s := ⟨rfl, fun _ => rfl, fun _ => rfl, rfl⟩

theorem SameRoles.trans {a b c : Sys} (h1 : SameRoles a b) (h2 : SameRoles b c) : SameRoles a c :=
  ⟨h2.option.trans h1.option, fun j => (h2.ctxOption j).trans (h1.ctxOption j),
    fun j => (h2.shell j).trans (h1.shell j), h2.apart.trans h1.apart⟩

theorem SameRoles.converts {a b : Sys} (h : SameRoles a b) (j : Nat) : converts b j = converts a j :=
  converts_eq h.option (h.ctxOption j)

theorem sameRoles_ctx {s : Sys} {i : Nat} {c : Server.State} (h : c.option = (s.kids i).ctx.option) :
    SameRoles s (withCtx s i c) := by
  refine ⟨rfl, fun j => ?_, fun j => ?_, rfl⟩
  · by_cases hj : j = i
    · subst hj; rw [withCtx_ctx, h]
    · rw [withCtx_other _ _ _ _ hj]
  · by_cases hj : j = i
    · subst hj; rw [withCtx_kid]; rfl
    · rw [withCtx_other _ _ _ _ hj]

/-- what sending the command `c` to milter `i` amounts to -/
structure Sent (u u' : Sys) (i : Nat) (c : Cmd) (rest : List Cmd) : Prop where
  turn : Turn u' i (cmdState c)
  rest : remaining u' i (cmdState c) = rest
  out : u'.out = u.out ++ [.sent i c]
  state : (u'.kids i).ctx.state = (u.kids i).ctx.state
  stack : (u'.kids i).ctx.stack = (u.kids i).ctx.stack
  same : carried u' = carried u
  others : ∀ j, j ≠ i → u'.kids j = u.kids j
  option : (u'.kids i).ctx.option = (u.kids i).ctx.option
  shell : shell (u'.kids i) = shell (u.kids i)
  keeps : (u'.kids i).ctx.negotiated = (u.kids i).ctx.negotiated ∧
    (u'.kids i).ctx.processingMessage = (u.kids i).ctx.processingMessage

theorem Sent.roles {u u' : Sys} {i : Nat} {c : Cmd} {rest : List Cmd} (h : Sent u u' i c rest) : SameRoles u u' := by
  injection h.same with c1 c2 c3 c4 c5 c6 c7 c8 c9 c10 c11 c12 c13 c14 c15 c16 c17
  refine ⟨c7, fun k => ?_, fun k => ?_, c17⟩
  · by_cases hk : k = i
    · subst hk; exact h.option
    · rw [h.others k hk]
  · by_cases hk : k = i
    · subst hk; exact h.shell
    · rw [h.others k hk]

theorem bodyCmds_eq {s s' : Sys} (h1 : s'.commandQueue = s.commandQueue) (h2 : s'.chunkSize = s.chunkSize)
    (h3 : stored s' = stored s) : bodyCmds s' = bodyCmds s := by
  unfold bodyCmds
  rw [h1, h2, h3]

theorem getNth_next {hs : List Header} {k : Nat} : Headers.getNth hs (k + 1) = hs[k]? := by
  simp [Headers.getNth]

theorem base_call {u : Sys} {i : Nat} {c : Server.State} {o : Out} (h : Base u i) : Base (logged (withCtx u i c) o) i :=
  ⟨h.oracle, by rw [show (logged (withCtx u i c) o).kids i = (withCtx u i c).kids i from rfl, withCtx_kid]; exact h.linked,
    h.state, h.waiting, h.chunkPos, h.chunkMax, h.option, h.headers, h.queue, h.content, h.file⟩

theorem ctx_call (u : Sys) (i : Nat) (c : Server.State) (o : Out) : ((logged (withCtx u i c) o).kids i).ctx = c :=
  withCtx_ctx u i c

theorem others_call (u : Sys) (i : Nat) (c : Server.State) (o : Out) (j : Nat) (h : j ≠ i) :
    (logged (withCtx u i c) o).kids j = u.kids j := withCtx_other u i j c h

theorem shell_call (u : Sys) (i : Nat) (c : Server.State) (o : Out) :
    shell ((logged (withCtx u i c) o).kids i) = shell (u.kids i) := by
  show shell ((withCtx u i c).kids i) = _
  rw [withCtx_kid]
  rfl

theorem converts_call {u : Sys} {i : Nat} {c : Server.State} {o : Out} (h : c.option = (u.kids i).ctx.option) :
    converts (logged (withCtx u i c) o) i = converts u i :=
  converts_eq rfl (by rw [ctx_call, h])

theorem endCmds_eq {s s' : Sys} (h1 : s'.commandQueue = s.commandQueue) (h2 : s'.eomChunk = s.eomChunk) : endCmds s' = endCmds s := by
  unfold endCmds
  rw [h1, h2]

theorem afterHeaders_eq {s s' : Sys} (h1 : s'.commandQueue = s.commandQueue) (h2 : s'.chunkSize = s.chunkSize)
    (h3 : stored s' = stored s) (h4 : s'.eomChunk = s.eomChunk) : afterHeaders s' = afterHeaders s := by
  unfold afterHeaders
  rw [bodyCmds_eq h1 h2 h3, endCmds_eq h1 h4, h1]

theorem send_header {d : Dispatch} {i : Nat} {s : Sys} {hs : List Header} {h : Header} (hb : Base s i)
    (hr : Ready (s.kids i).ctx)
    (hf : St.body ∈ s.commandQueue ∨ s.replacedForEach = false) (hq : St.header ∈ s.commandQueue) (hh : s.headers = some hs) (hi : hs[s.headerIndex]? = some h) :
    ∃ s', sendNextHeader d i s = some (.progress, s') ∧
      Sent s s' i (headerCmd (converts s i) h)
        ((hs.drop (s.headerIndex + 1)).map (headerCmd (converts s i)) ++ afterHeaders s) := by
  obtain ⟨u, hu⟩ : ∃ u : Sys, u = { s with processingState := .header, headerIndex := s.headerIndex + 1 } := ⟨_, rfl⟩
  have bu : Base u i := by
    subst hu
    exact ⟨hb.oracle, hb.linked, hb.state, hb.waiting, hb.chunkPos, hb.chunkMax, hb.option, hb.headers, hb.queue, hb.content, hb.file⟩
  have ck : u.kids = s.kids := by rw [hu]
  have cu : converts u i = converts s i := converts_eq (by rw [hu]) (by rw [hu])
  obtain ⟨c', h1, h2, h3, h4, h5, hkn, hkp⟩ := call_content (d := d) (i := i) (cmd := headerCmd (converts s i) h)
    (s := u) bu.oracle (by rw [ck]; exact hr) trivial
  refine ⟨logged (withCtx u i c') (.sent i (headerCmd (converts s i) h)), ?_,
    ⟨⟨base_call bu, by rw [ctx_call]; exact h2, by rw [hu]; exact hq, (fun h => nomatch h), hf.imp (fun h => ⟨by rw [hu]; exact h, Or.inl rfl⟩) (fun h => by rw [hu]; exact h), fun _ => by
      rw [hu]
      show s.headerIndex + 1 ≤ (s.headers.getD []).length
      rw [hh, Option.getD_some]
      exact (List.getElem?_eq_some_iff.mp hi).1⟩, ?_, by rw [hu]; rfl, by rw [ctx_call, h3, ck],
      by rw [ctx_call, h4, ck], by rw [hu]; rfl, fun j hj => by rw [others_call _ _ _ _ _ hj, ck],
      by rw [ctx_call, h5, ck], by rw [shell_call, ck], by rw [ctx_call, hkn, hkp, ck]; exact ⟨rfl, rfl⟩⟩⟩
  · unfold sendNextHeader
    rw [modify_bind, get_bind, ← hu]
    have e1 : u.headers = some hs := by rw [hu]; exact hh
    have e2 : Headers.getNth hs u.headerIndex = some h := by rw [hu]; simp only [getNth_next, hi]
    simp only [e1, e2]
    rw [bind_eq (conversion_eq bu.option), cu]
    rw [show Cmd.header h.name (sentValue (converts s i) h.value) = headerCmd (converts s i) h from rfl, bind_eq h1]
    simp only [if_true]
    rw [get_bind, bind_eq (needReply_eq (b := true) (by rw [ctx_call]; exact answer_needed h2.option (by rw [hu]; exact Or.inl rfl)))]
    rfl
  · show ((u.headers.getD []).drop u.headerIndex).map (headerCmd (converts (logged (withCtx u i c') (.sent i (headerCmd (converts s i) h))) i)) ++
      afterHeaders (logged (withCtx u i c') (.sent i (headerCmd (converts s i) h))) = _
    rw [converts_call h5, cu]
    have e3 : afterHeaders (logged (withCtx u i c') (.sent i (headerCmd (converts s i) h))) = afterHeaders s :=
      afterHeaders_eq (by rw [hu]; rfl) (by rw [hu]; rfl) (by rw [hu]; rfl) (by rw [hu]; rfl)
    rw [e3, hu]
    simp only [hh, Option.getD_some]

theorem send_endOfHeader {d : Dispatch} {i : Nat} {s : Sys} (hb : Base s i) (hr : Ready (s.kids i).ctx)
    (hf : St.body ∈ s.commandQueue ∨ s.replacedForEach = false) (hq : St.endOfHeader ∈ s.commandQueue) :
    ∃ s', sendCommand d i .endOfHeader s = some (.progress, s') ∧
      Sent s s' i .endOfHeader (bodyCmds s ++ endCmds s) := by
  obtain ⟨u, hu⟩ : ∃ u : Sys, u = { s with processingState := .endOfHeader } := ⟨_, rfl⟩
  have bu : Base u i := by
    subst hu
    exact ⟨hb.oracle, hb.linked, hb.state, hb.waiting, hb.chunkPos, hb.chunkMax, hb.option, hb.headers, hb.queue, hb.content, hb.file⟩
  have ck : u.kids = s.kids := by rw [hu]
  obtain ⟨c', h1, h2, h3, h4, h5, hkn, hkp⟩ := call_content (d := d) (i := i) (cmd := .endOfHeader)
    (s := u) bu.oracle (by rw [ck]; exact hr) trivial
  refine ⟨logged (withCtx u i c') (.sent i .endOfHeader), ?_,
    ⟨⟨base_call bu, by rw [ctx_call]; exact h2, by rw [hu]; exact hq, (fun h => nomatch h), hf.imp (fun h => ⟨by rw [hu]; exact h, Or.inr rfl⟩) (fun h => by rw [hu]; exact h), fun h => nomatch h⟩, ?_, by rw [hu]; rfl, by rw [ctx_call, h3, ck],
      by rw [ctx_call, h4, ck], by rw [hu]; rfl, fun j hj => by rw [others_call _ _ _ _ _ hj, ck],
      by rw [ctx_call, h5, ck], by rw [shell_call, ck], by rw [ctx_call, hkn, hkp, ck]; exact ⟨rfl, rfl⟩⟩⟩
  · unfold sendCommand
    rw [get_bind]
    dsimp only
    rw [modify_bind, ← hu, bind_eq h1]
    simp only [if_true]
    rw [get_bind, bind_eq (needReply_eq (b := true) (by rw [ctx_call]; exact answer_needed h2.option (by rw [hu]; exact Or.inr (Or.inl rfl))))]
    rfl
  · show bodyCmds (logged (withCtx u i c') (.sent i .endOfHeader)) ++ endCmds (logged (withCtx u i c') (.sent i .endOfHeader)) = _
    have e3 : bodyCmds (logged (withCtx u i c') (.sent i .endOfHeader)) = bodyCmds s :=
      bodyCmds_eq (by rw [hu]; rfl) (by rw [hu]; rfl) (by rw [hu]; rfl)
    have e4 : endCmds (logged (withCtx u i c') (.sent i .endOfHeader)) = endCmds s := endCmds_eq (by rw [hu]; rfl) (by rw [hu]; rfl)
    rw [e3, e4]

theorem send_endOfMessage {d : Dispatch} {i : Nat} {s : Sys} (hb : Base s i) (hr : Ready (s.kids i).ctx)
    (hf : s.replacedForEach = false) (hq : St.endOfMessage ∈ s.commandQueue) :
    ∃ s', sendCommand d i .endOfMessage s = some (.progress, s') ∧ Sent s s' i (.endOfMessage s.eomChunk) [] := by
  obtain ⟨u, hu⟩ : ∃ u : Sys, u = { s with headerIndex := 0, processingState := .endOfMessage } := ⟨_, rfl⟩
  have bu : Base u i := by
    subst hu
    exact ⟨hb.oracle, hb.linked, hb.state, hb.waiting, hb.chunkPos, hb.chunkMax, hb.option, hb.headers, hb.queue, hb.content, hb.file⟩
  have ck : u.kids = s.kids := by rw [hu]
  obtain ⟨c', h1, h2, h3, h4, h5, hkn, hkp⟩ := call_content (d := d) (i := i) (cmd := .endOfMessage s.eomChunk)
    (s := u) bu.oracle (by rw [ck]; exact hr) trivial
  refine ⟨logged (withCtx u i c') (.sent i (.endOfMessage s.eomChunk)), ?_,
    ⟨⟨base_call bu, by rw [ctx_call]; exact h2, by rw [hu]; exact hq, (fun h => nomatch h), Or.inr (by rw [hu]; exact hf), fun h => nomatch h⟩, rfl, by rw [hu]; rfl, by rw [ctx_call, h3, ck],
      by rw [ctx_call, h4, ck], by rw [hu]; rfl, fun j hj => by rw [others_call _ _ _ _ _ hj, ck],
      by rw [ctx_call, h5, ck], by rw [shell_call, ck], by rw [ctx_call, hkn, hkp, ck]; exact ⟨rfl, rfl⟩⟩⟩
  unfold sendCommand
  rw [get_bind]
  dsimp only
  rw [modify_bind, ← hu, get_bind]
  have e : u.eomChunk = s.eomChunk := by rw [hu]
  rw [e, bind_eq h1]
  rfl

/-- a queue that already knows about bodies stays as it is -/
theorem waiting_same {d : Dispatch} {s : Sys} {c : St} (h1 : c ∈ s.commandQueue) (h2 : s.waitingQueue ≠ []) :
    initWaitingQueue d c s = some ((), s) := by
  unfold initWaitingQueue
  rw [modify_bind, get_bind, if_neg h2]
  simp only [h1, if_true]
  rfl

theorem pieces_cons {size : Nat} {b : Bytes} (hs : 0 < size) (hb : b ≠ []) :
    pieces size b = b.take size :: pieces size (b.drop size) := by
  rw [pieces]
  have : ¬ (b = [] ∨ size = 0) := by
    rintro (h | h)
    · exact hb h
    · omega
  rw [dif_neg this]

theorem pieces_nil {size : Nat} : pieces size [] = [] := by
  rw [pieces]; simp

theorem take_min {b : Bytes} {k size : Nat} : (b.drop k).take (min (b.length - k) size) = (b.drop k).take size := by
  rw [List.take_eq_take_iff]
  simp only [List.length_drop]
  omega

theorem drop_min {b : Bytes} {k size : Nat} : b.drop (k + min (b.length - k) size) = (b.drop k).drop size := by
  rw [List.drop_drop]
  by_cases h : size ≤ b.length - k
  · rw [Nat.min_eq_right h]
  · rw [List.drop_eq_nil_of_le (by omega), List.drop_eq_nil_of_le (by omega)]

theorem send_body {d : Dispatch} {i : Nat} {s : Sys} (hb : Base s i) (hr : Ready (s.kids i).ctx)
    (hq : St.body ∈ s.commandQueue) (hsend : s.sendingBody = true)
    (hf : s.replacedForEach = false) (hne : unsent s ≠ []) :
    ∃ s', sendBody d i s = some (.progress, s') ∧
      Sent s s' i (.body ((unsent s).take s.chunkSize))
        ((pieces s.chunkSize ((unsent s).drop s.chunkSize)).map .body ++ endCmds s) := by
  obtain ⟨u, hu⟩ : ∃ u : Sys, u = { s with processingState := .body } := ⟨_, rfl⟩
  have bu : Base u i := by
    subst hu
    exact ⟨hb.oracle, hb.linked, hb.state, hb.waiting, hb.chunkPos, hb.chunkMax, hb.option, hb.headers, hb.queue, hb.content, hb.file⟩
  have ck : u.kids = s.kids := by rw [hu]
  have hlen : isContent (.body ((unsent s).take s.chunkSize)) := by
    show ((unsent s).take s.chunkSize).length ≤ _
    have := hb.chunkMax
    simp only [List.length_take]
    omega
  have hskip : (u.kids i).ctx.skipBody = false := by rw [ck]; exact hr.skip
  cases hbody : s.body with
  | some b =>
    have hun : unsent s = b.drop s.sentOffset := by unfold unsent; rw [hbody]
    obtain ⟨c', h1, h2, h3, h4, h5, hkn, hkp⟩ := call_content (d := d) (i := i) (cmd := .body ((unsent s).take s.chunkSize))
      (s := u) bu.oracle (by rw [ck]; exact hr) hlen
    obtain ⟨w, hw⟩ : ∃ w : Sys, w = logged (withCtx u i c') (.sent i (.body ((unsent s).take s.chunkSize))) := ⟨_, rfl⟩
    have bw : Base w i := by rw [hw]; exact base_call bu
    have cw : (w.kids i).ctx = c' := by rw [hw, ctx_call]
    obtain ⟨v, hv⟩ : ∃ v : Sys, v = { w with sentOffset := w.sentOffset + min (b.length - s.sentOffset) s.chunkSize } := ⟨_, rfl⟩
    have bv : Base v i := by
      subst hv
      exact ⟨bw.oracle, bw.linked, bw.state, bw.waiting, bw.chunkPos, bw.chunkMax, bw.option, bw.headers, bw.queue, bw.content, bw.file⟩
    have cv : (v.kids i).ctx = c' := by rw [hv]; exact cw
    refine ⟨v, ?_, ⟨⟨bv, by rw [cv]; exact h2, by rw [hv, hw, hu]; exact hq, fun _ => by rw [hv, hw, hu]; exact hsend,
        Or.inr (by rw [hv, hw, hu]; exact hf), fun h => nomatch h⟩, ?_, by rw [hv, hw, hu]; rfl,
      by rw [cv, h3, ck], by rw [cv, h4, ck], ?_, fun j hj => by
        rw [show v.kids j = w.kids j by rw [hv], hw, others_call _ _ _ _ _ hj, ck], by rw [cv, h5, ck],
        by rw [show v.kids i = w.kids i by rw [hv], hw, shell_call, ck],
        by rw [cv, hkn, hkp, ck]; exact ⟨rfl, rfl⟩⟩⟩
    · have hs : sendBodyString d i b u = some (.progress, v) := by
        unfold sendBodyString
        rw [get_bind]
        have e1 : ¬ b.length ≤ u.sentOffset := by
          rw [hun] at hne
          intro hle
          rw [hu] at hle
          exact hne (List.drop_eq_nil_of_le hle)
        rw [if_neg e1]
        have e2 : (b.drop u.sentOffset).take (min (b.length - u.sentOffset) u.chunkSize) = (unsent s).take s.chunkSize := by
          rw [hu, hun]; exact take_min
        rw [e2, bind_eq h1]
        simp only [if_true]
        rw [modify_bind, ← hw]
        have e3 : ({ w with sentOffset := w.sentOffset + min (b.length - u.sentOffset) u.chunkSize } : Sys) = v := by
          rw [hv, hu]
        rw [e3, bind_eq (waiting_same (by rw [hv, hw, hu]; exact hq) bv.waiting)]
        rfl
      unfold sendBody
      rw [modify_bind, ← hu, get_bind, hskip]
      have e4 : u.body = some b := by rw [hu]; exact hbody
      rw [if_neg (by simp)]
      simp only [e4]
      rw [bind_eq hs]
      simp only [if_true]
      rw [get_bind, bind_eq (needReply_eq (b := true) (by
        rw [cv]; exact answer_needed h2.option (by rw [hv, hw, hu]; exact Or.inr (Or.inr rfl))))]
      rfl
    · show (pieces v.chunkSize (unsent v)).map Cmd.body ++ endCmds v = _
      have e5 : unsent v = (unsent s).drop s.chunkSize := by
        rw [hun, ← drop_min]
        unfold unsent
        rw [show v.body = some b by rw [hv, hw, hu]; exact hbody]
        show b.drop v.sentOffset = _
        rw [hv, hw, hu]
        rfl
      rw [e5, hv, hw, hu]
      rfl
    · rw [hv, hw, hu]
      rfl
  | none =>
    cases hfile : s.bodyFile with
    | none => exact absurd (by unfold unsent; rw [hbody, hfile]) hne
    | some f =>
      obtain ⟨content, pos⟩ := f
      have hun : unsent s = content.drop pos := by unfold unsent; rw [hbody, hfile]
      have hst : stored s = content := by unfold stored; rw [hbody, hfile]
      obtain ⟨u2, hu2⟩ : ∃ u2 : Sys, u2 = { u with bodyFile := some (content, pos + ((unsent s).take s.chunkSize).length) } := ⟨_, rfl⟩
      have bu2 : Base u2 i := by
        have e : stored u2 = stored s := by
          rw [hst]; unfold stored; rw [show u2.body = none by rw [hu2, hu]; exact hbody, show u2.bodyFile = _ by rw [hu2]]
        refine ⟨by rw [hu2]; exact bu.oracle, by rw [hu2]; exact bu.linked, by rw [hu2]; exact bu.state,
          by rw [hu2]; exact bu.waiting, by rw [hu2]; exact bu.chunkPos, by rw [hu2]; exact bu.chunkMax,
          by rw [hu2]; exact bu.option, by rw [hu2]; exact bu.headers, by rw [hu2]; exact bu.queue,
          fun h => by rw [e]; exact hb.content hq, ?_⟩
        intro hne' f hf'
        rw [hu2] at hf'
        injection hf' with hf'
        subst hf'
        refine ⟨by rw [hu2, hu]; exact hbody, ?_, fun hn => absurd hq (by rw [hu2, hu] at hn; exact hn)⟩
        have := (hb.file (by rw [hu2, hu] at hne'; exact hne') _ hfile).2.1
        simp only [hun, List.length_take, List.length_drop] at this ⊢
        omega
      have ck2 : u2.kids = s.kids := by rw [hu2, ck]
      obtain ⟨c', h1, h2, h3, h4, h5, hkn, hkp⟩ := call_content (d := d) (i := i) (cmd := .body ((unsent s).take s.chunkSize))
        (s := u2) bu2.oracle (by rw [ck2]; exact hr) hlen
      obtain ⟨v, hv⟩ : ∃ v : Sys, v = logged (withCtx u2 i c') (.sent i (.body ((unsent s).take s.chunkSize))) := ⟨_, rfl⟩
      have bv : Base v i := by rw [hv]; exact base_call bu2
      have cv : (v.kids i).ctx = c' := by rw [hv, ctx_call]
      refine ⟨v, ?_, ⟨⟨bv, by rw [cv]; exact h2, by rw [hv, hu2, hu]; exact hq, fun _ => by rw [hv, hu2, hu]; exact hsend,
        Or.inr (by rw [hv, hu2, hu]; exact hf), fun h => nomatch h⟩, ?_, by rw [hv, hu2, hu]; rfl,
        by rw [cv, h3, ck2], by rw [cv, h4, ck2], ?_, fun j hj => by rw [hv, others_call _ _ _ _ _ hj, ck2],
        by rw [cv, h5, ck2], by rw [hv, shell_call, ck2], by rw [cv, hkn, hkp, ck2]; exact ⟨rfl, rfl⟩⟩⟩
      · have hs : sendBodyFile d i u = some (.progress, v) := by
          unfold sendBodyFile
          rw [get_bind, show u.bodyFile = some (content, pos) by rw [hu]; exact hfile]
          dsimp only
          rw [show u.chunkSize = s.chunkSize by rw [hu], ← hun]
          have e1 : ¬ (unsent s).take s.chunkSize = [] := by
            intro h
            rcases List.take_eq_nil_iff.mp h with h | h
            · have := hb.chunkPos; omega
            · exact hne h
          rw [if_neg e1, modify_bind, ← hu2, bind_eq h1]
          simp only [if_true]
          rw [hv]
          rfl
        unfold sendBody
        rw [modify_bind, ← hu, get_bind, hskip]
        have e4 : u.body = none := by rw [hu]; exact hbody
        rw [if_neg (by simp)]
        simp only [e4]
        rw [bind_eq hs]
        simp only [if_true]
        rw [get_bind, bind_eq (needReply_eq (b := true) (by
          rw [cv]; exact answer_needed h2.option (by rw [hv, hu2, hu]; exact Or.inr (Or.inr rfl))))]
        rfl
      · show (pieces v.chunkSize (unsent v)).map Cmd.body ++ endCmds v = _
        have e5 : unsent v = (unsent s).drop s.chunkSize := by
          unfold unsent
          rw [show v.body = none by rw [hv, hu2, hu]; exact hbody,
            show v.bodyFile = some (content, pos + ((unsent s).take s.chunkSize).length) by rw [hv, hu2]; rfl, hbody, hfile]
          dsimp only
          rw [hun, List.length_take, List.length_drop, Nat.min_comm, drop_min]
        rw [e5, hv, hu2, hu]
        rfl
      · have e : stored v = stored s := by
          rw [hst]; unfold stored
          rw [show v.body = none by rw [hv, hu2, hu]; exact hbody, show v.bodyFile = some (content, pos + ((unsent s).take s.chunkSize).length) by rw [hv, hu2]; rfl]
        unfold carried
        rw [e, hv, hu2, hu]
        rfl

/-- nothing of the body is left -/
theorem send_body_nothing {d : Dispatch} {i : Nat} {s : Sys} (hr : Ready (s.kids i).ctx) (hne : unsent s = []) :
    sendBody d i s = some (.notChange, { s with processingState := .body, sendingBody := false }) := by
  obtain ⟨u, hu⟩ : ∃ u : Sys, u = { s with processingState := .body } := ⟨_, rfl⟩
  have hskip : (u.kids i).ctx.skipBody = false := by rw [hu]; exact hr.skip
  unfold sendBody
  rw [modify_bind, ← hu, get_bind, hskip, if_neg (by simp)]
  rcases (show (∃ b, s.body = some b) ∨ s.body = none by cases s.body <;> simp) with ⟨b, hbody⟩ | hbody
  · have hs : sendBodyString d i b u = some (.notChange, u) := by
      unfold sendBodyString
      rw [get_bind]
      have e1 : b.length ≤ u.sentOffset := by
        have : unsent s = b.drop s.sentOffset := by unfold unsent; rw [hbody]
        rw [this] at hne
        rw [hu]
        exact List.drop_eq_nil_iff.mp hne
      rw [if_pos e1]
      rfl
    simp only [show u.body = some b by rw [hu]; exact hbody]
    rw [bind_eq hs, if_neg (by decide), if_pos (by decide), hu]
    rfl
  · have hs : sendBodyFile d i u = some (.notChange, u) := by
      unfold sendBodyFile
      rw [get_bind]
      cases hfile : s.bodyFile with
      | none => rw [show u.bodyFile = none by rw [hu]; exact hfile]; rfl
      | some f =>
        obtain ⟨content, pos⟩ := f
        have : unsent s = content.drop pos := by unfold unsent; rw [hbody, hfile]
        rw [this] at hne
        rw [show u.bodyFile = some (content, pos) by rw [hu]; exact hfile]
        dsimp only
        rw [hne, if_pos (by simp)]
        rfl
    simp only [show u.body = none by rw [hu]; exact hbody]
    rw [bind_eq hs, if_neg (by decide), if_pos (by decide), hu]
    rfl

theorem next_header {hh hb : Bool} {st : St} (h : St.header ∈ queueUpTo hh hb st) :
    nextIn (stateCommand .header) (queueUpTo hh hb st) =
      if St.endOfHeader ∈ queueUpTo hh hb st then some .endOfHeader else none := by
  revert h
  cases st <;> cases hh <;> cases hb <;> decide

theorem next_endOfHeader {hh hb : Bool} {st : St} :
    nextIn (stateCommand .endOfHeader) (queueUpTo hh hb st) =
      if St.body ∈ queueUpTo hh hb st then some .body
      else if St.endOfMessage ∈ queueUpTo hh hb st then some .endOfMessage else none := by
  cases st <;> cases hh <;> cases hb <;> decide

theorem next_body {hh hb : Bool} {st : St} (h : St.body ∈ queueUpTo hh hb st) :
    nextIn (stateCommand .body) (queueUpTo hh hb st) =
      if St.endOfMessage ∈ queueUpTo hh hb st then some .endOfMessage else none := by
  revert h
  cases st <;> cases hh <;> cases hb <;> decide

theorem queued_rank {hh hb : Bool} {st x : St} (hst : inContent st) (h : x ∈ queueUpTo hh hb st) : x.rank ≤ st.rank := by
  rcases hst with rfl | rfl | rfl | rfl <;> cases hh <;> cases hb <;> cases x <;> revert h <;> decide

theorem ended_queued {hh hb : Bool} {st : St} (hst : inContent st) (h : St.endOfMessage ∈ queueUpTo hh hb st) : st = .endOfMessage := by
  rcases hst with rfl | rfl | rfl | rfl <;> cases hh <;> cases hb <;> revert h <;> decide

/-- the body is sent from its start -/
def restarted (s : Sys) : Sys :=
  match s.body with
  | some _ => { s with processingState := .body, replacedForEach := false, sendingBody := true, sentOffset := 0 }
  | none =>
    { s with
      processingState := .body, replacedForEach := false, sendingBody := true
      bodyFile := s.bodyFile.map fun f => (f.1, 0) }

theorem restarted_stored (s : Sys) : stored (restarted s) = stored s := by
  unfold restarted stored
  cases h : s.body with
  | some b => simp
  | none => cases hf : s.bodyFile <;> simp

theorem restarted_unsent (s : Sys) : unsent (restarted s) = stored s := by
  unfold restarted unsent stored
  cases h : s.body with
  | some b => simp
  | none => cases hf : s.bodyFile <;> simp

theorem restarted_carried (s : Sys) : carried (restarted s) = carried s := by
  have h := restarted_stored s
  unfold carried
  rw [h]
  unfold restarted
  split <;> rfl

theorem initBody_eq {s : Sys} : initBody s = some ((), restarted s) := rfl

/-- after the answer to END OF HEADER comes the body, if there is one -/
theorem send_after_header {d : Dispatch} {i : Nat} {s : Sys} {c : Cmd} {rest : List Cmd} (hb : Base s i)
    (hr : Ready (s.kids i).ctx) (hf : St.body ∈ s.commandQueue ∨ s.replacedForEach = false) (hrem : remaining s i .endOfHeader = c :: rest) :
    ∃ s', sendNextCommand d i .endOfHeader s = some (.progress, s') ∧ Sent s s' i c rest := by
  obtain ⟨hh, hbd, hq⟩ := hb.queue
  unfold sendNextCommand
  rw [get_bind, hq, next_endOfHeader, ← hq]
  by_cases hqb : St.body ∈ s.commandQueue
  case neg =>
    rw [if_neg hqb]
    have e : bodyCmds s = [] := by
      unfold bodyCmds
      rw [if_neg hqb]
    by_cases hqe : St.endOfMessage ∈ s.commandQueue
    · rw [if_pos hqe]
      obtain ⟨s', h1, h2⟩ := send_endOfMessage (d := d) hb hr (hf.resolve_left hqb) hqe
      simp only [remaining, e, endCmds, if_pos hqe, List.nil_append, List.cons.injEq] at hrem
      obtain ⟨rfl, rfl⟩ := hrem
      refine ⟨s', ?_, h2⟩
      dsimp only
      rw [if_neg (by simp)]
      exact h1
    · simp only [remaining, e, endCmds, if_neg hqe, List.nil_append] at hrem
      cases hrem
  case pos =>
    rw [if_pos hqb]
    have hne := hb.content hqb
    obtain ⟨r, hr'⟩ : ∃ r, r = restarted s := ⟨_, rfl⟩
    have rk : r.kids = s.kids := by rw [hr']; unfold restarted; split <;> rfl
    have rq : r.commandQueue = s.commandQueue := by rw [hr']; unfold restarted; split <;> rfl
    have rc : r.chunkSize = s.chunkSize := by rw [hr']; unfold restarted; split <;> rfl
    have re : r.eomChunk = s.eomChunk := by rw [hr']; unfold restarted; split <;> rfl
    have ro : r.out = s.out := by rw [hr']; unfold restarted; split <;> rfl
    have br : Base r i := by
      refine ⟨?_, by rw [rk]; exact hb.linked, ?_, ?_, by rw [rc]; exact hb.chunkPos, by rw [rc]; exact hb.chunkMax, ?_, ?_,
        ?_, fun _ => by rw [hr', restarted_stored]; exact hne, ?_⟩
      · rw [hr']; unfold restarted; split <;> exact hb.oracle
      · rw [hr']; unfold restarted; split <;> exact hb.state
      · rw [hr']; unfold restarted; split <;> exact hb.waiting
      · rw [hr']; unfold restarted; split <;> exact hb.option
      · rw [hr']; unfold restarted; split <;> exact hb.headers
      · rw [hr']; unfold restarted; split <;> exact hb.queue
      · intro hst f hf'
        have hst' : s.state ≠ .endOfMessage := by
          rw [hr'] at hst; revert hst; unfold restarted; split <;> exact id
        rw [hr'] at hf'
        have hfile := hb.file hst'
        revert hf'
        rw [hr']
        unfold restarted
        cases hbo : s.body with
        | some b =>
          intro hf'
          exact absurd (hfile f hf').1 (by rw [hbo]; simp)
        | none =>
          intro hf'
          cases hfi : s.bodyFile with
          | none => rw [hfi] at hf'; cases hf'
          | some g =>
            rw [hfi] at hf'
            injection hf' with hf'
            subst hf'
            exact ⟨by first | exact hbo | (dsimp only; exact hbo) | (simp only [hbo]), Nat.zero_le _, fun hn => absurd hqb (by first | exact hn | (dsimp only at hn; exact hn))⟩
    have hun : unsent r = stored s := by rw [hr', restarted_unsent]
    obtain ⟨s', h1, h2⟩ := send_body (d := d) br (by rw [rk]; exact hr) (by rw [rq]; exact hqb)
      (by rw [hr']; unfold restarted; split <;> rfl)
      (by rw [hr']; unfold restarted; split <;> rfl) (by rw [hun]; exact hne)
    rw [hun, rc] at h2
    have re' : endCmds r = endCmds s := endCmds_eq rq re
    rw [re'] at h2
    have e : bodyCmds s = .body ((stored s).take s.chunkSize) :: (pieces s.chunkSize ((stored s).drop s.chunkSize)).map .body := by
      unfold bodyCmds
      rw [if_pos hqb, pieces_cons hb.chunkPos hne]
      rfl
    simp only [remaining, e, List.cons_append, List.cons.injEq] at hrem
    obtain ⟨rfl, rfl⟩ := hrem
    refine ⟨s', ?_, ⟨h2.turn, h2.rest, by rw [h2.out, ro], by rw [h2.state, rk], by rw [h2.stack, rk],
      by rw [h2.same, hr', restarted_carried], fun j hj => by rw [h2.others j hj, rk],
      by rw [h2.option, rk], by rw [h2.shell, rk], by rw [← rk]; exact h2.keeps⟩⟩
    dsimp only
    simp only [if_true, ne_eq, reduceCtorEq, not_false_eq_true, and_self]
    rw [bind_eq initBody_eq, ← hr']
    exact h1

theorem compile_eq {β : Type} {st : St} {v : Status} {f : PUnit → M β} {s : Sys} :
    (compile st v >>= f) s = f ⟨⟩ (voted s st v) := rfl

/-- the rest of `cb_continue` -/
def afterContinue (d : Dispatch) (i : Nat) (st : St) : M Unit :=
  match st with
  | .endOfHeader => do handleStatus (← sendNextCommand d i st)
  | .header => do
    let s ← get
    if s.state.rank < st.rank then handleStatus .notChange
    else match s.headers with
      | none => log .ub
      | some hs =>
        if s.headerIndex < hs.length then handleStatus (← sendNextHeader d i)
        else handleStatus (← sendNextCommand d i st)
  | .body => do
    let s ← get
    if s.state.rank < st.rank then handleStatus .notChange
    else
      let status ← if s.sendingBody then sendBody d i else pure .notChange
      if status = .notChange then handleStatus (← sendNextCommand d i st)
      else handleStatus status
  | .endOfMessage => sendFirstToNext d i
  | _ => removeFromQueue d i

/-- milter `i` says continue: the next command is sent -/
theorem advance {d : Dispatch} {i : Nat} {s : Sys} {st : St} {c : Cmd} {rest : List Cmd} (h : Answered s i st)
    (hrem : remaining s i st = c :: rest) :
    ∃ s', cbContinue d i s = some ((), s') ∧ Sent s s' i c rest := by
  obtain ⟨u, hu⟩ : ∃ u : Sys, u = voted s st .continue_ := ⟨_, rfl⟩
  have hb := h.base
  have bu : Base u i := by
    subst hu
    exact ⟨hb.oracle, hb.linked, hb.state, hb.waiting, hb.chunkPos, hb.chunkMax, hb.option, hb.headers, hb.queue, hb.content, hb.file⟩
  have uk : u.kids = s.kids := by rw [hu]; rfl
  have hru : Ready (u.kids i).ctx := by rw [uk]; exact h.ready
  have hru' : remaining u i st = c :: rest := by
    rw [← hrem, hu]
    cases st <;> rfl
  have start : cbContinue d i s = afterContinue d i st u := by
    rw [hu, ← h.state]
    rfl
  have hne : st ≠ .endOfMessage := by rintro rfl; cases hrem
  have uc : carried u = carried s := by
    rw [hu]
    have e1 : refused (voted s st .continue_) = refused s := refused_set _ _ _ (.inl rfl)
    have e2 : (voted s st .continue_).statuses .endOfMessage = s.statuses .endOfMessage := by
      show setStatusOf s.statuses st _ .endOfMessage = _
      unfold setStatusOf
      rw [if_neg (Ne.symm hne)]
    unfold carried
    rw [e1, e2]
    rfl
  have hf : St.body ∈ u.commandQueue ∨ u.replacedForEach = false := by
    rw [hu]; exact h.fresh.imp And.left id
  have done : ∀ {m : M Status} {x : Sys}, (∃ s', m x = some (.progress, s') ∧ Sent u s' i c rest) →
      ∃ s', (do handleStatus (← m) : M Unit) x = some ((), s') ∧ Sent s s' i c rest := by
    intro m x ⟨s', h1, h2⟩
    refine ⟨s', ?_, ⟨h2.turn, h2.rest, by rw [h2.out, hu]; rfl, by rw [h2.state, uk], by rw [h2.stack, uk],
      by rw [h2.same, uc], fun j hj => by rw [h2.others j hj, uk],
      by rw [h2.option, uk], by rw [h2.shell, uk], by rw [← uk]; exact h2.keeps⟩⟩
    rw [bind_eq h1]
    rfl
  rw [start]
  unfold afterContinue
  have hrank : ¬ u.state.rank < st.rank := by
    obtain ⟨hh, hbd, hq⟩ := bu.queue
    have hin : st ∈ u.commandQueue := by rw [hu]; exact h.queued
    rw [hq] at hin
    exact Nat.not_lt.mpr (queued_rank bu.state hin)
  cases st with
  | endOfHeader => exact done (send_after_header bu hru hf hru')
  | header =>
    obtain ⟨hs, hhs⟩ := bu.headers (by rw [hu]; exact h.queued)
    dsimp only
    rw [get_bind, if_neg hrank, hhs]
    dsimp only
    by_cases hi : u.headerIndex < hs.length
    · rw [if_pos hi]
      apply done
      obtain ⟨s', h1, h2⟩ := send_header (d := d) bu hru hf (by rw [hu]; exact h.queued) hhs (List.getElem?_eq_getElem hi)
      simp only [remaining, hhs, Option.getD_some, List.drop_eq_getElem_cons hi, List.map_cons, List.cons_append,
        List.cons.injEq] at hru'
      obtain ⟨rfl, rfl⟩ := hru'
      exact ⟨s', h1, h2⟩
    · rw [if_neg hi]
      apply done
      simp only [remaining, hhs, Option.getD_some, List.drop_eq_nil_of_le (Nat.le_of_not_lt hi), List.map_nil, List.nil_append] at hru'
      unfold afterHeaders at hru'
      by_cases hqe : St.endOfHeader ∈ u.commandQueue
      case neg => rw [if_neg hqe] at hru'; cases hru'
      case pos =>
        rw [if_pos hqe] at hru'
        simp only [List.cons.injEq] at hru'
        obtain ⟨s', h1, h2⟩ := send_endOfHeader (d := d) bu hru hf hqe
        obtain ⟨rfl, rfl⟩ := hru'
        refine ⟨s', ?_, h2⟩
        obtain ⟨hh, hbd, hq⟩ := bu.queue
        have hqh : St.header ∈ u.commandQueue := by rw [hu]; exact h.queued
        unfold sendNextCommand
        rw [hq] at hqh
        rw [get_bind, hq, next_header hqh, ← hq, if_pos hqe]
        exact h1
  | body =>
    dsimp only
    rw [get_bind, if_neg hrank, show u.sendingBody = true by rw [hu]; exact h.sending rfl]
    simp only [if_true]
    have hqb : St.body ∈ u.commandQueue := by rw [hu]; exact h.queued
    have hfb : u.replacedForEach = false := by
      rw [hu]; exact h.fresh.resolve_left (by simp)
    by_cases hun : unsent u = []
    · rw [bind_eq (send_body_nothing hru hun)]
      simp only [if_true]
      apply done
      obtain ⟨w, hw⟩ : ∃ w : Sys, w = { u with processingState := .body, sendingBody := false } := ⟨_, rfl⟩
      have bw : Base w i := by
        subst hw
        exact ⟨bu.oracle, bu.linked, bu.state, bu.waiting, bu.chunkPos, bu.chunkMax, bu.option, bu.headers, bu.queue, bu.content, bu.file⟩
      have wk : w.kids = u.kids := by rw [hw]
      simp only [remaining, hun, pieces_nil, List.map_nil, List.nil_append] at hru'
      unfold endCmds at hru'
      by_cases hqe : St.endOfMessage ∈ u.commandQueue
      case neg => rw [if_neg hqe] at hru'; cases hru'
      case pos =>
        rw [if_pos hqe] at hru'
        simp only [List.cons.injEq] at hru'
        obtain ⟨s', h1, h2⟩ := send_endOfMessage (d := d) bw (by rw [wk]; exact hru) (by rw [hw]; exact hfb) (by rw [hw]; exact hqe)
        obtain ⟨rfl, rfl⟩ := hru'
        rw [← hw]
        have we : w.eomChunk = u.eomChunk := by rw [hw]
        rw [we] at h2
        refine ⟨s', ?_, ⟨h2.turn, h2.rest, by rw [h2.out, hw], by rw [h2.state, wk], by rw [h2.stack, wk],
          by rw [h2.same, hw]; rfl, fun j hj => by rw [h2.others j hj, wk],
        by rw [h2.option, wk], by rw [h2.shell, wk], by rw [← wk]; exact h2.keeps⟩⟩
        obtain ⟨hh, hbd, hq⟩ := bw.queue
        have hqb : St.body ∈ w.commandQueue := by rw [hw]; exact hqb
        have hqe' : St.endOfMessage ∈ w.commandQueue := by rw [hw]; exact hqe
        unfold sendNextCommand
        rw [hq] at hqb
        rw [get_bind, hq, next_body hqb, ← hq, if_pos hqe']
        exact h1
    · obtain ⟨s', h1, h2⟩ := send_body (d := d) bu hru hqb (by rw [hu]; exact h.sending rfl) hfb hun
      rw [bind_eq h1]
      simp only [reduceCtorEq, if_false]
      simp only [remaining, pieces_cons bu.chunkPos hun, List.map_cons, List.cons_append, List.cons.injEq] at hru'
      obtain ⟨rfl, rfl⟩ := hru'
      exact ⟨s', rfl, ⟨h2.turn, h2.rest, by rw [h2.out, hu]; rfl, by rw [h2.state, uk], by rw [h2.stack, uk],
      by rw [h2.same, uc], fun j hj => by rw [h2.others j hj, uk],
      by rw [h2.option, uk], by rw [h2.shell, uk], by rw [← uk]; exact h2.keeps⟩⟩
  | _ => cases hrem

/-! ## Events -/

theorem next_eq {n : Nat} {s s' : Sys} {e : Event} (ho : s.oracle = []) (h : step (dispatch n) e s = some ((), s')) :
    next n s e [] = some s' := by
  have : ({ s with oracle := [] } : Sys) = s := by cases s; simp only at ho; rw [ho]
  unfold next
  rw [this, h]
  rfl

theorem flushed_step {n i : Nat} {s : Sys} (ho : s.oracle = []) :
    step (dispatch n) (.flushed i) s =
      (stepCtx (dispatch n) i (.flushed true) >>= fun _ => pure ()) s := by
  show (ask >>= fun x => match x with | (_, ok) => (do let _ ← stepCtx (dispatch n) i (.flushed ok) : M Unit)) s = _
  rw [bind_eq (ask_eq ho)]

theorem reply_step {n i : Nat} {r : Reply} {s : Sys} (ho : s.oracle = []) :
    step (dispatch n) (.reply i r) s =
      (stepCtx (dispatch n) i (.reply r true) >>= fun _ => pure ()) s := by
  show (ask >>= fun x => match x with | (_, ok) => (do let _ ← stepCtx (dispatch n) i (.reply r ok) : M Unit)) s = _
  rw [bind_eq (ask_eq ho)]

/-- milter `i` has got the command leading to `st` -/
structure Got (s : Sys) (i : Nat) (st : St) : Prop where
  base : Base s i
  at' : At (s.kids i).ctx st
  queued : st ∈ s.commandQueue
  sending : st = .body → s.sendingBody = true
  fresh : (St.body ∈ s.commandQueue ∧ (st = .header ∨ st = .endOfHeader)) ∨ s.replacedForEach = false
  index : st = .header → s.headerIndex ≤ (s.headers.getD []).length

theorem drive_emit {d : Dispatch} {i : Nat} {sig : Server.Signal} {s s1 s2 : Sys} (h1 : d (.signal i sig) s = some ((), s1))
    (h2 : d (.resume i) s1 = some ((), s2)) : drive d i [.emit sig] s = some (true, s2) := by
  unfold drive
  rw [bind_eq h1, bind_eq h2]
  rfl

theorem base_ctx {u : Sys} {i : Nat} {c : Server.State} (h : Base u i) : Base (withCtx u i c) i :=
  ⟨h.oracle, by rw [withCtx_kid]; exact h.linked,
    h.state, h.waiting, h.chunkPos, h.chunkMax, h.option, h.headers, h.queue, h.content, h.file⟩

theorem base_logged {u : Sys} {i : Nat} {o : Out} (h : Base u i) : Base (logged u o) i :=
  ⟨h.oracle, h.linked, h.state, h.waiting, h.chunkPos, h.chunkMax, h.option, h.headers, h.queue, h.content, h.file⟩

/-- the command has gone out -/
theorem flushed_event {n i : Nat} {s : Sys} {st : St} (h : Turn s i st) (hst : inContent st) :
    ∃ s', next (n + 1) s (.flushed i) [] = some s' ∧ Got s' i st ∧ remaining s' i st = remaining s i st ∧
      s'.out = s.out ++ [.heard i (.stateTransited st)] ∧ carried s' = carried s ∧ SameRoles s s' ∧
      (∀ j, j ≠ i → s'.kids j = s.kids j) ∧ (attending (s.kids i).ctx → attending (s'.kids i).ctx) := by
  have hb := h.base
  obtain ⟨c', h1, h2, h3, h4⟩ := flushed_ctx h.wait hst
  have h5 := flushed_keeps h.wait hst
  rw [h1] at h5
  dsimp only at h5
  let u1 := withCtx s i { c' with stack := [] :: (s.kids i).ctx.stack }
  let u2 := logged u1 (.heard i (.stateTransited st))
  have k2 : (u2.kids i).ctx = { c' with stack := [] :: (s.kids i).ctx.stack } := withCtx_ctx _ _ _
  have l1 : (u1.kids i).linked = true := by
    show ((withCtx s i _).kids i).linked = true
    rw [withCtx_kid]; exact hb.linked
  let u3 := withCtx u2 i { c' with stack := (s.kids i).ctx.stack }
  have k3 : (u3.kids i).ctx = c' := by
    show ((withCtx u2 i _).kids i).ctx = _
    rw [withCtx_ctx, ← h2]
  have b3 : Base u3 i := base_ctx (base_logged (base_ctx hb))
  refine ⟨u3, next_eq hb.oracle ?_, ⟨b3, by rw [k3]; exact h3, h.queued, h.sending, h.fresh, h.index⟩, ?_, rfl, rfl, ?_, ?_,
    fun hm => by rw [k3]; exact ⟨h5.1.trans hm.1, h5.2.trans hm.2⟩⟩
  · rw [flushed_step hb.oracle]
    have : stepCtx (dispatch (n + 1)) i (.flushed true) s = some (true, u3) := by
      rw [stepCtx_eq]
      simp only [Server.step, h1]
      refine drive_emit (signal_ignored l1 (Or.inl ⟨st, rfl⟩)) ?_
      refine resume_eq (f := []) (stack := (s.kids i).ctx.stack) hb.oracle (by rw [show ((logged _ _).kids i).ctx = _ from k2]) ?_
      rw [show ((logged _ _).kids i).ctx = _ from k2]
      rfl
    rw [bind_eq this]
    rfl
  · have e1 : converts u3 i = converts s i := converts_eq rfl (by rw [k3, h4])
    cases st <;> first | rfl | (simp only [remaining]; rw [e1]; rfl)
  · exact ((sameRoles_ctx (s := s) (i := i) (c := { c' with stack := [] :: (s.kids i).ctx.stack }) h4).trans
      (⟨rfl, fun _ => rfl, fun _ => rfl, rfl⟩ : SameRoles u1 u2)).trans (sameRoles_ctx (by rw [k2]))
  · intro j hj
    show (withCtx u2 i _).kids j = _
    rw [withCtx_other _ _ _ _ hj]
    exact withCtx_other _ _ _ _ hj

/-- the milter says continue -/
theorem reply_event {n i : Nat} {s : Sys} {st : St} {c : Cmd} {rest : List Cmd} (h : Got s i st)
    (hrem : remaining s i st = c :: rest) :
    ∃ s', next (n + 1) s (.reply i .cont) [] = some s' ∧ Turn s' i (cmdState c) ∧ remaining s' i (cmdState c) = rest ∧
      s'.out = s.out ++ [.heard i (.reply .cont), .sent i c] ∧ carried s' = carried s ∧ SameRoles s s' ∧
      (∀ j, j ≠ i → s'.kids j = s.kids j) ∧ (attending (s.kids i).ctx → attending (s'.kids i).ctx) := by
  have hb := h.base
  have hst : st = .header ∨ st = .endOfHeader ∨ st = .body := by
    cases st <;> first | (cases hrem; done) | simp
  have hne : st ≠ .endOfMessage := by rintro rfl; cases hrem
  obtain ⟨c', h1, h2, h3, h4, h5⟩ := cont_ctx h.at' hst
  have hk := cont_keeps h.at' hst
  rw [h1] at hk
  dsimp only at hk
  obtain ⟨u1, hu1⟩ : ∃ u1, u1 = withCtx s i { c' with stack := frame st :: (s.kids i).ctx.stack } := ⟨_, rfl⟩
  obtain ⟨u2, hu2⟩ : ∃ u2, u2 = logged u1 (.heard i (.reply .cont)) := ⟨_, rfl⟩
  have k2 : (u2.kids i).ctx = { c' with stack := frame st :: (s.kids i).ctx.stack } := by
    rw [hu2, hu1]; exact withCtx_ctx _ _ _
  have l1 : (u1.kids i).linked = true := by rw [hu1, withCtx_kid]; exact hb.linked
  have b2 : Base u2 i := by rw [hu2, hu1]; exact base_logged (base_ctx hb)
  have a2 : Answered u2 i st := by
    refine ⟨b2, ?_, by rw [k2]; exact h4, by rw [hu2, hu1]; exact h.queued, by rw [hu2, hu1]; exact h.sending,
      by rw [hu2, hu1]; exact h.fresh, by rw [hu2, hu1]; exact h.index⟩
    rw [k2]
    exact ⟨h3.quitted, h3.nextStates, h3.timer, h3.body, h3.queue, h3.count, h3.sentEom, h3.skip, h3.option⟩
  have r2 : remaining u2 i st = c :: rest := by
    have e1 : converts u2 i = converts s i := converts_eq (by rw [hu2, hu1]; rfl) (by rw [k2]; exact h5)
    rw [← hrem]
    cases st <;> first | rfl | (simp only [remaining]; rw [e1, hu2, hu1]; rfl) | (rw [hu2, hu1]; rfl)
  obtain ⟨u3, h6, h7⟩ := advance (d := dispatch n) a2 r2
  obtain ⟨u4, hu4⟩ : ∃ u4, u4 = withCtx u3 i { (u3.kids i).ctx with stack := (s.kids i).ctx.stack } := ⟨_, rfl⟩
  have k4 : (u4.kids i).ctx = { (u3.kids i).ctx with stack := (s.kids i).ctx.stack } := by rw [hu4]; exact withCtx_ctx _ _ _
  have w := h7.turn.wait
  refine ⟨u4, next_eq hb.oracle ?_, ⟨by rw [hu4]; exact base_ctx h7.turn.base, ?_, by rw [hu4]; exact h7.turn.queued,
    by rw [hu4]; exact h7.turn.sending, by rw [hu4]; exact h7.turn.fresh, by rw [hu4]; exact h7.turn.index⟩, ?_, ?_, ?_, ?_, ?_,
    fun hm => by
      rw [k4]
      have k7 := h7.keeps
      rw [k2] at k7
      exact ⟨k7.1.trans (hk.1.trans hm.1), k7.2.trans (hk.2.trans hm.2)⟩⟩
  · rw [reply_step hb.oracle]
    have : stepCtx (dispatch (n + 1)) i (.reply .cont true) s = some (true, u4) := by
      rw [stepCtx_eq]
      simp only [Server.step, h1]
      rw [← hu1]
      refine drive_emit (s1 := u3) ?_ ?_
      · rw [signal_reply l1, ← hu2]
        exact h6
      · rw [hu4]
        refine resume_eq (f := frame st) (stack := (s.kids i).ctx.stack) h7.turn.base.oracle ?_ ?_
        · rw [h7.stack, k2]
        · exact frame_ctx w.body w.sentEom (by rw [h7.state, k2]; show c'.state ≠ _; rw [h4]; exact hne)
    rw [bind_eq this]
    rfl
  · rw [k4]
    exact ⟨w.quitted, w.nextStates, w.body, w.queue, w.count, w.sentEom, w.skip, w.option⟩
  · rw [← h7.rest]
    have e1 : converts u4 i = converts u3 i := converts_eq (by rw [hu4]; rfl) (by rw [k4])
    generalize cmdState c = st'
    cases st' <;> first | rfl | (simp only [remaining]; rw [e1, hu4]; rfl) | (rw [hu4]; rfl)
  · rw [hu4]
    show u3.out = _
    rw [h7.out, hu2, hu1]
    show (s.out ++ _) ++ _ = _
    simp
  · rw [hu4]
    show carried u3 = _
    rw [h7.same, hu2, hu1]
    rfl
  · have r1 : SameRoles s u2 := by
      rw [hu2, hu1]
      exact (sameRoles_ctx (s := s) (i := i) (c := { c' with stack := frame st :: (s.kids i).ctx.stack }) h5).trans
        ⟨rfl, fun _ => rfl, fun _ => rfl, rfl⟩
    rw [hu4]
    exact (r1.trans h7.roles).trans (sameRoles_ctx rfl)
  · intro j hj
    rw [hu4, withCtx_other _ _ _ _ hj, h7.others j hj, hu2, hu1]
    exact withCtx_other _ _ _ _ hj

end Verif.Children
