import Verif.Client.Context
import Verif.Core.Option
import Verif.Core.Status
/-
Milters written in Ruby: binding/ruby/lib/milter/client.rb, client/session.rb, client/session-context.rb, client/composite-session.rb and
client/fallback-session.rb, with binding/ruby/ext/client/rb-milter-client-context.c, on top of the context of `Client/Context.lean`.

A milter is a class: its callbacks, and what it keeps in its instance variables, a value of a type `σ`.  A callback is a program: it may do what
`Milter::ClientSession` offers, look at whether that raised an exception, read and write its instance variables, and raise an exception.

Left out: logging, the event loop (`watch_io`, …, so no answer comes after `delay_response`), a `negotiate` of its own in a milter, a `reset` that raises or decides, strings with a NUL or arguments
of a wrong class (they raise), the conversion of a status from a name to a number (by Ruby/GLib2).
-/
namespace Verif.Ruby
open Verif Verif.Client

/-! ### What callbacks do -/

/-- what `status=` takes, client/session-context.rb:25-41: a constant, or a name, which may be written with dashes -/
inductive Value where
  | constant (s : Status)
  | name (s : Status) (dashes : Bool)
deriving DecidableEq, Repr

/-- the status it stands for -/
def Value.toStatus : Value → Status
  | .constant s | .name s _ => s

/-- the options of `reject` and `temporary_failure` -/
structure Options where
  code : Option Nat := none
  extendedCode : Option Bytes := none
  reason : Option Bytes := none
deriving DecidableEq, Repr

/-- a change of the message -/
inductive Modification where
  | addHeader (name value : Bytes)
  | insertHeader (index : Nat) (name value : Bytes)
  | changeHeader (name : Bytes) (index : Nat) (value : Option Bytes)
  | deleteHeader (name : Bytes) (index : Nat)
  | replaceBody (body : Bytes)
  | changeFrom (sender : Bytes) (parameters : Option Bytes)
  | addRecipient (recipient : Bytes) (parameters : Option Bytes)
  | deleteRecipient (recipient : Bytes)
deriving DecidableEq, Repr

/-- what a callback may do: the methods of `Milter::ClientSession`, client/session.rb:47-140, and of its context, client/session-context.rb:25-54 -/
inductive Act where
  | accept
  | discard
  | continue_
  | delayResponse
  | reject (o : Options)
  | temporaryFailure (o : Options)
  | quarantine (reason : Bytes)
  /-- `@context.status = …` -/
  | status (v : Option Value)
  /-- `@context.set_reply` -/
  | setReply (code : Nat) (extendedCode reason : Bytes)
  | modify (m : Modification)
  | progress
deriving DecidableEq, Repr

/-- `add_header`, …, `replace_body`, binding/ruby/ext/client/rb-milter-client-context.c:63-119, 142-213 -/
def Modification.call : Modification → Call
  | .addHeader name value => .addHeader (some name) (some value)
  | .insertHeader index name value => .insertHeader index (some name) (some value)
  | .changeHeader name index value => .changeHeader (some name) index value
  | .deleteHeader name index => .deleteHeader (some name) index
  | .replaceBody body => .replaceBody body
  | .changeFrom sender parameters => .changeFrom (some sender) parameters
  | .addRecipient recipient parameters => .addRecipient (some recipient) parameters
  | .deleteRecipient recipient => .deleteRecipient (some recipient)

/-- a callback -/
inductive Prog (σ : Type) where
  /-- it returns -/
  | done
  /-- an exception leaves it -/
  | raise
  /-- it does something, and goes on with whether that was done (`true`) or raised (`false`); after `progress`: what that returned -/
  | act (a : Act) (k : Bool → Prog σ)
  /-- it changes its instance variables, and goes on with them -/
  | own (f : σ → σ) (k : σ → Prog σ)
  /-- `self[name]`: a macro -/
  | symbol (name : Bytes) (k : Option Bytes → Prog σ)

/-- what comes of something a callback does: whether it was done, the calls on the context, the context, the status and the instance variables after it -/
structure Effect (σ : Type) where
  ok : Bool
  calls : List Call := []
  context : State
  status : Option Value
  own : σ

/-- `set_reply`, client/session-context.rb:47-54 -/
def setReply {σ : Type} (order : Requests → Requests) (s : State) (v : Option Value) (own : σ) (code : Nat) (ext reason : Bytes) : Effect σ :=
  let c : Call := .setReply code (some ext) (some reason)
  let ok := (call order s c).1
  { ok := ok, calls := [c], context := callNoted order s c, own := own
    status := if ok then
        if 400 ≤ code ∧ code < 500 then some (.name .temporaryFailure false)
        else if 500 ≤ code ∧ code < 600 then some (.name .reject false)
        else v
      else v }

/-- `reject` and `temporary_failure`, client/session.rb:69-99, with their defaults -/
def refuse {σ : Type} (order : Requests → Requests) (reset : σ → σ) (s : State) (v : Option Value) (own : σ) (o : Options)
    (status : Status) (code : Nat) (ext reason : Bytes) : Effect σ :=
  let e : Effect σ :=
    if o.code.isSome ∨ o.extendedCode.isSome ∨ o.reason.isSome then
      setReply order s v own (o.code.getD code) (o.extendedCode.getD ext) (o.reason.getD reason)
    else { ok := true, context := s, status := some (.name status false), own := own }
  if e.ok ∧ e.context.st ≠ .doing .envelopeRecipient then { e with own := reset e.own } else e

/-- what that does, client/session.rb:47-140, client/session-context.rb:25-54; `reset` is what the class has as `reset` -/
def perform {σ : Type} (order : Requests → Requests) (reset : σ → σ) (s : State) (v : Option Value) (own : σ) : Act → Effect σ
  | .accept => { ok := true, context := s, status := some (.name .accept false), own := reset own }
  | .discard => { ok := true, context := s, status := some (.name .discard false), own := reset own }
  | .continue_ => { ok := true, context := s, status := some (.name .continue_ false), own := own }
  | .delayResponse => { ok := true, context := s, status := some (.name .progress false), own := own }
  | .reject o => refuse order reset s v own o .reject 550 (ascii "5.7.1") (ascii "Command rejected")
  | .temporaryFailure o => refuse order reset s v own o .temporaryFailure 451 (ascii "4.7.1") (ascii "Service unavailable - try again later")
  | .quarantine reason =>
    let c : Call := .quarantine (some reason)
    if (call order s c).1 then
      { ok := true, calls := [c], context := callNoted order s c, status := some (.name .accept false), own := reset own }
    else { ok := false, calls := [c], context := callNoted order s c, status := v, own := own }
  | .status w => { ok := true, context := s, status := w, own := own }
  | .setReply code ext reason => setReply order s v own code ext reason
  | .modify m =>
    { ok := (call order s m.call).1, calls := [m.call], context := callNoted order s m.call, status := v, own := own }
  | .progress =>
    { ok := (call order s .progress).1, calls := [.progress], context := callNoted order s .progress, status := v, own := own }

/-- what comes of a callback: what it did, the calls on the context, the context, the status and the instance variables after it, and whether it raised -/
structure Ran (σ : Type) where
  did : List (Act × Bool)
  calls : List Call
  context : State
  status : Option Value
  own : σ
  raised : Bool

/-- A callback runs.  `[]`: client/session-context.rb:56-58 (the table of macros is kept until the callback is over; it does not change in between). -/
def Prog.exec {σ : Type} (order : Requests → Requests) (reset : σ → σ) : Prog σ → State → Option Value → σ → Ran σ
  | .done, s, v, x => ⟨[], [], s, v, x, false⟩
  | .raise, s, v, x => ⟨[], [], s, v, x, true⟩
  | .act a k, s, v, x =>
    let e := perform order reset s v x a
    let rest := (k e.ok).exec order reset e.context e.status e.own
    { rest with did := (a, e.ok) :: rest.did, calls := e.calls ++ rest.calls }
  | .own f k, s, v, x => (k (f x)).exec order reset s v (f x)
  | .symbol name k, s, v, x => (k (s.agent.getAvailable.1 name)).exec order reset s v x

/-! ### Milters -/

/-- a callback as a milter sees it -/
inductive Callback where
  | connect (host : Bytes) (address : Addr)
  | helo (fqdn : Bytes)
  | envelopeFrom (sender : Bytes)
  | envelopeRecipient (recipient : Bytes)
  | data
  | unknown (command : Bytes)
  | header (name value : Bytes)
  | endOfHeader
  | body (chunk : Bytes)
  | endOfMessage
  | abort (state : St)
  | finished
deriving DecidableEq, Repr

/-- a class of sessions: the callbacks it has.  `start` is what `new` leaves in the instance variables. -/
structure Class (σ : Type) where
  start : σ
  reset : σ → σ
  /-- `need_header_value_with_leading_space?` -/
  needsLeadingSpace : Bool := false
  connect : Option (Bytes → Addr → Prog σ) := none
  helo : Option (Bytes → Prog σ) := none
  envelopeFrom : Option (Bytes → Prog σ) := none
  envelopeRecipient : Option (Bytes → Prog σ) := none
  data : Option (Prog σ) := none
  unknown : Option (Bytes → Prog σ) := none
  header : Option (Bytes → Bytes → Prog σ) := none
  endOfHeader : Option (Prog σ) := none
  body : Option (Bytes → Prog σ) := none
  endOfMessage : Option (Prog σ) := none
  abort : Option (St → Prog σ) := none
  finished : Option (Prog σ) := none

/-- the method of a class for a callback, with its arguments, if the class has it -/
def Class.callback {σ : Type} (c : Class σ) : Callback → Option (Prog σ)
  | .connect host address => c.connect.map fun g => g host address
  | .helo fqdn => c.helo.map fun g => g fqdn
  | .envelopeFrom sender => c.envelopeFrom.map fun g => g sender
  | .envelopeRecipient recipient => c.envelopeRecipient.map fun g => g recipient
  | .data => c.data
  | .unknown command => c.unknown.map fun g => g command
  | .header name value => c.header.map fun g => g name value
  | .endOfHeader => c.endOfHeader
  | .body chunk => c.body.map fun g => g chunk
  | .endOfMessage => c.endOfMessage
  | .abort state => c.abort.map fun g => g state
  | .finished => c.finished

/-- what a milter did in a callback: which one of several, what it did, and whether it raised; not in the code -/
structure Part where
  who : Nat
  did : List (Act × Bool)
  raised : Bool
deriving DecidableEq, Repr

/-- what comes of a callback of an object -/
structure Outcome (τ : Type) where
  parts : List Part
  calls : List Call
  context : State
  status : Option Value
  own : τ
  raised : Bool

/-- an object as `setup_session` uses it -/
structure Object (τ : Type) where
  start : τ
  callback : Callback → Option (State → Option Value → τ → Outcome τ)
  /-- `reset`, if there is such a method -/
  reset : Option (τ → τ)
  /-- what `negotiate` makes of an option -/
  choose : Opt → Opt
  /-- the status it leaves -/
  negotiated : Value

/-- `remove_step` -/
def removeStep (o : Opt) (step : UInt32) : Opt := { o with step := o.step &&& ~~~step }

/-- `negotiate`, client/session.rb:23-37 -/
def Class.choose {σ : Type} (c : Class σ) (o : Opt) : Opt :=
  let has (b : Bool) (step : UInt32) (o : Opt) : Opt := if b then removeStep o step else o
  let o := has c.connect.isSome 0x001 o
  let o := has c.helo.isSome 0x002 o
  let o := has c.envelopeFrom.isSome 0x004 o
  let o := has c.envelopeRecipient.isSome 0x008 o
  let o := has c.body.isSome 0x010 o
  let o := has c.unknown.isSome 0x100 o
  let o := has c.header.isSome 0x020 o
  let o := has c.endOfHeader.isSome 0x040 o
  let o := has c.data.isSome 0x200 o
  let o := has (!c.needsLeadingSpace) 0x100000 o
  removeStep o Opt.noReplyMask

/-- one milter -/
def Class.object {σ : Type} (order : Requests → Requests) (c : Class σ) : Object σ where
  start := c.start
  callback what := (c.callback what).map fun p s v own =>
    let r := p.exec order c.reset s v own
    ⟨[⟨0, r.did, r.raised⟩], r.calls, r.context, r.status, r.own, r.raised⟩
  reset := some c.reset
  choose := c.choose
  negotiated := .name .continue_ false

/-- the milter used if `new` raises, client/fallback-session.rb:19-28, client.rb:96-105 -/
def fallbackClass (fallback : Value) : Class Unit where
  start := ()
  reset := id
  connect := some fun _ _ => .act (.status (some fallback)) fun _ => .done

/-! ### Several milters as one: client/composite-session.rb -/

/-- names of several words -/
def severalWords : Status → Bool
  | .notChange | .temporaryFailure | .noReply | .allOptions => true
  | _ => false

/-- `ensure_status`, client/composite-session.rb:106-109: there is no constant with a dash in its name -/
def ensureStatus : Value → Option Status
  | .constant s => some s
  | .name s dashes => if dashes && severalWords s then none else some s

/-- `resolve_status`, client/composite-session.rb:95-104; `none` if it raises -/
def resolveStatus : Option Value → Value → Option Value
  | none, new => some new
  | some current, new =>
    match ensureStatus current, ensureStatus new with
    | some a, some b => some (.constant (if Status.compare a b < 0 then b else a))
    | _, _ => none

/-- the loop of `apply_sessions`, client/composite-session.rb:85-93, and that of `finished`, 78-82, which does not resolve: `who` is the number of the first session, `v` the status in
the context, `resolved` the local `status`.  In the result `status` is the local one, and that of the context if it raised. -/
def applySessions {σ : Type} (order : Requests → Requests) (what : Callback) : Nat → List (Class σ × σ) → State → Option Value → Option Value → Outcome (List σ)
  | _, [], s, _, resolved => ⟨[], [], s, resolved, [], false⟩
  | who, (c, own) :: rest, s, v, resolved =>
    match c.callback what with
    | none =>
      let r := applySessions order what (who + 1) rest s v resolved
      { r with own := own :: r.own }
    | some p =>
      let e := p.exec order c.reset s v own
      let part : Part := ⟨who, e.did, e.raised⟩
      if e.raised then ⟨[part], e.calls, e.context, e.status, e.own :: rest.map (·.2), true⟩
      else
        match (if what = .finished then some (e.status.getD (.constant .default)) else resolveStatus resolved (e.status.getD (.constant .default))) with
        | none => ⟨[part], e.calls, e.context, e.status, e.own :: rest.map (·.2), true⟩
        | some resolved =>
          let r := applySessions order what (who + 1) rest e.context e.status (some resolved)
          { r with parts := part :: r.parts, calls := e.calls ++ r.calls, own := e.own :: r.own }

/-- `Milter::Client::CompositeSession`, client/composite-session.rb:22-110: it has every callback, and no `reset` -/
def composite {σ : Type} (order : Requests → Requests) (cs : List (Class σ)) : Object (List σ) where
  start := cs.map (·.start)
  callback what := some fun s v owns =>
    let r := applySessions order what 0 (cs.zip owns) s v none
    if r.raised then r else { r with status := some (r.status.getD (.name .continue_ false)) }
  reset := none
  choose o := cs.foldl (fun o c => c.choose o) o
  negotiated := if cs.isEmpty then .name .reject false else .constant .continue_

/-! ### A session: `setup_session`, client.rb:145-211 -/

/-- a callback that was called; not in the code -/
structure Said where
  what : Callback
  parts : List Part
deriving DecidableEq, Repr

/-- the session with its client context -/
structure Session (τ : Type) where
  context : State
  own : τ
  /-- the status in the `ClientSessionContext` -/
  status : Option Value := none
  /-- the callbacks called; not in the code -/
  seen : List Said := []

/-- what the handlers of one signal come to -/
structure Result (τ : Type) where
  handlers : List Handler := []
  seen : List Said := []
  own : τ
  status : Option Value

/-- `ClientSessionContext#status`, client/session-context.rb:43-45 -/
def statusOf (v : Option Value) : Status := (v.map Value.toStatus).getD .default

/-- the event of a command, client.rb:150-160, with the arguments `setup_session` passes on, 163-175 -/
def eventOf : Cmd → Option Callback
  | .connect host address => some (.connect host address)
  | .helo fqdn => some (.helo fqdn)
  | .envelopeFrom a => some (.envelopeFrom a)
  | .envelopeRecipient a => some (.envelopeRecipient a)
  | .data => some .data
  | .unknown command => some (.unknown command)
  | .header name value => some (.header name value)
  | .endOfHeader => some .endOfHeader
  | .body chunk => some (.body chunk)
  | .endOfMessage _ => some .endOfMessage
  | .negotiate _ | .defineMacro _ _ | .abort | .quit => none

/-- a signal handler, client.rb:161-183: `s` is the context in which it runs -/
def one {τ : Type} (fallback : Value) (m : Object τ) (x : Session τ) (s : State) (what : Callback) : Result τ :=
  match m.callback what with
  | none => { own := x.own, status := x.status }
  | some g =>
    let r := g s x.status x.own
    ⟨[⟨r.calls, statusOf (if r.raised then some fallback else r.status)⟩], [⟨what, r.parts⟩], r.own, none⟩

/-- the state in which the handler of "abort" runs, client/milter-client-context.c:4252-4258 -/
def aborting (s : State) : State := { setSt (s.note (.got .abort)) .abort with timer := false }

/-- the signal handlers for a command; that of "abort": client.rb:186-204 -/
def handle {τ : Type} (fallback : Value) (m : Object τ) (x : Session τ) (c : Cmd) : Result τ :=
  let entered := match kindOf c with
    | some (k, context) => enter (x.context.note (.got c)) k context
    | none => x.context.note (.got c)
  match c with
  | .negotiate _ => ⟨[⟨[], statusOf (some m.negotiated)⟩], [], x.own, none⟩
  | .abort =>
    let (calls, seen, own, v) := match m.callback (.abort x.context.st) with
      | none => ([], [], x.own, x.status)
      | some g =>
        let r := g (aborting x.context) x.status x.own
        (r.calls, [⟨.abort x.context.st, r.parts⟩], r.own, if r.raised then some fallback else r.status)
    match m.reset with
    | some reset => ⟨[⟨calls, statusOf v⟩], seen, reset own, none⟩
    | none => ⟨[⟨calls, statusOf (some fallback)⟩], seen, own, none⟩
  | c =>
    match eventOf c with
    | none => { own := x.own, status := x.status }
    | some what => one fallback m x entered what

/-- the end of a session: `finished` -/
def finish {τ : Type} (m : Object τ) (x : Session τ) : Session τ :=
  match m.callback .finished with
  | none => x
  | some g =>
    let r := g x.context x.status x.own
    { context := r.context, own := r.own, status := none, seen := x.seen ++ [⟨.finished, r.parts⟩] }

/-- a command arrives -/
def receive {τ : Type} (order : Requests → Requests) (fallback : Value) (m : Object τ) (x : Session τ) (c : Cmd) : Session τ :=
  let r := handle fallback m x c
  let o := match c with | .negotiate o => some (m.choose o) | _ => none
  let x' : Session τ := { context := Client.receive order x.context c r.handlers o (some []), own := r.own, status := r.status, seen := x.seen ++ r.seen }
  match c with
  | .quit => finish m x'
  | _ => x'

/-- `setup_session` for a new connection -/
def Session.start {τ : Type} (m : Object τ) (context : State) : Session τ := { context := context, own := m.start }

/-- a whole session -/
def run {τ : Type} (order : Requests → Requests) (fallback : Value) (m : Object τ) (x : Session τ) (cmds : List Cmd) : Session τ :=
  cmds.foldl (receive order fallback m) x

end Verif.Ruby
