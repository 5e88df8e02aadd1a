import Verif.Client.Ruby
/-
Milters written in Python: binding/python/gi/overrides/MilterClient/client.py, session.py and session_context.py, on top of the context of `Client/Context.lean`.

What a callback may do, its program, and a session with its context are those of `Client/Ruby.lean`, whose classes have the same methods; here is what the Python code makes of them.  `ok` is `false` if a
method raised an exception, or returned `False`.

Left out: logging, the event loop (`_watch_child`, so no answer comes after `_delay_response`), a `negotiate` of its own in a milter, a `reset` that raises or decides, what is no `Exception` (`sys.exit`),
strings that are not UTF-8 or have a NUL and arguments of a wrong class (they raise, in PyGObject), names of statuses that do not exist (they raise).
-/
namespace Verif.Python
open Verif Verif.Client
open Verif.Ruby (Value Options Modification Act Prog Callback Part Said Effect Ran Outcome Object Session Result removeStep statusOf aborting eventOf)

/-! ### What callbacks do -/

/-- `x or y` for a number: 0 is false -/
def orNumber (x : Option Nat) (y : Nat) : Nat := match x with | some (n + 1) => n + 1 | _ => y

/-- `x or y` for a text: the empty one is false -/
def orText (x : Option Bytes) (y : Bytes) : Bytes := match x with | some (b :: bs) => b :: bs | _ => y

/-- `code or extended_code or reason`, as a condition, session.py:77, 89 -/
def anyGiven (o : Options) : Bool :=
  (match o.code with | some (_ + 1) => true | _ => false) || (match o.extendedCode with | some (_ :: _) => true | _ => false) ||
    (match o.reason with | some (_ :: _) => true | _ => false)

/-- `set_reply`, session_context.py:57-62 -/
def setReply {σ : Type} (order : Requests → Requests) (s : State) (v : Option Value) (own : σ) (code : Nat) (ext reason : Bytes) : Effect σ :=
  let c : Call := .setReply code (some ext) (some reason)
  let ok := (call order s c).1
  { ok := ok, calls := [c], context := callNoted order s c, own := own
    status := if ok then
        if 400 ≤ code ∧ code < 500 then some (.name .temporaryFailure false)
        else if 500 ≤ code ∧ code < 600 then some (.name .reject false)
        else v
      else v }

/-- `_reject` and `_temporary_failure`, session.py:76-98, with their defaults -/
def refuse {σ : Type} (order : Requests → Requests) (reset : σ → σ) (s : State) (v : Option Value) (own : σ) (o : Options)
    (status : Status) (code : Nat) (ext reason : Bytes) : Effect σ :=
  let e : Effect σ :=
    if anyGiven o then setReply order s v own (orNumber o.code code) (orText o.extendedCode ext) (orText o.reason reason)
    else { ok := true, context := s, status := some (.name status false), own := own }
  if e.ok ∧ e.context.st ≠ .doing .envelopeRecipient then { e with own := reset e.own } else e

/-- what that does, session.py:62-135, session_context.py:33-62.  `None` as a status raises (`None.replace`).  `_change_from` takes no parameters; with them: `change_from` of the context. -/
def perform {σ : Type} (order : Requests → Requests) (reset : σ → σ) (s : State) (v : Option Value) (own : σ) : Act → Effect σ
  | .accept => { ok := true, context := s, status := some (.name .accept false), own := reset own }
  | .discard => { ok := true, context := s, status := some (.name .discard false), own := reset own }
  | .continue_ => { ok := true, context := s, status := some (.name .continue_ false), own := own }
  | .delayResponse => { ok := true, context := s, status := some (.name .progress false), own := own }
  | .reject o => refuse order reset s v own o .reject 550 (ascii "5.7.1") (ascii "Command rejected")
  | .temporaryFailure o => refuse order reset s v own o .temporaryFailure 451 (ascii "4.7.1") (ascii "Service unavailable - try again later")
  | .quarantine reason =>
    let c : Call := .quarantine (some reason)
    if (call order s c).1 then
      { ok := true, calls := [c], context := callNoted order s c, status := some (.name .accept false), own := reset own }
    else { ok := false, calls := [c], context := callNoted order s c, status := v, own := own }
  | .status none => { ok := false, context := s, status := v, own := own }
  | .status (some w) => { ok := true, context := s, status := some w, own := own }
  | .setReply code ext reason => setReply order s v own code ext reason
  | .modify m =>
    { ok := (call order s m.call).1, calls := [m.call], context := callNoted order s m.call, status := v, own := own }
  | .progress =>
    { ok := (call order s .progress).1, calls := [.progress], context := callNoted order s .progress, status := v, own := own }

/-- A callback runs.  `[]`: session_context.py:64-67 (the table of macros is kept until the callback is over; it does not change in between). -/
def exec {σ : Type} (order : Requests → Requests) (reset : σ → σ) : Prog σ → State → Option Value → σ → Ran σ
  | .done, s, v, x => ⟨[], [], s, v, x, false⟩
  | .raise, s, v, x => ⟨[], [], s, v, x, true⟩
  | .act a k, s, v, x =>
    let e := perform order reset s v x a
    let rest := exec order reset (k e.ok) e.context e.status e.own
    { rest with did := (a, e.ok) :: rest.did, calls := e.calls ++ rest.calls }
  | .own f k, s, v, x => exec order reset (k (f x)) s v (f x)
  | .symbol name k, s, v, x => exec order reset (k (s.agent.getAvailable.1 name)) s v x

/-! ### Milters -/

/-- a class of sessions: the callbacks it has, as in Ruby, and its `on_error`; `needsLeadingSpace` is `_need_header_value_with_leading_space` -/
structure Class (σ : Type) extends Ruby.Class σ where
  onError : Callback → Prog σ := fun _ => .done

/-- `negotiate`, session.py:29-53 -/
def Class.choose {σ : Type} (c : Class σ) (o : Opt) : Opt :=
  let has (b : Bool) (step : UInt32) (o : Opt) : Opt := if b then removeStep o step else o
  let o := has c.connect.isSome 0x001 o
  let o := has c.helo.isSome 0x002 o
  let o := has c.envelopeFrom.isSome 0x004 o
  let o := has c.envelopeRecipient.isSome 0x008 o
  let o := has c.data.isSome 0x200 o
  let o := has c.header.isSome 0x020 o
  let o := has c.endOfHeader.isSome 0x040 o
  let o := has c.body.isSome 0x010 o
  let o := has c.unknown.isSome 0x100 o
  let o := has c.needsLeadingSpace 0x100000 o
  removeStep o Opt.noReplyMask

/-- `on_event`, client.py:52-73, until the status is taken: `p` is what the session does.  After an exception comes `on_error`. -/
def Class.event {σ : Type} (order : Requests → Requests) (c : Class σ) (what : Callback) (p : Prog σ) (s : State) (v : Option Value) (own : σ) : Outcome σ :=
  let r := exec order c.reset p s v own
  if r.raised then
    let e := exec order c.reset (c.onError what) r.context r.status r.own
    ⟨[⟨0, r.did ++ e.did, true⟩], r.calls ++ e.calls, e.context, e.status, e.own, true⟩
  else ⟨[⟨0, r.did, false⟩], r.calls, r.context, r.status, r.own, false⟩

/-- What `on_event` calls.  For a body chunk of no bytes the signal has no `GBytes` (client/milter-client-context.c:4172-4177), so `args[0].get_data()` raises before the session is called. -/
def Class.calls {σ : Type} (c : Class σ) (what : Callback) : Option (Prog σ) :=
  match what with
  | .body [] => c.body.map fun _ => .raise
  | what => c.callback what

/-- one milter, as `_setup_session` connects it; for an abort there is no `on_error`: client.py:95-101 -/
def Class.object {σ : Type} (order : Requests → Requests) (c : Class σ) : Object σ where
  start := c.start
  callback what := (c.calls what).map fun p s v own =>
    match what with
    | .abort _ =>
      let r := exec order c.reset p s v own
      ⟨[⟨0, r.did, r.raised⟩], r.calls, r.context, r.status, r.own, r.raised⟩
    | what => c.event order what p s v own
  reset := some c.reset
  choose := c.choose
  negotiated := .name .continue_ false

/-! ### A session: `_setup_session`, client.py:45-113 -/

/-- `on_event`, client.py:52-73: `s` is the context in which it runs -/
def one {τ : Type} (fallback : Value) (m : Object τ) (x : Session τ) (s : State) (what : Callback) : Result τ :=
  match m.callback what with
  | none => { own := x.own, status := x.status }
  | some g =>
    let r := g s x.status x.own
    ⟨[⟨r.calls, statusOf (if r.raised then some fallback else r.status)⟩], [⟨what, r.parts⟩], r.own, none⟩

/-- `on_abort`, client.py:95-112.  After an exception `milter.core.Logger.error(error)` raises another: `Logger.error` is a method (MilterCore/logger.py:88-95), so the exception is its `self`, which has
no `log`.  That leaves the handler, which returns nothing (0, `MILTER_STATUS_DEFAULT`): the session is not reset, and the status not cleared. -/
def onAbort {τ : Type} (m : Object τ) (x : Session τ) : Result τ :=
  match m.callback (.abort x.context.st) with
  | none => ⟨[⟨[], statusOf x.status⟩], [], ((m.reset.getD id) x.own), none⟩
  | some g =>
    let r := g (aborting x.context) x.status x.own
    if r.raised then ⟨[⟨r.calls, .default⟩], [⟨.abort x.context.st, r.parts⟩], r.own, r.status⟩
    else ⟨[⟨r.calls, statusOf r.status⟩], [⟨.abort x.context.st, r.parts⟩], (m.reset.getD id) r.own, none⟩

/-- the signal handlers for a command -/
def handle {τ : Type} (fallback : Value) (m : Object τ) (x : Session τ) (c : Cmd) : Result τ :=
  let entered := match kindOf c with
    | some (k, context) => enter (x.context.note (.got c)) k context
    | none => x.context.note (.got c)
  match c with
  | .negotiate _ => ⟨[⟨[], statusOf (some m.negotiated)⟩], [], x.own, none⟩
  | .abort => onAbort m x
  | c =>
    match eventOf c with
    | none => { own := x.own, status := x.status }
    | some what => one fallback m x entered what

/-- the end of a session: `finished` -/
def finish {τ : Type} (m : Object τ) (x : Session τ) : Session τ :=
  match m.callback .finished with
  | none => x
  | some g =>
    let r := g x.context x.status x.own
    { context := r.context, own := r.own, status := none, seen := x.seen ++ [⟨.finished, r.parts⟩] }

/-- a command arrives -/
def receive {τ : Type} (order : Requests → Requests) (fallback : Value) (m : Object τ) (x : Session τ) (c : Cmd) : Session τ :=
  let r := handle fallback m x c
  let o := match c with | .negotiate o => some (m.choose o) | _ => none
  let x' : Session τ := { context := Client.receive order x.context c r.handlers o (some []), own := r.own, status := r.status, seen := x.seen ++ r.seen }
  match c with
  | .quit => finish m x'
  | _ => x'

/-- a whole session -/
def run {τ : Type} (order : Requests → Requests) (fallback : Value) (m : Object τ) (x : Session τ) (cmds : List Cmd) : Session τ :=
  cmds.foldl (receive order fallback m) x

/-- If the class raises when it is called, or the fallback status is the name of none, `_setup_session` ends before it has connected a handler, client.py:46-48: the MTA talks to a context without any. -/
def noSession (order : Requests → Requests) (s : State) (cmds : List Cmd) : State :=
  cmds.foldl (fun s c => Client.receive order s c [] (match c with | .negotiate o => some o | _ => none) (some [])) s

end Verif.Python
