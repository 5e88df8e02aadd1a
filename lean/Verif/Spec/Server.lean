import Verif.Server.Context
/-
What histories of a context talking to one milter must look like.
-/
namespace Verif.Spec.Server
open Verif Verif.Server

/-! ## One command at a time -/

/-- everything except abort and quit has to wait its turn -/
def waitsItsTurn : Cmd → Bool
  | .abort | .quit => false
  | _ => true

/-- replies that finish the command they answer -/
def finishes : Reply → Bool
  | .negotiate _ _ | .cont | .replyCode _ _ _ | .temporaryFailure | .reject | .accept | .discard
  | .connectionFailure | .shutdown | .skip => true
  | _ => false

/-- does a milter with this option answer the command that leads to this state?  Negotiation
and end of message are always answered, the others unless the milter negotiated its no-reply
flag; abort and quit are never answered. -/
def answered (o : Option Opt) (st : St) : Bool :=
  match o with
  | none => false
  | some o =>
    match st with
    | .negotiate | .endOfMessage => true
    | .connect => o.step &&& 0x1000 == 0
    | .helo => o.step &&& 0x2000 == 0
    | .envelopeFrom => o.step &&& 0x4000 == 0
    | .envelopeRecipient => o.step &&& 0x8000 == 0
    | .data => o.step &&& 0x10000 == 0
    | .unknown => o.step &&& 0x20000 == 0
    | .header => o.step &&& 0x80 == 0
    | .endOfHeader => o.step &&& 0x40000 == 0
    | .body => o.step &&& 0x80000 == 0
    | _ => false

/-- the state a command leads to once it has gone out -/
def leadsTo : Cmd → St
  | .negotiate _ => .negotiate
  | .defineMacro _ _ => .defineMacro
  | .connect _ _ => .connect
  | .helo _ => .helo
  | .envelopeFrom _ => .envelopeFrom
  | .envelopeRecipient _ => .envelopeRecipient
  | .data => .data
  | .header _ _ => .header
  | .endOfHeader => .endOfHeader
  | .body _ => .body
  | .endOfMessage _ => .endOfMessage
  | .abort => .abort
  | .quit => .quit
  | .unknown _ => .unknown

/-- how much is demanded: everything, or everything except that a body command counts as
outstanding only until it has gone out, and that the rest of an oversized body chunk, written
later on the context's own initiative, need not wait for its turn -/
inductive Rigour where
  | full
  | exceptBody
deriving DecidableEq, Repr

/-- the watcher's bookkeeping: which command is outstanding (given by the state it leads to)
after one more item?  `none`: a command was written although one was outstanding.  A command
is outstanding from when it is written; when the context reports that it has gone out
(state-transited) it stays outstanding only if the milter will answer it; an abort that has
gone out (reported by state-transited, or by message-processed in state ABORT), or an output
error, ends the outstanding command.  `own`: the context does this on its own initiative, not
because a command function was called. -/
def watchItem (g : Rigour) (o : Option Opt) (st : St) (own : Bool) (w : Option St) :
    Item → Option (Option St)
  | .wrote c =>
    if waitsItsTurn c then
      if w.isSome && !(g = .exceptBody && own && leadsTo c = .body) then none
      else some (some (leadsTo c))
    else some w
  | .emit (.stateTransited n) =>
    some (if answered o n && !(g = .exceptBody && n = .body) then some n else none)
  | .emit (.messageProcessed _ _) => some (if st = .abort then none else w)
  | .emit (.error .ioError) => some none
  | _ => some w

def watchItems (g : Rigour) (o : Option Opt) (st : St) (own : Bool) :
    Option St → List Item → Option (Option St)
  | w, [] => some w
  | w, i :: is =>
    match watchItem g o st own w i with
    | none => none
    | some w => watchItems g o st own w is

/-- a reply may finish the outstanding command; a command that is not answered is finished
when everything has been flushed; a new connection has no outstanding command -/
def watchEvent (o : Option Opt) (w : Option St) : Event → Option St
  | .reply r _ => if finishes r then none else w
  | .flushed _ => w.filter (answered o)
  | .establish _ | .connected _ => none
  | _ => w

/-- is this not the call of a command function? -/
def ownInitiative : Event → Bool
  | .command _ _ _ => false
  | _ => true

/-- the outstanding command after a history; `none` if a command was written while another
one was outstanding -/
def watch (g : Rigour) : Option St → List Line → Option (Option St)
  | w, [] => some w
  | w, l :: t =>
    match watchItems g l.option l.state (ownInitiative l.event) (watchEvent l.option w l.event)
        l.out with
    | none => none
    | some w => watch g w t

/-- no command was written while another one was outstanding -/
def OneAtATime (g : Rigour) (t : List Line) : Prop := watch g none t ≠ none

/-- a command is outstanding at the end of the history -/
def Outstanding (g : Rigour) (t : List Line) : Prop := ∃ n, watch g none t = some (some n)

/-! ## Replies and states -/

/-- the states in which the protocol allows a reply to be reported -/
def Allowed (st : St) : Reply → Prop
  | .negotiate _ _ => st = .negotiate
  | .cont | .replyCode _ _ _ =>
    st ∈ [.connect, .helo, .envelopeFrom, .envelopeRecipient, .data, .unknown, .header,
      .endOfHeader, .body, .endOfMessage]
  | .addHeader _ _ | .insertHeader _ _ _ | .changeHeader _ _ _ | .deleteHeader _ _
  | .changeFrom _ _ | .addRecipient _ _ | .deleteRecipient _ | .replaceBody _ | .progress
  | .quarantine _ => st = .endOfMessage
  | .skip => st = .body
  | .temporaryFailure | .reject | .accept | .discard | .connectionFailure | .shutdown => True

instance (st : St) (r : Reply) : Decidable (Allowed st r) := by
  cases r <;> unfold Allowed <;> infer_instance

/-! ## Commands a milter declined -/

/-- did the milter decline this command?  (Without an option everything that can be declined
is.) -/
def Declined (o : Option Opt) (c : Cmd) : Prop :=
  match o, c with
  | _, .negotiate _ | _, .defineMacro _ _ | _, .endOfMessage _ | _, .abort | _, .quit => False
  | none, _ => True
  | some o, .connect _ _ => o.step &&& 0x1 ≠ 0
  | some o, .helo _ => o.step &&& 0x2 ≠ 0
  | some o, .envelopeFrom _ => o.step &&& 0x4 ≠ 0
  | some o, .envelopeRecipient _ => o.step &&& 0x8 ≠ 0
  | some o, .data => o.version < 4 ∨ o.step &&& 0x200 ≠ 0
  | some o, .header _ _ => o.step &&& 0x20 ≠ 0
  | some o, .endOfHeader => o.step &&& 0x40 ≠ 0
  | some o, .body _ => o.step &&& 0x10 ≠ 0
  | some o, .unknown _ => o.step &&& 0x100 ≠ 0

instance (o : Option Opt) (c : Cmd) : Decidable (Declined o c) := by
  cases o <;> cases c <;> unfold Declined <;> infer_instance

/-- the answer given on behalf of a milter that declined a command -/
def onBehalf : Cmd → Reply
  | .body _ => .skip
  | _ => .cont

/-! ## Recipients -/

inductive Verdict where
  | accepted | temporaryFailed | rejected
deriving DecidableEq, Repr

/-- what a reply to a recipient says about it -/
def verdict : Reply → Option Verdict
  | .cont => some .accepted
  | .temporaryFailure => some .temporaryFailed
  | .reject => some .rejected
  | .replyCode code _ _ => some (if code / 100 = 4 then .temporaryFailed else .rejected)
  | _ => none

/-- the recipients with a given verdict, in order -/
def withVerdict (v : Verdict) (l : List (Bytes × Reply)) : List Bytes :=
  (l.filter (fun p => verdict p.2 == some v)).map (·.1)

/-! ## Body bytes -/

/-- the body bytes an item puts on the wire -/
def bodyBytes : Item → Bytes
  | .wrote (.body b) => b
  | _ => []

/-- the body bytes in the packets written -/
def bodyWritten (t : List Line) : Bytes := t.flatMap fun l => l.out.flatMap bodyBytes

/-- the body bytes passed to the context, in one event: by the body calls that were neither
stopped nor answered on the milter's behalf -/
def bodyOf (o : Option Opt) : Event → Bytes
  | .command (.body b) false _ => if Declined o (.body b) then [] else b
  | _ => []

def bodyGiven (t : List Line) : Bytes := t.flatMap fun l => bodyOf l.option l.event

/-- not a refusal, an error or worse -/
def fine : Item → Bool
  | .ret b => b
  | .emit (.error _) => false
  | .ub => false
  | _ => true

/-- every call in the history was successful and no error was reported -/
def AllSucceed (t : List Line) : Prop := ∀ l ∈ t, l.out.all fine = true

end Verif.Spec.Server
