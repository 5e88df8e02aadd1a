import Verif.Spec.Chain
import Verif.Spec.Children
/-
A command that goes to all milters at once, from the MTA's point of view: who got it, who answered
what, and what the MTA is to be told.
-/
namespace Verif.Spec.Phase
open Verif Verif.Children Verif.Spec.Children
open Verif.Server (St)

/-- where a milter is -/
inductive Pos where
  /-- the command is not meant for it -/
  | none
  /-- it is about to get the command -/
  | waiting
  /-- the command is on its way -/
  | written
  /-- it has got the command -/
  | asked
  /-- it has answered such that the session goes on without it: it is being told to quit -/
  | leaving
  /-- it has been told -/
  | left
  /-- it has answered and goes on with the session or the message -/
  | answered
  /-- it has answered and does not care about the rest of the message -/
  | settled
  /-- it is gone -/
  | lost
deriving DecidableEq, Repr

/-- its part is not over yet -/
def Pos.isOpen : Pos → Bool
  | .waiting | .written | .asked | .leaving | .left => true
  | _ => false

/-- the commands that go to all milters, and the state they lead to -/
def asks : Event → Option (Cmd × St)
  | .connect h a => some (.connect h a, .connect)
  | .helo f => some (.helo f, .helo)
  | .envelopeFrom f => some (.envelopeFrom f, .envelopeFrom)
  | .envelopeRecipient r => some (.envelopeRecipient r, .envelopeRecipient)
  | .data => some (.data, .data)
  | .unknown c => some (.unknown c, .unknown)
  | _ => Option.none

/-- the milter takes part in the session -/
def isAlive (k : Kid) : Bool := k.ctx.negotiated && !k.ctx.quitted

/-- the milter takes part in the message -/
def inMessage (k : Kid) : Bool := isAlive k && k.ctx.processingMessage

/-- the milters a command is meant for: everyone alive; for a recipient those following the
message; for DATA those of them for whom a recipient is left -/
def addressees (s : Sys) : Event → List Nat
  | .envelopeRecipient _ => (List.range s.count).filter fun i => inMessage (s.kids i)
  | .data => (List.range s.count).filter fun i =>
      inMessage (s.kids i) && Server.hasAcceptedRecipient (s.kids i).ctx
  | _ => (List.range s.count).filter fun i => isAlive (s.kids i)

/-- the milters for which the message is over when DATA comes: none of its recipients is left -/
def abandoned (s : Sys) : Event → List Nat
  | .data => (List.range s.count).filter fun i =>
      inMessage (s.kids i) && !Server.hasAcceptedRecipient (s.kids i).ctx
  | _ => []

/-- the step flag by which a milter declined the command at negotiation -/
def declineFlag : St → UInt32
  | .connect => 0x1
  | .helo => 0x2
  | .envelopeFrom => 0x4
  | .envelopeRecipient => 0x8
  | .data => 0x200
  | .unknown => 0x100
  | _ => 0

/-- the milter does not want the command, or does not know it (DATA came with version 4) -/
def declines (k : Kid) (st : St) : Bool :=
  match k.ctx.option with
  | some o => (o.step &&& declineFlag st != 0) || (decide (st = .data) && decide (o.version < 4))
  | Option.none => false

/-- the decision a reply stands for -/
def decisionOf : Reply → Option Status
  | .cont => some .continue_
  | .accept => some .accept
  | .reject => some .reject
  | .temporaryFailure => some .temporaryFailure
  | .discard => some .discard
  | .replyCode code _ _ => some (if code / 100 = 4 then .temporaryFailure else .reject)
  | _ => Option.none

/-- replies that make no sense before the end of the message -/
def isSenseless : Reply → Bool
  | .addHeader _ _ | .insertHeader _ _ _ | .changeHeader _ _ _ | .deleteHeader _ _ | .changeFrom _ _
  | .addRecipient _ _ | .deleteRecipient _ | .replaceBody _ | .progress | .quarantine _ | .skip => true
  | _ => false

/-- what the reply counts as: a milter in evaluation mode does not refuse -/
def counts (k : Kid) (v : Status) : Status := if k.evaluation = true ∧ refuses v = true then .accept else v

/-- the session goes on without a milter that settles the matter before there is a message -/
def parts (st : St) (v : Status) : Bool :=
  decide (v ≠ .continue_) && (decide (st = .connect) || decide (st = .helo) || decide (st = .unknown))

/-- where a milter is after its answer; refusing a recipient is not the end of the message -/
def placeAfter (st : St) (v : Status) : Pos :=
  if parts st v then .leaving
  else if v = .continue_ ∨ (st = .envelopeRecipient ∧ refuses v = true) then .answered
  else .settled

/-- the decision is the end of the message -/
def ends (st : St) (v : Status) : Bool :=
  decide (v = .discard) || ((decide (v = .reject) || decide (v = .temporaryFailure)) && decide (st ≠ .envelopeRecipient))

/-- the reply code with its text a reply carries -/
def codeOf : Reply → Option (Nat × Bytes × Option Bytes)
  | .replyCode code extended message => some (code, extended, message)
  | _ => Option.none

/-- where everybody is, what was said so far, the last reply code, and who was told to quit -/
structure Talk where
  pos : Nat → Pos
  votes : List Status
  code : Option (Nat × Bytes × Option Bytes)
  dismissed : List Nat

def Talk.put (t : Talk) (i : Nat) (p : Pos) : Talk := { t with pos := fun j => if j = i then p else t.pos j }

def Talk.vote (t : Talk) (v : Status) : Talk := { t with votes := t.votes ++ [v] }

/-- somebody has not answered yet -/
def Talk.isOpen (t : Talk) (who : List Nat) : Bool := who.any fun i => (t.pos i).isOpen

/-- what is sent when the command arrives: it goes to everyone it is meant for who did not decline -/
def opening (s : Sys) (e : Event) (cmd : Cmd) (st : St) : List (Nat × Cmd) :=
  (abandoned s e).map (·, .abort) ++
    ((addressees s e).filter fun i => !declines (s.kids i) st).map (·, cmd)

/-- the command arrives -/
def Talk.start (s : Sys) (who : List Nat) (st : St) : Talk where
  pos := fun i => if i ∈ who then (if declines (s.kids i) st then .answered else .written) else .none
  votes := (who.filter fun i => declines (s.kids i) st).map fun _ => .continue_
  code := s.code
  dismissed := []

/-- what may happen next, and what it means; `none` for anything else -/
def Talk.move (s : Sys) (who : List Nat) (st : St) (t : Talk) : Event → Option Talk
  | .flushed i =>
    match t.pos i with
    | .written => some (t.put i .asked)
    | .leaving => some (t.put i .left)
    | _ => Option.none
  | .reply i r =>
    if t.pos i = .asked then
      match decisionOf r with
      | some v => some { (t.put i (placeAfter st v)).vote (counts (s.kids i) v) with
          code := (codeOf r).or t.code
          dismissed := if parts st v then t.dismissed ++ [i] else t.dismissed }
      | Option.none => if isSenseless r then some ((t.put i .lost).vote (s.kids i).fallback) else Option.none
    else Option.none
  | .timeout i => if t.pos i = .asked then some ((t.put i .lost).vote (s.kids i).fallback) else Option.none
  | .error i => if t.pos i = .asked then some ((t.put i .lost).vote (s.kids i).fallback) else Option.none
  | .finished i =>
    match t.pos i with
    | .asked => some ((t.put i .lost).vote (s.kids i).fallback)
    | .leaving | .left => some (t.put i .lost)
    | .answered | .settled => if t.isOpen who then some (t.put i .lost) else Option.none
    | .lost => some t
    | _ => Option.none
  | _ => Option.none

def Talk.moves (s : Sys) (who : List Nat) (st : St) (t : Talk) : List Event → Option Talk
  | [] => some t
  | e :: es => (t.move s who st e).bind fun t' => t'.moves s who st es

/-- before the command arrives nothing is under way with a milter it is meant for: the milter is
connected, has negotiated that it answers, and owes nothing -/
structure Idle (k : Kid) (st : St) : Prop where
  linked : k.linked = true
  retry : k.tryRetry = Option.none
  alive : isAlive k = true
  nextStates : k.ctx.nextStates = []
  timer : k.ctx.timer = Option.none
  option : ∃ o, k.ctx.option = some o ∧ o.step &&& Server.noReplyFlag st = 0

/-- the manager is at rest when the command arrives -/
structure Calm (s : Sys) (who : List Nat) (st : St) : Prop where
  oracle : s.oracle = []
  pending : s.pending = Option.none
  running : s.allExpired = false
  some : who ≠ []
  idle : ∀ i ∈ who, Idle (s.kids i) st

/-- how a decision is reported when the last reply code was `code` -/
def report (v : Status) (code : Option (Nat × Bytes × Option Bytes)) : Reply :=
  match code with
  | some (c, extended, message) =>
    if (c / 100 = 4 ∧ v = .temporaryFailure) ∨ (c / 100 = 5 ∧ v = .reject) then .replyCode c extended message
    else plain v
  | Option.none => plain v
where
  plain : Status → Reply
    | .reject => .reject
    | .temporaryFailure => .temporaryFailure
    | .discard => .discard
    | .accept => .accept
    | _ => .cont

/-- no body is on its way to the milter -/
def MsgBlank (c : Server.State) : Prop :=
  c.body = [] ∧ c.bodyQueue = [] ∧ c.processBodyCount = 0 ∧ c.sentEom = false ∧ c.skipBody = false

/-- no message is stored, and none is being handed on -/
def Blank (s : Sys) : Prop :=
  s.headers = none ∧ s.originalHeaders = none ∧ s.commandQueue = [] ∧ s.waitingQueue = [] ∧ s.body = none ∧
  s.bodyFile = none ∧ s.changeFrom = none ∧ s.quarantine = none ∧ s.emittedReply = false

/-- no trace is left of a message: the position among the headers and the marks that a body was replaced are as
in the beginning (they may not be: C30) -/
def Traceless (s : Sys) : Prop := s.headerIndex = 0 ∧ s.replaced = false ∧ s.replacedForEach = false

end Verif.Spec.Phase
