import Verif.Spec.Server
/-
What is reported about a message when a milter is done with it.
-/
namespace Verif.Spec.Report
open Verif Verif.Server Verif.Spec.Server

/-- the reports in a history -/
def reports (t : List Line) : List (Status × Result) :=
  t.flatMap fun l => l.out.filterMap fun
    | .emit (.messageProcessed st r) => some (st, r)
    | _ => none

/-- commands of a message after its sender and before its end -/
def isPart : Cmd → Bool
  | .envelopeRecipient _ | .data | .header _ _ | .endOfHeader => true
  | .body b => decide (b ≠ []) && decide (b.length ≤ Enc.chunkSize)
  | _ => false

/-- the command is written, goes out, and is answered -/
def exchanged (p : Cmd × Reply) : List Event :=
  [.command p.1 false true, .flushed true, .handlerReturns true, .reply p.2 true, .handlerReturns true]

/-- the answer lets the message go on; a recipient may be refused -/
def goesOn (p : Cmd × Reply) : Prop :=
  match p.1 with
  | .envelopeRecipient _ => verdict p.2 ≠ none
  | _ => p.2 = .cont

/-- the answer decides about the message -/
def decides (c : Cmd) : Reply → Option Status
  | .accept => some .accept
  | .discard => some .discard
  | .reject => match c with | .envelopeRecipient _ => none | _ => some .reject
  | .temporaryFailure => match c with | .envelopeRecipient _ => none | _ => some .temporaryFailure
  | .replyCode code _ _ => match c with
    | .envelopeRecipient _ => none
    | _ => some (if code / 100 = 4 then .temporaryFailure else .reject)
  | _ => none

/-- the recipients and the answers to them -/
def recipients (l : List (Cmd × Reply)) : List (Bytes × Reply) :=
  l.filterMap fun p => match p.1 with
    | .envelopeRecipient r => some (r, p.2)
    | _ => none

/-- the last refusal of a recipient -/
def lastRefusal (l : List (Cmd × Reply)) : Option Status :=
  ((recipients l).filterMap fun p => match verdict p.2 with
    | some .temporaryFailed => some Status.temporaryFailure
    | some .rejected => some .reject
    | _ => none).getLast?

/-- the latest command is a recipient -/
def atRecipient (l : List (Cmd × Reply)) : Bool :=
  match l.getLast? with
  | some (.envelopeRecipient _, _) => true
  | _ => false

/-- the report names the recipients by what became of them -/
def Names (l : List (Cmd × Reply)) (r : Result) : Prop :=
  r.recipients.Perm ((withVerdict .accepted (recipients l)).map some) ∧
  r.temporaryFailed = (withVerdict .temporaryFailed (recipients l)).map some ∧
  r.rejected = (withVerdict .rejected (recipients l)).map some

/-- a milter may change the message at its end, say that it is working, and have it put into quarantine -/
def isChange : Reply → Bool
  | .addHeader _ _ | .insertHeader _ _ _ | .changeHeader _ _ _ | .deleteHeader _ _ | .changeFrom _ _
  | .addRecipient _ _ | .deleteRecipient _ | .replaceBody _ | .progress | .quarantine _ => true
  | _ => false

def isQuarantine : Reply → Bool
  | .quarantine _ => true
  | _ => false

/-- how a milter is done with a message -/
inductive End where
  /-- it decides at this command -/
  | decision (c : Cmd) (r : Reply)
  /-- it lets the message pass at its end, after some changes -/
  | pass (chunk : Bytes) (changes : List Reply)
  /-- it decides at its end, after some changes -/
  | verdict (chunk : Bytes) (changes : List Reply) (r : Reply)
  /-- the MTA gives up -/
  | abort

def changesEvents (l : List Reply) : List Event := l.flatMap fun r => [.reply r true, .handlerReturns true]

/-- the command is written and goes out -/
def goesOut (c : Cmd) : List Event := [.command c false true, .flushed true, .handlerReturns true]

def End.events : End → List Event
  | .decision c r => goesOut c ++ [.reply r true, .handlerReturns true, .handlerReturns true]
  | .pass b l => goesOut (.endOfMessage b) ++ changesEvents l ++ [.reply .cont true, .handlerReturns true, .handlerReturns true]
  | .verdict b l r => goesOut (.endOfMessage b) ++ changesEvents l ++ [.reply r true, .handlerReturns true, .handlerReturns true]
  | .abort => [.command .abort false true, .flushed true, .handlerReturns true, .handlerReturns true, .handlerReturns true]

def End.Allowed : End → Prop
  | .decision c r => isPart c = true ∧ decides c r ≠ none
  | .pass _ l => ∀ r ∈ l, isChange r = true
  | .verdict b l r => (∀ r ∈ l, isChange r = true) ∧ decides (.endOfMessage b) r ≠ none
  | .abort => True

/-- what is reported as the outcome, when `l` came before: the decision; nothing particular, or the quarantine,
if the message passes; abort if the MTA gives up, unless it does so after a recipient, some having been refused -/
def End.status (l : List (Cmd × Reply)) : End → Status
  | .decision c r => (decides c r).getD .default
  | .pass _ changes => if changes.any isQuarantine then .quarantine else .notChange
  | .verdict b _ r => (decides (.endOfMessage b) r).getD .default
  | .abort => if atRecipient l then (lastRefusal l).getD .abort else .abort

/-- a recipient with which the milter decides is among those that are not refused -/
def End.named (l : List (Cmd × Reply)) : End → List (Cmd × Reply)
  | .decision c _ => l ++ [(c, .cont)]
  | _ => l

/-- what the milter was given of the message after its sender -/
def End.commands (l : List (Cmd × Reply)) : End → List Cmd
  | .decision c _ => l.map (·.1) ++ [c]
  | .pass b _ => l.map (·.1) ++ [.endOfMessage b]
  | .verdict b _ _ => l.map (·.1) ++ [.endOfMessage b]
  | .abort => l.map (·.1)

/-- what the milter wanted to be changed -/
def End.changes : End → List Reply
  | .pass _ l => l
  | .verdict _ l _ => l
  | _ => []

/-- the header fields that were given -/
def headersOf (l : List Cmd) : List Header :=
  l.filterMap fun
    | .header n v => some ⟨n, some v⟩
    | _ => none

/-- the size of the body that was given -/
def bodySizeOf (l : List Cmd) : Nat :=
  (l.map fun
    | .body b => b.length
    | .endOfMessage b => b.length
    | _ => 0).sum

/-- the header fields a milter wants in the message -/
def addedOf (l : List Reply) : List Header :=
  l.filterMap fun
    | .addHeader n v => some ⟨n, some v⟩
    | .insertHeader _ n v => some ⟨n, v⟩
    | .changeHeader n _ v => some ⟨n, some v⟩
    | _ => none

/-- the header fields a milter wants to be deleted -/
def removedOf (l : List Reply) : List Header :=
  l.filterMap fun
    | .deleteHeader n _ => some ⟨n, none⟩
    | _ => none

/-- the phase of a command of a message -/
def phaseOf : Cmd → St
  | .envelopeFrom _ => .envelopeFrom
  | .envelopeRecipient _ => .envelopeRecipient
  | .data => .data
  | .header _ _ => .header
  | .endOfHeader => .endOfHeader
  | .body _ => .body
  | .endOfMessage _ => .endOfMessage
  | _ => .start

/-- the report describes the message from `f` of which the commands `l` were given, and what a milter wanted to be
changed; it names the latest command, and tells whether it was the answer to it that settled the message.  The order of
the header fields is not that in which they were given. -/
structure Describes (f : Bytes) (l : List Cmd) (changes : List Reply) (answered : Bool) (r : Result) : Prop where
  sender : r.from_ = some f
  headers : r.headers.Perm (headersOf l)
  size : r.bodySize = bodySizeOf l
  added : r.added.Perm (addedOf changes)
  removed : r.removed.Perm (removedOf changes)
  quarantine : r.quarantine = changes.any isQuarantine
  state : r.state = phaseOf (l.getLast?.getD (.envelopeFrom f))
  answered : r.replied = answered

/-- nothing is going on and no message is under way; the milter takes and answers everything -/
structure Free (s : State) : Prop where
  timer : s.timer = none
  nextStates : s.nextStates = []
  stack : s.stack = []
  quitted : s.quitted = false
  option : ∃ o, s.option = some o ∧ o.step = 0 ∧ 4 ≤ o.version
  result : s.result = none
  refusal : s.rcptStatus = .default
  body : s.body = []
  awaited : s.bodyQueue = []
  count : s.processBodyCount = 0
  sentEom : s.sentEom = false

end Verif.Spec.Report
