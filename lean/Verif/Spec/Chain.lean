import Verif.Spec.Children
/-
What it means that milters are chained: each one gets the message as its predecessors left it.
-/
namespace Verif.Spec.Children
open Verif Verif.Children

/-- a message as it stands between two milters, and what else the MTA is to be told about it -/
structure Draft where
  headers : List Header
  body : Bytes
  /-- some milter replaced the body -/
  replaced : Bool
  sender : Option (Bytes × Option Bytes)
  quarantine : Option Bytes
deriving DecidableEq

/-- a header value of a milter that does not know about leading spaces (`convert`) gets one -/
def spaced (convert : Bool) (v : Bytes) : Bytes :=
  if convert = true ∧ v.head? ≠ some 0x20 then 0x20 :: v else v

/-- and loses it on the way to it -/
def unspaced (convert : Bool) (v : Bytes) : Bytes :=
  if convert = true ∧ v.head? = some 0x20 then v.tail else v

/-- the headers after one request of a milter (what the functions on lists do: C14) -/
def headersAfter (convert : Bool) (hs : List Header) : Reply → List Header
  | .addHeader n v => Headers.add hs n (some (spaced convert v))
  | .insertHeader p n v => Headers.insert hs p n (v.map (spaced convert))
  | .changeHeader n p v => (Headers.change hs n p (some (spaced convert v))).2
  | .deleteHeader n p => (Headers.delete hs n p).2
  | _ => hs

/-- the piece of a new body in a request -/
def replacement : Reply → Option Bytes
  | .replaceBody b => some b
  | _ => none

def newSender : Reply → Option (Bytes × Option Bytes)
  | .changeFrom f p => some (f, p)
  | _ => none

def newQuarantine : Reply → Option Bytes
  | .quarantine r => some r
  | _ => none

def isRecipientEdit : Reply → Bool
  | .addRecipient _ _ | .deleteRecipient _ => true
  | _ => false

/-- the draft after the requests of one milter: headers one request after the other; the body is
what the pieces make up, if there are any; the last sender and the last reason for a quarantine
count -/
def Draft.after (convert : Bool) (requests : List Reply) (d : Draft) : Draft :=
  { headers := requests.foldl (headersAfter convert) d.headers
    body := if requests.filterMap replacement = [] then d.body else (requests.filterMap replacement).flatten
    replaced := d.replaced || !(requests.filterMap replacement).isEmpty
    sender := ((requests.filterMap newSender).getLast?).or d.sender
    quarantine := ((requests.filterMap newQuarantine).getLast?).or d.quarantine }

/-- the body in pieces that can be sent -/
structure IsCut (size : Nat) (body : Bytes) (chunks : List Bytes) : Prop where
  whole : chunks.flatten = body
  sizes : ∀ c ∈ chunks, c ≠ [] ∧ c.length ≤ size

/-- the commands by which a draft is handed to a milter.  A message need not have headers or
a body; the last piece of the MTA comes with the end of the message. -/
def chain (convert hasHeaders hasBody : Bool) (headers : List Header) (chunks : List Bytes) (last : Bytes) : List Cmd :=
  (if hasHeaders then headers.map fun h => .header h.name (unspaced convert (h.value.getD [])) else []) ++
  .endOfHeader :: ((if hasBody then chunks.map .body else []) ++ [.endOfMessage last])

/-- how a milter takes part -/
structure Role where
  /-- it does not know about leading spaces, the MTA does -/
  convert : Bool
  /-- it is not in evaluation mode -/
  counts : Bool
  /-- what it asks for at the end of the message -/
  requests : List Reply
  /-- it ends with "accept" rather than "continue" -/
  accepts : Bool

/-- the last answer of a milter -/
def lastReply (accepts : Bool) : Reply := if accepts then .accept else .cont

/-- what the milter's requests amount to -/
def Role.effective (r : Role) : List Reply := if r.counts then r.requests else []

/-- who gets which draft -/
def relay (role : Nat → Role) (d : Draft) : List Nat → List (Nat × Draft)
  | [] => []
  | i :: rest => (i, d) :: relay role (d.after (role i).convert (role i).effective) rest

/-- the draft after all of them -/
def outcome (role : Nat → Role) (d : Draft) (order : List Nat) : Draft :=
  order.foldl (fun d i => d.after (role i).convert (role i).effective) d

/-- the commands sent, and to whom -/
def commands (out : List Out) : List (Nat × Cmd) :=
  out.filterMap fun o => match o with
    | .sent i c => some (i, c)
    | _ => none

/-- what the MTA is told -/
def told (out : List Out) : List Emit :=
  out.filterMap fun o => match o with
    | .emit e => some e
    | _ => none

/-- what the MTA is told at the end, before the verdict (the header changes: C15) -/
def changes (original : List Header) (chunks : List Bytes) (d : Draft) : List Emit :=
  (if d.replaced then chunks.map fun b => .reply (.replaceBody b) else []) ++
  (HeaderDiff.emit original d.headers).map .edit ++
  (d.sender.toList.map fun x => .reply (.changeFrom x.1 x.2)) ++
  (d.quarantine.toList.map fun r => .reply (.quarantine r))

/-- a milter gets `k` commands after the first one, each when it has answered the one before -/
def receives (i k : Nat) : List Event := (List.replicate k [.flushed i, .reply i .cont]).flatten ++ [.flushed i]

/-- at the end of the message it makes its requests and has finished -/
def finishes (i : Nat) (role : Role) : List Event := role.requests.map (.reply i ·) ++ [.reply i (lastReply role.accepts)]

def turn (i k : Nat) (role : Role) : List Event := receives i k ++ finishes i role

/-- milter `i` and the others before the last one finish, and the last one has got the message -/
def passing (role : Nat → Role) (i : Nat) : List (Nat × List Cmd) → List Event
  | [] => []
  | x :: to => finishes i (role i) ++ receives x.1 (x.2.length - 1) ++ passing role x.1 to

/-- what the MTA is told when everybody lets the message pass: "accept" if nobody says "continue" -/
def verdict (before : Status) (role : Nat → Role) (order : List Nat) : Reply :=
  lastReply (decide (before ≠ .continue_) && order.all fun i => (role i).accepts)

/-- answers by which a milter refuses a message; the code is one of SMTP's for refusals -/
def refusing : Reply → Option Status
  | .reject => some .reject
  | .temporaryFailure => some .temporaryFailure
  | .discard => some .discard
  | .replyCode code _ _ =>
    if code / 100 = 4 then some .temporaryFailure else if code / 100 = 5 then some .reject else none
  | _ => none

/-- the commands for each of the milters, `cut` says how bodies are cut -/
def deliveries (cut : Bytes → List Bytes) (hasHeaders hasBody : Bool) (last : Bytes) (role : Nat → Role) (d : Draft)
    (order : List Nat) : List (Nat × List Cmd) :=
  (relay role d order).map fun x =>
    (x.1, chain (role x.1).convert hasHeaders hasBody x.2.headers (cut x.2.body) last)

/-- a message as the MTA sends it; the last piece of the body may come with the end of the message -/
structure Message where
  headers : List (Bytes × Bytes)
  chunks : List Bytes
  last : Bytes

/-- the message before any milter has seen it -/
def Message.draft (m : Message) : Draft :=
  ⟨m.headers.map fun h => ⟨h.1, some h.2⟩, m.chunks.flatten, false, none, none⟩

/-- the MTA sends the message, milter `i` says continue to everything before the end -/
def Message.arrives (m : Message) (i : Nat) : List Event :=
  m.headers.flatMap (fun h => [.header h.1 h.2, .flushed i, .reply i .cont]) ++ [.endOfHeader, .flushed i, .reply i .cont] ++
  m.chunks.flatMap (fun b => [.body b, .flushed i, .reply i .cont]) ++ [.endOfMessage m.last, .flushed i]

/-- the commands by which the first milter gets it: one for each of the MTA's -/
def Message.first (m : Message) (convert : Bool) : List Cmd :=
  chain convert true true m.draft.headers m.chunks m.last

/-- no special answers of the environment -/
def quietly (es : List Event) : History := es.map fun e => (e, [])

end Verif.Spec.Children

namespace Verif.Children
open Verif

/-- the milter wants the message and answers to everything -/
def wantsMessage (o : Opt) : Prop := ∀ m ∈ [0x10, 0x20, 0x40, 0x80, 0x40000, 0x80000], o.step &&& m = 0

/-- header values are converted on their way to the milter: the MTA sends leading spaces, the milter does not know about them -/
def converts (s : Sys) (i : Nat) : Bool :=
  if Server.isEnableStep (s.kids i).ctx.option 0x100000 then false
  else match s.option with
    | some o => o.step &&& 0x100000 != 0
    | none => false

end Verif.Children

namespace Verif.Props

/-- the verdict so far lets the message pass -/
def Passing (v : Status) : Prop := v = .notChange ∨ v = .continue_ ∨ v = .accept

end Verif.Props
