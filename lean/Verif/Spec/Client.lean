import Verif.Client.Context
import Verif.Spec.SetReply
import Verif.Spec.Pointwise
/-
What a milter may rely on when it talks to the MTA, in terms of the record of what happened on its context (`Event`):
which commands arrived, which calls it made, what was written.
-/
namespace Verif.Spec.Client
open Verif Verif.Client

/-! ### The state of the conversation, from the record -/

/-- the end of the message has arrived and is not answered yet -/
def atEnd (log : List Event) : Bool :=
  log.foldl (fun (b : Bool) e => match e with
    | .got (.endOfMessage _) => true
    | .got (.defineMacro _ _) => b
    | .got _ => false
    | .answered _ _ | .answeredNegotiate _ _ | .called (.respondAbort _) _ | .timedOut | .shutdown => false
    | _ => b) false

/-- the option in force: what the MTA offered, or what the milter chose from it -/
def negotiated (log : List Event) : Option Opt :=
  log.foldl (fun (o : Option Opt) e => match e with
    | .got (.negotiate offered) => some offered
    | .answeredNegotiate chosen .continue_ => chosen
    | _ => o) none

/-- the custom reply in force: the last one set -/
def lastCustom (log : List Event) : Option (Nat × Option Bytes × Option Bytes) :=
  log.foldl (fun (c : Option (Nat × Option Bytes × Option Bytes)) e => match e with
    | .called (.setReply code ext message) true => some (code, ext, message)
    | _ => c) none

/-- the reason for which the message is to be quarantined: the last one given since its end arrived -/
def quarantineReason (log : List Event) : Option Bytes :=
  log.foldl (fun (r : Option Bytes) e => match e with
    | .got (.endOfMessage _) => none
    | .called (.quarantine reason) _ => reason
    | _ => r) none

/-- all bytes written -/
def written (log : List Event) : Bytes :=
  (log.filterMap fun e => match e with | .wrote p => some p | _ => none).flatten

/-! ### Modifications -/

/-- the action flag a modification needs -/
def flagOf : Call → Option UInt32
  | .addHeader _ _ | .insertHeader _ _ _ => some 0x01
  | .replaceBody _ => some 0x02
  | .addRecipient _ none | .addRecipient _ (some []) => some 0x04
  | .addRecipient _ (some _) => some 0x80
  | .deleteRecipient _ => some 0x08
  | .changeHeader _ _ _ | .deleteHeader _ _ => some 0x10
  | .quarantine _ => some 0x20
  | .changeFrom _ _ => some 0x40
  | _ => none

/-- the flag was negotiated -/
def hasFlag (o : Option Opt) (flag : UInt32) : Bool :=
  match o with
  | none => false
  | some o => o.action &&& flag == flag

/-- the arguments are there; an address is not empty -/
def argumentsGiven : Call → Bool
  | .addHeader name value | .insertHeader _ name value => name.isSome && value.isSome
  | .changeHeader name _ _ | .deleteHeader name _ => name.isSome
  | .changeFrom a _ | .addRecipient a _ | .deleteRecipient a => match a with | none | some [] => false | _ => true
  | _ => true

/-- what the MTA is to read for a modification: `replies` says the same as `c` -/
def Shows : Call → List Reply → Prop
  | .addHeader n v, rs => ∃ n' v', n = some n' ∧ v = some v' ∧ rs = [.addHeader n' v']
  | .insertHeader i n v, rs => ∃ n' v', n = some n' ∧ v = some v' ∧ rs = [.insertHeader i n' (some v')]
  | .changeHeader n i (some v), rs => ∃ n', n = some n' ∧ rs = [.changeHeader n' i v]
  | .changeHeader n i none, rs => ∃ n', n = some n' ∧ rs = [.deleteHeader n' i]
  | .deleteHeader n i, rs => ∃ n', n = some n' ∧ rs = [.deleteHeader n' i]
  | .changeFrom f p, rs => ∃ f', f = some f' ∧ rs = [.changeFrom f' p]
  | .addRecipient r p, rs => ∃ r', r = some r' ∧ rs = [.addRecipient r' p]
  | .deleteRecipient r, rs => ∃ r', r = some r' ∧ rs = [.deleteRecipient r']
  | .replaceBody body, rs => ∃ chunks : List Bytes, rs = chunks.map .replaceBody ∧ chunks.flatten = body ∧
      ∀ c ∈ chunks, c ≠ [] ∧ c.length ≤ 65535
  | _, rs => rs = []

/-- strings the protocol can carry, and a header name or new header value that is not empty -/
def CallOk : Call → Prop
  | .addHeader (some n) (some v) => IsCStr n ∧ n ≠ [] ∧ IsCStr v
  | .insertHeader i (some n) (some v) => i < 4294967296 ∧ IsCStr n ∧ n ≠ [] ∧ IsCStr v ∧ v ≠ []
  | .changeHeader (some n) i (some v) => i < 4294967296 ∧ IsCStr n ∧ n ≠ [] ∧ IsCStr v ∧ v ≠ []
  | .changeHeader (some n) i none | .deleteHeader (some n) i => i < 4294967296 ∧ IsCStr n ∧ n ≠ []
  | .changeFrom (some a) p | .addRecipient (some a) p => IsCStr a ∧ a ≠ [] ∧ ∀ x, p = some x → IsCStr x ∧ x ≠ []
  | .deleteRecipient (some a) => IsCStr a ∧ a ≠ []
  | _ => True

/-- a modification that is to be sent -/
def accepted (o : Option Opt) (c : Call) : Bool :=
  match c with
  | .quarantine _ => false
  | _ => match flagOf c with
    | none => false
    | some flag => hasFlag o flag && argumentsGiven c

/-- a request to change the message, other than quarantine -/
def changes (c : Call) : Bool :=
  match c with
  | .quarantine _ => false
  | _ => (flagOf c).isSome

/-- Parameters of an added recipient need a flag of their own (0x80); this says that it was negotiated exactly if the flag
for recipients without parameters was. -/
def recipientFlagsAgree (o : Option Opt) (c : Call) : Bool :=
  match c with
  | .addRecipient _ (some (_ :: _)) => hasFlag o 0x04 == hasFlag o 0x80
  | _ => true

/-- a call that answers a command -/
def answers : Call → Bool
  | .respond _ _ | .respondNegotiate _ _ _ | .respondAbort _ => true
  | _ => false

/-- the end of a message was left behind without its answer: another command came, or another answer was given -/
def interrupted (log : List Event) : Bool :=
  (log.foldl (fun (b : Bool × Bool) e => match e with
    | .got (.endOfMessage _) => (true, b.2 || b.1)
    | .got (.defineMacro _ _) => b
    | .got _ => (false, b.2 || b.1)
    | .answered .endOfMessage _ => (false, b.2)
    | .answered _ _ | .answeredNegotiate _ _ | .called (.respondAbort _) _ | .timedOut | .shutdown => (false, b.2 || b.1)
    | _ => b) (false, false)).2

/-- the quarantine request the MTA is to read -/
def quarantineReply : Option Bytes → List Reply
  | none | some [] => []
  | some reason => [.quarantine reason]

/-! ### Replies -/

/-- The reply for a decision with the custom reply in force, as the MTA is to read it.  (`none` for a decision that is no
reply, and for a custom reply without enhanced code, which the protocol cannot carry: C09.) -/
def finalReply (custom : Option (Nat × Option Bytes × Option Bytes)) : Status → Option Reply
  | .default | .continue_ => some .cont
  | .accept => some .accept
  | .discard => some .discard
  | .skip => some .skip
  | .temporaryFailure => match custom with
    | none => some .temporaryFailure
    | some (code, some ext, message) => some (.replyCode code ext message)
    | some (_, none, _) => none
  | .reject => match custom with
    | none => some .reject
    | some (code, some ext, message) => some (.replyCode code ext message)
    | some (_, none, _) => none
  | _ => none

/-- a reply that answers a command -/
def isAnswer : Reply → Bool
  | .cont | .accept | .discard | .skip | .temporaryFailure | .reject | .replyCode _ _ _ => true
  | _ => false

/-- a decision the MTA can be told -/
def hasReply : Status → Bool
  | .default | .continue_ | .accept | .discard | .skip | .temporaryFailure | .reject => true
  | _ => false

/-- a command the MTA waits for the answer of, other than a negotiation -/
def expectsReply : Cmd → Bool
  | .negotiate _ | .defineMacro _ _ | .abort | .quit => false
  | _ => true

/-- a custom reply without enhanced code cannot be carried -/
def hasCode : Call → Bool
  | .setReply _ none _ => false
  | _ => true

/-- 4 for a reply that asks to try again later, 5 for one that refuses: content of a reply packet -/
def smtpClass : Bytes → Option Nat
  | [0x74] => some 4
  | [0x72] => some 5
  | 0x79 :: d :: _ => some (d.toNat - 48)
  | _ => none

/-- the class a decision calls for -/
def classOf : Status → Option Nat
  | .temporaryFailure => some 4
  | .reject => some 5
  | _ => none

/-- The decision of several handlers: each may change what the ones before it said, until one says something
final. -/
def final (s : Status) : Bool :=
  match s with
  | .notChange | .default | .continue_ | .allOptions => false
  | _ => true

/-- the handlers that get to run: up to the first with a final decision -/
def ran : List Handler → List Handler
  | [] => []
  | h :: hs => if final h.returns then [h] else h :: ran hs

/-- the last decision made by those that ran -/
def decide (handlers : List Handler) : Status :=
  (((ran handlers).map (·.returns)).filter (· ≠ .notChange)).getLast?.getD .default

/-! ### What the MTA reads, command by command -/

open Classical in
/-- the custom reply in force after some calls: the last one set that is legal -/
noncomputable def customAfter (custom : Option (Nat × Option Bytes × Option Bytes)) (calls : List Call) : Option (Nat × Option Bytes × Option Bytes) :=
  calls.foldl (fun custom c => match c with
    | .setReply code ext message => if LegalReply code ext then some (code, ext, message) else custom
    | _ => custom) custom

/-- the reason given last -/
def reasonOf (calls : List Call) : Option Bytes :=
  calls.foldl (fun reason c => match c with
    | .quarantine x => x
    | _ => reason) none

/-- the calls of the milter for a command -/
def callsFor (c : Cmd) (handlers : List Handler) : List Call :=
  match c with
  | .defineMacro _ _ | .quit => []
  | _ => (ran handlers).flatMap (·.calls)

/-- What the MTA is to read for a command, apart from reports of progress: nothing if no answer is due; else exactly one answer, the one for the
decision with the custom reply in force; at the end of a message, first the modifications that were accepted, in the order of the calls, and the request to
quarantine. -/
def Fits (o : Option Opt) (custom : Option (Nat × Option Bytes × Option Bytes)) (c : Cmd) (calls : List Call) (decision : Status)
    (read : List Reply) : Prop :=
  if expectsReply c then
    ∃ (parts : List (List Reply)) (r : Reply), finalReply custom decision = some r ∧
      match c with
      | .endOfMessage _ => Pointwise Shows (calls.filter (accepted o)) parts ∧
          read.filter (· ≠ .progress) = parts.flatten ++ quarantineReply (reasonOf calls) ++ [r]
      | _ => read.filter (· ≠ .progress) = [r]
  else read.filter (· ≠ .progress) = []

/-- this for each command; `custom` is the custom reply in force before -/
def Conversed (o : Option Opt) : Option (Nat × Option Bytes × Option Bytes) → List (Cmd × List Handler) → List (List Reply) → Prop
  | _, [], [] => True
  | custom, x :: xs, g :: gs =>
    Fits o (customAfter custom (callsFor x.1 x.2)) x.1 (callsFor x.1 x.2) (decide x.2) g ∧
      Conversed o (customAfter custom (callsFor x.1 x.2)) xs gs
  | _, _, _ => False

end Verif.Spec.Client
