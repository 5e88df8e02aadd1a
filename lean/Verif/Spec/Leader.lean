import Verif.Manager.Leader
import Verif.Spec.SetReply
import Verif.Spec.Client
/-
What the manager does with the milters' decisions, in terms of the record of what happened on the MTA's session
(`Client.Event`).
-/
namespace Verif.Spec.Leader
open Verif Verif.Leader
open Verif.Client (Kind kindOf Event)
open Verif.Children (Emit)

/-- where the conversation with the MTA stands: its last command, and whether that is answered; `none` before the first, and
when it has no answer (abort, quit) -/
def standing (log : List Event) : Option (Kind × Bool) :=
  log.foldl (fun (x : Option (Kind × Bool)) e => match e with
    | .got (.defineMacro _ _) => x
    | .got c => (kindOf c).map fun k => (k.1, false)
    | .answered _ _ | .answeredNegotiate _ _ => x.map fun p => (p.1, true)
    | .shutdown => none
    | _ => x) none

/-- the MTA waits for the answer of a command -/
def waits (log : List Event) : Bool :=
  match standing log with
  | some (_, false) => true
  | _ => false

/-- the decision a signal of the milters stands for: `fallback` if none of them can answer -/
def decides (fallback : Status) : Emit → Option Status
  | .reply .cont => some .continue_
  | .reply .accept => some .accept
  | .reply .reject => some .reject
  | .reply .temporaryFailure => some .temporaryFailure
  | .reply .discard => some .discard
  | .reply .skip => some .skip
  | .reply (.replyCode code _ _) => some (if code / 100 = 4 then .temporaryFailure else .reject)
  | .error true => some fallback
  | _ => none

/-- a reply code the milters give is one a milter may set -/
def Valid : Emit → Prop
  | .reply (.replyCode code ext _) => Spec.LegalReply code (some ext)
  | _ => True

/-- setting the reply code the decision comes with -/
def codeSet : Emit → List Event
  | .reply (.replyCode code ext message) => [.called (.setReply code (some ext) message) true]
  | _ => []

/-- the answer to a command -/
def answer (k : Kind) (v : Status) : Event :=
  match k with
  | .negotiate => .answeredNegotiate none v
  | k => .answered k v

/-- something is written, or cannot be; or the end of the message is reported -/
def isWriting : Event → Bool
  | .wrote _ | .error | .processed _ => true
  | _ => false

/-- a negotiation reply belongs to a negotiation -/
def isNegotiation : Emit → Bool
  | .negotiateReply _ => true
  | _ => false

/-- What may happen when the record is `log`: the MTA sends a command only when it does not wait for an answer, and the end of
a message after an answered command of the session; the milters take every command; a negotiation is answered
at most while it is the last command. -/
def mayHappen (log : List Event) : Op → Bool
  | .command c during ok _ _ =>
    match kindOf c with
    | none => !during.any isNegotiation
    | some (.negotiate, _) => ok && !waits log
    | some (.endOfMessage, _) => ok && !during.any isNegotiation &&
      (match standing log with | some (.negotiate, _) => false | some (_, b) => b | none => false)
    | some _ => ok && !during.any isNegotiation && !waits log
  | .heard (.negotiateReply _) => match standing log with | some (.negotiate, _) => true | _ => false
  | _ => true

/-- a history in which nothing else happens; it is to start with a negotiation -/
def Patient (order : Requests → Requests) (f : Front) : List Op → Prop
  | [] => True
  | op :: ops => mayHappen f.client.log op = true ∧ Patient order (step order f op) ops

end Verif.Spec.Leader
