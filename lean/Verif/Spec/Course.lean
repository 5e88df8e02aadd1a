import Verif.Spec.Rounds
import Verif.Spec.Client
import Verif.Props.Leader
/-
What the MTA reads in the course of a session.
-/
namespace Verif.Spec.Course
open Verif Verif.Children Verif.Spec.Client
open Verif.Spec (Pointwise)
open Verif.Spec.Phase (Turn decisionOf)
open Verif.Props (asksFor)

/-- the commands the MTA waits for an answer to -/
def isQuestion : Event → Bool
  | .connect _ _ | .helo _ | .envelopeFrom _ | .envelopeRecipient _ | .data | .unknown _
  | .header _ _ | .endOfHeader | .body _ | .endOfMessage _ => true
  | _ => false

def isEnd : Event → Bool
  | .endOfMessage _ => true
  | _ => false

/-- the text of a refusal -/
abbrev Text := Option (Nat × Option Bytes × Option Bytes)

/-- the text that was last given, when `e` has been said -/
def textAfter (t : Text) : Emit → Text
  | .reply (.replyCode code ext message) => some (code, some ext, message)
  | _ => t

/-- every text is one that may be sent, and no plain refusal comes after one, `t` being the last one so far -/
def Fair : Text → List Emit → Prop
  | _, [] => True
  | t, e :: es =>
    (match e with
      | .reply .reject | .reply .temporaryFailure => t = none
      | .reply (.replyCode code ext _) => LegalReply code (some ext)
      | _ => True) ∧ Fair (textAfter t e) es

/-- the reason given last for a quarantine -/
def reason (es : List Emit) : Option Bytes :=
  es.foldl (fun r e => match e with | .reply (.quarantine x) => some x | _ => r) none

/-- What the MTA reads in answer to each of its commands `questions`, when the manager has this to say: one decision for a
command before the end of a message; at its end the requests, as far as they are granted, the reason for a quarantine, and
the decision, reports of progress apart. -/
inductive Read (granted : Option Opt) : List Event → List Emit → List (List Reply) → Prop where
  | done : Read granted [] [] []
  | word {q : Event} {r : Reply} {questions : List Event} {es : List Emit} {read : List (List Reply)}
      (before : isEnd q = false) (decision : (decisionOf r).isSome = true) (next : Read granted questions es read) :
      Read granted (q :: questions) (.reply r :: es) ([r] :: read)
  | finish {last : Bytes} {requests : List Emit} {r : Reply} {parts : List (List Reply)} {rs : List Reply} {questions : List Event}
      {es : List Emit} {read : List (List Reply)}
      (asks : ∀ e ∈ requests, ∃ c, asksFor e = some c) (decision : (decisionOf r).isSome = true)
      (shown : Pointwise Shows ((requests.filterMap asksFor).filter (accepted granted)) parts)
      (order : rs.filter (· ≠ .progress) = parts.flatten ++ quarantineReply (reason requests) ++ [r])
      (next : Read granted questions es read) :
      Read granted (.endOfMessage last :: questions) (requests ++ .reply r :: es) (rs :: read)

/-- somebody is there to answer -/
def isHeard : Turn → Bool
  | .ask _ talk _ => !talk.isEmpty
  | _ => true

end Verif.Spec.Course
