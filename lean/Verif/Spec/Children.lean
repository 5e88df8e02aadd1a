import Verif.Manager.Children
/-
Words for what happens in a session of the manager with its milters, in terms of the events
(`Event`: what the MTA and the milters do), and of what is seen from outside (`Out`).
-/
namespace Verif.Spec.Children
open Verif Verif.Children

/-- a history: what happened, with the answers of the environment -/
abbrev History := List (Event × List (Bool × Bool))

def events (h : History) : List Event := h.map (·.1)

/-! ## Negotiation -/

/-- flag number `i` of a word -/
def flag (w : UInt32) (i : Nat) : Bool := w.toNat.testBit i

/-- the numbers of the flags that keep an event from being sent: no-connect, -helo,
-envelope-from, -envelope-recipient, -body, -headers, -end-of-header, -unknown, -data
(milter-option.h 62-80) -/
def noEventFlags : List Nat := [0, 1, 2, 3, 4, 5, 6, 8, 9]

/-- the numbers of the flags that permit something: skip, rejected recipients, header values with
leading space (milter-option.h 130-133) -/
def permissionFlags : List Nat := [10, 11, 20]

/-- the MTA offered the flag -/
def mtaOffered (h : History) (i : Nat) : Prop :=
  ∃ o, Event.negotiate o ∈ events h ∧ flag o.step i = true

/-- a milter asked for the flag -/
def milterAsked (h : History) (i : Nat) : Prop :=
  ∃ m o requests, Event.reply m (.negotiate o requests) ∈ events h ∧ flag o.step i = true

/-! ## Decisions -/

/-- the message or command is not to be accepted -/
def refuses : Status → Bool
  | .reject | .temporaryFailure | .discard => true
  | _ => false

/-- a reply to the MTA that refuses -/
def isRefusal : Reply → Bool
  | .reject | .temporaryFailure | .discard | .replyCode _ _ _ => true
  | _ => false

/-- the status a refusing reply stands for; a reply code is a temporary failure if it is 4xx -/
def refusalOf : Reply → Option Status
  | .reject => some .reject
  | .temporaryFailure => some .temporaryFailure
  | .discard => some .discard
  | .replyCode code _ _ => some (if code / 100 = 4 then .temporaryFailure else .reject)
  | _ => none

/-- milter `i` counts and gave the reply `r` -/
def countingReply (kids : List Kid) (h : History) (i : Nat) (r : Reply) : Prop :=
  Event.reply i r ∈ events h ∧ (kids.getD i {}).evaluation = false

/-- commands every milter gets at once -/
def toEveryMilter : Cmd → Bool
  | .connect _ _ | .helo _ | .envelopeFrom _ | .envelopeRecipient _ | .data | .unknown _ => true
  | _ => false

/-- the milter timed out, or its connection or its replies are broken -/
def isBreakdown : Server.Signal → Bool
  | .writingTimeout | .readingTimeout | .endOfMessageTimeout | .error _ => true
  | _ => false

/-! ## Modifications -/

def isModification : Reply → Bool
  | .addHeader _ _ | .insertHeader _ _ _ | .changeHeader _ _ _ | .deleteHeader _ _ | .changeFrom _ _
  | .addRecipient _ _ | .deleteRecipient _ | .replaceBody _ | .quarantine _ => true
  | _ => false

def isQuarantine : Reply → Bool
  | .quarantine _ => true
  | _ => false

/-- the milter's last word on a command -/
def isFinal : Reply → Bool
  | .cont | .accept | .reject | .temporaryFailure | .discard | .replyCode _ _ _ => true
  | _ => false

/-- a change of the message told to the MTA -/
def changesMessage : Emit → Bool
  | .edit _ => true
  | .reply r => isModification r
  | _ => false

/-- what is kept about the message -/
structure Kept where
  originalHeaders : Option (List Header)
  headers : Option (List Header)
  body : Option Bytes
  file : Option Bytes
  changeFrom : Option (Bytes × Option Bytes)
  quarantine : Option Bytes
  lastChunk : Bytes
deriving DecidableEq

def kept (s : Sys) : Kept :=
  ⟨s.originalHeaders, s.headers, s.body, s.bodyFile.map (·.1), s.changeFrom, s.quarantine, s.eomChunk⟩

def nothingKept : Kept := ⟨none, none, none, none, none, none, []⟩

/-- the body as it is stored, in memory or in the temporary file -/
def storedBody (s : Sys) : Bytes :=
  match s.body with
  | some b => b
  | none => (s.bodyFile.map (·.1)).getD []

end Verif.Spec.Children
