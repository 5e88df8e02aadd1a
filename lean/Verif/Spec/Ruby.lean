import Verif.Client.Ruby
import Verif.Spec.Client
import Verif.Spec.Severity
/-
What a milter written in Ruby relies on.
-/
namespace Verif.Spec.Ruby
open Verif Verif.Ruby Verif.Client

/-! ### Callbacks -/

/-- the callback due for a command, with the arguments of the command.  What comes with the end of the message is no argument of `end_of_message`. -/
def due : Cmd → Option Callback
  | .connect host address => some (.connect host address)
  | .helo fqdn => some (.helo fqdn)
  | .envelopeFrom a => some (.envelopeFrom a)
  | .envelopeRecipient a => some (.envelopeRecipient a)
  | .data => some .data
  | .unknown command => some (.unknown command)
  | .header name value => some (.header name value)
  | .endOfHeader => some .endOfHeader
  | .body chunk => some (.body chunk)
  | .endOfMessage _ => some .endOfMessage
  | .quit => some .finished
  | .negotiate _ | .defineMacro _ _ | .abort => none

/-- For each command one callback of the milter, the one due, if the class has it; for an abort `abort`, which is told in what state it came. -/
def Called {σ : Type} (m : Class σ) (c : Cmd) (said : List Said) : Prop :=
  match c with
  | .abort => if m.abort.isSome then ∃ state p, said = [⟨.abort state, [p]⟩] ∧ p.who = 0 else said = []
  | _ => match due c with
    | none => said = []
    | some what => if (m.callback what).isSome then ∃ p, said = [⟨what, [p]⟩] ∧ p.who = 0 else said = []

/-- For each command the callback due of each of the milters that has it, in order, up to the first that raises. -/
def AllCalled {σ : Type} (ms : List (Class σ)) (c : Cmd) (said : List Said) : Prop :=
  let who (what : Callback) := (ms.zipIdx.filter fun m => (m.1.callback what).isSome).map (·.2)
  let fits (what : Callback) (parts : List Part) :=
    parts.map (·.who) <+: who what ∧ (parts.map (·.who) = who what ∨ ∃ p, parts.getLast? = some p ∧ p.raised = true) ∧ ∀ p ∈ parts.dropLast, p.raised = false
  match c with
  | .abort => ∃ state parts, said = [⟨.abort state, parts⟩] ∧ fits (.abort state) parts
  | _ => match due c with
    | none => said = []
    | some what => ∃ parts, said = [⟨what, parts⟩] ∧ fits what parts

/-- the part of the body a callback gets -/
def bodyGiven : Callback → Bytes
  | .body chunk => chunk
  | _ => []

/-! ### Decisions -/

/-- a reply with a code from 400 to 499 asks to try again later, one from 500 to 599 refuses -/
def kindOfCode (code : Nat) : Status := if code < 500 then .temporaryFailure else .reject

/-- what a milter has decided after it has done something (`ok`: without an exception) -/
def after (before : Option Status) : Act → Bool → Option Status
  | .accept, _ | .quarantine _, _ => some .accept
  | .discard, _ => some .discard
  | .continue_, _ => some .continue_
  | .delayResponse, _ => some .progress
  | .reject ⟨none, none, none⟩, _ => some .reject
  | .reject o, true => some (kindOfCode (o.code.getD 550))
  | .temporaryFailure ⟨none, none, none⟩, _ => some .temporaryFailure
  | .temporaryFailure o, true => some (kindOfCode (o.code.getD 451))
  | .setReply code _ _, true => some (kindOfCode code)
  | .status (some (.constant s)), _ | .status (some (.name s _)), _ => some s
  | .status none, _ => none
  | .reject _, false | .temporaryFailure _, false | .setReply _ _ _, false => before
  | .modify _, _ | .progress, _ => before

/-- what a milter has decided in a callback: the last it said -/
def decided (did : List (Act × Bool)) : Option Status := did.foldl (fun d x => after d x.1 x.2) none

/-- The decision for a command: if a milter raised, the status the administrator set for that (`fallback`); else the most severe of those made; none if
none was made. -/
def Decision (fallback : Status) (parts : List Part) (d : Status) : Prop :=
  if parts.any (·.raised) then d = fallback
  else match parts.filterMap (fun p => decided p.did) with
    | [] => d = .default ∨ d = .continue_
    | l => d ∈ l ∧ ∀ t ∈ l, Props.severity t ≤ Props.severity d

/-- that of the callbacks for a command: without any, the message goes on -/
def Decides (fallback : Status) : List Said → Status → Prop
  | [], d => d = .default ∨ d = .continue_
  | [x], d => Decision fallback x.parts d
  | _, _ => False

/-! ### Calls -/

/-- the calls of the client context (C09, C10, C40) something a milter does stands for -/
def means : Act → List Call
  | .reject ⟨none, none, none⟩ | .temporaryFailure ⟨none, none, none⟩ => []
  | .reject o => [.setReply (o.code.getD 550) (some (o.extendedCode.getD (ascii "5.7.1"))) (some (o.reason.getD (ascii "Command rejected")))]
  | .temporaryFailure o =>
    [.setReply (o.code.getD 451) (some (o.extendedCode.getD (ascii "4.7.1"))) (some (o.reason.getD (ascii "Service unavailable - try again later")))]
  | .quarantine reason => [.quarantine (some reason)]
  | .setReply code ext reason => [.setReply code (some ext) (some reason)]
  | .modify (.addHeader name value) => [.addHeader (some name) (some value)]
  | .modify (.insertHeader index name value) => [.insertHeader index (some name) (some value)]
  | .modify (.changeHeader name index value) => [.changeHeader (some name) index value]
  | .modify (.deleteHeader name index) => [.deleteHeader (some name) index]
  | .modify (.replaceBody body) => [.replaceBody body]
  | .modify (.changeFrom sender parameters) => [.changeFrom (some sender) parameters]
  | .modify (.addRecipient recipient parameters) => [.addRecipient (some recipient) parameters]
  | .modify (.deleteRecipient recipient) => [.deleteRecipient (some recipient)]
  | .progress => [.progress]
  | .accept | .discard | .continue_ | .delayResponse | .status _ => []

/-- those of some callbacks, in order -/
def doings (said : List Said) : List Call := said.flatMap fun x => x.parts.flatMap fun p => p.did.flatMap fun d => means d.1

/-! ### Milters -/

/-- everything a callback may do satisfies `p` -/
def Only {σ : Type} (p : Act → Bool) : Prog σ → Prop
  | .done | .raise => True
  | .act a k => p a = true ∧ ∀ b, Only p (k b)
  | .own _ k => ∀ x, Only p (k x)
  | .symbol _ k => ∀ v, Only p (k v)

/-- everything a milter may do satisfies `p` -/
def Keeps {σ : Type} (p : Act → Bool) (m : Class σ) : Prop := ∀ what prog, m.callback what = some prog → Only p prog

/-- recipients without parameters (see C40 for others), and no answer put off -/
def plain : Act → Bool
  | .modify (.addRecipient _ parameters) => parameters.isNone
  | .delayResponse | .status (some (.constant .progress)) | .status (some (.name .progress _)) => false
  | _ => true

/-- for several milters as one: a status is a decision; its name is not written with dashes -/
def simple : Act → Bool
  | .status (some (.constant s)) => Props.severity s != 0
  | .status (some (.name s dashes)) => Props.severity s != 0 && !dashes
  | .status none => false
  | a => plain a

/-! ### What a milter keeps -/

/-- the methods that end a message, and cannot fail -/
def closes : Act → Bool
  | .accept | .discard | .quarantine _ => true
  | .reject ⟨none, none, none⟩ | .temporaryFailure ⟨none, none, none⟩ => true
  | _ => false

/-- whatever happens in a callback, the last it does is such a method -/
def Closing {σ : Type} : Prog σ → Prop
  | .done | .raise => False
  | .act a k => if closes a then (k true = .done ∨ Closing (k true)) else ∀ b, Closing (k b)
  | .own _ k => ∀ x, Closing (k x)
  | .symbol _ k => ∀ v, Closing (k v)

/-- a callback leaves `p` of the instance variables as it is -/
def Leaves {σ : Type} (reset : σ → σ) (p : σ → Prop) (prog : Prog σ) : Prop :=
  ∀ (order : Requests → Requests) (s : State) (v : Option Value) (x : σ), p x → p (prog.exec order reset s v x).own

/-- has a message begun, and not ended -/
def next (begun : Bool) : Cmd → Bool
  | .envelopeFrom _ => true
  | .endOfMessage _ | .abort => false
  | _ => begun

/-- the order of commands in SMTP: the sender begins a message, which ends with its end or an abort; what belongs to a message comes inside of one; the session is not over -/
def orderly (begun : Bool) : List Cmd → Bool
  | [] => true
  | c :: cs => (match c with
      | .negotiate _ | .connect _ _ | .helo _ | .envelopeFrom _ => !begun
      | .envelopeRecipient _ | .data | .header _ _ | .endOfHeader | .body _ | .endOfMessage _ | .unknown _ => begun
      | .quit => false
      | .defineMacro _ _ | .abort => true) && orderly (next begun c) cs

/-! ### Negotiation -/

/-- the steps an MTA is to leave out: those of the ones offered for which there is no callback -/
def leavesOut {σ : Type} (m : Class σ) (bit : UInt32) : Bool :=
  match bit with
  | 0x001 => m.connect.isNone
  | 0x002 => m.helo.isNone
  | 0x004 => m.envelopeFrom.isNone
  | 0x008 => m.envelopeRecipient.isNone
  | 0x010 => m.body.isNone
  | 0x020 => m.header.isNone
  | 0x040 => m.endOfHeader.isNone
  | 0x100 => m.unknown.isNone
  | 0x200 => m.data.isNone
  | _ => true

end Verif.Spec.Ruby
