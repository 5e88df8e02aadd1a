import Verif.Manager.LeaderFacts
import Verif.Client.Stream
import Verif.Core.ReplyDecoder
import Verif.Props.SetReply
/-
C41: the manager turns the milters' decisions into answers to the MTA's commands.
-/
namespace Verif.Props
open Verif Verif.Leader Verif.Spec.Leader
open Verif.Client (Kind kindOf Event Call)
open Verif.Children (Emit)

theorem hearReply_code {l : Leader} {e : Emit} (hv : Valid e) {v : Status} (hd : decides l.fallback e = some v) :
    hear l e = ((reply l v).1, (codeSet e).filterMap (fun x => match x with | .called c _ => some (Act.call c) | _ => none) ++ (reply l v).2) := by
  cases e with
  | reply r =>
    cases r with
    | replyCode code ext message =>
      cases hd
      have hok : (SetReply.setReply {} code (some ext) message).1 = true := (C10_accepts {} code (some ext) message).mpr hv
      unfold hear hearReply
      dsimp only
      rw [if_pos hok]
      rfl
    | _ => cases hd <;> rfl
  | error own =>
    cases own
    · cases hd
    · cases hd
      rfl
  | _ => cases hd

theorem codeSet_performed (order : Requests → Requests) {e : Emit} (hv : Valid e) (f : Front) :
    ∃ s' : Client.State, s'.log = f.client.log ++ codeSet e ∧
    ((codeSet e).filterMap (fun x => match x with | .called c _ => some (Act.call c) | _ => none)).foldl (Front.perform order) f =
      { f with client := s' } := by
  have none : codeSet e = [] → ∃ s' : Client.State, s'.log = f.client.log ++ codeSet e ∧
      ((codeSet e).filterMap (fun x => match x with | .called c _ => some (Act.call c) | _ => none)).foldl (Front.perform order) f =
      { f with client := s' } := by
    intro h
    rw [h]
    exact ⟨f.client, (List.append_nil _).symm, rfl⟩
  cases e with
  | reply r =>
    cases r with
    | replyCode code ext message =>
      refine ⟨_, ?_, rfl⟩
      have hok : (SetReply.setReply f.client.custom code (some ext) message).1 = true :=
        (C10_accepts _ code (some ext) message).mpr hv
      show f.client.log ++ [.called _ (SetReply.setReply f.client.custom code (some ext) message).1] = _
      rw [hok]
      rfl
    | _ => exact none rfl
  | _ => exact none rfl

/-- what one answer of the leader adds to the record -/
theorem reply_answers (order : Requests → Requests) (f : Front) (k : Kind) (v : Status) (h : f.leader.st = .doing k) :
    ∃ more, (((reply f.leader v).2.foldl (Front.perform order) { f with leader := (reply f.leader v).1 }).client.log =
        f.client.log ++ [answer k v] ++ more) ∧ (∀ x ∈ more, isWriting x = true) ∧
      ((reply f.leader v).2.foldl (Front.perform order) { f with leader := (reply f.leader v).1 }).complaints = f.complaints := by
  by_cases hk : k = .negotiate
  · subst hk
    obtain ⟨es, h1, h2⟩ := negotiate_log order f.client none none v
    refine ⟨es, ?_, h2, ?_⟩ <;> unfold reply <;> rw [h]
    · exact h1
    · rfl
  · obtain ⟨es, h1, h2⟩ := respond_log order f.client k v
    have hr : response v (.doing k) = some (.call (.respond k v)) := by cases k <;> first | rfl | exact absurd rfl hk
    have ha : answer k v = .answered k v := by cases k <;> first | rfl | exact absurd rfl hk
    refine ⟨es, ?_, h2, ?_⟩ <;> unfold reply <;> rw [h, hr]
    · rw [ha]; exact h1
    · rfl

/-- a session: a negotiation, then anything that may happen -/
def session (order : Requests → Requests) (fallback atDisconnect : Status) (n : Nat) (link : Client.Link) (o : Opt)
    (during : List Emit) (chosen : Option Opt) (requests : Option Requests) (ops : List Op) : Front :=
  run order (new fallback atDisconnect n link) (.command (.negotiate o) during true chosen requests :: ops)

/-- **C41**: while a command of the MTA waits for its answer, the milters' next decision - or the fallback status if none of
them can answer - is written as the answer to that command, and to nothing else; what else is written goes with it. -/
theorem C41_partial (order : Requests → Requests) (fallback atDisconnect : Status) (n : Nat) (link : Client.Link) (o : Opt)
    (during : List Emit) (chosen : Option Opt) (requests : Option Requests) (ops : List Op)
    (hp : Patient order (step order (new fallback atDisconnect n link) (.command (.negotiate o) during true chosen requests)) ops)
    (f : Front) (hf : f = session order fallback atDisconnect n link o during chosen requests ops) (hat : f.attached = true)
    (e : Emit) (v : Status) (hd : decides fallback e = some v) (hv : Valid e) (k : Kind) (hk : standing f.client.log = some (k, false)) :
    ∃ more, (step order f (.heard e)).client.log = f.client.log ++ codeSet e ++ [answer k v] ++ more ∧
      (∀ x ∈ more, isWriting x = true) ∧ (step order f (.heard e)).complaints = f.complaints := by
  have hi : Inv fallback atDisconnect f := by
    rw [hf]
    exact (Inv.opened n link o during chosen requests).run ops hp
  have hst : f.leader.st = .doing k := by have := hi.follows hat; rw [hk] at this; exact this
  rw [← hi.fallback] at hd
  show ∃ more, (f.hear order e).client.log = _ ∧ _ ∧ (f.hear order e).complaints = _
  unfold Front.hear
  rw [hearReply_code hv hd]
  dsimp only
  rw [List.foldl_append]
  obtain ⟨s', h1, h2⟩ := codeSet_performed order hv { f with leader := (reply f.leader v).1 }
  rw [h2]
  obtain ⟨more, h3, h4, h5⟩ := reply_answers order { f with client := s' } k v hst
  refine ⟨more, ?_, h4, h5⟩
  rw [h1] at h3
  exact h3

/-- **C41**: when the last command is answered - and was not a body chunk or the negotiation - a further decision is refused with
an error, and nothing is written. -/
theorem C41_second_partial (order : Requests → Requests) (fallback atDisconnect : Status) (n : Nat) (link : Client.Link) (o : Opt)
    (during : List Emit) (chosen : Option Opt) (requests : Option Requests) (ops : List Op)
    (hp : Patient order (step order (new fallback atDisconnect n link) (.command (.negotiate o) during true chosen requests)) ops)
    (f : Front) (hf : f = session order fallback atDisconnect n link o during chosen requests ops) (hat : f.attached = true)
    (e : Emit) (v : Status) (hd : decides fallback e = some v) (hv : Valid e) (k : Kind) (hk : standing f.client.log = some (k, true))
    (hb : k ≠ .body) (hn : k ≠ .negotiate) :
    (step order f (.heard e)).client.log = f.client.log ++ codeSet e ∧ (step order f (.heard e)).complaints = f.complaints + 1 := by
  have hi : Inv fallback atDisconnect f := by
    rw [hf]
    exact (Inv.opened n link o during chosen requests).run ops hp
  have hst : f.leader.st = .replied k := by
    have := hi.follows hat
    rw [hk] at this
    cases k <;> first | exact this | exact absurd rfl hn
  rw [← hi.fallback] at hd
  show (f.hear order e).client.log = _ ∧ (f.hear order e).complaints = _
  unfold Front.hear
  rw [hearReply_code hv hd]
  dsimp only
  rw [List.foldl_append]
  obtain ⟨s', h1, h2⟩ := codeSet_performed order hv { f with leader := (reply f.leader v).1 }
  rw [h2]
  have hr : (reply f.leader v) = (f.leader, [.complain]) := by
    unfold reply
    rw [hst]
    cases k <;> first | rfl | exact absurd rfl hb
  rw [hr]
  exact ⟨h1, rfl⟩

/-- **C41**: when nothing waits for an answer because the message was aborted or the session is over, a decision that comes too
late is written nowhere. -/
theorem C41_late_partial (order : Requests → Requests) (fallback atDisconnect : Status) (n : Nat) (link : Client.Link) (o : Opt)
    (during : List Emit) (chosen : Option Opt) (requests : Option Requests) (ops : List Op)
    (hp : Patient order (step order (new fallback atDisconnect n link) (.command (.negotiate o) during true chosen requests)) ops)
    (f : Front) (hf : f = session order fallback atDisconnect n link o during chosen requests ops) (hat : f.attached = true)
    (e : Emit) (v : Status) (hd : decides fallback e = some v) (hv : Valid e) (hk : standing f.client.log = none) :
    Spec.Client.written (step order f (.heard e)).client.log = Spec.Client.written f.client.log := by
  have hi : Inv fallback atDisconnect f := by
    rw [hf]
    exact (Inv.opened n link o during chosen requests).run ops hp
  have hst := hi.follows hat
  rw [hk] at hst
  rw [← hi.fallback] at hd
  show Spec.Client.written (f.hear order e).client.log = _
  unfold Front.hear
  rw [hearReply_code hv hd]
  dsimp only
  rw [List.foldl_append]
  obtain ⟨s', h1, h2⟩ := codeSet_performed order hv { f with leader := (reply f.leader v).1 }
  rw [h2]
  have hc : Spec.Client.written (codeSet e) = [] := by
    cases e with
    | reply r => cases r <;> rfl
    | _ => rfl
  have hw : Spec.Client.written s'.log = Spec.Client.written f.client.log := by
    rw [h1]
    show Spec.Client.written (f.client.log ++ codeSet e) = _
    rw [Client.written_append, hc, List.append_nil]
  rcases hst with h | h | h | h | h <;> unfold reply <;> rw [h]
  · exact hw
  · exact hw
  · exact hw
  · show Spec.Client.written (Client.callNoted order s' (.respondAbort v)).log = _
    rw [abort_log, Client.written_append, hw]
    exact List.append_nil _
  · exact hw

/-- **C41**: when the MTA turns out to be gone while the milters work on its command, the command is answered with the status
configured for that. -/
theorem C41_disconnected_partial (order : Requests → Requests) (fallback atDisconnect : Status) (n : Nat) (link : Client.Link) (o : Opt)
    (during : List Emit) (chosen : Option Opt) (requests : Option Requests) (ops : List Op)
    (hp : Patient order (step order (new fallback atDisconnect n link) (.command (.negotiate o) during true chosen requests)) ops)
    (f : Front) (hf : f = session order fallback atDisconnect n link o during chosen requests ops) (hat : f.attached = true)
    (hpr : f.leader.processing = true) (k : Kind) (hk : standing f.client.log = some (k, false)) :
    ∃ more, (step order f (.check true false)).client.log = f.client.log ++ [answer k atDisconnect] ++ more ∧
      (∀ x ∈ more, isWriting x = true) := by
  have hi : Inv fallback atDisconnect f := by
    rw [hf]
    exact (Inv.opened n link o during chosen requests).run ops hp
  have hst : f.leader.st = .doing k := by have := hi.follows hat; rw [hk] at this; exact this
  show ∃ more, (f.check order true false).client.log = _ ∧ _
  unfold Front.check
  rw [hpr, hi.children]
  obtain ⟨more, h3, h4, _⟩ := reply_answers order f k atDisconnect hst
  rw [hi.atDisconnect]
  exact ⟨more, h3, h4⟩

/-- the call on the MTA's context that a milter's request for a modification asks for -/
def asksFor : Emit → Option Call
  | .reply (.addHeader n v) => some (.addHeader (some n) (some v))
  | .reply (.insertHeader i n v) => some (.insertHeader i (some n) v)
  | .reply (.changeHeader n i v) => some (.changeHeader (some n) i (some v))
  | .reply (.deleteHeader n i) => some (.deleteHeader (some n) i)
  | .reply (.changeFrom a p) => some (.changeFrom (some a) p)
  | .reply (.addRecipient a p) => some (.addRecipient (some a) p)
  | .reply (.deleteRecipient a) => some (.deleteRecipient (some a))
  | .reply (.replaceBody b) => some (.replaceBody b)
  | .reply (.quarantine r) => some (.quarantine (some r))
  | .reply .progress => some .progress
  | .edit (.add n v) => some (.addHeader (some n) v)
  | .edit (.insert i n v) => some (.insertHeader i (some n) v)
  | .edit (.change n i v) => some (.changeHeader (some n) i v)
  | .edit (.delete n (some i)) => some (.deleteHeader (some n) i)
  | _ => none

/-- **C41**: a modification is asked of the MTA's context as the milters asked for it, once, and answers no command. -/
theorem C41_modification (order : Requests → Requests) (f : Front) (e : Emit) (c : Call) (h : asksFor e = some c) :
    step order f (.heard e) = { f with client := Client.callNoted order f.client c } := by
  cases e with
  | reply r => cases r <;> first | (cases h; done) | (cases h; rfl)
  | edit e =>
    cases e with
    | delete n i => cases i <;> first | (cases h; done) | (cases h; rfl)
    | _ => cases h; rfl
  | _ => cases h

/-! ### Examples and where it fails -/

namespace LeaderExample
open Verif.Children (Emit)

def opt : Opt := ⟨6, 0x1ff, 0⟩
/-- the negotiation is answered, the host name and the sender are sent -/
def ops : List Op :=
  [.heard (.negotiateReply opt), .command (.helo [104]) [] true none none, .heard (.reply .cont),
   .command (.envelopeFrom [60, 62]) [] true none none]

def waiting : Front := session id .accept .temporaryFailure 0 .ready opt [] (some opt) none ops

/-- the sender waits for its answer, and the conversation is one that may happen -/
example : Patient id (step id (new .accept .temporaryFailure 0 .ready) (.command (.negotiate opt) [] true (some opt) none)) ops := by
  refine ⟨by decide +kernel, by decide +kernel, by decide +kernel, by decide +kernel, trivial⟩
example : waiting.attached = true ∧ waiting.leader.processing = true ∧ standing waiting.client.log = some (.envelopeFrom, false) := by
  decide +kernel
example : Valid (.reply (.replyCode 451 [52, 46, 48, 46, 49] none)) ∧
    decides .accept (.reply (.replyCode 451 [52, 46, 48, 46, 49] none)) = some .temporaryFailure :=
  ⟨(C10_accepts {} 451 (some [52, 46, 48, 46, 49]) none).mp (by decide +kernel), rfl⟩

/-- the state after the decision: answered, a second decision is refused -/
def answered : Front := step id waiting (.heard (.reply .reject))
example : standing answered.client.log = some (.envelopeFrom, true) ∧
    Spec.Client.written answered.client.log = Spec.Client.written waiting.client.log ++ [0, 0, 0, 1, 114] ∧
    answered.complaints = 0 ∧ (step id answered (.heard (.reply .accept))).complaints = 1 := by decide +kernel
/-- after an abort nothing waits -/
example : standing (run id answered [.command .abort [] true none none]).client.log = none := by decide +kernel

/-- the packet of a reply without arguments -/
def packet (c : UInt8) : Bytes := [0, 0, 0, 1, c]
/-- the session after the negotiation -/
def negotiated : Front := session id .accept .temporaryFailure 0 .ready opt [] (some opt) none [.heard (.negotiateReply opt)]
/-- what is written by the operations -/
def writes (f : Front) (ops : List Op) : Bytes := (Spec.Client.written (run id f ops).client.log).drop (Spec.Client.written f.client.log).length

example : writes negotiated [.command (.helo [104]) [] true none none, .heard (.reply .cont)] = packet 99 := by decide +kernel

end LeaderExample
open LeaderExample

/-- Two answers to one command: the children object finds no milter to send it to, emits the error and returns FALSE.  The
fallback status is written when the error is heard, and again because the command is not taken. -/
theorem C41_nobody_violated :
    writes negotiated [.command (.helo [104]) [.error true] false none none] = packet 97 ++ packet 97 := by decide +kernel

/-- A second decision on a body chunk that is answered is written as a second answer. -/
theorem C41_body_violated :
    writes negotiated [.command (.body [104]) [] true none none, .heard (.reply .cont), .heard (.reply .accept)] =
      packet 99 ++ packet 97 := by decide +kernel

/-- A command that nobody takes is answered with the fallback status, but the leader goes on waiting: a decision that comes
later is written too. -/
theorem C41_refused_violated :
    writes negotiated [.command (.helo [104]) [] false none none, .heard (.reply .reject)] = packet 97 ++ packet 114 := by
  decide +kernel

/-- The negotiation is answered, but the leader goes on waiting: a decision that comes then is taken for another answer of it. -/
theorem C41_negotiation_violated :
    (step id negotiated (.heard (.reply .reject))).client.log.filter
        (fun e => match e with | .answeredNegotiate _ _ => true | _ => false) =
      [.answeredNegotiate (some opt) .continue_, .answeredNegotiate none .reject] ∧
    (step id negotiated (.heard (.reply .reject))).complaints = 0 := by decide +kernel

/-- The fallback status as the answer to the negotiation writes nothing at all. -/
theorem C41_negotiation_silent_violated :
    let f := session id .accept .temporaryFailure 0 .ready opt [] (some opt) none []
    standing f.client.log = some (.negotiate, false) ∧
    standing (step id f (.heard (.error true))).client.log = some (.negotiate, true) ∧
    Spec.Client.written (step id f (.heard (.error true))).client.log = [] := by decide +kernel

/-- A milter that replies "450 try later" - a reply code without an enhanced status code - is not heard: the decoder takes the word
"try" for the enhanced code, the context does not accept that, and the MTA gets no answer. -/
theorem C41_code_violated :
    -- "450 try later"
    let text : Bytes := [52, 53, 48, 32, 116, 114, 121, 32, 108, 97, 116, 101, 114]
    let heard : Reply := .replyCode 450 [116, 114, 121] (some [108, 97, 116, 101, 114])
    (Decoder.feedAll RepDec.decode Decoder.init [[0, 0, 0, 15, 121] ++ text ++ [0]]).2 = [heard] ∧
    writes negotiated [.command (.helo [104]) [] true none none, .heard (.reply heard)] = [] ∧
    (step id negotiated (.command (.helo [104]) [] true none none)).complaints = 0 ∧
    (run id negotiated [.command (.helo [104]) [] true none none, .heard (.reply heard)]).complaints = 1 := by decide +kernel

end Verif.Props
