import Verif.Props.ServerBody
/-
C36: which recipients count as accepted.
-/
namespace Verif.Props
open Verif Verif.Server Verif.Spec.Server

/-- one recipient is passed to the milter, which answers -/
def exchange (p : Bytes × Reply) : List Event :=
  [.command (.envelopeRecipient p.1) false true, .flushed true, .handlerReturns true,
    .reply p.2 true, .handlerReturns true]

/-- nothing is going on, and the milter takes and answers recipients -/
def Idle (s : State) : Prop :=
  s.timer = none ∧ s.nextStates = [] ∧ s.stack = [] ∧ s.quitted = false ∧
    ¬Declined s.option (.envelopeRecipient []) ∧ answered s.option .envelopeRecipient = true

/-- no recipient is recorded yet -/
def NoneYet (s : State) : Prop :=
  (s.result.getD {}).recipients = [] ∧ (s.result.getD {}).temporaryFailed = [] ∧ (s.result.getD {}).rejected = []

namespace ServerRecipients
open ServerLemmas

theorem idle_option {s : State} (h : Idle s) : ∃ o, s.option = some o ∧ o.step &&& 0x8 = 0 ∧
    needReply (some o) .envelopeRecipient = some true := by
  obtain ⟨_, _, _, _, h1, h2⟩ := h
  cases ho : s.option with
  | none => rw [ho] at h1; exact absurd trivial h1
  | some o =>
    rw [ho] at h1 h2
    exact ⟨o, rfl, by simpa [Declined] using h1, needReply_answered o _ h2⟩

/-- the state when the recipient has gone out -/
theorem sent (s : State) (r : Bytes) (h : Idle s) :
    (run s [.command (.envelopeRecipient r) false true, .flushed true, .handlerReturns true]).1 =
      { s with
        currentRecipient := some r
        result := some (Result.told (.envelopeRecipient r) (s.result.getD {}))
        timer := some .reading
        state := .envelopeRecipient
        lastState := .envelopeRecipient } := by
  obtain ⟨o, ho, hs, hr⟩ := idle_option h
  obtain ⟨h1, h2, h3, h4, _, _⟩ := h
  have he : isEnableStep (some o) 8 = false := by simp [isEnableStep, hs]
  cases s
  simp only at ho h1 h2 h3 h4
  subst ho h1 h2 h3 h4
  simp only [run, step, command, ensureResult, he, Bool.false_eq_true, if_false, writePacket,
    isProcessing, Option.isSome_none, and_false, reduceCtorEq, or_self, if_true, go, returning, andThen,
    exec, List.nil_append, List.append_nil, flushed, List.flatMap_cons, List.flatMap_nil, flushActions,
    act, enter, setState, hr, pause, Option.map_some]
  rfl

/-- what a reply does to the recipients -/
theorem answeredBy (s : State) (r : Bytes) (ans : Reply) (v : Verdict) (h : Idle s)
    (hv : verdict ans = some v) :
    let s' := (run s (exchange (r, ans))).1
    Idle s' ∧ ∃ x, s'.result = some x ∧
      match v with
      | .accepted => x = Result.told (.envelopeRecipient r) (s.result.getD {})
      | .temporaryFailed => x = { Result.told (.envelopeRecipient r) (s.result.getD {}) with
          recipients := ((s.result.getD {}).recipients ++ [some r]).erase (some r)
          temporaryFailed := (s.result.getD {}).temporaryFailed ++ [some r] }
      | .rejected => x = { Result.told (.envelopeRecipient r) (s.result.getD {}) with
          recipients := ((s.result.getD {}).recipients ++ [some r]).erase (some r)
          rejected := (s.result.getD {}).rejected ++ [some r] } := by
  have hs := sent s r h
  have hx : exchange (r, ans) = [.command (.envelopeRecipient r) false true, .flushed true,
    .handlerReturns true] ++ [.reply ans true, .handlerReturns true] := rfl
  simp only
  rw [hx, ServerBody.run_append]
  simp only
  rw [hs]
  clear hx
  obtain ⟨h1, h2, h3, h4, h5, h6⟩ := h
  cases ans <;> simp only [verdict, Option.some.injEq, reduceCtorEq] at hv
  case cont =>
    subst hv
    simp [run, step, reply, answerable, report, h3, h4, andThen, pause, exec, act, go, Cond.holds,
      Idle, h2, h5, h6, Result.told]
  case temporaryFailure =>
    subst hv
    simp [run, step, reply, refuse, refuseRecipient, removeRecipient, Result.told, ensureResult, report, h3, h4,
      andThen, pause, exec, act, go, Cond.holds, Idle, h2, h5, h6, Result.told]
  case reject =>
    subst hv
    simp [run, step, reply, refuse, refuseRecipient, removeRecipient, Result.told, ensureResult, report, h3, h4,
      andThen, pause, exec, act, go, Cond.holds, Idle, h2, h5, h6, Result.told]
  case replyCode code e m hv' =>
    have hc : codeStatus code = if code / 100 = 4 then .temporaryFailure else .reject := by
      unfold codeStatus
      by_cases h : code / 100 = 4
      · rw [if_pos h, if_pos (by omega)]
      · rw [if_neg h, if_neg (by omega)]
    by_cases h : code / 100 = 4
    · rw [if_pos h] at hv hc
      subst hv
      simp [run, step, reply, hc, refuse, refuseRecipient, removeRecipient, Result.told, ensureResult, answerable, report, h3, h4,
        andThen, pause, exec, act, go, Cond.holds, Idle, h2, h5, h6, Result.told]
    · rw [if_neg h] at hv hc
      subst hv
      simp [run, step, reply, hc, refuse, refuseRecipient, removeRecipient, Result.told, ensureResult, answerable, report, h3, h4,
        andThen, pause, exec, act, go, Cond.holds, Idle, h2, h5, h6, Result.told]

end ServerRecipients
open ServerRecipients

/-- C36: whatever recipients are passed to a milter and however it answers each of them -
repeated recipients included -, afterwards the recipients it temporarily failed and rejected are
exactly those, in order, and the accepted ones are the others.  (They are kept in order except
when the same recipient was given twice with different answers.) -/
theorem C36 (s : State) (h : Idle s) (hr : NoneYet s) (l : List (Bytes × Reply))
    (hl : ∀ p ∈ l, verdict p.2 ≠ none) :
    let x := ((run s (l.flatMap exchange)).1.result.getD {})
    x.recipients.Perm ((withVerdict .accepted l).map some) ∧
      x.temporaryFailed = (withVerdict .temporaryFailed l).map some ∧
      x.rejected = (withVerdict .rejected l).map some := by
  have key : ∀ (l : List (Bytes × Reply)) (s : State), Idle s → (∀ p ∈ l, verdict p.2 ≠ none) →
      let x := ((run s (l.flatMap exchange)).1.result.getD {})
      x.recipients.Perm ((s.result.getD {}).recipients ++ (withVerdict .accepted l).map some) ∧
        x.temporaryFailed = (s.result.getD {}).temporaryFailed ++ (withVerdict .temporaryFailed l).map some ∧
        x.rejected = (s.result.getD {}).rejected ++ (withVerdict .rejected l).map some := by
    intro l
    induction l with
    | nil => intro s _ _; simp [run, withVerdict]
    | cons p l ih =>
      intro s hs hl
      obtain ⟨r, ans⟩ := p
      obtain ⟨v, hv⟩ := Option.ne_none_iff_exists'.1 (hl (r, ans) (by simp))
      have ha := answeredBy s r ans v hs hv
      simp only at ha
      obtain ⟨hi, x, hx, hm⟩ := ha
      have := ih _ hi (fun p hp => hl p (by simp [hp]))
      simp only [List.flatMap_cons, ServerBody.run_append, hx, Option.getD_some] at this ⊢
      have herase : (((s.result.getD {}).recipients ++ [some r]).erase (some r)).Perm (s.result.getD {}).recipients := by
        have h1 : ((s.result.getD {}).recipients ++ [some r]).Perm (some r :: (s.result.getD {}).recipients) :=
          List.perm_append_singleton _ _
        have := h1.erase (some r)
        simpa using this
      cases v with
      | accepted =>
        simp only at hm
        subst hm
        simp only [withVerdict, List.filter_cons, hv, beq_self_eq_true, if_true, List.map_cons,
          List.append_assoc, List.singleton_append, Result.told] at this ⊢
        exact this
      | temporaryFailed =>
        simp only at hm
        subst hm
        have hf : (some Verdict.temporaryFailed == some Verdict.accepted) = false := rfl
        have hf2 : (some Verdict.temporaryFailed == some Verdict.rejected) = false := rfl
        simp only [withVerdict, List.filter_cons, hv, beq_self_eq_true, if_true, List.map_cons, hf, hf2,
          Bool.false_eq_true, if_false, List.append_assoc, List.singleton_append] at this ⊢
        exact ⟨this.1.trans (herase.append_right _), this.2⟩
      | rejected =>
        simp only at hm
        subst hm
        have hf : (some Verdict.rejected == some Verdict.accepted) = false := rfl
        have hf2 : (some Verdict.rejected == some Verdict.temporaryFailed) = false := rfl
        simp only [withVerdict, List.filter_cons, hv, beq_self_eq_true, if_true, List.map_cons, hf, hf2,
          Bool.false_eq_true, if_false, List.append_assoc, List.singleton_append] at this ⊢
        exact ⟨this.1.trans (herase.append_right _), this.2⟩
  have := key l s h hl
  simpa [hr.1, hr.2.1, hr.2.2] using this

/-- C36, the question asked before the message is given to the milter: it has an accepted
recipient unless it refused some and accepted none. -/
theorem C36_has_accepted (s : State) (h : Idle s) (hr : NoneYet s) (l : List (Bytes × Reply))
    (hl : ∀ p ∈ l, verdict p.2 ≠ none) :
    hasAcceptedRecipient (run s (l.flatMap exchange)).1 = false ↔
      withVerdict .accepted l = [] ∧ l ≠ [] := by
  have h1 := C36 s h hr l hl
  simp only at h1
  have hrest : ∀ l : List (Bytes × Reply), (∀ p ∈ l, verdict p.2 ≠ none) → withVerdict .accepted l = [] →
      withVerdict .temporaryFailed l = [] → withVerdict .rejected l = [] → l = [] := by
    intro l hl h1 h2 h3
    cases l with
    | nil => rfl
    | cons p l =>
      exfalso
      obtain ⟨v, hv⟩ := Option.ne_none_iff_exists'.1 (hl p (by simp))
      cases v <;> simp [withVerdict, hv] at h1 h2 h3
  cases hx : (run s (l.flatMap exchange)).1.result with
  | none =>
    have hx' := hx
    rw [hx] at h1
    simp only [Option.getD_none] at h1
    have ha := hrest l hl (by simpa using h1.1.symm.eq_nil) (by simpa using h1.2.1.symm)
      (by simpa using h1.2.2.symm)
    subst ha
    unfold hasAcceptedRecipient
    rw [hx]
    simp
  | some x =>
    rw [hx] at h1
    simp only [Option.getD_some] at h1
    obtain ⟨hp, ht, hj⟩ := h1
    simp only [hasAcceptedRecipient, hx]
    by_cases hc : x.rejected = [] ∧ x.temporaryFailed = []
    · rw [if_pos hc]
      simp only [Bool.true_eq_false, false_iff, not_and, Decidable.not_not]
      intro ha
      refine hrest l hl ha ?_ ?_
      · rw [hc.2] at ht; simpa using ht.symm
      · rw [hc.1] at hj; simpa using hj.symm
    · rw [if_neg hc]
      simp only [ne_eq, decide_not, Bool.not_eq_false', decide_eq_true_eq]
      constructor
      · intro hn
        rw [hn] at hp
        refine ⟨by simpa using hp.symm.eq_nil, ?_⟩
        intro hl0
        apply hc
        rw [hj, ht, hl0]
        exact ⟨rfl, rfl⟩
      · intro ⟨hn, _⟩
        rw [hn] at hp
        exact hp.eq_nil

/-- the state after negotiation and an accepted sender is as `C36` requires -/
example : Idle (run State.init (negotiation plainOption ++
      [.command (.envelopeFrom [60, 62]) false true, .flushed true, .handlerReturns true,
        .reply .cont true, .handlerReturns true])).1 ∧
    NoneYet (run State.init (negotiation plainOption ++
      [.command (.envelopeFrom [60, 62]) false true, .flushed true, .handlerReturns true,
        .reply .cont true, .handlerReturns true])).1 := by
  refine ⟨⟨rfl, rfl, rfl, rfl, ?_, rfl⟩, rfl, rfl, rfl⟩
  show ¬((0 : UInt32) &&& _ ≠ 0)
  decide

/-- C36 needs the answers to be given one at a time: a second refusal with no recipient pending
passes a NULL recipient to `strcmp`. -/
theorem C36_second_refusal_violated : ∃ es : List Event,
    ∃ l ∈ (run State.init es).2, Item.ub ∈ l.out := by
  refine ⟨negotiation plainOption ++
    [.command (.envelopeFrom [60, 62]) false true, .flushed true, .handlerReturns true,
      .reply .cont true, .handlerReturns true] ++ exchange ([97], .cont) ++ exchange ([98], .reject) ++
      [.reply .reject true], ⟨some plainOption, .reply .reject true, .envelopeRecipient,
        [.ub, .emit (.reply .reject)]⟩, ?_, by simp⟩
  refine List.mem_of_getLast? ?_
  rfl

end Verif.Props
