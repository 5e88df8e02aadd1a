import Verif.Props.ChildrenFailure
/-
C26, C27, C30: where decisions and changes of a message come from, and what becomes of them.
-/
namespace Verif.Props
open Verif Verif.Children Verif.Spec.Children

namespace ChildrenLemmas

theorem refusal_eq (r : Reply) : refusal r = refusalOf r := by cases r <;> rfl

/-- a refusing status has a reason -/
def Reason (kids : List Kid) (h : History) (v : Status) : Prop :=
  (∃ k ∈ kids, k.fallback = v) ∨ ∃ i r, countingReply kids h i r ∧ refusalOf r = some v

theorem countingReply_mono {kids : List Kid} {h h' : History} {i : Nat} {r : Reply}
    (hc : countingReply kids h i r) : countingReply kids (h ++ h') i r :=
  ⟨by have := hc.1; simp only [events, List.map_append, List.mem_append] at this ⊢; exact .inl this, hc.2⟩

theorem Reason.mono {kids : List Kid} {h h' : History} {v : Status} (hr : Reason kids h v) :
    Reason kids (h ++ h') v :=
  hr.imp id fun ⟨i, r, hc, hv⟩ => ⟨i, r, countingReply_mono hc, hv⟩

/-- where what is kept about decisions and changes comes from -/
structure Origin (kids : List Kid) (h : History) (s : Sys) : Prop where
  config : ∀ i, (s.kids i).fallback = (kids.getD i {}).fallback ∧
    (s.kids i).evaluation = (kids.getD i {}).evaluation
  statuses : ∀ st, refuses (s.statuses st) = true → Reason kids h (s.statuses st)
  code : ∀ c x m, s.code = some (c, x, m) → ∃ i, Event.reply i (.replyCode c x m) ∈ events h
  changeFrom : ∀ f p, s.changeFrom = some (f, p) → ∃ i, countingReply kids h i (.changeFrom f p)
  quarantine : ∀ q, s.quarantine = some q → ∃ i, countingReply kids h i (.quarantine q)
  replaced : s.replaced = true → ∃ i b, countingReply kids h i (.replaceBody b)

/-- what the MTA is told, and why -/
def Told (kids : List Kid) (h : History) (r : Reply) : Prop :=
  (isRefusal r = true → ∃ v, refusalOf r = some v ∧ Reason kids h v) ∧
  (∀ c x m, r = .replyCode c x m → ∃ i, Event.reply i (.replyCode c x m) ∈ events h) ∧
  (isModification r = true → (∃ b, r = .replaceBody b) ∨ ∃ i, countingReply kids h i r) ∧
  (∀ b, r = .replaceBody b → ∃ i b', countingReply kids h i (.replaceBody b'))

theorem Told.mono {kids : List Kid} {h h' : History} {r : Reply} (ht : Told kids h r) : Told kids (h ++ h') r := by
  refine ⟨fun hr => ?_, fun c x m hr => ?_, fun hr => ?_, fun b hr => ?_⟩
  · obtain ⟨v, hv, hr⟩ := ht.1 hr; exact ⟨v, hv, hr.mono⟩
  · obtain ⟨i, hi⟩ := ht.2.1 c x m hr
    exact ⟨i, by simp only [events, List.map_append, List.mem_append] at hi ⊢; exact .inl hi⟩
  · exact (ht.2.2.1 hr).imp id fun ⟨i, hi⟩ => ⟨i, countingReply_mono hi⟩
  · obtain ⟨i, b', hi⟩ := ht.2.2.2 b hr; exact ⟨i, b', countingReply_mono hi⟩

theorem Origin.mono {kids : List Kid} {h h' : History} {s : Sys} (ho : Origin kids h s) : Origin kids (h ++ h') s :=
  ⟨ho.config, fun st hs => (ho.statuses st hs).mono,
    fun c x m hc => by
      obtain ⟨i, hi⟩ := ho.code c x m hc
      exact ⟨i, by simp only [events, List.map_append, List.mem_append] at hi ⊢; exact .inl hi⟩,
    fun f p hf => (ho.changeFrom f p hf).imp fun _ => countingReply_mono,
    fun q hq => (ho.quarantine q hq).imp fun _ => countingReply_mono,
    fun hr => by obtain ⟨i, b, hi⟩ := ho.replaced hr; exact ⟨i, b, countingReply_mono hi⟩⟩

theorem compile_choice (a b : Status) : Status.compile a b = a ∨ Status.compile a b = b := by
  unfold Status.compile; split <;> simp

theorem fallback_reason {kids : List Kid} {h : History} {i : Nat} {v : Status} (hv : v = (kids.getD i {}).fallback)
    (hr : refuses v = true) : Reason kids h v := by
  refine .inl ?_
  rw [List.getD_eq_getElem?_getD] at hv
  cases hk : kids[i]? with
  | none => rw [hk] at hv; subst hv; cases hr
  | some k =>
    rw [hk] at hv
    exact ⟨k, List.mem_of_getElem? hk, hv.symm⟩

theorem vote_reason {kids : List Kid} {h : History} {s : Sys} {e : Event} {v : Status} (he : e ∈ events h)
    (ho : Origin kids h s) (hv : VoteOk e s v) (hr : refuses v = true) : Reason kids h v := by
  rcases hv with rfl | rfl | rfl | ⟨i, hi⟩ | ⟨i, r, hi, hev, hrf⟩
  · cases hr
  · cases hr
  · cases hr
  · rw [(ho.config i).1] at hi
    exact fallback_reason hi hr
  · subst hi
    refine .inr ⟨i, r, ⟨he, ?_⟩, ?_⟩
    · rw [← (ho.config i).2]; exact hev
    · rw [← refusal_eq]; exact hrf

theorem voted_statuses {kids : List Kid} {h : History} {s : Sys} {st : Server.St} {v : Status}
    (ho : Origin kids h s) (hv : refuses v = true → Reason kids h v) (u : Server.St)
    (hu : refuses ((voted s st v).statuses u) = true) : Reason kids h ((voted s st v).statuses u) := by
  simp only [voted, setStatusOf] at hu ⊢
  split
  · rename_i he
    rw [if_pos he] at hu
    rcases compile_choice (s.statuses st) v with hc | hc
    · rw [hc] at hu ⊢; exact ho.statuses st hu
    · rw [hc] at hu ⊢; exact hv hu
  · rename_i he
    rw [if_neg he] at hu
    exact ho.statuses u hu

theorem Origin.op {kids : List Kid} {h : History} {e : Event} {s0 s s' : Sys} (he : e ∈ events h)
    (op : Op s0 e s s') (ho : Origin kids h s) : Origin kids h s' := by
  have config : ∀ i, (s'.kids i).fallback = (kids.getD i {}).fallback ∧
      (s'.kids i).evaluation = (kids.getD i {}).evaluation := by
    intro i
    have := (Steps.start.step op).config i
    rw [this.1, this.2]
    exact ho.config i
  have body : ∀ u : Sys, (∀ i, (u.kids i).fallback = (kids.getD i {}).fallback ∧
      (u.kids i).evaluation = (kids.getD i {}).evaluation) → SameButBody s u →
      (u.replaced = true → ∃ i b, countingReply kids h i (.replaceBody b)) → Origin kids h u := by
    intro u hc hs hr
    exact ⟨hc, fun st => hs.statuses ▸ ho.statuses st, fun c x m => hs.code ▸ ho.code c x m,
      fun f p => hs.changeFrom ▸ ho.changeFrom f p, fun q => hs.quarantine ▸ ho.quarantine q, hr⟩
  cases op
  case quiet hs =>
    exact ⟨config, fun st => hs.statuses ▸ ho.statuses st, fun c x m => hs.code ▸ ho.code c x m,
      fun f p => hs.changeFrom ▸ ho.changeFrom f p, fun q => hs.quarantine ▸ ho.quarantine q,
      fun hr => ho.replaced (hs.replaced ▸ hr)⟩
  case dispose =>
    exact ⟨config, ho.statuses, ho.code, by simp [messageDisposed], by simp [messageDisposed], ho.replaced⟩
  case failed i sig hf =>
    refine ⟨config, ?_, ho.code, ho.changeFrom, ho.quarantine, ho.replaced⟩
    exact voted_statuses (s := logged s (.heard i sig)) ⟨ho.config, ho.statuses, ho.code, ho.changeFrom, ho.quarantine, ho.replaced⟩
      (fun hr => fallback_reason (i := i) (ho.config i).1 hr)
  case vote st v hv =>
    exact ⟨config, voted_statuses ho (vote_reason he ho hv), ho.code, ho.changeFrom, ho.quarantine, ho.replaced⟩
  case clearVote st =>
    refine ⟨config, ?_, ho.code, ho.changeFrom, ho.quarantine, ho.replaced⟩
    intro u hu
    simp only [setStatusOf] at hu ⊢
    split at hu
    · cases hu
    · rename_i hne; rw [if_neg hne]; exact ho.statuses u hu
  case decide st =>
    have hcode : ∀ c x m, codeLeft s st = some (c, x, m) → s.code = some (c, x, m) := by
      intro c x m hc
      unfold codeLeft at hc
      split at hc
      · split at hc
        · cases hc
        · rename_i h1 _; cases hc; exact h1
      · cases hc
    unfold decided at config ⊢
    dsimp only at config ⊢
    split
    · exact ⟨ho.config, ho.statuses, fun c x m hc => ho.code c x m (hcode c x m hc), by simp [messageDisposed],
        by simp [messageDisposed], ho.replaced⟩
    · exact ⟨ho.config, ho.statuses, fun c x m hc => ho.code c x m (hcode c x m hc), ho.changeFrom, ho.quarantine, ho.replaced⟩
  case setCode i c x m hc =>
    refine ⟨config, ho.statuses, ?_, ho.changeFrom, ho.quarantine, ho.replaced⟩
    intro c' x' m' h'
    cases h'
    subst hc
    exact ⟨i, he⟩
  case changeFrom i f p hm =>
    refine ⟨config, ho.statuses, ho.code, ?_, ho.quarantine, ho.replaced⟩
    intro f' p' h'
    cases h'
    exact ⟨i, hm.event ▸ he, by rw [← (ho.config i).2]; exact hm.evaluation⟩
  case quarantine i q hm =>
    refine ⟨config, ho.statuses, ho.code, ho.changeFrom, ?_, ho.replaced⟩
    intro q' h'
    cases h'
    exact ⟨i, hm.event ▸ he, by rw [← (ho.config i).2]; exact hm.evaluation⟩
  case replace i chunk hm =>
    refine body _ config (bodyReplaced_same s chunk) fun _ => ⟨i, chunk, hm.event ▸ he, ?_⟩
    rw [← (ho.config i).2]; exact hm.evaluation
  case mtaBody chunk hm =>
    refine body _ config (bodyWritten_same s chunk) fun hr => ho.replaced ?_
    unfold bodyWritten at hr
    split at hr
    · exact hr
    · dsimp only at hr
      split at hr <;> exact hr
  all_goals exact ⟨config, ho.statuses, ho.code, ho.changeFrom, ho.quarantine, ho.replaced⟩

theorem Origin.steps {kids : List Kid} {h : History} {e : Event} {s0 t s : Sys} (he : e ∈ events h)
    (hs : Steps s0 e t s) (ho : Origin kids h t) : Origin kids h s := by
  induction hs with
  | start => exact ho
  | step _ op ih => exact ih.op he op

theorem statusReply_told {kids : List Kid} {h : History} {v : Status} (hv : refuses v = true → Reason kids h v) :
    Told kids h (statusReply v) := by
  refine ⟨fun hr => ?_, ?_, ?_, ?_⟩
  · cases v <;> first
      | (cases hr; done)
      | exact ⟨_, rfl, hv rfl⟩
  · intro c x m hr; cases v <;> cases hr
  · intro hr; cases v <;> cases hr
  · intro b hr; cases v <;> cases hr

theorem decision_told {kids : List Kid} {h : History} {s : Sys} {st : Server.St} {r : Reply} (ho : Origin kids h s)
    (hr : r ∈ decision s st) : Told kids h r := by
  have plain : r ∈ (if s.statuses st ≠ .notChange then [statusReply (s.statuses st)] else []) → Told kids h r := by
    intro hr
    split at hr
    · rw [List.mem_singleton] at hr
      subst hr
      exact statusReply_told (ho.statuses st)
    · simp at hr
  unfold decision at hr
  split at hr
  · rename_i c x m hc
    split at hr
    · rename_i hcase
      rw [List.mem_singleton] at hr
      subst hr
      refine ⟨fun _ => ⟨_, rfl, ?_⟩, ?_, by simp [isModification], by simp⟩
      · rcases hcase with ⟨h4, hst⟩ | ⟨h5, hst⟩
        · rw [if_pos h4, ← hst]
          exact ho.statuses st (by rw [hst]; rfl)
        · rw [if_neg (by omega), ← hst]
          exact ho.statuses st (by rw [hst]; rfl)
      · intro c' x' m' h'
        cases h'
        exact ho.code c x m hc
    · exact plain hr
  · exact plain hr

theorem eom_told {kids : List Kid} {h : History} {s : Sys} {r : Reply} (ho : Origin kids h s)
    (hr : Emit.reply r ∈ eomEmits s) : Told kids h r := by
  simp only [eomEmits, List.mem_append] at hr
  rcases hr with ((hr | hr) | hr) | hr
  · split at hr
    · rename_i hrep
      have : ∃ p, r = .replaceBody p := by
        unfold replaceBodyEmits at hr
        split at hr
        · obtain ⟨p, _, hp⟩ := List.mem_map.mp hr; cases hp; exact ⟨p, rfl⟩
        · split at hr
          · obtain ⟨p, _, hp⟩ := List.mem_map.mp hr; cases hp; exact ⟨p, rfl⟩
          · simp at hr
      obtain ⟨p, rfl⟩ := this
      exact ⟨by simp [isRefusal], by simp, fun _ => .inl ⟨p, rfl⟩, fun _ _ => ho.replaced hrep⟩
    · simp at hr
  · split at hr
    · obtain ⟨p, _, hp⟩ := List.mem_map.mp hr; cases hp
    · simp at hr
  · split at hr
    · rename_i f p hf
      simp only [List.mem_singleton, Emit.reply.injEq] at hr
      subst hr
      exact ⟨by simp [isRefusal], by simp, fun _ => .inr (ho.changeFrom f p hf), by simp⟩
    · simp at hr
  · split at hr
    · rename_i q hq
      simp only [List.mem_singleton, Emit.reply.injEq] at hr
      subst hr
      exact ⟨by simp [isRefusal], by simp, fun _ => .inr (ho.quarantine q hq), by simp⟩
    · simp at hr

theorem new_told {kids : List Kid} {h : History} {e : Event} {s0 s : Sys} {r : Reply} (he : e ∈ events h)
    (h0 : Origin kids h s0) (ho : Origin kids h s) (hn : NewOk s0 e s (.emit (.reply r))) : Told kids h r := by
  generalize hx : Out.emit (.reply r) = x at hn
  cases hn <;> cases hx
  case decision st hr => exact decision_told ho hr
  case bare v hv =>
    refine statusReply_told fun hr => ?_
    rcases hv with rfl | ⟨i, hi⟩
    · cases hr
    · rw [(h0.config i).1] at hi
      exact fallback_reason hi hr
  case forward hr _ hs =>
    rcases hr with rfl | rfl | rfl <;> exact ⟨by simp [isRefusal], by simp, by simp [isModification], by simp⟩
  case note hx => simp at hx
  case eom hr => exact eom_told ho hr
  case recipient i hm hr =>
    have hc : countingReply kids h i r := ⟨hm.event ▸ he, by rw [← (ho.config i).2]; exact hm.evaluation⟩
    rcases hr with ⟨a, p, rfl⟩ | ⟨a, rfl⟩ <;>
      exact ⟨by simp [isRefusal], by simp, fun _ => .inr ⟨i, hc⟩, by simp⟩

theorem all_told {n : Nat} {kids : List Kid} {chunkSize : Nat} {h : History} {s : Sys}
    (hrun : run n (init kids chunkSize) h = some s) :
    Origin kids h s ∧ ∀ r, Out.emit (.reply r) ∈ s.out → Told kids h r := by
  refine run_induction (P := fun h s => Origin kids h s ∧ ∀ r, Out.emit (.reply r) ∈ s.out → Told kids h r)
    (n := n) (s0 := init kids chunkSize) ?_ ?_ h s hrun
  · refine ⟨⟨fun i => ⟨rfl, rfl⟩, ?_, ?_, ?_, ?_, ?_⟩, ?_⟩ <;> simp [init, refuses]
  · intro h s e a s' hp hs
    have he : e ∈ events (h ++ [(e, a)]) := by simp [events]
    have h0 : Origin kids (h ++ [(e, a)]) { s with oracle := a } :=
      ⟨hp.1.config, hp.1.mono.statuses, hp.1.mono.code, hp.1.mono.changeFrom, hp.1.mono.quarantine, hp.1.mono.replaced⟩
    refine ⟨Origin.steps he hs h0, ?_⟩
    intro r hr
    obtain ⟨new, h1, h2⟩ := hs.news
    rw [h1] at hr
    rcases List.mem_append.mp hr with hr | hr
    · exact (hp.2 r hr).mono
    · obtain ⟨u, hu, hn⟩ := h2 _ hr
      exact new_told he h0 (Origin.steps he hu h0) hn

end ChildrenLemmas

open ChildrenLemmas Cases

/-! ## C26 -/

/-- **C26** (part): if the MTA is told to refuse (reject, temporary failure, discard, or a reply
code), then a milter that counts refused in that way, or a milter with that fallback is
configured.  Missing for the full property: see `C26_accept_violated` and `C26_code_violated`. -/
theorem C26_refusal_partial (n : Nat) (kids : List Kid) (chunkSize : Nat) (h : History) (s : Sys) (r : Reply)
    (hrun : run n (init kids chunkSize) h = some s) (hout : Out.emit (.reply r) ∈ s.out)
    (hr : isRefusal r = true) :
    ∃ v, refusalOf r = some v ∧
      ((∃ k ∈ kids, k.fallback = v) ∨ ∃ i r', countingReply kids h i r' ∧ refusalOf r' = some v) :=
  ((all_told hrun).2 r hout).1 hr

/-- **C26** (part): if the MTA is told to change sender, recipients or body or to quarantine the
message, then a milter that counts asked for just that (for the body: for a replacement). -/
theorem C26_modification (n : Nat) (kids : List Kid) (chunkSize : Nat) (h : History) (s : Sys) (r : Reply)
    (hrun : run n (init kids chunkSize) h = some s) (hout : Out.emit (.reply r) ∈ s.out)
    (hr : isModification r = true) :
    ∃ i r', countingReply kids h i r' ∧
      (r' = r ∨ ∃ b b', r = .replaceBody b ∧ r' = .replaceBody b') := by
  have ht := (all_told hrun).2 r hout
  rcases ht.2.2.1 hr with ⟨b, rfl⟩ | ⟨i, hi⟩
  · obtain ⟨i, b', hi⟩ := ht.2.2.2 b rfl
    exact ⟨i, _, hi, .inr ⟨b, b', rfl, rfl⟩⟩
  · exact ⟨i, r, hi, .inl rfl⟩

/-- the milter in evaluation mode rejects, the other one does not: no refusal -/
example : ((run 20 (init [{ evaluation := true }, {}] 4) (plain (upToConnect 2 ++
      [.envelopeFrom [1], .flushed 0, .flushed 1, .reply 0 .reject, .reply 1 .cont]))).any fun s =>
    decide (Out.heard 0 (.reply .reject) ∈ s.out) && !decide (Out.emit (.reply .reject) ∈ s.out)) = true := by
  decide +kernel

/-- a milter that counts rejects -/
example : ((run 20 (init [{ evaluation := true }, {}] 4) (plain (upToConnect 2 ++
      [.envelopeFrom [1], .flushed 0, .flushed 1, .reply 0 .cont, .reply 1 .reject]))).any fun s =>
    decide (Out.emit (.reply .reject) ∈ s.out)) = true := by
  decide +kernel

/-- **C26 fails**: a milter in evaluation mode rejects a header; the MTA is told to accept the
message at once and the milter after it, which counts, never sees it. -/
theorem C26_accept_violated :
    ((run 20 (init [{ evaluation := true }, {}] 4) (plain (upToData 2 ++
        [.header [3] [4], .flushed 0, .reply 0 .reject]))).any fun s =>
      decide (Out.emit (.reply .accept) ∈ s.out) && decide (Out.sent 1 .abort ∈ s.out)) = true ∧
    ((run 20 (init [{ evaluation := true }, {}] 4) (plain (upToData 2 ++
        [.header [3] [4], .flushed 0, .reply 0 .cont]))).any fun s =>
      !decide (Out.emit (.reply .accept) ∈ s.out) && !decide (Out.sent 1 .abort ∈ s.out)) = true := by
  decide +kernel

/-- **C26 fails**: the text of a milter in evaluation mode is sent to the MTA when another milter
rejects. -/
theorem C26_code_violated :
    ((run 20 (init [{ evaluation := true }, {}] 4) (plain (upToConnect 2 ++
        [.envelopeFrom [1], .flushed 0, .flushed 1, .reply 0 (.replyCode 550 [0x35] none), .reply 1 .reject]))).any
      fun s => decide (Out.emit (.reply (.replyCode 550 [0x35] none)) ∈ s.out)) = true ∧
    ((run 20 (init [{ evaluation := true }, {}] 4) (plain (upToConnect 2 ++
        [.envelopeFrom [1], .flushed 0, .flushed 1, .reply 0 .cont, .reply 1 .reject]))).any
      fun s => decide (Out.emit (.reply .reject) ∈ s.out) &&
        !decide (Out.emit (.reply (.replyCode 550 [0x35] none)) ∈ s.out)) = true := by
  decide +kernel

end Verif.Props
