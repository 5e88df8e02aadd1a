import Verif.Manager.ChildrenOps
/-
What the elementary changes of `ChildrenOps.lean` add to the output.
-/
namespace Verif.Children
open Verif
open Verif.Server (St)

/-- how an entry of the output comes about, in the state `s` of a step with the event `e0` that
started in `s0` -/
inductive NewOk (s0 : Sys) (e0 : Event) (s : Sys) : Out → Prop
  | sent (i : Nat) (c : Cmd) (h : isParallel c = true → Fresh s0 e0 [i]) : NewOk s0 e0 s (.sent i c)
  | heard (i : Nat) (sig : Server.Signal) (hf : isFailure sig = false)
    (h : ∀ r, sig = .reply r → r = .cont ∨ r = .skip ∨ e0 = .reply i r) : NewOk s0 e0 s (.heard i sig)
  | failed (i : Nat) (sig : Server.Signal) (hf : isFailure sig = true) : NewOk s0 e0 s (.heard i sig)
  | closed (i : Nat) : NewOk s0 e0 s (.closed i)
  | ub : NewOk s0 e0 s .ub
  | decision (st : St) (r : Reply) (h : r ∈ decision s st) : NewOk s0 e0 s (.emit (.reply r))
  | bare (v : Status) (h : v = .notChange ∨ ∃ i, v = (s0.kids i).fallback) :
    NewOk s0 e0 s (.emit (.reply (statusReply v)))
  | forward (i : Nat) (r : Reply) (hr : r = .progress ∨ r = .connectionFailure ∨ r = .shutdown)
    (h : e0 = .reply i r) (hs : r = .progress → (s.kids i).ctx.state = .endOfMessage) :
    NewOk s0 e0 s (.emit (.reply r))
  | note (e : Emit) (h : e = .abort ∨ ∃ own, e = .error own) : NewOk s0 e0 s (.emit e)
  | announce (hq : e0 = .quit) (h : s.finished = false) : NewOk s0 e0 s (.emit .finished)
  | eom (e : Emit) (h : e ∈ eomEmits s) : NewOk s0 e0 s (.emit e)
  | recipient (i : Nat) (r : Reply) (h : ModOk e0 s i r)
    (hr : (∃ a p, r = .addRecipient a p) ∨ ∃ a, r = .deleteRecipient a) : NewOk s0 e0 s (.emit (.reply r))
  | offer (o : Opt) (h : s.option = some o) (hf : s.finished = false ∨ e0 = .idleReply) :
    NewOk s0 e0 s (.emit (.negotiateReply (offered s o)))

theorem Op.news {s0 : Sys} {e0 : Event} {s s' : Sys} (op : Op s0 e0 s s') :
    ∃ new, s'.out = s.out ++ new ∧ ∀ x ∈ new, NewOk s0 e0 s x := by
  have none : ∀ u : Sys, u.out = s.out → ∃ new, u.out = s.out ++ new ∧ ∀ x ∈ new, NewOk s0 e0 s x :=
    fun u h => ⟨[], by simp [h], by simp⟩
  have one : ∀ x, NewOk s0 e0 s x → ∀ u : Sys, u.out = s.out ++ [x] →
      ∃ new, u.out = s.out ++ new ∧ ∀ x ∈ new, NewOk s0 e0 s x :=
    fun x h u hu => ⟨[x], hu, by simpa using h⟩
  cases op
  case quiet h => exact none _ h.out
  case decide st =>
    refine ⟨_, decided_out _ st, ?_⟩
    intro x hx
    obtain ⟨r, hr, rfl⟩ := List.mem_map.mp hx
    exact .decision st r hr
  case mtaBody chunk _ => exact none _ (bodyWritten_same _ chunk).out
  case replace _ chunk _ => exact none _ (bodyReplaced_same _ chunk).out
  case eom =>
    refine ⟨_, rfl, ?_⟩
    intro x hx
    obtain ⟨r, hr, rfl⟩ := List.mem_map.mp hx
    exact .eom r hr
  case sent i c h => exact one _ (.sent i c h) _ rfl
  case heard i sig hf h => exact one _ (.heard i sig hf h) _ rfl
  case failed i sig hf => exact one _ (.failed i sig hf) _ rfl
  case closed i => exact one _ (.closed i) _ rfl
  case ub => exact one _ .ub _ rfl
  case bare v h => exact one _ (.bare v h) _ rfl
  case forward i r hr h hs => exact one _ (.forward i r hr h hs) _ rfl
  case note e h => exact one _ (.note e h) _ rfl
  case announce hq h => exact one _ (.announce hq h) _ rfl
  case recipient i r h hr => exact one _ (.recipient i r h hr) _ rfl
  case offer o h hf => exact one _ (.offer o h hf) _ rfl
  all_goals exact none _ rfl

/-- what a sequence of changes adds -/
theorem Steps.news {s0 : Sys} {e0 : Event} {t s : Sys} (h : Steps s0 e0 t s) :
    ∃ new, s.out = t.out ++ new ∧ ∀ x ∈ new, ∃ u, Steps s0 e0 t u ∧ NewOk s0 e0 u x := by
  induction h with
  | start => exact ⟨[], by simp, by simp⟩
  | step hs op ih =>
    obtain ⟨a, ha, ha'⟩ := ih
    obtain ⟨b, hb, hb'⟩ := op.news
    refine ⟨a ++ b, by rw [hb, ha, List.append_assoc], ?_⟩
    intro x hx
    rcases List.mem_append.mp hx with hx | hx
    · exact ha' x hx
    · exact ⟨_, hs, hb' x hx⟩

/-- only a `failed` change notes a failure -/
theorem Op.heard_failed {s0 : Sys} {e0 : Event} {s s' : Sys} (op : Op s0 e0 s s') {i : Nat} {sig : Server.Signal}
    (hf : isFailure sig = true) (h : Out.heard i sig ∈ s'.out) :
    Out.heard i sig ∈ s.out ∨ (s'.kids i).ctx.quitted = true := by
  cases op
  case quiet hs => exact .inl (hs.out ▸ h)
  case decide st => rw [decided_out] at h; exact .inl (by simpa using h)
  case mtaBody chunk _ => exact .inl ((bodyWritten_same _ chunk).out ▸ h)
  case replace _ chunk _ => exact .inl ((bodyReplaced_same _ chunk).out ▸ h)
  case eom => exact .inl (by simpa using h)
  case heard j sig' hf' _ =>
    rcases List.mem_append.mp h with h | h
    · exact .inl h
    · simp only [List.mem_singleton, Out.heard.injEq] at h
      obtain ⟨rfl, rfl⟩ := h
      rw [hf] at hf'; cases hf'
  case failed j sig' hf' =>
    rcases List.mem_append.mp h with h | h
    · exact .inl h
    · simp only [List.mem_singleton, Out.heard.injEq] at h
      obtain ⟨rfl, rfl⟩ := h
      exact .inr (by simp [updKid, expired])
  all_goals exact .inl (by simpa [logged, voted, messageDisposed, bodyDisposed] using h)

theorem Steps.failed {s0 : Sys} {e0 : Event} {t s : Sys} (h : Steps s0 e0 t s) {i : Nat} {sig : Server.Signal}
    (hf : isFailure sig = true)
    (ht : Out.heard i sig ∈ t.out → (t.kids i).ctx.quitted = true) (hx : Out.heard i sig ∈ s.out) :
    (s.kids i).ctx.quitted = true := by
  induction h with
  | start => exact ht hx
  | step hs op ih =>
    rcases op.heard_failed hf hx with hm | hq
    · exact (Steps.start.step op).quitted i (ih hm)
    · exact hq

end Verif.Children
