import Verif.Manager.ChildrenOps
import Verif.Spec.Children
/-
C31, C46: the negotiation with the milters.
-/
namespace Verif.Props
open Verif Verif.Children Verif.Spec.Children

namespace ChildrenLemmas

theorem run_append (n : Nat) (s : Sys) (h h' : History) :
    run n s (h ++ h') = (run n s h).bind fun s => run n s h' := by
  induction h generalizing s with
  | nil => rfl
  | cons x h ih =>
    obtain ⟨e, a⟩ := x
    simp only [List.cons_append, run]
    cases hn : next n s e a with
    | none => rfl
    | some s' => exact ih s'

/-- what holds at first and is kept by every event holds in the end -/
theorem run_induction {P : History → Sys → Prop} {n : Nat} {s0 : Sys} (start : P [] s0)
    (step : ∀ h s e a s', P h s → Steps { s with oracle := a } e { s with oracle := a } s' →
      P (h ++ [(e, a)]) s') :
    ∀ h s, run n s0 h = some s → P h s := by
  suffices H : ∀ h' h s s', P h s → run n s h' = some s' → P (h ++ h') s' by
    intro h s hr
    simpa using H h [] s0 s start hr
  intro h'
  induction h' with
  | nil => intro h s s' hp hr; cases hr; simpa using hp
  | cons x h' ih =>
    intro h s s' hp hr
    obtain ⟨e, a⟩ := x
    simp only [run] at hr
    cases hn : next n s e a with
    | none => rw [hn] at hr; cases hr
    | some s1 =>
      rw [hn] at hr
      have := ih (h ++ [(e, a)]) s1 s' (step h s e a s1 hp (next_steps hn)) hr
      simpa using this

/-- concrete histories -/
theorem witness {o : Option Sys} (p : Sys → Bool) (h : o.any p = true) : ∃ s, o = some s ∧ p s = true := by
  cases o with
  | none => cases h
  | some s => exact ⟨s, rfl, h⟩

theorem flag_and (a b : UInt32) (i : Nat) : flag (a &&& b) i = (flag a i && flag b i) := by
  simp [flag, UInt32.toNat_and, Nat.testBit_and]

theorem flag_or (a b : UInt32) (i : Nat) : flag (a ||| b) i = (flag a i || flag b i) := by
  simp [flag, UInt32.toNat_or, Nat.testBit_or]

theorem flag_not (a : UInt32) (i : Nat) (h : i < 32) : flag (~~~a) i = !flag a i := by
  have : flag (~~~a) i = (~~~a).toBitVec.getLsbD i := rfl
  rw [this, UInt32.toBitVec_not, BitVec.getLsbD_not]
  have : flag a i = a.toBitVec.getLsbD i := rfl
  simp [this, h]

theorem merge_version (d s : Opt) : (Opt.merge d s).2.version = d.version := by
  unfold Opt.merge
  split <;> rfl

/-- what is known about negotiation data -/
structure Negotiation (h : History) (s : Sys) : Prop where
  version : ∀ o, s.option = some o → o.version ≤ maxVersion
  initial : ∀ i, flag s.initialYes i = true → mtaOffered h i
  requested : ∀ i, flag s.requestedYes i = true → milterAsked h i
  reply : ∀ o, Out.emit (.negotiateReply o) ∈ s.out → o.version ≤ 6 ∧
    (∀ i ∈ noEventFlags, flag o.step i = false) ∧
    ∀ i ∈ permissionFlags, flag o.step i = true → mtaOffered h i ∧ milterAsked h i

theorem mtaOffered_mono {h h' : History} {i : Nat} (hm : mtaOffered h i) : mtaOffered (h ++ h') i := by
  obtain ⟨o, ho, hf⟩ := hm
  exact ⟨o, by simp [events] at ho ⊢; exact .inl ho, hf⟩

theorem milterAsked_mono {h h' : History} {i : Nat} (hm : milterAsked h i) : milterAsked (h ++ h') i := by
  obtain ⟨m, o, r, ho, hf⟩ := hm
  exact ⟨m, o, r, by simp [events] at ho ⊢; exact .inl ho, hf⟩

theorem Negotiation.mono {h h' : History} {s : Sys} (hn : Negotiation h s) : Negotiation (h ++ h') s :=
  ⟨hn.version, fun i hi => mtaOffered_mono (hn.initial i hi),
    fun i hi => milterAsked_mono (hn.requested i hi),
    fun o ho => ⟨(hn.reply o ho).1, (hn.reply o ho).2.1,
      fun i hi hf => ⟨mtaOffered_mono ((hn.reply o ho).2.2 i hi hf).1,
        milterAsked_mono ((hn.reply o ho).2.2 i hi hf).2⟩⟩⟩

/-- a change that leaves negotiation data alone -/
theorem Negotiation.same {h : History} {s s' : Sys} (hn : Negotiation h s) (h1 : s'.option = s.option)
    (h2 : s'.initialYes = s.initialYes) (h3 : s'.requestedYes = s.requestedYes)
    (h4 : ∀ o, Out.emit (.negotiateReply o) ∈ s'.out → Out.emit (.negotiateReply o) ∈ s.out) :
    Negotiation h s' :=
  ⟨fun o ho => hn.version o (h1 ▸ ho), fun i hi => hn.initial i (h2 ▸ hi),
    fun i hi => hn.requested i (h3 ▸ hi), fun o ho => hn.reply o (h4 o ho)⟩

theorem eomEmits_negotiateReply (s : Sys) (o : Opt) : Emit.negotiateReply o ∉ eomEmits s := by
  simp only [eomEmits, replaceBodyEmits, List.mem_append, not_or]
  refine ⟨⟨⟨?_, ?_⟩, ?_⟩, ?_⟩
  · split
    · split
      · simp
      · split <;> simp
    · simp
  all_goals split <;> simp

theorem Negotiation.steps {h : History} {e : Event} {s0 t s : Sys}
    (he : e ∈ events h) (hs : Steps s0 e t s) (hn : Negotiation h t) : Negotiation h s := by
  induction hs with
  | start => exact hn
  | step _ op ih =>
    cases op
    case quiet hq => exact ih.same hq.option hq.initialYes hq.requestedYes (fun o ho => hq.out ▸ ho)
    case decide st =>
      refine ih.same ?_ ?_ ?_ ?_
      · simp only [decided]; split <;> rfl
      · simp only [decided]; split <;> rfl
      · simp only [decided]; split <;> rfl
      · intro o ho
        rw [decided_out] at ho
        simpa using ho
    case mtaBody chunk hm =>
      rename_i s' _
      have hb := bodyWritten_same s' chunk
      exact ih.same hb.option hb.initialYes hb.requestedYes (fun o ho => hb.out ▸ ho)
    case replace j chunk hm =>
      rename_i s' _
      have hb := bodyReplaced_same s' chunk
      exact ih.same hb.option hb.initialYes hb.requestedYes (fun o ho => hb.out ▸ ho)
    case eom =>
      refine ih.same rfl rfl rfl fun o ho => ?_
      simp only [List.mem_append, List.mem_map] at ho
      rcases ho with ho | ⟨x, hx, hx'⟩
      · exact ho
      · cases hx'; exact absurd hx (eomEmits_negotiateReply _ o)
    case note x hx =>
      refine ih.same rfl rfl rfl fun o ho => ?_
      rcases List.mem_append.mp ho with ho | ho
      · exact ho
      · rcases hx with rfl | ⟨_, rfl⟩ <;> simp at ho
    case negotiate o ho =>
      subst ho
      refine ⟨?_, ?_, ih.requested, ih.reply⟩
      · intro o' ho'
        cases ho'
        unfold capped
        split
        · exact UInt32.le_refl _
        · exact UInt32.not_lt.mp ‹_›
      · intro i hi
        rw [flag_and, Bool.and_eq_true] at hi
        refine ⟨o, he, ?_⟩
        have := hi.1
        unfold capped at this
        split at this <;> exact this
    case merge i o mine req hm ho =>
      subst ho
      refine ⟨?_, ih.initial, ?_, ih.reply⟩
      · intro o' ho'
        cases ho'
        rw [merge_version]
        exact ih.version mine hm
      · intro j hj
        rw [flag_or, Bool.or_eq_true] at hj
        rcases hj with hj | hj
        · exact ih.requested j hj
        · rw [flag_and, Bool.and_eq_true] at hj
          exact ⟨i, o, req, he, hj.1⟩
    case offer o ho _ =>
      rename_i s _
      refine ⟨?_, ih.initial, ih.requested, ?_⟩
      · intro o' ho'
        cases ho'
        exact ih.version o ho
      · intro o' ho'
        rcases List.mem_append.mp ho' with ho' | ho'
        · exact ih.reply o' ho'
        · simp only [List.mem_singleton, Out.emit.injEq, Emit.negotiateReply.injEq] at ho'
          subst ho'
          refine ⟨ih.version o ho, ?_, ?_⟩
          · intro i hi
            have h32 : i < 32 := by
              simp only [noEventFlags, List.mem_cons, List.not_mem_nil, or_false] at hi; omega
            have hm : flag Opt.noEventMask i = true := by
              simp only [noEventFlags, List.mem_cons, List.not_mem_nil, or_false] at hi
              rcases hi with rfl | rfl | rfl | rfl | rfl | rfl | rfl | rfl | rfl <;> rfl
            simp [offered, flag_and, flag_not _ _ h32, flag_or, hm]
          · intro i hi hf
            have h32 : i < 32 := by
              simp only [permissionFlags, List.mem_cons, List.not_mem_nil, or_false] at hi; omega
            have hm : flag Opt.yesMask i = true := by
              simp only [permissionFlags, List.mem_cons, List.not_mem_nil, or_false] at hi
              rcases hi with rfl | rfl | rfl <;> rfl
            simp [offered, flag_and, flag_not _ _ h32, flag_or, hm] at hf
            exact ⟨ih.initial i hf.2.2.1, ih.requested i hf.2.2.2⟩
    all_goals exact ih.same rfl rfl rfl (fun o ho => by simpa [logged, voted, messageDisposed, bodyDisposed] using ho)

end ChildrenLemmas

open ChildrenLemmas

/-! ## C31 -/

/-- **C31**: whatever happened before, an option reported to the MTA asks for no protocol version
above 6, keeps no event from being sent, and has a permission flag only if the MTA offered it and a
milter asked for it. -/
theorem C31 (n : Nat) (kids : List Kid) (chunkSize : Nat) (h : History) (s : Sys) (o : Opt)
    (hrun : run n (init kids chunkSize) h = some s) (hout : Out.emit (.negotiateReply o) ∈ s.out) :
    o.version ≤ 6 ∧
    (∀ i ∈ noEventFlags, flag o.step i = false) ∧
    ∀ i ∈ permissionFlags, flag o.step i = true → mtaOffered h i ∧ milterAsked h i := by
  have start : Negotiation [] (init kids chunkSize) :=
    ⟨by simp [init], by simp [init, flag], by simp [init, flag], by simp [init]⟩
  have := run_induction start (fun h s e a s' hn hs =>
    Negotiation.steps (h := h ++ [(e, a)]) (by simp [events]) hs
      (Negotiation.same hn.mono rfl rfl rfl fun _ ho => ho)) h s hrun
  exact this.reply o hout
/-- a session with one milter that asks for skip -/
def skipHistory : History := [(.negotiate ⟨8, 0x1ff, 0x1fffff⟩, []), (.connected 0 true, []),
  (.flushed 0, []), (.reply 0 (.negotiate ⟨6, 0x1, 0x400⟩ none), [])]

example : ∃ s, run 20 (init [{}] 65535) skipHistory = some s ∧
    decide (Out.emit (.negotiateReply ⟨6, 0x1ff, 0x400⟩) ∈ s.out) = true :=
  witness _ (by decide +kernel)

/-! ## C46 -/

namespace ChildrenLemmas

theorem fold_refuses (s : Sys) (l : List Nat) (c : Status) (hc : c = .continue_ ∨ refuses c = true) :
    (l.foldl (fun v i => Status.compile v (s.kids i).fallback) c = .continue_ ∨
      refuses (l.foldl (fun v i => Status.compile v (s.kids i).fallback) c) = true) ∧
    (refuses (l.foldl (fun v i => Status.compile v (s.kids i).fallback) c) = true ↔
      refuses c = true ∨ ∃ i ∈ l, refuses (s.kids i).fallback = true) := by
  induction l generalizing c with
  | nil => simpa using hc
  | cons i l ih =>
    have h : (Status.compile c (s.kids i).fallback = .continue_ ∨ refuses (Status.compile c (s.kids i).fallback) = true) ∧
        (refuses (Status.compile c (s.kids i).fallback) = true ↔ refuses c = true ∨ refuses (s.kids i).fallback = true) := by
      generalize (s.kids i).fallback = f
      rcases hc with rfl | hc
      · cases f <;> decide
      · cases c <;> first | (cases hc; done) | (cases f <;> decide)
    obtain ⟨h1, h2⟩ := ih _ h.1
    refine ⟨h1, ?_⟩
    rw [List.foldl_cons, h2, h.2]
    simp [or_assoc]

/-- the milters after `expireAll` -/
theorem expireAll_kids (l : List Nat) (s : Sys) : ∃ s', expireAll l s = some ((), s') ∧
    s'.out = s.out ∧ s'.option = s.option ∧
    ∀ i, s'.kids i = if i ∈ l ∧ (s.kids i).ctx.negotiated = true then expired (s.kids i) else s.kids i := by
  induction l generalizing s with
  | nil => exact ⟨s, rfl, rfl, rfl, by simp⟩
  | cons j l ih =>
    cases hn : (s.kids j).ctx.negotiated with
    | false =>
      obtain ⟨s', h1, h2, h3, h4⟩ := ih s
      refine ⟨s', ?_, h2, h3, ?_⟩
      · rw [← h1]
        show (if (s.kids j).ctx.negotiated then _ else _ : M Unit) s = _
        rw [hn]; rfl
      · intro i
        rw [h4 i]
        by_cases hij : i = j
        · subst hij; simp [hn]
        · simp [hij]
    | true =>
      obtain ⟨s', h1, h2, h3, h4⟩ := ih { s with allExpired := true, kids := updKid s.kids j (expired (s.kids j)) }
      refine ⟨s', ?_, h2, h3, ?_⟩
      · rw [← h1]
        show (if (s.kids j).ctx.negotiated then _ else _ : M Unit) s = _
        rw [hn]; rfl
      · intro i
        rw [h4 i]
        by_cases hij : i = j
        · subst hij; simp [hn, updKid, expired]
        · simp [hij, updKid]

end ChildrenLemmas

/-- milter `i` could not be reached, or did not manage to negotiate -/
def unreached (s : Sys) (i : Nat) : Prop := i < s.count ∧ (s.kids i).ctx.negotiated = false

/-- **C46**: when the negotiation is answered, then, if the fallback of a milter that could not be
reached refuses (reject, temporary failure, discard, the most severe ones), all milters that were
reached are given up; otherwise all milters stay as they are. -/
theorem C46 (s : Sys) (o : Opt) (ho : s.option = some o) :
    ∃ s', replyNegotiate s = some ((), s') ∧
    s'.out = s.out ++ [.emit (.negotiateReply (offered s o))] ∧
    ((∃ i, unreached s i ∧ refuses (s.kids i).fallback = true) →
      ∀ i < s.count, (s.kids i).ctx.negotiated = true → isQuitted s' i = true) ∧
    ((¬ ∃ i, unreached s i ∧ refuses (s.kids i).fallback = true) → s'.kids = s.kids) := by
  have hw : refuses (worstFallback s) = true ↔ ∃ i, unreached s i ∧ refuses (s.kids i).fallback = true := by
    unfold worstFallback
    rw [(fold_refuses s _ .continue_ (.inl rfl)).2]
    simp [refuses, unreached, milters, and_assoc]
  have hd := (fold_refuses s ((milters s).filter fun i => !(s.kids i).ctx.negotiated) .continue_ (.inl rfl)).1
  rw [← hw]
  unfold replyNegotiate
  show ∃ s', (match s.option with | none => _ | some o => _ : M Unit) s = _ ∧ _
  rw [ho]
  show ∃ s', checkFallback { s with
    option := some (offered s o), out := s.out ++ [.emit (.negotiateReply (offered s o))] } = _ ∧ _
  have heq : worstFallback { s with
    option := some (offered s o), out := s.out ++ [.emit (.negotiateReply (offered s o))] } = worstFallback s := rfl
  obtain ⟨s', h1, h2, h3, h4⟩ := expireAll_kids (milters s) { s with
    option := some (offered s o), out := s.out ++ [.emit (.negotiateReply (offered s o))] }
  unfold checkFallback
  show ∃ s', (match worstFallback { s with
    option := some (offered s o), out := s.out ++ [.emit (.negotiateReply (offered s o))] } with
    | .reject | .temporaryFailure | .discard => _
    | _ => _ : M Unit) _ = _ ∧ _
  rw [heq]
  change worstFallback s = .continue_ ∨ refuses (worstFallback s) = true at hd
  rcases hd with hd | hd
  · rw [hd]
    exact ⟨_, rfl, rfl, by simp [refuses], fun _ => rfl⟩
  · have : (match worstFallback s with
        | .reject | .temporaryFailure | .discard => expireAll (milters s)
        | _ => return () : M Unit) = expireAll (milters s) := by
      revert hd
      cases worstFallback s <;> simp [refuses]
    refine ⟨s', ?_, h2, fun _ i hi hn => ?_, fun hnot => absurd hd hnot⟩
    · rw [← h1, ← this]; rfl
    · unfold isQuitted
      rw [h4 i]
      simp only [milters, List.mem_range, hi, hn, and_self, if_true]
      simp [expired, Server.isQuitted]

/-- one milter reached, one not, whose fallback is reject -/
example : ∃ s, run 20 (init [{}, { fallback := .reject }] 65535)
    [(.negotiate ⟨6, 0x1ff, 0x1fffff⟩, []), (.connected 0 true, []), (.flushed 0, []),
      (.connected 1 false, []), (.reply 0 (.negotiate ⟨6, 0x1, 0⟩ none), [])] = some s ∧
    (isQuitted s 0 == true) = true := witness _ (by decide +kernel)

example : ∃ s, run 20 (init [{}, { fallback := .accept }] 65535)
    [(.negotiate ⟨6, 0x1ff, 0x1fffff⟩, []), (.connected 0 true, []), (.flushed 0, []),
      (.connected 1 false, []), (.reply 0 (.negotiate ⟨6, 0x1, 0⟩ none), [])] = some s ∧
    (isQuitted s 0 == false) = true := witness _ (by decide +kernel)

end Verif.Props
