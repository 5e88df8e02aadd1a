import Verif.Manager.ChildrenPhase
/-
Commands that go to all milters at once: the manager's side.
-/
namespace Verif.Children
namespace Phase
open Verif
open Verif.Server (St)
open Verif.Spec.Children
open Verif.Spec.Phase

theorem processing_iff (s : Sys) (i : Nat) : isProcessingMessage s i = inMessage (s.kids i) := by
  unfold isProcessingMessage Server.isProcessingMessage inMessage isAlive
  cases (s.kids i).ctx.negotiated <;> cases (s.kids i).ctx.quitted <;> simp

theorem alive_iff (s : Sys) (i : Nat) : (!isQuitted s i) = isAlive (s.kids i) := by
  unfold isQuitted Server.isQuitted isAlive
  cases (s.kids i).ctx.negotiated <;> simp

/-! ## Aborting -/

/-- what has nothing to do with commands to all -/
def Frame (u u' : Sys) : Prop :=
  u'.allExpired = u.allExpired ∧ u'.option = u.option ∧ u'.chunkSize = u.chunkSize ∧ (Blank u → Blank u') ∧
  (Traceless u → Traceless u')

theorem Frame.refl (u : Sys) : Frame u u := ⟨rfl, rfl, rfl, id, id⟩

theorem Frame.trans {a b c : Sys} (h : Frame a b) (h' : Frame b c) : Frame a c :=
  ⟨h'.1.trans h.1, h'.2.1.trans h.2.1, h'.2.2.1.trans h.2.2.1, fun x => h'.2.2.2.1 (h.2.2.2.1 x), fun x => h'.2.2.2.2 (h.2.2.2.2 x)⟩

theorem frame_disposed (u : Sys) : Frame u (messageDisposed u) :=
  ⟨rfl, rfl, rfl, fun _ => ⟨rfl, rfl, rfl, rfl, rfl, rfl, rfl, rfl, rfl⟩, id⟩

/-- all that matters of a milter once its part is over is the same -/
structure Tame (k k' : Kid) : Prop where
  linked : k'.linked = k.linked
  retry : k'.tryRetry = k.tryRetry
  fallback : k'.fallback = k.fallback
  evaluation : k'.evaluation = k.evaluation
  timer : k'.ctx.timer = k.ctx.timer
  option : k'.ctx.option = k.ctx.option
  stack : k'.ctx.stack = k.ctx.stack
  state : k'.ctx.state = k.ctx.state
  message : inMessage k' = true → inMessage k = true
  alive : isAlive k' = isAlive k
  next : ∀ x ∈ k'.ctx.nextStates, x ∈ k.ctx.nextStates ∨ x = .abort
  gone : k.ctx.quitted = true → k'.ctx.quitted = true
  body : MsgBlank k.ctx → MsgBlank k'.ctx
  accepted : Server.hasAcceptedRecipient k.ctx = true → Server.hasAcceptedRecipient k'.ctx = true

theorem Tame.refl (k : Kid) : Tame k k := ⟨rfl, rfl, rfl, rfl, rfl, rfl, rfl, rfl, id, rfl, fun _ h => .inl h, id, id, id⟩

theorem Tame.trans {a b c : Kid} (h : Tame a b) (h' : Tame b c) : Tame a c :=
  ⟨h'.linked.trans h.linked, h'.retry.trans h.retry, h'.fallback.trans h.fallback, h'.evaluation.trans h.evaluation,
    h'.timer.trans h.timer, h'.option.trans h.option, h'.stack.trans h.stack, h'.state.trans h.state,
    fun x => h.message (h'.message x), h'.alive.trans h.alive,
    fun x hx => (h'.next x hx).elim (h.next x) .inr, fun x => h'.gone (h.gone x), fun x => h'.body (h.body x), fun x => h'.accepted (h.accepted x)⟩

/-- a milter the command is not meant for -/
structure Apart (k k' : Kid) : Prop where
  linked : k'.linked = k.linked
  retry : k'.tryRetry = k.tryRetry
  fallback : k'.fallback = k.fallback
  evaluation : k'.evaluation = k.evaluation
  timer : k'.ctx.timer = k.ctx.timer
  option : k'.ctx.option = k.ctx.option
  message : inMessage k' = true → inMessage k = true
  alive : isAlive k' = isAlive k
  next : ∀ x ∈ k'.ctx.nextStates, x ∈ k.ctx.nextStates ∨ x = .abort
  gone : k.ctx.quitted = true → k'.ctx.quitted = true
  body : MsgBlank k.ctx → MsgBlank k'.ctx

theorem Tame.apart {k k' : Kid} (h : Tame k k') : Apart k k' :=
  ⟨h.linked, h.retry, h.fallback, h.evaluation, h.timer, h.option, h.message, h.alive, h.next, h.gone, h.body⟩

theorem Apart.refl (k : Kid) : Apart k k := (Tame.refl k).apart

theorem Apart.trans {a b c : Kid} (h : Apart a b) (h' : Apart b c) : Apart a c :=
  ⟨h'.linked.trans h.linked, h'.retry.trans h.retry, h'.fallback.trans h.fallback, h'.evaluation.trans h.evaluation,
    h'.timer.trans h.timer, h'.option.trans h.option,
    fun x => h.message (h'.message x), h'.alive.trans h.alive,
    fun x hx => (h'.next x hx).elim (h.next x) .inr, fun x => h'.gone (h.gone x), fun x => h'.body (h.body x)⟩

theorem tame_abort (k : Kid) :
    Tame k { k with ctx := { k.ctx with nextStates := k.ctx.nextStates ++ [.abort], processingMessage := false } } :=
  ⟨rfl, rfl, rfl, rfl, rfl, rfl, rfl, rfl, (fun h => by simp [inMessage] at h), rfl, fun x hx => by simpa using hx, id, id, id⟩

theorem tame_reset (k : Kid) : Tame k { k with ctx := Server.resetMessage k.ctx } :=
  ⟨rfl, rfl, rfl, rfl, rfl, rfl, rfl, rfl, (fun h => by simp [inMessage, Server.resetMessage] at h), rfl, fun _ h => .inl h, id,
    fun h => ⟨h.1, rfl, rfl, rfl, rfl⟩, fun _ => rfl⟩

/-- what aborting does not touch -/
structure Aside (u u' : Sys) : Prop where
  oracle : u'.oracle = u.oracle
  queue : u'.replyQueue = u.replyQueue
  count : u'.count = u.count
  told : told u'.out = told u.out
  code : u'.code = u.code
  kids : ∀ i, Tame (u.kids i) (u'.kids i)
  frame : Frame u u'
  pending : u.pending = none → u'.pending = none

theorem Aside.refl (u : Sys) : Aside u u := ⟨rfl, rfl, rfl, rfl, rfl, fun _ => .refl _, .refl u, id⟩

theorem Aside.trans {a b c : Sys} (h : Aside a b) (h' : Aside b c) : Aside a c :=
  ⟨h'.oracle.trans h.oracle, h'.queue.trans h.queue, h'.count.trans h.count, h'.told.trans h.told, h'.code.trans h.code,
    fun i => (h.kids i).trans (h'.kids i), h.frame.trans h'.frame, fun x => h'.pending (h.pending x)⟩

theorem told_sent (out : List Out) (i : Nat) (c : Cmd) : told (out ++ [.sent i c]) = told out := by
  rw [told_append]; simp [told]

theorem commands_sent (out : List Out) (i : Nat) (c : Cmd) : commands (out ++ [.sent i c]) = commands out ++ [(i, c)] := by
  rw [commands_append]; rfl

/-- how many commands are on their way to milter `i` -/
def due (u : Sys) (i : Nat) : Nat := (u.kids i).ctx.nextStates.length

/-- a milter that is told to abort -/
theorem abort_call {d : Dispatch} {i : Nat} {u : Sys} (ho : u.oracle = []) :
    ∃ u', call d i .abort u = some (true, u') ∧ Aside u u' ∧ commands u'.out = commands u.out ++ [(i, .abort)] ∧
      (∀ j, j ≠ i → u'.kids j = u.kids j) ∧ inMessage (u'.kids i) = false ∧ due u' i = due u i + 1 := by
  refine ⟨_, call_eq ho (abort_written _), ⟨rfl, rfl, rfl, told_sent _ _ _, rfl, ?_, .refl u, id⟩, commands_sent _ _ _, ?_, ?_, ?_⟩
  · intro j
    by_cases h : j = i
    · subst h
      show Tame _ ((withCtx u j _).kids j)
      rw [withCtx_kid]
      exact tame_abort _
    · show Tame _ ((withCtx u i _).kids j)
      rw [withCtx_other _ _ _ _ h]
      exact .refl _
  · intro j h
    exact withCtx_other _ _ _ _ h
  · show inMessage ((withCtx u i _).kids i) = false
    rw [withCtx_kid]
    simp [inMessage]
  · show ((withCtx u i _).kids i).ctx.nextStates.length = _
    rw [withCtx_kid]
    simp [due]

theorem abort_loop {d : Dispatch} {l : List Nat} : ∀ {u : Sys}, u.oracle = [] → l.Nodup →
    ∃ u' x, abortLoop d l u = some ((), u') ∧ Aside u u' ∧ commands u'.out = commands u.out ++ x ∧
      (∀ i ∈ l, inMessage (u.kids i) = true → (i, .abort) ∈ x) ∧ (∀ p ∈ x, p.2 = .abort) ∧ (∀ j, due u' j ≤ due u j + 1) ∧
      (∀ j, j ∉ l → u'.kids j = u.kids j) ∧
      ∀ j, inMessage (u.kids j) = false → (u.kids j).ctx.state ≠ .envelopeFrom → u'.kids j = u.kids j := by
  induction l with
  | nil => intro u _ _; exact ⟨u, [], rfl, .refl u, by simp, by simp, by simp, by simp, by simp, by simp⟩
  | cons i l ih =>
    intro u ho hnd
    obtain ⟨hnot, hnd⟩ := List.nodup_cons.mp hnd
    unfold abortLoop
    rw [get_bind]
    by_cases hc : isProcessingMessage u i = true ∨ (u.kids i).ctx.state = .envelopeFrom
    · rw [if_pos hc]
      obtain ⟨u1, h1, a1, c1, o1, _, d1⟩ := abort_call (d := d) (i := i) ho
      obtain ⟨u2, x, h2, a2, c2, m2, p2, d2, k2, n2⟩ := ih (u := u1) (by rw [a1.oracle, ho]) hnd
      refine ⟨u2, (i, .abort) :: x, ?_, a1.trans a2, by rw [c2, c1]; simp, ?_, ?_, ?_, ?_, ?_⟩
      · rw [bind_eq h1]
        exact h2
      · intro j hj hm
        by_cases hji : j = i
        · rw [hji]; exact List.mem_cons_self
        · refine List.mem_cons_of_mem _ (m2 j ((List.mem_cons.mp hj).resolve_left hji) ?_)
          rw [o1 j hji]; exact hm
      · intro p hp
        rcases List.mem_cons.mp hp with rfl | hp
        · rfl
        · exact p2 p hp
      · intro j
        by_cases hji : j = i
        · subst hji
          have : due u2 j = due u1 j := by unfold due; rw [k2 j hnot]
          omega
        · have : due u1 j = due u j := by unfold due; rw [o1 j hji]
          rw [← this]; exact d2 j
      · intro j hj
        rw [k2 j (fun h => hj (List.mem_cons_of_mem _ h)), o1 j (fun h => hj (h ▸ List.mem_cons_self))]
      · intro j hj hs
        have hji : j ≠ i := by
          rintro rfl
          rcases hc with hc | hc
          · rw [processing_iff, hj] at hc; cases hc
          · exact hs hc
        rw [← o1 j hji] at hj hs ⊢
        exact n2 j hj hs
    · rw [if_neg hc]
      obtain ⟨u2, x, h2, a2, c2, m2, p2, d2, k2, n2⟩ := ih (u := u) ho hnd
      refine ⟨u2, x, ?_, a2, c2, ?_, p2, d2, fun j hj => k2 j fun h => hj (List.mem_cons_of_mem _ h), n2⟩
      · exact h2
      · intro j hj hm
        rcases List.mem_cons.mp hj with rfl | hj
        · exact absurd (Or.inl (by rw [processing_iff]; exact hm)) hc
        · exact m2 j hj hm

theorem reset_loop {l : List Nat} : ∀ {u : Sys}, ∃ u', resetLoop l u = some ((), u') ∧ Aside u u' ∧ u'.out = u.out ∧
    (∀ i ∈ l, inMessage (u'.kids i) = false) ∧ (∀ j, due u' j = due u j) ∧
    ∀ i ∈ l, isAlive (u.kids i) = true → (u.kids i).ctx.body = [] → Spec.Phase.MsgBlank (u'.kids i).ctx := by
  induction l with
  | nil => intro u; exact ⟨u, rfl, .refl u, rfl, by simp, fun _ => rfl, by simp⟩
  | cons i l ih =>
    intro u
    unfold resetLoop
    rw [get_bind]
    by_cases hq : (!isQuitted u i) = true
    · rw [if_pos hq]
      obtain ⟨u1, hu1⟩ : ∃ u1, u1 = withCtx u i (Server.resetMessage (u.kids i).ctx) := ⟨_, rfl⟩
      obtain ⟨u2, h2, a2, o2, m2, d2, b2⟩ := ih (u := u1)
      have a1 : Aside u u1 := by
        rw [hu1]
        refine ⟨rfl, rfl, rfl, rfl, rfl, fun j => ?_, .refl u, id⟩
        by_cases h : j = i
        · subst h; rw [withCtx_kid]; exact tame_reset _
        · rw [withCtx_other _ _ _ _ h]; exact .refl _
      have k1 : inMessage (u1.kids i) = false := by rw [hu1, withCtx_kid]; simp [inMessage, Server.resetMessage]
      refine ⟨u2, ?_, a1.trans a2, by rw [o2, hu1]; rfl, ?_, fun j => ?_, ?_⟩
      · rw [bind_eq (show modifyCtx i Server.resetMessage u = some (⟨⟩, u1) by rw [hu1]; rfl)]
        exact h2
      · intro j hj
        rcases List.mem_cons.mp hj with rfl | hj
        · cases hm : inMessage (u2.kids j) with
          | false => rfl
          | true => rw [(a2.kids j).message hm] at k1; cases k1
        · exact m2 j hj
      · rw [d2 j, hu1]
        unfold due
        by_cases h : j = i
        · subst h; rw [withCtx_kid]; rfl
        · rw [withCtx_other _ _ _ _ h]
      · intro j hj hjq hjb
        by_cases h : j = i
        · subst h
          refine (a2.kids j).body ?_
          rw [hu1, withCtx_ctx]
          exact ⟨hjb, rfl, rfl, rfl, rfl⟩
        · have e : u1.kids j = u.kids j := by rw [hu1]; exact withCtx_other _ _ _ _ h
          exact b2 j ((List.mem_cons.mp hj).resolve_left h) (by rw [e]; exact hjq) (by rw [e]; exact hjb)
    · rw [if_neg hq]
      obtain ⟨u2, h2, a2, o2, m2, d2, b2⟩ := ih (u := u)
      refine ⟨u2, h2, a2, o2, ?_, d2, fun j hj hjq hjb => ?_⟩
      case refine_2 =>
        rcases List.mem_cons.mp hj with rfl | hj
        · exfalso
          rw [alive_iff] at hq
          exact hq hjq
        · exact b2 j hj hjq hjb
      intro j hj
      rcases List.mem_cons.mp hj with rfl | hj
      · cases hm : inMessage (u2.kids j) with
        | false => rfl
        | true =>
          have := (a2.kids j).message hm
          rw [alive_iff] at hq
          simp only [inMessage, Bool.and_eq_true] at this
          exact absurd this.1 hq
      · exact m2 j hj

theorem abort_all' {d : Dispatch} {u : Sys} (ho : u.oracle = []) :
    ∃ u' x, abortAll d u = some ((), u') ∧ Aside u u' ∧ commands u'.out = commands u.out ++ x ∧
      (∀ i < u.count, inMessage (u.kids i) = true → (i, .abort) ∈ x) ∧ (∀ p ∈ x, p.2 = .abort) ∧
      (∀ i < u.count, inMessage (u'.kids i) = false) ∧ (∀ j, due u' j ≤ due u j + 1) ∧ Blank u' ∧ u'.pending = none ∧
      ∀ i < u.count, inMessage (u.kids i) = false → (u.kids i).ctx.state ≠ .envelopeFrom → isAlive (u.kids i) = true →
        (u.kids i).ctx.body = [] → Spec.Phase.MsgBlank (u'.kids i).ctx := by
  obtain ⟨u1, hu1⟩ : ∃ u1 : Sys, u1 = { u with state := .abort, processingState := .abort } := ⟨_, rfl⟩
  have a1 : Aside u u1 := by rw [hu1]; exact ⟨rfl, rfl, rfl, rfl, rfl, fun _ => .refl _, .refl u, id⟩
  obtain ⟨u2, x, h2, a2, c2, m2, p2, d2, _, n2⟩ := abort_loop (d := d) (l := milters u1) (u := u1) (by rw [hu1]; exact ho) List.nodup_range
  have a3 : Aside u2 (messageDisposed u2) := ⟨rfl, rfl, rfl, rfl, rfl, fun _ => .refl _, frame_disposed u2, fun _ => rfl⟩
  obtain ⟨u4, h4, a4, o4, m4, d4, b4⟩ := reset_loop (l := milters u1) (u := messageDisposed u2)
  refine ⟨u4, x, ?_, ((a1.trans a2).trans a3).trans a4, ?_, ?_, p2, ?_, fun j => ?_,
    a4.frame.2.2.2.1 ⟨rfl, rfl, rfl, rfl, rfl, rfl, rfl, rfl, rfl⟩, a4.pending rfl,
    fun i hi hm hs hq hb => ?_⟩
  · unfold abortAll
    rw [modify_bind, get_bind, ← hu1, bind_eq h2, modify_bind]
    exact h4
  · rw [o4]
    show commands u2.out = _
    rw [c2, hu1]
  · intro i hi hm
    exact m2 i (List.mem_range.mpr (by rw [hu1]; exact hi)) (by rw [hu1]; exact hm)
  · intro i hi
    exact m4 i (List.mem_range.mpr (by rw [hu1]; exact hi))
  · have e1 : due u1 j = due u j := by rw [hu1]; rfl
    have e2 : due (messageDisposed u2) j = due u2 j := rfl
    rw [d4 j, e2, ← e1]
    exact d2 j
  · have e : (messageDisposed u2).kids i = u.kids i := by
      show u2.kids i = _
      rw [n2 i (by rw [hu1]; exact hm) (by rw [hu1]; exact hs), hu1]
    exact b4 i (List.mem_range.mpr (by rw [hu1]; exact hi)) (by rw [e]; exact hq) (by rw [e]; exact hb)

theorem abort_all {d : Dispatch} {u : Sys} (ho : u.oracle = []) :
    ∃ u' x, abortAll d u = some ((), u') ∧ Aside u u' ∧ commands u'.out = commands u.out ++ x ∧
      (∀ i < u.count, inMessage (u.kids i) = true → (i, .abort) ∈ x) ∧ (∀ p ∈ x, p.2 = .abort) ∧
      (∀ i < u.count, inMessage (u'.kids i) = false) ∧ ∀ j, due u' j ≤ due u j + 1 := by
  obtain ⟨u', x, h1, h2, h3, h4, h5, h6, h7, -⟩ := abort_all' (d := d) ho
  exact ⟨u', x, h1, h2, h3, h4, h5, h6, h7⟩

/-! ## The state of the conversation -/

/-- what stays as it was -/
structure Kept (k0 k : Kid) : Prop where
  fallback : k.fallback = k0.fallback
  evaluation : k.evaluation = k0.evaluation
  option : k.ctx.option = k0.ctx.option
  retry : k.tryRetry = none
  body : MsgBlank k0.ctx → MsgBlank k.ctx

theorem Kept.tame {k0 k k' : Kid} (h : Kept k0 k) (t : Tame k k') : Kept k0 k' :=
  ⟨t.fallback.trans h.fallback, t.evaluation.trans h.evaluation, t.option.trans h.option, t.retry.trans h.retry,
    fun x => t.body (h.body x)⟩

/-- the milter is at this point -/
def At (k : Kid) (st : St) : Pos → Prop
  | .none => True
  | .waiting => Idle k st ∧ (st = .envelopeRecipient ∨ st = .data → k.ctx.processingMessage = true)
  | .written => k.linked = true ∧ Written k.ctx st
  | .asked => k.linked = true ∧ Asked k.ctx st
  | .leaving => k.linked = true ∧ (k.ctx.nextStates = [.quit] ∨ (k.ctx.nextStates = [.abort, .quit] ∧ k.ctx.result = none)) ∧
      k.ctx.timer = none
  | .left => k.linked = true ∧ k.ctx.timer = none
  | .answered | .settled => k.ctx.timer = none
  | .lost => k.linked = false ∧ k.ctx.quitted = true

theorem At.tame {k k' : Kid} {st : St} {p : Pos} (h : At k st p) (hp : p.isOpen = false) (t : Tame k k') : At k' st p := by
  cases p <;> simp only [Pos.isOpen, reduceCtorEq] at hp <;> simp only [At] at h ⊢
  · rw [t.timer]; exact h
  · rw [t.timer]; exact h
  · rw [t.linked]; exact ⟨h.1, t.gone h.2⟩

/-- statuses that are decisions -/
def Proper (v : Status) : Prop :=
  v = .continue_ ∨ v = .accept ∨ v = .reject ∨ v = .temporaryFailure ∨ v = .discard

def worst (t : Talk) : Status := Status.compileAll .notChange t.votes

theorem compile_proper {a b : Status} (ha : Proper a ∨ a = .notChange) (hb : Proper b) : Proper (Status.compile a b) := by
  unfold Proper at *
  rcases ha with (rfl | rfl | rfl | rfl | rfl) | rfl <;> rcases hb with rfl | rfl | rfl | rfl | rfl <;> decide

theorem compileAll_proper {l : List Status} : ∀ {a : Status}, (∀ v ∈ l, Proper v) → (Proper a ∨ a = .notChange) →
    (l ≠ [] ∨ Proper a) → Proper (Status.compileAll a l) := by
  induction l with
  | nil => intro a _ _ h; exact h.resolve_left (fun h => h rfl)
  | cons v l ih =>
    intro a hl ha _
    have := compile_proper ha (hl v List.mem_cons_self)
    exact ih (fun w hw => hl w (List.mem_cons_of_mem _ hw)) (.inl this) (.inr this)

/-- the position has had its say -/
def spokeAt : Pos → Bool
  | .leaving | .left | .answered | .settled | .lost => true
  | _ => false

/-- what holds all the time; `s` is the state when the command arrived -/
structure Core (s : Sys) (who : List Nat) (st : St) (t : Talk) (u : Sys) : Prop where
  parallel : Parallel st
  distinct : who.Nodup
  nonempty : who ≠ []
  range : ∀ i ∈ who, i < s.count
  count : u.count = s.count
  oracle : u.oracle = []
  kept : ∀ i ∈ who, Kept (s.kids i) (u.kids i)
  at' : ∀ i ∈ who, At (u.kids i) st (t.pos i)
  outside : ∀ i, i ∉ who → t.pos i = .none
  inside : ∀ i ∈ who, t.pos i ≠ .none
  options : ∀ i ∈ who, ∃ o, (s.kids i).ctx.option = some o ∧ o.step &&& Server.noReplyFlag st = 0
  spoken : ∀ i ∈ who, spokeAt (t.pos i) = true → t.votes ≠ []
  proper : ∀ v ∈ t.votes, Proper v
  fallbacks : ∀ i ∈ who, Proper (s.kids i).fallback
  others : ∀ i, i ∉ who → Apart (s.kids i) (u.kids i)
  frame : Frame s u
  accepted : st = .data → ∀ i ∈ who, Server.hasAcceptedRecipient (s.kids i).ctx = true → Server.hasAcceptedRecipient (u.kids i).ctx = true

/-- it has answered and stays -/
def stays : Pos → Bool
  | .answered | .settled => true
  | _ => false

/-- a milter that has answered and stays -/
structure Stays (k : Kid) (st : St) (p : Pos) : Prop where
  linked : k.linked = true
  state : k.ctx.state = st
  nextStates : k.ctx.nextStates = []
  quitted : k.ctx.quitted = false
  negotiated : k.ctx.negotiated = true
  following : p = .answered → inMsg st → k.ctx.processingMessage = true
  apart : p = .settled → k.ctx.processingMessage = false

/-- everybody who stays follows the message -/
def Following (who : List Nat) (st : St) (t : Talk) (u : Sys) : Prop :=
  ∀ i ∈ who, stays (t.pos i) = true → Stays (u.kids i) st (t.pos i)

theorem Stays.message {k : Kid} {st : St} {p : Pos} (h : Stays k st p) (hp : p = .answered) (hm : inMsg st) : inMessage k = true := by
  simp [inMessage, isAlive, h.negotiated, h.quitted, h.following hp hm]

/-- somebody has not answered -/
structure Undecided (s : Sys) (base : List (Nat × Cmd)) (who : List Nat) (st : St) (t : Talk) (u : Sys) (held : Option Pending := none) :
    Prop where
  state : u.processingState = st
  current : u.state = st
  pending : u.pending = held
  status : u.statuses st = worst t
  code : u.code = t.code
  told : told u.out = told s.out
  sent : commands u.out = base ++ t.dismissed.map (·, .quit)
  due : ∀ i, i ∉ who → due u i ≤ due s i + 1

/-- everybody has -/
structure Settled (s : Sys) (base : List (Nat × Cmd)) (who : List Nat) (st : St) (t : Talk) (u : Sys) : Prop where
  pending : u.pending = none
  code : u.code = none ∨ u.code = t.code
  rest : ∀ i ∈ who, stays (t.pos i) = true → (u.kids i).linked = true ∧ isAlive (u.kids i) = true ∧
    (∀ x ∈ (u.kids i).ctx.nextStates, x = .abort) ∧ due u i ≤ 1
  due : ∀ i, i ∉ who → due u i ≤ due s i + 2
  told : told u.out = told s.out ++ [.reply (report (worst t) t.code)]
  going : ends st (worst t) = false → Following who st t u ∧ u.state = st ∧ commands u.out = base ++ t.dismissed.map (·, .quit)
  over : ends st (worst t) = true → (∀ i < s.count, inMessage (u.kids i) = false) ∧
    ∃ x, commands u.out = base ++ t.dismissed.map (·, .quit) ++ x ∧ (∀ p ∈ x, p.2 = .abort) ∧
      (inMsg st → ∀ i ∈ who, t.pos i = .answered → (i, .abort) ∈ x)

/-- `held` is the command that is kept until everybody has answered -/
structure Inv (s : Sys) (base : List (Nat × Cmd)) (who : List Nat) (st : St) (t : Talk) (u : Sys) (held : Option Pending := none) :
    Prop where
  core : Core s who st t u
  queue : u.replyQueue = who.filter fun i => (t.pos i).isOpen
  undecided : t.isOpen who = true → Undecided s base who st t u held ∧ Following who st t u
  settled : t.isOpen who = false → Settled s base who st t u

/-- a command that is kept is not to be carried out yet -/
def Fits (held : Option Pending) (t : Talk) (who : List Nat) : Prop :=
  held = none ∨ t.isOpen who = true ∨ worst t ≠ .continue_

theorem isOpen_iff (t : Talk) (who : List Nat) : t.isOpen who = false ↔ (who.filter fun i => (t.pos i).isOpen) = [] := by
  simp [Talk.isOpen, List.filter_eq_nil_iff]

theorem decision_report {u : Sys} {st : St} {v : Status} (hv : u.statuses st = v) (hp : Proper v) :
    decision u st = [report v u.code] := by
  unfold decision report
  rw [hv]
  cases u.code with
  | none =>
    unfold Proper at hp
    rcases hp with rfl | rfl | rfl | rfl | rfl <;> rfl
  | some x =>
    obtain ⟨c, x, m⟩ := x
    dsimp only
    split
    · rfl
    · unfold Proper at hp
      rcases hp with rfl | rfl | rfl | rfl | rfl <;> rfl

theorem decided_out {u : Sys} {st : St} (hst : Parallel st) :
    decided u st = { u with
      out := u.out ++ (decision u st).map fun r => .emit (.reply r)
      code := codeLeft u st } := by
  unfold decided
  rw [if_neg (parallel_ne hst).2.1]

/-- the part of a milter is over -/
theorem remove {d : Dispatch} {s u : Sys} {base : List (Nat × Cmd)} {who : List Nat} {st : St} {t : Talk} {i : Nat} {held : Option Pending}
    (hc : Core s who st t u) (hu : Undecided s base who st t u held) (hf : Following who st t u)
    (hq : u.replyQueue.erase i = who.filter fun i => (t.pos i).isOpen)
    (hfit : Fits held t who := by exact .inl rfl) :
    ∃ u', removeFromQueue d i u = some ((), u') ∧ Inv s base who st t u' held ∧ ∀ j, Tame (u.kids j) (u'.kids j) := by
  obtain ⟨u1, hu1⟩ : ∃ u1 : Sys, u1 = { u with replyQueue := u.replyQueue.erase i } := ⟨_, rfl⟩
  have hk : u1.kids = u.kids := by rw [hu1]
  have hc1 : Core s who st t u1 := by
    rw [hu1]
    exact ⟨hc.parallel, hc.distinct, hc.nonempty, hc.range, hc.count, hc.oracle, hc.kept, hc.at', hc.outside, hc.inside, hc.options,
      hc.spoken, hc.proper, hc.fallbacks, hc.others, hc.frame, hc.accepted⟩
  have hu1' : Undecided s base who st t u1 held := by
    rw [hu1]; exact ⟨hu.state, hu.current, hu.pending, hu.status, hu.code, hu.told, hu.sent, hu.due⟩
  unfold removeFromQueue
  rw [modify_bind, get_bind, ← hu1]
  by_cases hqe : u1.replyQueue ≠ []
  · rw [if_pos hqe]
    have hqq : u1.replyQueue = who.filter fun i => (t.pos i).isOpen := by rw [hu1]; exact hq
    have hopen : t.isOpen who = true := by
      cases h : t.isOpen who with
      | true => rfl
      | false => exact absurd (hqq.trans ((isOpen_iff _ _).mp h)) hqe
    refine ⟨u1, rfl, ⟨hc1, hqq, fun _ => ⟨hu1', ?_⟩, fun h => ?_⟩, fun j => by rw [hk]; exact .refl _⟩
    · intro j hj hp; rw [hk]; exact hf j hj hp
    · rw [hopen] at h; cases h
  · rw [if_neg hqe]
    have hqe : u1.replyQueue = [] := by simpa using hqe
    have hqq : (who.filter fun i => (t.pos i).isOpen) = [] := by rw [← hq, ← hqe, hu1]
    have hclosed : t.isOpen who = false := (isOpen_iff _ _).mpr hqq
    have hall : ∀ j ∈ who, (t.pos j).isOpen = false := by
      intro j hj
      have := List.filter_eq_nil_iff.mp hqq j hj
      simpa using this
    dsimp only
    have hvotes : t.votes ≠ [] := by
      obtain ⟨j, hj⟩ := List.exists_mem_of_ne_nil _ hc.nonempty
      refine hc.spoken j hj ?_
      have h1 := hall j hj
      have h2 := hc.inside j hj
      cases hp : t.pos j <;> rw [hp] at h1 h2 <;> first | rfl | (exact absurd rfl h2) | cases h1
    have hprop : Proper (worst t) := compileAll_proper hc.proper (.inr rfl) (.inl hvotes)
    have hstat : u1.statuses u1.processingState = worst t := by rw [hu1'.state]; exact hu1'.status
    obtain ⟨v1, hv1⟩ : ∃ v1 : Sys, v1 = { u1 with pending := none } := ⟨_, rfl⟩
    have hgo : (match u1.pending with
        | some p => (do
            let processed ← if u1.statuses u1.processingState = .continue_ then processPending d p else pure false
            disposePending
            if processed = true ∨ u1.statuses u1.processingState = .progress then return ()
            else removeFromQueue.finish d (u1.statuses u1.processingState) : M Unit)
        | none => removeFromQueue.finish d (u1.statuses u1.processingState) : M Unit) u1 =
        removeFromQueue.finish d (worst t) v1 := by
      rw [hstat]
      cases held with
      | none =>
        have hp := hu1'.pending
        have : v1 = u1 := by rw [hv1]; cases u1; simp only at hp; rw [hp]
        rw [hp, this]
      | some p =>
        have hw : worst t ≠ .continue_ := by
          rcases hfit with h | h | h
          · cases h
          · rw [hclosed] at h; cases h
          · exact h
        have hpr : ¬ (false = true ∨ worst t = .progress) := by
          unfold Proper at hprop
          rintro (h | h)
          · cases h
          · rw [h] at hprop; simp at hprop
        rw [hu1'.pending]
        dsimp only
        rw [if_neg hw]
        show (disposePending >>= fun _ => if false = true ∨ worst t = .progress then pure () else removeFromQueue.finish d (worst t)) u1 = _
        unfold disposePending
        rw [modify_bind, if_neg hpr, ← hv1]
    have hk1 : v1.kids = u.kids := by rw [hv1]; exact hk
    have hc1 : Core s who st t v1 := by
      rw [hv1]
      exact ⟨hc1.parallel, hc1.distinct, hc1.nonempty, hc1.range, hc1.count, hc1.oracle, hc1.kept, hc1.at', hc1.outside, hc1.inside,
        hc1.options, hc1.spoken, hc1.proper, hc1.fallbacks, hc1.others, hc1.frame, hc1.accepted⟩
    have hu1' : Undecided s base who st t v1 := by
      rw [hv1]; exact ⟨hu1'.state, hu1'.current, rfl, hu1'.status, hu1'.code, hu1'.told, hu1'.sent, hu1'.due⟩
    have hqe : v1.replyQueue = [] := by rw [hv1]; exact hqe
    suffices hs : ∃ u', removeFromQueue.finish d (worst t) v1 = some ((), u') ∧ Inv s base who st t u' held ∧
        ∀ j, Tame (u.kids j) (u'.kids j) by
      obtain ⟨u', h, r⟩ := hs
      exact ⟨u', hgo.trans h, r⟩
    have hdec : decision v1 st = [report (worst t) t.code] := by
      rw [decision_report hu1'.status hprop, hu1'.code]
    obtain ⟨u2, hu2⟩ : ∃ u2, u2 = decided v1 st := ⟨_, rfl⟩
    have hd2 : u2 = { v1 with
        out := v1.out ++ [.emit (.reply (report (worst t) t.code))]
        code := codeLeft v1 st } := by
      rw [hu2, decided_out hc.parallel, hdec]; rfl
    have hfin : ∀ v, removeFromQueue.finish d v v1 =
        (match v with
          | .reject | .temporaryFailure => if st ≠ .envelopeRecipient then abortAll d else pure ()
          | .discard => abortAll d
          | _ => pure () : M Unit) u2 := by
      intro v
      unfold removeFromQueue.finish
      rw [get_bind, hu1'.state, bind_eq (emitStatusOf_eq st v1), ← hu2]
      cases v <;> rfl
    have ht2 : told u2.out = told s.out ++ [.reply (report (worst t) t.code)] := by
      rw [hd2]
      show told (v1.out ++ _) = _
      rw [told_append, hu1'.told]; rfl
    have hs2 : commands u2.out = base ++ t.dismissed.map (·, .quit) := by
      rw [hd2]
      show commands (v1.out ++ _) = _
      rw [commands_append, hu1'.sent]; simp [commands]
    have hk2 : u2.kids = u.kids := by rw [hd2]; exact hk1
    have hc2 : Core s who st t u2 := by
      rw [hd2]
      exact ⟨hc1.parallel, hc1.distinct, hc1.nonempty, hc1.range, hc1.count, hc1.oracle, hc1.kept, hc1.at', hc1.outside, hc1.inside,
        hc1.options, hc1.spoken, hc1.proper, hc1.fallbacks, hc1.others, hc1.frame, hc1.accepted⟩
    have hf2 : Following who st t u2 := fun j hj hp => by rw [hk2]; exact hf j hj hp
    have hn2 : u2.pending = none ∧ u2.state = st := by rw [hd2]; exact ⟨hu1'.pending, hu1'.current⟩
    have hcode2 : u2.code = none ∨ u2.code = t.code := by
      rw [hd2]
      show codeLeft v1 st = none ∨ codeLeft v1 st = t.code
      unfold codeLeft
      rw [← hu1'.code]
      cases v1.code with
      | none => exact .inl rfl
      | some c =>
        dsimp only
        split
        · exact .inl rfl
        · exact .inr rfl
    have hrest2 : ∀ i ∈ who, stays (t.pos i) = true → (u2.kids i).linked = true ∧ isAlive (u2.kids i) = true ∧
        (∀ x ∈ (u2.kids i).ctx.nextStates, x = .abort) ∧ due u2 i = 0 := fun j hj hp => by
      have h := hf2 j hj hp
      refine ⟨h.linked, by simp [isAlive, h.negotiated, h.quitted], fun x hx => ?_, ?_⟩
      · rw [h.nextStates] at hx; cases hx
      · unfold Phase.due; rw [h.nextStates]; rfl
    have hdue2 : ∀ i, i ∉ who → due u2 i ≤ due s i + 1 := fun j hj => by
      have := hu.due j hj
      unfold Phase.due at this ⊢
      rw [hk2]
      exact this
    have hq2 : u2.replyQueue = who.filter fun i => (t.pos i).isOpen := by rw [hd2, hqq]; exact hqe
    rw [hfin]
    have quiet : ends st (worst t) = false → ∃ u', (pure () : M Unit) u2 = some ((), u') ∧ Inv s base who st t u' held ∧
        ∀ j, Tame (u.kids j) (u'.kids j) := by
      intro he
      refine ⟨u2, rfl, ⟨hc2, hq2, fun h => ?_, fun _ => ⟨hn2.1, hcode2,
        fun j hj hp => ⟨(hrest2 j hj hp).1, (hrest2 j hj hp).2.1, (hrest2 j hj hp).2.2.1, by rw [(hrest2 j hj hp).2.2.2]; omega⟩,
        fun j hj => by have := hdue2 j hj; omega, ht2, fun _ => ⟨hf2, hn2.2, hs2⟩, fun h => ?_⟩⟩,
        fun j => by rw [hk2]; exact .refl _⟩
      · rw [hclosed] at h; cases h
      · rw [he] at h; cases h
    have loud : ends st (worst t) = true → ∃ u', abortAll d u2 = some ((), u') ∧ Inv s base who st t u' held ∧
        ∀ j, Tame (u.kids j) (u'.kids j) := by
      intro he
      obtain ⟨u3, x, h3, a3, c3, m3, p3, e3, d3⟩ := abort_all (d := d) (u := u2) hc2.oracle
      refine ⟨u3, h3, ⟨?_, by rw [a3.queue, hq2], fun h => ?_, fun _ => ⟨a3.pending hn2.1, by rw [a3.code]; exact hcode2,
        fun j hj hp => ?_, fun j hj => (by have := hdue2 j hj; have := d3 j; omega), by rw [a3.told, ht2], fun h => ?_, fun _ => ⟨?_, x, ?_, p3, ?_⟩⟩⟩,
        fun j => by rw [← hk2]; exact a3.kids j⟩
      · exact ⟨hc2.parallel, hc2.distinct, hc2.nonempty, hc2.range, a3.count.trans hc2.count, a3.oracle.trans hc2.oracle,
          fun j hj => (hc2.kept j hj).tame (a3.kids j), fun j hj => (hc2.at' j hj).tame (hall j hj) (a3.kids j), hc2.outside,
          hc2.inside, hc2.options, hc2.spoken, hc2.proper, hc2.fallbacks, fun j hj => (hc2.others j hj).trans (a3.kids j).apart,
          hc2.frame.trans a3.frame, fun hd j hj hx => (a3.kids j).accepted (hc2.accepted hd j hj hx)⟩
      · rw [hclosed] at h; cases h
      · obtain ⟨b1, b2, b3, b4⟩ := hrest2 j hj hp
        exact ⟨(a3.kids j).linked.trans b1, (a3.kids j).alive.trans b2, fun x hx => ((a3.kids j).next x hx).elim (b3 x) id,
          by have := d3 j; omega⟩
      · rw [he] at h; cases h
      · rw [← hc2.count]; exact e3
      · rw [c3, hs2]
      · intro hm j hj hp
        exact m3 j (by rw [hc2.count]; exact hc.range j hj) ((hf2 j hj (by rw [hp]; rfl)).message hp hm)
    generalize hw : worst t = w at *
    by_cases hr : st = .envelopeRecipient
    · unfold Proper at hprop
      rcases hprop with rfl | rfl | rfl | rfl | rfl
      · exact quiet (by simp [ends])
      · exact quiet (by simp [ends])
      · simp only [hr, ne_eq, not_true_eq_false, if_false]; rw [hr] at quiet; exact quiet (by simp [ends])
      · simp only [hr, ne_eq, not_true_eq_false, if_false]; rw [hr] at quiet; exact quiet (by simp [ends])
      · exact loud (by simp [ends])
    · unfold Proper at hprop
      rcases hprop with rfl | rfl | rfl | rfl | rfl
      · exact quiet (by simp [ends])
      · exact quiet (by simp [ends])
      · simp only [hr, ne_eq, not_false_eq_true, if_true]; exact loud (by simp [ends, hr])
      · simp only [hr, ne_eq, not_false_eq_true, if_true]; exact loud (by simp [ends, hr])
      · exact loud (by simp [ends])

end Phase
end Verif.Children
