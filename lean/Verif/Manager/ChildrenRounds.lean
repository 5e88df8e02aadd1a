import Verif.Manager.ChildrenPhaseStart
import Verif.Spec.Rounds
/-
One command after the other: how the manager comes to rest again.
-/
namespace Verif.Children
namespace Phase
open Verif
open Verif.Server (St)
open Verif.Spec.Children
open Verif.Spec.Phase

/-! ## Telling a milter that the message is over -/

/-- what happens when the packet with the abort is out -/
def Fading (a : Server.Action) : Prop :=
  a = .abortFlushed ∨ a = .processed .always ∨ a = .resetMessage ∨ a = .transited .abort

/-- how often that emits a signal at most -/
def fuss : List Server.Action → Nat
  | [] => 0
  | .processed _ :: l => fuss l + 1
  | .transited _ :: l => fuss l + 1
  | _ :: l => fuss l

/-- what is left of a milter then -/
structure Faded (k k' : Kid) : Prop where
  linked : k'.linked = k.linked
  retry : k'.tryRetry = k.tryRetry
  fallback : k'.fallback = k.fallback
  evaluation : k'.evaluation = k.evaluation
  option : k'.ctx.option = k.ctx.option
  quitted : k'.ctx.quitted = k.ctx.quitted
  negotiated : k'.ctx.negotiated = k.ctx.negotiated
  timer : k.ctx.timer = none → k'.ctx.timer = none
  next : k'.ctx.nextStates = k.ctx.nextStates
  message : k'.ctx.processingMessage = true → k.ctx.processingMessage = true
  body : MsgBlank k.ctx → MsgBlank k'.ctx

theorem Faded.refl (k : Kid) : Faded k k := ⟨rfl, rfl, rfl, rfl, rfl, rfl, rfl, id, rfl, id, id⟩

theorem Faded.trans {a b c : Kid} (h : Faded a b) (h' : Faded b c) : Faded a c :=
  ⟨h'.linked.trans h.linked, h'.retry.trans h.retry, h'.fallback.trans h.fallback, h'.evaluation.trans h.evaluation,
    h'.option.trans h.option, h'.quitted.trans h.quitted, h'.negotiated.trans h.negotiated, fun x => h'.timer (h.timer x),
    h'.next.trans h.next, fun x => h.message (h'.message x), fun x => h'.body (h.body x)⟩

theorem Faded.alive {k k' : Kid} (h : Faded k k') : isAlive k' = isAlive k := by
  simp [isAlive, h.quitted, h.negotiated]

theorem faded_abort (k : Kid) : Faded k { k with ctx := Server.abortFlushed k.ctx } := by
  unfold Server.abortFlushed Server.setState
  dsimp only
  split
  · split
    · exact ⟨rfl, rfl, rfl, rfl, rfl, rfl, rfl, fun _ => rfl, rfl, id, id⟩
    · exact ⟨rfl, rfl, rfl, rfl, rfl, rfl, rfl, fun _ => rfl, rfl, id, id⟩
  · exact ⟨rfl, rfl, rfl, rfl, rfl, rfl, rfl, fun _ => rfl, rfl, id, id⟩

theorem faded_reset (k : Kid) : Faded k { k with ctx := Server.resetMessage k.ctx } :=
  ⟨rfl, rfl, rfl, rfl, rfl, rfl, rfl, id, rfl, (fun h => by simp [Server.resetMessage] at h), fun h => ⟨h.1, rfl, rfl, rfl, rfl⟩⟩

theorem faded_result (k : Kid) (x : List (List Server.Action)) (r : Option Server.Result) :
    Faded k { k with ctx := { k.ctx with stack := x, result := r } } :=
  ⟨rfl, rfl, rfl, rfl, rfl, rfl, rfl, id, rfl, id, id⟩

theorem exec_fade {i : Nat} {as : List Server.Action} : ∀ {n : Nat} {u : Sys}, (∀ a ∈ as, Fading a) → fuss as ≤ n →
    u.oracle = [] → (u.kids i).linked = true →
    ∃ u', drive (dispatch n) i (Server.exec (u.kids i).ctx true as).2 (withCtx u i (Server.exec (u.kids i).ctx true as).1) =
        some (true, u') ∧ Near u u' i ∧ Faded (u.kids i) (u'.kids i) := by
  induction as with
  | nil =>
    intro n u _ _ _ _
    refine ⟨_, rfl, near_ctx _ _ _, ?_⟩
    rw [withCtx_kid]
    exact .refl _
  | cons a as ih =>
    intro n u ha hn ho hl
    have has : ∀ a ∈ as, Fading a := fun b hb => ha b (List.mem_cons_of_mem _ hb)
    -- an action that emits nothing
    have quiet : ∀ c', Server.act (u.kids i).ctx true a = Server.go c' → Faded (u.kids i) { (u.kids i) with ctx := c' } → fuss as ≤ n →
        ∃ u', drive (dispatch n) i (Server.exec (u.kids i).ctx true (a :: as)).2
            (withCtx u i (Server.exec (u.kids i).ctx true (a :: as)).1) = some (true, u') ∧ Near u u' i ∧
          Faded (u.kids i) (u'.kids i) := by
      intro c' hact hf hn
      rw [exec_go hact]
      obtain ⟨u', h1, h2, h3⟩ := ih (n := n) (u := withCtx u i c') has hn ho (by rw [withCtx_kid]; exact hl)
      rw [withCtx_ctx, withCtx_twice] at h1
      refine ⟨u', h1, (near_ctx u i c').trans h2, Faded.trans ?_ h3⟩
      rw [withCtx_kid]
      exact hf
    -- an action that emits a signal nobody is interested in
    have loud : ∀ sig after (c' : Server.State), Server.act (u.kids i).ctx true a = Server.pause (u.kids i).ctx [.emit sig] after →
        ((∃ st, sig = .stateTransited st) ∨ ∃ v r, sig = .messageProcessed v r) →
        Server.exec (u.kids i).ctx true (after ++ as) = Server.exec c' true as →
        Faded (u.kids i) { (u.kids i) with ctx := c' } → fuss as + 1 ≤ n →
        ∃ u', drive (dispatch n) i (Server.exec (u.kids i).ctx true (a :: as)).2
            (withCtx u i (Server.exec (u.kids i).ctx true (a :: as)).1) = some (true, u') ∧ Near u u' i ∧
          Faded (u.kids i) (u'.kids i) := by
      intro sig after c' hact hsig hex hf hn
      obtain ⟨m, rfl⟩ : ∃ m, n = m + 1 := ⟨n - 1, by omega⟩
      rw [exec_pause hact]
      dsimp only
      obtain ⟨u1, hu1⟩ : ∃ u1, u1 = withCtx u i { (u.kids i).ctx with stack := (after ++ as) :: (u.kids i).ctx.stack } := ⟨_, rfl⟩
      have l1 : (u1.kids i).linked = true := by rw [hu1, withCtx_kid]; exact hl
      have hs := signal_ignored (n := m) (i := i) (sig := sig) (s := u1) l1 hsig
      obtain ⟨u', h1, h2, h3⟩ := ih (n := m) (u := withCtx (logged u1 (.heard i sig)) i c') has (by omega)
        (by rw [hu1]; exact ho) (by rw [withCtx_kid]; exact l1)
      rw [withCtx_ctx, withCtx_twice] at h1
      refine ⟨u', ?_, ?_, Faded.trans ?_ h3⟩
      · rw [← hu1]
        refine drive_emit hs ?_
        rw [resume_step (by rw [hu1]; exact ho)]
        have hstep : stepCtx (dispatch m) i (.handlerReturns true) (logged u1 (.heard i sig)) = some (true, u') := by
          rw [stepCtx_eq]
          have hk : ((logged u1 (.heard i sig)).kids i).ctx =
              { (u.kids i).ctx with stack := (after ++ as) :: (u.kids i).ctx.stack } := by
            rw [hu1]; exact withCtx_ctx _ _ _
          rw [hk]
          show drive (dispatch m) i (Server.exec (u.kids i).ctx true (after ++ as)).2
            (withCtx _ i (Server.exec (u.kids i).ctx true (after ++ as)).1) = _
          rw [hex]
          exact h1
        rw [bind_eq hstep]
        rfl
      · have e1 : Near u u1 i := by rw [hu1]; exact near_ctx _ _ _
        exact ((e1.trans (near_heard u1 i sig)).trans (near_ctx _ i c')).trans h2
      · rw [withCtx_kid]
        have : (logged u1 (.heard i sig)).kids i = { (u.kids i) with ctx := { (u.kids i).ctx with
            stack := (after ++ as) :: (u.kids i).ctx.stack } } := by rw [hu1]; exact withCtx_kid _ _ _
        rw [this]
        exact hf
    rcases ha a List.mem_cons_self with rfl | rfl | rfl | rfl
    · exact quiet _ rfl (faded_abort _) hn
    · cases hr : (u.kids i).ctx.result with
      | none =>
        refine quiet (u.kids i).ctx ?_ (.refl _) (Nat.le_of_succ_le hn)
        simp [Server.act, Server.Cond.holds, hr]
      | some r =>
        refine loud (.messageProcessed (u.kids i).ctx.status (r.reported (u.kids i).ctx.state)) [.dropResult] { (u.kids i).ctx with result := none } ?_
          (.inr ⟨_, _, rfl⟩) (exec_go rfl) ?_ hn
        · simp [Server.act, Server.Cond.holds, hr]
        · exact faded_result (u.kids i) (u.kids i).ctx.stack none
    · exact quiet _ rfl (faded_reset _) hn
    · exact loud (.stateTransited .abort) [] (u.kids i).ctx rfl (.inl ⟨_, rfl⟩) rfl (.refl _) hn

theorem fading_aborts {l : List St} (h : ∀ x ∈ l, x = .abort) : (∀ a ∈ l.flatMap Server.flushActions, Fading a) ∧
    fuss (l.flatMap Server.flushActions) = 2 * l.length := by
  induction l with
  | nil => exact ⟨by simp, rfl⟩
  | cons x l ih =>
    obtain ⟨h1, h2⟩ := ih fun y hy => h y (List.mem_cons_of_mem _ hy)
    obtain rfl := h x List.mem_cons_self
    refine ⟨fun a ha => ?_, ?_⟩
    · rw [List.flatMap_cons] at ha
      rcases List.mem_append.mp ha with ha | ha
      · simp only [Server.flushActions, List.mem_cons, List.not_mem_nil, or_false] at ha
        exact ha
      · exact h1 a ha
    · rw [List.flatMap_cons]
      show fuss (Server.Action.abortFlushed :: .processed .always :: .resetMessage :: .transited .abort ::
        l.flatMap Server.flushActions) = _
      simp only [fuss, h2, List.length_cons]
      omega

/-- the packets with the aborts for milter `i` are out -/
theorem flush_aborts {n i : Nat} {u : Sys} (ho : u.oracle = []) (hl : (u.kids i).linked = true)
    (ha : ∀ x ∈ (u.kids i).ctx.nextStates, x = .abort) (hn : 2 * due u i ≤ n) :
    ∃ u', next n u (.flushed i) [] = some u' ∧ Near u u' i ∧
      Faded { (u.kids i) with ctx := { (u.kids i).ctx with nextStates := [] } } (u'.kids i) := by
  obtain ⟨f1, f2⟩ := fading_aborts ha
  obtain ⟨u0, hu0⟩ : ∃ u0, u0 = withCtx u i { (u.kids i).ctx with nextStates := [] } := ⟨_, rfl⟩
  obtain ⟨u', h1, h2, h3⟩ := exec_fade (i := i) (n := n) (u := u0) f1 (by rw [f2]; exact hn) (by rw [hu0]; exact ho)
    (by rw [hu0, withCtx_kid]; exact hl)
  rw [hu0, withCtx_ctx, withCtx_twice] at h1
  refine ⟨u', next_eq ho ?_, ?_, ?_⟩
  · rw [flushed_step ho]
    have : stepCtx (dispatch n) i (.flushed true) u = some (true, u') := by
      rw [stepCtx_eq]
      exact h1
    rw [bind_eq this]
    rfl
  · have e1 : Near u u0 i := by rw [hu0]; exact near_ctx _ _ _
    exact e1.trans h2
  · rw [hu0, withCtx_kid] at h3
    exact h3

/-! ## Coming to rest -/

/-- only aborts are on their way to the milter -/
structure Nearly (k : Kid) : Prop where
  linked : k.linked = true
  retry : k.tryRetry = none
  next : ∀ x ∈ k.ctx.nextStates, x = .abort
  due : k.ctx.nextStates.length ≤ 2
  timer : k.ctx.timer = none
  option : ∃ o, k.ctx.option = some o ∧ ∀ e cmd st, asks e = some (cmd, st) → o.step &&& Server.noReplyFlag st = 0
  fallback : isFallback k.fallback = true
  body : MsgBlank k.ctx

/-- the same but for packets with aborts that have not gone out yet -/
structure NearRest (s : Sys) : Prop where
  oracle : s.oracle = []
  pending : s.pending = none
  running : s.allExpired = false
  blank : Blank s
  milters : ∀ i < s.count, isAlive (s.kids i) = true → Nearly (s.kids i)

theorem Resting.nearly {k : Kid} (h : Resting k) : Nearly k :=
  ⟨h.linked, h.retry, (fun x hx => by rw [h.nextStates] at hx; cases hx), by rw [h.nextStates]; exact Nat.zero_le _, h.timer, h.option,
    h.fallback, h.body⟩

/-- what a turn leaves as it is -/
structure Carry (s s' : Sys) : Prop where
  frame : Frame s s'
  count : s'.count = s.count
  body : ∀ i < s.count, MsgBlank (s.kids i).ctx → MsgBlank (s'.kids i).ctx
  option : ∀ i < s.count, (s'.kids i).ctx.option = (s.kids i).ctx.option
  evaluation : ∀ i < s.count, (s'.kids i).evaluation = (s.kids i).evaluation

theorem Carry.refl (s : Sys) : Carry s s := ⟨.refl s, rfl, fun _ _ => id, fun _ _ => rfl, fun _ _ => rfl⟩

theorem Carry.trans {a b c : Sys} (h : Carry a b) (h' : Carry b c) : Carry a c :=
  ⟨h.frame.trans h'.frame, h'.count.trans h.count, fun i hi x => h'.body i (by rw [h.count]; exact hi) (h.body i hi x),
    fun i hi => (h'.option i (by rw [h.count]; exact hi)).trans (h.option i hi),
    fun i hi => (h'.evaluation i (by rw [h.count]; exact hi)).trans (h.evaluation i hi)⟩

/-- the rest goes out -/
theorem clear {n : Nat} {out : List Nat} : ∀ {s : Sys}, NearRest s → (∀ i ∈ out, i < s.count ∧ isAlive (s.kids i) = true) →
    ∃ s', run (n + 4) s (quietly (out.map .flushed)) = some s' ∧ NearRest s' ∧ Carry s s' ∧ told s'.out = told s.out ∧
      commands s'.out = commands s.out ∧
      (∀ i < s.count, isAlive (s'.kids i) = true → isAlive (s.kids i) = true ∧
        ((s.kids i).ctx.nextStates = [] → (s'.kids i).ctx.nextStates = [])) ∧
      (∀ i ∈ out, (s'.kids i).ctx.nextStates = []) ∧
      (∀ i < s.count, inMessage (s.kids i) = true → i ∉ out → inMessage (s'.kids i) = true) ∧ s'.state = s.state ∧
      ∀ i, i ∉ out → s'.kids i = s.kids i := by
  induction out with
  | nil =>
    intro s h _
    exact ⟨s, rfl, h, .refl s, rfl, rfl, fun i _ x => ⟨x, id⟩, by simp, fun _ _ x _ => x, rfl, fun _ _ => rfl⟩
  | cons i out ih =>
    intro s h hout
    obtain ⟨hi, ha⟩ := hout i List.mem_cons_self
    have hk := h.milters i hi ha
    obtain ⟨s1, r1, n1, f1⟩ := flush_aborts (n := n + 4) (i := i) (u := s) h.oracle hk.linked hk.next (by
      have := hk.due
      unfold due
      omega)
    have al1 : ∀ j, isAlive (s1.kids j) = isAlive (s.kids j) := fun j => by
      by_cases hji : j = i
      · subst hji; exact f1.alive
      · rw [n1.kids j hji]
    have near1 : NearRest s1 := by
      refine ⟨n1.oracle.trans h.oracle, n1.pending.trans h.pending, n1.frame.1.trans h.running, n1.frame.2.2.2.1 h.blank, fun j hj hja => ?_⟩
      rw [n1.count] at hj
      rw [al1] at hja
      have hkj := h.milters j hj hja
      by_cases hji : j = i
      · subst hji
        refine ⟨f1.linked.trans hkj.linked, f1.retry.trans hkj.retry, fun x hx => ?_, ?_, f1.timer hkj.timer, ?_, ?_, f1.body hkj.body⟩
        · rw [f1.next] at hx; cases hx
        · rw [f1.next]; exact Nat.zero_le _
        · rw [f1.option]; exact hkj.option
        · rw [f1.fallback]; exact hkj.fallback
      · rw [n1.kids j hji]; exact hkj
    obtain ⟨s2, r2, near2, c2, t2, m2, k2, o2, g2, st2, u2⟩ := ih (s := s1) near1 (fun j hj => by
      rw [al1, n1.count]; exact hout j (List.mem_cons_of_mem _ hj))
    have carry1 : Carry s s1 := by
      refine ⟨n1.frame, n1.count, fun j _ hb => ?_, fun j _ => ?_, fun j _ => ?_⟩
      · by_cases hji : j = i
        · subst hji; exact f1.body hb
        · rw [n1.kids j hji]; exact hb
      · by_cases hji : j = i
        · subst hji; exact f1.option
        · rw [n1.kids j hji]
      · by_cases hji : j = i
        · subst hji; exact f1.evaluation
        · rw [n1.kids j hji]
    have next1 : ∀ j, (s.kids j).ctx.nextStates = [] → (s1.kids j).ctx.nextStates = [] := fun j hj => by
      by_cases hji : j = i
      · subst hji; exact f1.next
      · rw [n1.kids j hji]; exact hj
    refine ⟨s2, ?_, near2, carry1.trans c2, t2.trans n1.told, m2.trans n1.sent, fun j hj hja => ?_, fun j hj => ?_, fun j hj hm hno => ?_,
      st2.trans n1.current, fun j hj => ?_⟩
    · simp only [quietly, List.map_cons, run, r1]
      exact r2
    · obtain ⟨x1, x2⟩ := k2 j (by rw [n1.count]; exact hj) hja
      rw [al1] at x1
      exact ⟨x1, fun e => x2 (next1 j e)⟩
    · rcases List.mem_cons.mp hj with rfl | hj
      · by_cases hjo : j ∈ out
        · exact o2 j hjo
        · rw [u2 j hjo]; exact f1.next
      · exact o2 j hj
    · have hji : j ≠ i := fun e => hno (e ▸ List.mem_cons_self)
      exact g2 j (by rw [n1.count]; exact hj) (by rw [n1.kids j hji]; exact hm) (fun x => hno (List.mem_cons_of_mem _ x))
    · rw [u2 j (fun x => hj (List.mem_cons_of_mem _ x)), n1.kids j (fun e => hj (e ▸ List.mem_cons_self))]

/-- everything is out: the manager is at rest -/
theorem cleared {n : Nat} {out : List Nat} {s : Sys} (h : NearRest s) (hc : Clears s out) :
    ∃ s', run (n + 4) s (quietly (out.map .flushed)) = some s' ∧ AtRest s' ∧ Carry s s' ∧ told s'.out = told s.out ∧
      commands s'.out = commands s.out ∧ s'.state = s.state ∧ ∀ i, i ∉ out → s'.kids i = s.kids i := by
  obtain ⟨s', r, nr, c, t, m, k, o, _, st, u⟩ := clear (n := n) h hc.alive
  refine ⟨s', r, ⟨nr.oracle, nr.pending, nr.running, nr.blank, fun i hi ha => ?_⟩, c, t, m, st, u⟩
  have hi' : i < s.count := by rw [← c.count]; exact hi
  have hk := nr.milters i hi ha
  obtain ⟨a1, a2⟩ := k i hi' ha
  refine ⟨hk.linked, hk.retry, ?_, hk.timer, hk.option, hk.fallback, hk.body⟩
  by_cases hn : (s.kids i).ctx.nextStates = []
  · exact a2 hn
  · exact o i (hc.all i hi' a1 hn)

end Phase
end Verif.Children
