import Mathlib.Data.List.Basic
import Mathlib.Data.List.Nodup
import Verif.Spec.SessionResult
/-!
C155: the results of sessions.
-/
namespace Verif.Props.SessionResult

open Verif.Core.SessionResult Verif.Spec.SessionResult

/-! ### References -/

theorem removeLoop_count (m : Nat) (l : List Nat) :
    (∀ x, ((removeLoop m l).1.count x : Int)
      = l.count x - (if x = m then (removeLoop m l).2 else 0)) := by
  induction l with
  | nil => intro x; by_cases h : x = m <;> simp [removeLoop, h]
  | cons a l ih =>
    intro x
    unfold removeLoop
    by_cases h : a = m
    · subst h
      rw [if_pos rfl]
      by_cases k : x = a
      · subst k; simp
      · simp only [if_neg k, List.count_cons_of_ne (fun e => k e.symm), Int.sub_zero]
    · rw [if_neg h]
      have := ih x
      by_cases k : x = a
      · subst k
        rw [if_neg h] at this ⊢
        simp only [List.count_cons_self]
        omega
      · simp only [List.count_cons_of_ne (fun e => k e.symm)]
        exact this

theorem disposed_refs (l : List Nat) (r : Nat → Int) (x : Nat) :
    l.foldl (fun r m => addRefs r m (-1)) r x = r x - l.count x := by
  induction l generalizing r with
  | nil => simp
  | cons a l ih =>
    rw [List.foldl_cons, ih]
    by_cases k : x = a
    · subst k; simp only [addRefs, if_true, List.count_cons_self]; omega
    · simp only [addRefs, if_neg k, List.count_cons_of_ne (fun e => k e.symm)]

/-- The references held are those of the list. -/
def Held (s : State) : Prop := ∀ m, s.refs m = s.messages.count m

theorem add_held {s : State} (h : Held s) (m : Nat) : Held (add s m) := by
  intro x
  show addRefs s.refs m 1 x = _
  by_cases k : x = m
  · subst k; simp [addRefs, h x, add]
  · have : ¬ m = x := fun e => k e.symm
    simp [addRefs, h x, add, k, List.count_singleton, this]

theorem adds_held (l : List Nat) {s : State} (h : Held s) : Held (l.foldl add s) := by
  induction l generalizing s with
  | nil => exact h
  | cons m l ih => exact ih (add_held h m)

theorem dispose_held {s : State} (h : Held s) : Held (disposeMessages s) := by
  intro x
  show s.messages.foldl (fun r m => addRefs r m (-1)) s.refs x = _
  rw [disposed_refs, h x]
  simp [disposeMessages]

theorem remove_held {s : State} (h : Held s) (m : Nat) : Held (remove s m) := by
  intro x
  have := removeLoop_count m s.messages x
  show addRefs s.refs m (-(removeLoop m s.messages).2) x = ((removeLoop m s.messages).1.count x : Int)
  rw [this]
  by_cases k : x = m
  · rw [if_pos k]; simp only [addRefs, if_pos k, h x]; omega
  · rw [if_neg k]; simp only [addRefs, if_neg k, h x]; omega

theorem own_eq {s s' : State} (e : step s .setOwn = some s') : s = s' := by
  change (if s.messages = [] then some s else none) = some s' at e
  split at e
  · exact Option.some.inj e
  · exact (nomatch e)

theorem step_held {s s' : State} {o : Op} (h : Held s) (e : step s o = some s') : Held s' := by
  cases o with
  | start t => cases e; exact h
  | stop t =>
    cases e
    unfold stopAt
    dsimp only
    split
    · exact h
    · exact h
  | setStart t => cases e; exact h
  | setEnd t => cases e; exact h
  | setElapsed t => cases e; exact h
  | setDisconnected t => cases e; exact h
  | add m => cases e; exact add_held h m
  | remove m => cases e; exact remove_held h m
  | setMessages l => cases e; exact adds_held l (dispose_held h)
  | setOwn =>
    cases own_eq e; exact h

theorem run_held {s s' : State} {os : List Op} (h : Held s) (e : run s os = some s') : Held s' := by
  induction os generalizing s with
  | nil => cases e; exact h
  | cons o os ih =>
    unfold run at e
    cases k : step s o with
    | none => rw [k] at e; exact (nomatch e)
    | some t => rw [k] at e; exact ih (step_held h k) e

/-! ### Messages -/

theorem removeLoop_filter {m : Nat} {l : List Nat} (h : l.Nodup) :
    (removeLoop m l).1 = l.filter (· ≠ m) := by
  induction l with
  | nil => rfl
  | cons a l ih =>
    have hn := List.nodup_cons.1 h
    unfold removeLoop
    by_cases k : a = m
    · subst k
      rw [if_pos rfl]
      simp only [ne_eq, not_true_eq_false, decide_false, Bool.false_eq_true, not_false_eq_true,
        List.filter_cons_of_neg]
      symm
      exact List.filter_eq_self.2 fun x hx => by
        simp only [decide_eq_true_eq]
        intro e; subst e; exact hn.1 hx
    · rw [if_neg k, List.filter_cons_of_pos (by simpa using k)]
      show a :: _ = _
      rw [ih hn.2]

theorem adds_messages (l : List Nat) (s : State) :
    (l.foldl add s).messages = s.messages ++ l := by
  induction l generalizing s with
  | nil => simp
  | cons m l ih => rw [List.foldl_cons, ih]; simp [add]

theorem step_messages {s s' : State} {o : Op} (hn : s.messages.Nodup) (e : step s o = some s') :
    s'.messages = after s.messages o := by
  cases o with
  | start t => cases e; rfl
  | stop t =>
    cases e
    unfold stopAt
    dsimp only
    split <;> rfl
  | setStart t => cases e; rfl
  | setEnd t => cases e; rfl
  | setElapsed t => cases e; rfl
  | setDisconnected t => cases e; rfl
  | add m => cases e; rfl
  | remove m => cases e; exact removeLoop_filter hn
  | setMessages l =>
    cases e
    exact adds_messages l _
  | setOwn =>
    cases own_eq e; rfl

theorem run_append (s : State) (a b : List Op) :
    run s (a ++ b) = (run s a).bind fun s => run s b := by
  induction a generalizing s with
  | nil => rfl
  | cons o a ih =>
    show (step s o).bind (fun s => run s (a ++ b)) = ((step s o).bind fun s => run s a).bind _
    cases step s o with
    | none => rfl
    | some t => exact ih t

theorem run_messages (t : List Op) : ∀ (h : List Op) (s s' : State),
    (∀ a b, t = a ++ b → (messages (h ++ a)).Nodup) → s.messages = messages h →
    run s t = some s' → s'.messages = messages (h ++ t) := by
  induction t with
  | nil => intro h s s' _ hs e; cases e; rw [List.append_nil]; exact hs
  | cons o t ih =>
    intro h s s' hn hs e
    unfold run at e
    cases k : step s o with
    | none => rw [k] at e; exact (nomatch e)
    | some u =>
      rw [k] at e
      have h0 : s.messages.Nodup := by
        have := hn [] (o :: t) rfl
        rw [List.append_nil] at this
        rw [hs]; exact this
      have hu : u.messages = messages (h ++ [o]) := by
        rw [step_messages h0 k, hs]
        simp [messages, List.foldl_append]
      have := ih (h ++ [o]) u s' (fun a b eab => by
        have := hn (o :: a) b (by rw [eab]; rfl)
        rw [List.append_assoc]
        exact this) hu e
      rw [this, List.append_assoc]; rfl

theorem run_some (s : State) (os : List Op) (h : Op.setOwn ∉ os) : ∃ s', run s os = some s' := by
  induction os generalizing s with
  | nil => exact ⟨s, rfl⟩
  | cons o os ih =>
    have h1 : o ≠ .setOwn := fun e => h (e ▸ List.mem_cons_self)
    have h2 : Op.setOwn ∉ os := fun e => h (List.mem_cons_of_mem _ e)
    unfold run
    have : ∃ t, step s o = some t := by
      cases o with
      | setOwn => exact absurd rfl h1
      | _ => exact ⟨_, rfl⟩
    obtain ⟨t, ht⟩ := this
    rw [ht]
    exact ih t h2

/-! ### Times -/

theorem adds_time (l : List Nat) (s : State) :
    (l.foldl add s).elapsed = s.elapsed ∧ (l.foldl add s).elapsedSet = s.elapsedSet ∧
      (l.foldl add s).start = s.start ∧ (l.foldl add s).stop = s.stop := by
  induction l generalizing s with
  | nil => exact ⟨rfl, rfl, rfl, rfl⟩
  | cons m l ih => exact ih (add s m)

theorem step_time {s s' : State} {o : Op} (h : Timeless o) (e : step s o = some s') :
    s'.elapsed = s.elapsed ∧ s'.elapsedSet = s.elapsedSet ∧ s'.start = s.start ∧ s'.stop = s.stop := by
  cases o with
  | start _ | stop _ | setStart _ | setEnd _ | setElapsed _ => exact h.elim
  | setDisconnected _ => cases e; exact ⟨rfl, rfl, rfl, rfl⟩
  | add _ => cases e; exact ⟨rfl, rfl, rfl, rfl⟩
  | remove _ => cases e; exact ⟨rfl, rfl, rfl, rfl⟩
  | setMessages l => cases e; exact adds_time l _
  | setOwn =>
    cases own_eq e; exact ⟨rfl, rfl, rfl, rfl⟩

theorem run_time {s s' : State} {os : List Op} (h : ∀ o ∈ os, Timeless o)
    (e : run s os = some s') :
    s'.elapsed = s.elapsed ∧ s'.elapsedSet = s.elapsedSet ∧ s'.start = s.start ∧ s'.stop = s.stop := by
  induction os generalizing s with
  | nil => cases e; exact ⟨rfl, rfl, rfl, rfl⟩
  | cons o os ih =>
    unfold run at e
    cases k : step s o with
    | none => rw [k] at e; exact (nomatch e)
    | some t =>
      rw [k] at e
      obtain ⟨a, b, c, d⟩ := ih (fun o ho => h o (List.mem_cons_of_mem _ ho)) e
      obtain ⟨a', b', c', d'⟩ := step_time (h o List.mem_cons_self) k
      exact ⟨a.trans a', b.trans b', c.trans c', d.trans d'⟩

/-- C155, for histories in which the object's own list is not given to it: nothing freed is
used; if no message result is added while it is there, the message results are those added and
not removed since, in this order; at each moment, each of them is held by as many references as
it is times in the list; the time of a session is what was between its start and its stop,
whatever is done with the messages in between and afterwards, whatever happened before. -/
theorem C155_partial :
    (∀ os, Op.setOwn ∉ os → ∃ s, run {} os = some s ∧ (Once os → s.messages = messages os)) ∧
    (∀ os s, run {} os = some s → ∀ m, s.refs m = s.messages.count m) ∧
    (∀ (before during afterwards : List Op) (t0 t1 : Time) (s : State), 0 < t0.sec →
      (∀ o ∈ during, Timeless o) → (∀ o ∈ afterwards, Timeless o) →
      run {} (before ++ .start t0 :: during ++ .stop t1 :: afterwards) = some s →
      getElapsed s = (t1.sec - t0.sec) * 1000000 + (t1.usec - t0.usec)) ∧
    (∀ (before afterwards : List Op) (e : Int) (s : State), (∀ o ∈ afterwards, Timeless o) →
      run {} (before ++ .setElapsed e :: afterwards) = some s → getElapsed s = e) := by
  refine ⟨?_, ?_, ?_, ?_⟩
  · intro os h
    obtain ⟨s, hs⟩ := run_some {} os h
    refine ⟨s, hs, fun ho => ?_⟩
    exact run_messages os [] {} s (fun a b e => ho a b e) rfl hs
  · intro os s e m
    exact run_held (s := {}) (fun _ => rfl) e m
  · intro before during afterwards t0 t1 s h0 hd ha e
    rw [List.append_assoc, run_append] at e
    cases kb : run {} before with
    | none => rw [kb] at e; exact (nomatch e)
    | some b =>
      rw [kb] at e
      change run { b with start := t0 } (during ++ .stop t1 :: afterwards) = some s at e
      rw [run_append] at e
      cases kd : run { b with start := t0 } during with
      | none => rw [kd] at e; exact (nomatch e)
      | some u =>
        rw [kd] at e
        change run (stopAt u t1) afterwards = some s at e
        have hu := (run_time hd kd).2.2.1
        obtain ⟨e1, e2, _, _⟩ := run_time ha e
        have hs : stopAt u t1 = setElapsed { u with stop := t1 } (computeElapsed t0 t1) := by
          unfold stopAt
          dsimp only
          rw [hu]
          exact if_pos h0
        rw [hs] at e1 e2
        unfold getElapsed
        rw [e2, e1]
        rfl
  · intro before afterwards x s ha e
    rw [run_append] at e
    cases kb : run {} before with
    | none => rw [kb] at e; exact (nomatch e)
    | some b =>
      rw [kb] at e
      change run (setElapsed b x) afterwards = some s at e
      obtain ⟨e1, e2, _, _⟩ := run_time ha e
      unfold getElapsed
      rw [e2, e1]
      rfl

/-- `Once` as a test. -/
theorem once_of {os : List Op} (h : ∀ n ≤ os.length, (messages (os.take n)).Nodup) : Once os := by
  rintro a b rfl
  have := h a.length (by simp)
  rwa [List.take_left'] at this
  rfl

/-- Two messages, one of which is taken out, in a session of a second and a half. -/
example : ((run {} [.start ⟨100, 500000⟩, .add 1, .add 2, .remove 1, .stop ⟨102, 0⟩]).map fun s =>
      (s.messages, s.refs 1, s.refs 2, getElapsed s)) = some ([2], 0, 1, 1500000) ∧
    (Op.setOwn ∉ [.start ⟨100, 500000⟩, .add 1, .add 2, .remove 1, .stop ⟨102, 0⟩]) ∧
    messages [.start ⟨100, 500000⟩, .add 1, .add 2, .remove 1, .stop ⟨102, 0⟩] = [2] ∧
    Once [.start ⟨100, 500000⟩, .add 1, .add 2, .remove 1, .stop ⟨102, 0⟩] :=
  ⟨by decide +kernel, by decide +kernel, by decide +kernel, once_of (by decide +kernel)⟩

/-- C155 is violated: a message result that was added twice is still there after it was
removed. -/
theorem C155_twice_violated :
    (run {} [.add 1, .add 1, .remove 1]).map (·.messages) = some [1] ∧
    messages [.add 1, .add 1, .remove 1] = [] := by decide +kernel

/-- C155 is violated: giving the object what it has returned uses freed memory, whenever there is
a message result. -/
theorem C155_own_violated (os : List Op) (s : State) (h : run {} os = some s)
    (hm : s.messages ≠ []) : run {} (os ++ [.setOwn]) = none := by
  rw [run_append, h]
  show run s [.setOwn] = none
  unfold run step
  rw [if_neg hm]
  rfl

end Verif.Props.SessionResult
