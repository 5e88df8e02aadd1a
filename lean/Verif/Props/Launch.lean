import Verif.Spec.Launch
/-
Properties of the search for the milters of a session: C120 and C121.
-/
namespace Verif.Props.Launch
open Verif.Launch Verif.Spec.Launch

/-! ## Counting -/

theorem times_append (o : Out) (a b : List Out) : times o (a ++ b) = times o a + times o b := List.count_append ..

theorem times_nil (o : Out) : times o [] = 0 := rfl

theorem times_cons (o p : Out) (l : List Out) : times o (p :: l) = times o l + if p = o then 1 else 0 := by
  unfold times; rw [List.count_cons]; simp

@[simp] theorem say_tries (o : Out) (s : State) : (say o s).tries = s.tries := rfl
@[simp] theorem say_queue (o : Out) (s : State) : (say o s).queue = s.queue := rfl
@[simp] theorem say_linked (o : Out) (s : State) : (say o s).linked = s.linked := rfl
@[simp] theorem say_lazy (o : Out) (s : State) : (say o s).lazy = s.lazy := rfl
@[simp] theorem say_times (o p : Out) (s : State) :
    times o (say p s).out = times o s.out + if p = o then 1 else 0 := by
  show times o (s.out ++ [p]) = _
  rw [times_append, times_cons, times_nil, Nat.zero_add]

@[simp] theorem settle_tries (i : Nat) (s : State) : (settle i s).tries = s.tries := by
  unfold settle; dsimp only; split <;> rfl
@[simp] theorem settle_linked (i : Nat) (s : State) : (settle i s).linked = s.linked := by
  unfold settle; dsimp only; split <;> rfl
@[simp] theorem settle_lazy (i : Nat) (s : State) : (settle i s).lazy = s.lazy := by
  unfold settle; dsimp only; split <;> rfl
@[simp] theorem settle_queue (i : Nat) (s : State) : (settle i s).queue = s.queue.erase i := by
  unfold settle; dsimp only; split <;> rfl
theorem settle_times (o : Out) (i : Nat) (s : State) :
    times o (settle i s).out = times o s.out + if s.queue.erase i = [] ∧ o = .answer then 1 else 0 := by
  unfold settle; dsimp only
  split
  · rename_i h
    rw [say_times]
    by_cases ho : o = .answer
    · subst ho; rw [if_pos rfl, if_pos ⟨h, rfl⟩]
    · rw [if_neg (fun x => ho x.symm), if_neg (fun x => ho x.2)]
  · rename_i h; rw [if_neg (fun x => h x.1)]; rfl
@[simp] theorem settle_times_other {o : Out} (h : o ≠ .answer) (i : Nat) (s : State) :
    times o (settle i s).out = times o s.out := by
  rw [settle_times, if_neg (fun x => h x.2)]; rfl

@[simp] theorem expire_tries (i : Nat) (s : State) : (expire i s).tries = s.tries := rfl
@[simp] theorem expire_queue (i : Nat) (s : State) : (expire i s).queue = s.queue := rfl
@[simp] theorem expire_lazy (i : Nat) (s : State) : (expire i s).lazy = s.lazy := rfl
@[simp] theorem expire_linked (i : Nat) (s : State) (j : Nat) :
    (expire i s).linked j = if j = i then false else s.linked j := rfl
@[simp] theorem expire_times (o : Out) (i : Nat) (s : State) :
    times o (expire i s).out = times o s.out + if .gone i = o then 1 else 0 :=
  say_times o (.gone i) { s with linked := fun j => if j = i then false else s.linked j }

@[simp] theorem push_out (t : Try) (s : State) : (push t s).out = s.out := rfl
@[simp] theorem push_tries (t : Try) (s : State) : (push t s).tries = s.tries ++ [t] := rfl
@[simp] theorem push_queue (t : Try) (s : State) : (push t s).queue = s.queue := rfl
@[simp] theorem push_linked (t : Try) (s : State) : (push t s).linked = s.linked := rfl
@[simp] theorem push_lazy (t : Try) (s : State) : (push t s).lazy = s.lazy := rfl

@[simp] theorem ready_tries (i : Nat) (s : State) : (ready i s).tries = s.tries := rfl
@[simp] theorem ready_queue (i : Nat) (s : State) : (ready i s).queue = s.queue := rfl
@[simp] theorem ready_lazy (i : Nat) (s : State) : (ready i s).lazy = s.lazy := rfl
@[simp] theorem ready_linked (i : Nat) (s : State) (j : Nat) :
    (ready i s).linked j = if j = i then true else s.linked j := rfl
@[simp] theorem ready_times (o : Out) (i : Nat) (s : State) :
    times o (ready i s).out = times o s.out + if .offer i = o then 1 else 0 :=
  say_times o (.offer i) { s with linked := fun j => if j = i then true else s.linked j }

/-! ## Attempts, launches and offers -/

/-- what may still be tried for milter `i` -/
def toAttempt (c : Setup) (i : Nat) (t : Try) : Bool :=
  t.milter = i ∧ (t.timer ∨ (¬t.retry ∧ Launchable c i))
def toLaunch (c : Setup) (i : Nat) (t : Try) : Bool := t.milter = i ∧ ¬t.retry ∧ Launchable c i
def isFor (i : Nat) (t : Try) : Bool := t.milter = i

def bonus (c : Setup) (i : Nat) : Nat := if Launchable c i then 1 else 0

structure Bounded (c : Setup) (i : Nat) (s : State) (ts : List Try) : Prop where
  attempts : times (.attempt i) s.out + ts.countP (toAttempt c i) ≤ 2 + bonus c i
  launches : times (.launch i) s.out + ts.countP (toLaunch c i) ≤ 2 * bonus c i
  offers : times (.offer i) s.out + ts.countP (isFor i) ≤ 1 + bonus c i

theorem start_cases (c : Setup) (i : Nat) (w : Bool) (s : State) :
    (Launchable c i ∧ start c i w s = (true, say (.launch i) s)) ∨ (∃ s', start c i w s = (false, s') ∧
      (s' = s ∨ s' = say .error s)) := by
  unfold start
  by_cases h : Launchable c i
  · rw [if_pos (show c.privileged = true ∧ c.launcher = true ∧ c.command i = true from h)]; cases w
    · exact .inr ⟨_, rfl, .inr rfl⟩
    · exact .inl ⟨h, rfl⟩
  · rw [if_neg (show ¬(c.privileged = true ∧ c.launcher = true ∧ c.command i = true) from h)]
    exact .inr ⟨_, rfl, .inl rfl⟩

theorem bounded_ready {c : Setup} {i : Nat} {s : State} {t : Try} {rest : List Try}
    (h : Bounded c i s (s.tries ++ t :: rest)) :
    Bounded c i (ready t.milter s) ((ready t.milter s).tries ++ rest) := by
  obtain ⟨h1, h2, h3⟩ := h
  simp only [List.countP_append, List.countP_cons] at h1 h2 h3
  constructor <;> simp only [List.countP_append, ready_times, ready_tries, reduceCtorEq, if_false] <;> try omega
  by_cases hm : t.milter = i
  · simp [isFor, hm] at h3 ⊢; omega
  · simp [isFor, hm] at h3 ⊢; omega

theorem bounded_clear {c : Setup} {i : Nat} {s : State} {t : Try} {rest : List Try}
    (h : Bounded c i s (s.tries ++ t :: rest)) :
    Bounded c i (clear t.milter s) ((clear t.milter s).tries ++ rest) := by
  obtain ⟨h1, h2, h3⟩ := h
  simp only [List.countP_append, List.countP_cons] at h1 h2 h3
  constructor <;> simp [clear] <;> omega

theorem bounded_error {c : Setup} {i : Nat} {s : State} {ts : List Try} (h : Bounded c i s ts) :
    Bounded c i (say .error s) ts := by
  obtain ⟨h1, h2, h3⟩ := h
  constructor <;> simpa

theorem bounded_failed {c : Setup} {i : Nat} {own w : Bool} {s : State} {t : Try} {rest : List Try}
    (h : Bounded c i s (s.tries ++ t :: rest)) :
    Bounded c i (failed c own w t s) ((failed c own w t s).tries ++ rest) := by
  unfold failed
  split
  · exact bounded_clear (bounded_error h)
  · rename_i hr
    rcases start_cases c t.milter w s with ⟨hl, he⟩ | ⟨s', he, hs⟩
    · rw [he]
      dsimp only
      obtain ⟨h1, h2, h3⟩ := h
      simp only [List.countP_append, List.countP_cons] at h1 h2 h3
      have hnr : t.retry = false := by simpa using fun x => hr (.inr x)
      by_cases hm : t.milter = i
      · subst hm
        constructor <;> simp [toAttempt, toLaunch, isFor, hnr, hl] at h1 h2 h3 ⊢ <;> omega
      · constructor <;> simp [toAttempt, toLaunch, isFor, hnr, hm] at h1 h2 h3 ⊢ <;> omega
    · rw [he]
      dsimp only
      rcases hs with hs | hs <;> subst hs
      · exact bounded_clear h
      · exact bounded_clear (bounded_error h)

theorem bounded_fold {c : Setup} {i : Nat} {f : Try → State → State}
    (hf : ∀ s t rest, Bounded c i s (s.tries ++ t :: rest) → Bounded c i (f t s) ((f t s).tries ++ rest)) :
    ∀ (mine : List Try) (s : State), Bounded c i s (s.tries ++ mine) →
      Bounded c i (mine.foldl (fun s t => f t s) s) (mine.foldl (fun s t => f t s) s).tries := by
  intro mine
  induction mine with
  | nil => intro s h; simpa using h
  | cons t rest ih => intro s h; exact ih _ (hf _ _ _ h)

theorem countP_partition (p q : Try → Bool) (l : List Try) :
    (l.filter (fun t => !q t) ++ l.filter q).countP p = l.countP p := by
  induction l with
  | nil => rfl
  | cons t l ih =>
    rw [List.countP_append] at ih ⊢
    cases hq : q t <;> simp [hq, List.countP_cons] <;> omega

theorem bounded_signal {c : Setup} {i j : Nat} {f : Try → State → State}
    (hf : ∀ s t rest, Bounded c i s (s.tries ++ t :: rest) → Bounded c i (f t s) ((f t s).tries ++ rest))
    {s : State} (h : Bounded c i s s.tries) : Bounded c i (signal j f s) (signal j f s).tries := by
  unfold signal
  dsimp only
  refine bounded_fold hf _ _ ?_
  have e : (s.tries.filter fun t => decide (t.milter ≠ j)) = s.tries.filter fun t => !decide (t.milter = j) := by
    congr 1; funext t; by_cases ht : t.milter = j <;> simp [ht]
  obtain ⟨h1, h2, h3⟩ := h
  constructor <;> dsimp only <;> rw [e, countP_partition] <;> assumption

theorem bounded_establish {c : Setup} {i j : Nat} {ok : Bool} {s : State}
    (h1 : times (.attempt i) s.out + (if j = i then 1 else 0) + s.tries.countP (toAttempt c i) ≤ 2 + bonus c i)
    (h2 : times (.launch i) s.out + s.tries.countP (toLaunch c i) ≤ 2 * bonus c i)
    (h3 : times (.offer i) s.out + (if j = i then 1 else 0) + s.tries.countP (isFor i) ≤ 1 + bonus c i) :
    Bounded c i (establish j true ok s) (establish j true ok s).tries := by
  unfold establish
  cases ok
  · simp only [Bool.false_eq_true, if_false, if_true]
    constructor <;> simp <;> omega
  · simp only [if_true]
    by_cases hj : j = i
    · subst hj
      simp at h1 h3
      constructor <;> simp [toAttempt, toLaunch, isFor] at h1 h2 h3 ⊢ <;> omega
    · simp [hj] at h1 h3
      constructor <;> simp [toAttempt, toLaunch, isFor, hj] at h1 h2 h3 ⊢ <;> omega

theorem countP_eraseIdx {p : Try → Bool} {l : List Try} {k : Nat} {t : Try} (h : l[k]? = some t) :
    (l.eraseIdx k).countP p + (if p t then 1 else 0) = l.countP p := by
  induction l generalizing k with
  | nil => simp at h
  | cons a l ih =>
    cases k with
    | zero => simp at h; subst h; simp [List.countP_cons]
    | succ k => simp at h; have := ih h; simp [List.countP_cons]; omega

theorem bounded_step {c : Setup} {i : Nat} {s : State} (e : Event) (h : Bounded c i s s.tries) :
    Bounded c i (step c s e) (step c s e).tries := by
  cases e with
  | idle =>
    unfold step; dsimp only
    split
    · obtain ⟨h1, h2, h3⟩ := h
      refine ⟨?_, ?_, ?_⟩ <;> rw [say_times] <;> simpa
    · exact h
  | timer k ok =>
    unfold step; dsimp only
    cases ht : s.tries[k]? with
    | none => exact h
    | some t =>
      dsimp only
      split
      · rename_i htimer
        obtain ⟨h1, h2, h3⟩ := h
        rw [← countP_eraseIdx ht] at h1 h2 h3
        by_cases hm : t.milter = i
        · simp [toAttempt, isFor, htimer, hm] at h1 h3
          apply bounded_establish <;> simp [hm] <;> first | omega | (simp [toLaunch] at h2 ⊢; omega)
        · simp [toAttempt, isFor, toLaunch, htimer, hm] at h1 h2 h3
          apply bounded_establish <;> simp [hm] <;> first | omega | (simp [toLaunch] at h2 ⊢; omega)
      · exact h
  | ready j => exact bounded_signal (fun _ _ _ h => bounded_ready h) h
  | failed j own w => exact bounded_signal (fun _ _ _ h => bounded_failed h) h
  | timeout j => exact bounded_signal (fun _ _ _ h => bounded_clear h) h
  | accepts j =>
    unfold step; dsimp only
    split
    · obtain ⟨h1, h2, h3⟩ := h
      constructor <;> simp <;> omega
    · exact h
  | leaves j =>
    unfold step; dsimp only
    split
    · obtain ⟨h1, h2, h3⟩ := h
      constructor <;> simp <;> omega
    · exact h

/-- one round of the loop over the milters -/
def open1 (c : Setup) (results : Nat → Bool × Bool) (i : Nat) (s : State) : State :=
  let s := establish i false (results i).1 s
  if (results i).1 then s
  else
    match start c i (results i).2 s with
    | (true, s) => push ⟨i, false, true⟩ s
    | (false, s) => s

theorem establishAll_eq (c : Setup) (results : Nat → Bool × Bool) (l : List Nat) (s : State) :
    establishAll c results l s = l.foldl (fun s i => open1 c results i s) s := by
  induction l generalizing s with
  | nil => rfl
  | cons i l ih => unfold establishAll; rw [ih]; rfl

/-- what a round does to milter `i` -/
theorem open1_effect (c : Setup) (results : Nat → Bool × Bool) (i : Nat) (s : State) :
    ∃ (ts : List Try) (l : List Out), (open1 c results i s).tries = s.tries ++ ts ∧
      (open1 c results i s).out = s.out ++ .attempt i :: l ∧
      (open1 c results i s).queue = s.queue ∧ (open1 c results i s).linked = s.linked ∧
      (((results i).1 = true ∧ ts = [⟨i, false, false⟩] ∧ l = []) ∨
       ((results i).1 = false ∧ ts = [⟨i, true, true⟩] ∧ (l = [.error] ∨ l = [.error, .error])) ∨
       ((results i).1 = false ∧ Launchable c i ∧ ts = [⟨i, true, true⟩, ⟨i, false, true⟩] ∧ l = [.error, .launch i])) := by
  unfold open1 establish
  cases hr : (results i).1
  · simp only [Bool.false_eq_true, if_false]
    rcases start_cases c i (results i).2 (push ⟨i, true, true⟩ (say .error (say (.attempt i) s))) with ⟨hl, he⟩ | ⟨s', he, hs⟩
    · rw [he]
      exact ⟨[⟨i, true, true⟩, ⟨i, false, true⟩], [.error, .launch i], by simp, by simp [say, push], rfl, rfl,
        .inr (.inr ⟨trivial, hl, rfl, rfl⟩)⟩
    · rw [he]
      dsimp only
      rcases hs with hs | hs <;> subst hs
      · exact ⟨[⟨i, true, true⟩], [.error], by simp, by simp [say, push], rfl, rfl, .inr (.inl ⟨trivial, rfl, .inl rfl⟩)⟩
      · exact ⟨[⟨i, true, true⟩], [.error, .error], by simp, by simp [say, push], rfl, rfl, .inr (.inl ⟨trivial, rfl, .inr rfl⟩)⟩
  · simp only [if_true]
    exact ⟨[⟨i, false, false⟩], [], by simp, by simp [say, push], rfl, rfl, .inl ⟨trivial, rfl, rfl⟩⟩

theorem open1_times {c : Setup} {results : Nat → Bool × Bool} {i : Nat} {s : State} {o : Out}
    (h1 : o ≠ .attempt i) (h2 : o ≠ .launch i) (h3 : o ≠ .error) :
    times o (open1 c results i s).out = times o s.out := by
  obtain ⟨ts, l, -, ho, -, -, hl⟩ := open1_effect c results i s
  rw [ho, times_append, times_cons, if_neg (fun x => h1 x.symm)]
  rcases hl with ⟨-, -, rfl⟩ | ⟨-, -, rfl | rfl⟩ | ⟨-, -, -, rfl⟩ <;>
    simp [times_cons, times_nil, Ne.symm h2, Ne.symm h3]

theorem bounded_negotiate (c : Setup) (results : Nat → Bool × Bool) (i : Nat) :
    Bounded c i (negotiate c results) (negotiate c results).tries := by
  unfold negotiate
  split
  · exact ⟨by simp [times_nil], by simp [times_nil], by simp [times_nil]⟩
  rw [establishAll_eq]
  -- milter `i` is untouched by the rounds of the others
  have other : ∀ (l : List Nat) (s : State), i ∉ l →
      let s' := l.foldl (fun s i => open1 c results i s) s
      times (.attempt i) s'.out = times (.attempt i) s.out ∧ times (.launch i) s'.out = times (.launch i) s.out ∧
      times (.offer i) s'.out = times (.offer i) s.out ∧
      ∀ p : Try → Bool, (∀ t, t.milter ≠ i → p t = false) → s'.tries.countP p = s.tries.countP p := by
    intro l
    induction l with
    | nil => intro s _; exact ⟨rfl, rfl, rfl, fun _ _ => rfl⟩
    | cons j l ih =>
      intro s hi
      have hij : i ≠ j := fun x => hi (by rw [x]; exact List.mem_cons_self ..)
      have hil : i ∉ l := fun x => hi (List.mem_cons_of_mem _ x)
      obtain ⟨a1, a2, a3, a4⟩ := ih (open1 c results j s) hil
      refine ⟨a1.trans ?_, a2.trans ?_, a3.trans ?_, fun p hp => (a4 p hp).trans ?_⟩
      · exact open1_times (by simp [hij]) (by simp) (by simp)
      · exact open1_times (by simp) (by simp [hij]) (by simp)
      · exact open1_times (by simp) (by simp) (by simp)
      · obtain ⟨ts, l', ht, -, -, -, hl⟩ := open1_effect c results j s
        rw [ht, List.countP_append]
        rcases hl with ⟨-, rfl, -⟩ | ⟨-, rfl, -⟩ | ⟨-, -, rfl, -⟩ <;>
          simp [List.countP_cons, hp ⟨j, false, false⟩ (Ne.symm hij), hp ⟨j, true, true⟩ (Ne.symm hij), hp ⟨j, false, true⟩ (Ne.symm hij)]
  by_cases hi : i < c.count
  · obtain ⟨a, b, hab⟩ := List.append_of_mem (List.mem_range.mpr hi)
    have hnd : (a ++ i :: b).Nodup := hab ▸ List.nodup_range
    have ha : i ∉ a := by
      intro x; rw [List.nodup_append] at hnd
      exact hnd.2.2 i x i (List.mem_cons_self ..) rfl
    have hb : i ∉ b := by
      intro x; rw [List.nodup_append] at hnd
      exact (List.nodup_cons.mp hnd.2.1).1 x
    have hfold : (List.range c.count).foldl (fun s i => open1 c results i s) { queue := List.range c.count } =
        b.foldl (fun s i => open1 c results i s) (open1 c results i
          (a.foldl (fun s i => open1 c results i s) { queue := List.range c.count })) := by
      conv => lhs; rw [show (List.range c.count) = a ++ i :: b from hab]
      rw [List.foldl_append, List.foldl_cons, ← hab]
    rw [hfold]
    obtain ⟨a1, a2, a3, a4⟩ := other a { queue := List.range c.count } ha
    generalize a.foldl (fun s i => open1 c results i s) { queue := List.range c.count } = s1 at *
    obtain ⟨b1, b2, b3, b4⟩ := other b (open1 c results i s1) hb
    generalize b.foldl (fun s i => open1 c results i s) (open1 c results i s1) = s2 at *
    obtain ⟨ts, l', ht, ho, -, -, hl⟩ := open1_effect c results i s1
    have p1 : ∀ t : Try, t.milter ≠ i → toAttempt c i t = false := fun t h => by simp [toAttempt, h]
    have p2 : ∀ t : Try, t.milter ≠ i → toLaunch c i t = false := fun t h => by simp [toLaunch, h]
    have p3 : ∀ t : Try, t.milter ≠ i → isFor i t = false := fun t h => by simp [isFor, h]
    simp only [times_nil, List.countP_nil] at a1 a2 a3 a4
    rw [ho] at b1 b2 b3
    simp only [times_append, times_cons, a1, a2, a3] at b1 b2 b3
    rw [ht] at b4
    have q1 := b4 _ p1
    have q2 := b4 _ p2
    have q3 := b4 _ p3
    simp only [List.countP_append, a4 _ p1, a4 _ p2, a4 _ p3] at q1 q2 q3
    refine ⟨?_, ?_, ?_⟩
    · rw [b1, q1]
      by_cases hla : Launchable c i <;> rcases hl with ⟨-, rfl, rfl⟩ | ⟨-, rfl, rfl | rfl⟩ | ⟨-, hla', rfl, rfl⟩ <;>
        simp [times_cons, times_nil, toAttempt, hla, bonus] <;> contradiction
    · rw [b2, q2]
      by_cases hla : Launchable c i <;> rcases hl with ⟨-, rfl, rfl⟩ | ⟨-, rfl, rfl | rfl⟩ | ⟨-, hla', rfl, rfl⟩ <;>
        simp [times_cons, times_nil, toLaunch, hla, bonus] <;> contradiction
    · rw [b3, q3]
      by_cases hla : Launchable c i <;> rcases hl with ⟨-, rfl, rfl⟩ | ⟨-, rfl, rfl | rfl⟩ | ⟨-, hla', rfl, rfl⟩ <;>
        simp [times_cons, times_nil, isFor, hla, bonus] <;> contradiction
  · have : i ∉ List.range c.count := fun x => hi (List.mem_range.mp x)
    obtain ⟨a1, a2, a3, a4⟩ := other _ { queue := List.range c.count } this
    refine ⟨?_, ?_, ?_⟩
    · rw [a1, a4 _ fun t h => by simp [toAttempt, h]]; simp [times_nil]
    · rw [a2, a4 _ fun t h => by simp [toLaunch, h]]; simp [times_nil]
    · rw [a3, a4 _ fun t h => by simp [isFor, h]]; simp [times_nil]

theorem bounded_run (c : Setup) (results : Nat → Bool × Bool) (i : Nat) (es : List Event) :
    Bounded c i (run c results es) (run c results es).tries := by
  unfold run
  generalize hs : negotiate c results = s
  have h : Bounded c i s s.tries := hs ▸ bounded_negotiate c results i
  clear hs
  induction es generalizing s with
  | nil => exact h
  | cons e es ih => exact ih (step c s e) (bounded_step e h)

/-- **C120** (partial).  However the connections to the milters of a session go, a milter is tried at
most twice, never launched and given the offer at most once; a milter that the manager may launch
is tried at most three times, launched at most twice and given the offer at most twice. -/
theorem C120_partial (c : Setup) (results : Nat → Bool × Bool) (es : List Event) (i : Nat) :
    let log := (run c results es).out
    (Launchable c i → times (.attempt i) log ≤ 3 ∧ times (.launch i) log ≤ 2 ∧ times (.offer i) log ≤ 2) ∧
    (¬Launchable c i → times (.attempt i) log ≤ 2 ∧ times (.launch i) log = 0 ∧ times (.offer i) log ≤ 1) := by
  obtain ⟨h1, h2, h3⟩ := bounded_run c results i es
  constructor <;> intro hl <;> simp only [bonus, hl, if_true, if_false] at h1 h2 h3 <;>
    refine ⟨?_, ?_, ?_⟩ <;> omega

/-! ## Decisions and the answer to the MTA -/

/-- nothing is decided -/
structure Neutral (s s' : State) : Prop where
  queue : s'.queue = s.queue
  answer : times .answer s'.out = times .answer s.out
  decisions : ∀ j, decisions j s'.out = decisions j s.out

/-- it is decided what milter `i` has to do with the session -/
structure Decides (i : Nat) (s s' : State) : Prop where
  queue : s'.queue = s.queue.erase i
  answer : times .answer s'.out = times .answer s.out + if s.queue.erase i = [] then 1 else 0
  decisions : ∀ j, decisions j s'.out = decisions j s.out + if j = i then 1 else 0

/-- any number of decisions about milters of the session -/
inductive Path (c : Setup) : State → State → Prop where
  | neutral {s s' : State} : Neutral s s' → Path c s s'
  | decide {s s' s'' : State} {i : Nat} : i < c.count → Decides i s s' → Path c s' s'' → Path c s s''

theorem Neutral.refl (s : State) : Neutral s s := ⟨rfl, rfl, fun _ => rfl⟩
theorem Neutral.trans {s t u : State} (h : Neutral s t) (h' : Neutral t u) : Neutral s u :=
  ⟨h'.queue.trans h.queue, h'.answer.trans h.answer, fun j => (h'.decisions j).trans (h.decisions j)⟩
theorem Neutral.decides {s t u : State} {i : Nat} (h : Neutral s t) (h' : Decides i t u) : Decides i s u :=
  ⟨by rw [h'.queue, h.queue], by rw [h'.answer, h.answer, h.queue], fun j => by rw [h'.decisions, h.decisions]⟩
theorem Path.before {c : Setup} {s t u : State} (h : Neutral s t) (h' : Path c t u) : Path c s u := by
  cases h' with
  | neutral n => exact .neutral (h.trans n)
  | decide hi d p => exact .decide hi (h.decides d) p
theorem Path.trans {c : Setup} {s t u : State} (h : Path c s t) (h' : Path c t u) : Path c s u := by
  induction h with
  | neutral n => exact h'.before n
  | decide hi d _ ih => exact .decide hi d (ih h')
theorem Path.one {c : Setup} {s t : State} {i : Nat} (hi : i < c.count) (h : Decides i s t) : Path c s t :=
  .decide hi h (.neutral (.refl t))

theorem decisions_eq (j : Nat) (l : List Out) : Spec.Launch.decisions j l = times (.accepted j) l + times (.gone j) l := rfl

theorem neutral_say {o : Out} (s : State) (h1 : o ≠ .answer) (h2 : ∀ j, o ≠ .accepted j) (h3 : ∀ j, o ≠ .gone j) :
    Neutral s (say o s) := by
  refine ⟨rfl, ?_, fun j => ?_⟩
  · rw [say_times, if_neg h1]; rfl
  · rw [decisions_eq, decisions_eq, say_times, say_times, if_neg (h2 j), if_neg (h3 j)]; rfl

theorem neutral_push (t : Try) (s : State) : Neutral s (push t s) := ⟨rfl, rfl, fun _ => rfl⟩

theorem neutral_tries (s : State) (ts : List Try) : Neutral s { s with tries := ts } := ⟨rfl, rfl, fun _ => rfl⟩

theorem neutral_ready (i : Nat) (s : State) : Neutral s (ready i s) :=
  ⟨rfl, by simp, fun j => by simp [decisions_eq]⟩

theorem decides_clear (i : Nat) (s : State) : Decides i s (clear i s) := by
  refine ⟨by simp [clear], ?_, fun j => ?_⟩
  · simp only [clear, expire_times, settle_times, reduceCtorEq, if_false, and_true, Nat.add_zero]
  · simp only [decisions_eq, clear, expire_times, reduceCtorEq, if_false, Out.gone.injEq, @eq_comm _ i j]
    rw [settle_times_other (by simp), settle_times_other (by simp)]
    omega

theorem decides_accepts (i : Nat) (s : State) : Decides i s (settle i (say (.accepted i) s)) := by
  refine ⟨by simp, ?_, fun j => ?_⟩
  · simp [settle_times]
  · simp only [decisions_eq]
    rw [settle_times_other (by simp), settle_times_other (by simp)]
    simp only [say_times, reduceCtorEq, if_false, Out.accepted.injEq, @eq_comm _ i j]
    omega

theorem decides_leaves (i : Nat) (s : State) : Decides i s (settle i (expire i s)) := by
  refine ⟨by simp, ?_, fun j => ?_⟩
  · simp [settle_times]
  · simp only [decisions_eq]
    rw [settle_times_other (by simp), settle_times_other (by simp)]
    simp only [expire_times, reduceCtorEq, if_false, Out.gone.injEq, @eq_comm _ i j]
    omega

/-- only milters of the session are tried and listened to -/
structure Valid (c : Setup) (s : State) (ts : List Try) : Prop where
  tries : ∀ t ∈ ts, t.milter < c.count
  linked : ∀ i, s.linked i = true → i < c.count

theorem failed_path {c : Setup} {own w : Bool} {t : Try} (s : State) (h : t.milter < c.count) :
    Path c s (failed c own w t s) := by
  unfold failed
  split
  · exact .one h ((neutral_say s (by simp) (by simp) (by simp)).decides (decides_clear ..))
  · rcases start_cases c t.milter w s with ⟨hl, he⟩ | ⟨s', he, hs⟩
    · rw [he]
      exact .neutral ((neutral_say s (by simp) (by simp) (by simp)).trans (neutral_push ..))
    · rw [he]
      dsimp only
      rcases hs with hs | hs <;> subst hs
      · exact .one h (decides_clear ..)
      · exact .one h ((neutral_say s (by simp) (by simp) (by simp)).decides (decides_clear ..))

theorem failed_valid {c : Setup} {own w : Bool} {t : Try} {s : State} {rest : List Try}
    (h : Valid c s (s.tries ++ t :: rest)) : Valid c (failed c own w t s) ((failed c own w t s).tries ++ rest) := by
  have ht : t.milter < c.count := h.tries t (by simp)
  have hr : ∀ u ∈ s.tries ++ rest, u.milter < c.count := fun u hu => h.tries u (by
    rcases List.mem_append.mp hu with hu | hu
    · exact List.mem_append_left _ hu
    · exact List.mem_append_right _ (List.mem_cons_of_mem _ hu))
  have hlk : ∀ j, (if j = t.milter then false else s.linked j) = true → j < c.count := fun j hj => by
    split at hj
    · cases hj
    · exact h.linked j hj
  unfold failed
  split
  · exact ⟨by simpa [clear] using hr, fun j hj => hlk j (by simpa [clear] using hj)⟩
  · rcases start_cases c t.milter w s with ⟨hl, he⟩ | ⟨s', he, hs⟩
    · rw [he]
      refine ⟨fun u hu => ?_, fun j hj => h.linked j hj⟩
      simp only [push_tries, say_tries, List.append_assoc, List.singleton_append, List.mem_append, List.mem_cons] at hu
      rcases hu with hu | hu | hu
      · exact hr u (List.mem_append_left _ hu)
      · subst hu; exact ht
      · exact hr u (List.mem_append_right _ hu)
    · rw [he]
      dsimp only
      rcases hs with hs | hs <;> subst hs
      · exact ⟨by simpa [clear] using hr, fun j hj => hlk j (by simpa [clear] using hj)⟩
      · exact ⟨by simpa [clear] using hr, fun j hj => hlk j (by simpa [clear] using hj)⟩

theorem ready_valid {c : Setup} {t : Try} {s : State} {rest : List Try}
    (h : Valid c s (s.tries ++ t :: rest)) : Valid c (ready t.milter s) ((ready t.milter s).tries ++ rest) := by
  refine ⟨fun u hu => h.tries u ?_, fun j hj => ?_⟩
  · rcases List.mem_append.mp hu with hu | hu
    · exact List.mem_append_left _ hu
    · exact List.mem_append_right _ (List.mem_cons_of_mem _ hu)
  · rw [ready_linked] at hj
    split at hj
    · rename_i hjt; subst hjt; exact h.tries t (by simp)
    · exact h.linked j hj

theorem clear_valid {c : Setup} {t : Try} {s : State} {rest : List Try}
    (h : Valid c s (s.tries ++ t :: rest)) : Valid c (clear t.milter s) ((clear t.milter s).tries ++ rest) := by
  refine ⟨fun u hu => h.tries u ?_, fun j hj => ?_⟩
  · simp only [clear, expire_tries, settle_tries] at hu
    rcases List.mem_append.mp hu with hu | hu
    · exact List.mem_append_left _ hu
    · exact List.mem_append_right _ (List.mem_cons_of_mem _ hu)
  · simp only [clear, expire_linked, settle_linked] at hj
    split at hj
    · cases hj
    · exact h.linked j hj

theorem fold_path {c : Setup} {f : Try → State → State}
    (hv : ∀ s t rest, Valid c s (s.tries ++ t :: rest) → Valid c (f t s) ((f t s).tries ++ rest))
    (hp : ∀ s t, t.milter < c.count → Path c s (f t s)) :
    ∀ (mine : List Try) (s : State), Valid c s (s.tries ++ mine) →
      Valid c (mine.foldl (fun s t => f t s) s) (mine.foldl (fun s t => f t s) s).tries ∧
      Path c s (mine.foldl (fun s t => f t s) s) := by
  intro mine
  induction mine with
  | nil => intro s h; exact ⟨by simpa using h, .neutral (.refl s)⟩
  | cons t rest ih =>
    intro s h
    obtain ⟨h1, h2⟩ := ih (f t s) (hv _ _ _ h)
    exact ⟨h1, (hp s t (h.tries t (by simp))).trans h2⟩

theorem signal_path {c : Setup} {f : Try → State → State} {j : Nat} {s : State}
    (hv : ∀ s t rest, Valid c s (s.tries ++ t :: rest) → Valid c (f t s) ((f t s).tries ++ rest))
    (hp : ∀ s t, t.milter < c.count → Path c s (f t s)) (h : Valid c s s.tries) :
    Valid c (signal j f s) (signal j f s).tries ∧ Path c s (signal j f s) := by
  unfold signal
  dsimp only
  obtain ⟨h1, h2⟩ := fold_path hv hp (s.tries.filter fun t => decide (t.milter = j))
    { s with tries := s.tries.filter fun t => decide (t.milter ≠ j) } ⟨fun t ht => by
      rcases List.mem_append.mp ht with ht | ht
      · exact h.tries t (List.mem_filter.mp ht).1
      · exact h.tries t (List.mem_filter.mp ht).1, h.linked⟩
  exact ⟨h1, Path.before (neutral_tries s _) h2⟩

theorem establish_path {c : Setup} {j : Nat} {ok : Bool} {s : State} (hj : j < c.count) (h : Valid c s s.tries) :
    Valid c (establish j true ok s) (establish j true ok s).tries ∧ Path c s (establish j true ok s) := by
  unfold establish
  cases ok
  · simp only [Bool.false_eq_true, if_false, if_true]
    refine ⟨⟨by simpa using h.tries, fun i hi => ?_⟩, .one hj (Neutral.decides ?_ (decides_clear j _))⟩
    · simp only [expire_linked, settle_linked, say_linked] at hi
      split at hi
      · cases hi
      · exact h.linked i hi
    · exact (neutral_say s (by simp) (by simp) (by simp)).trans (neutral_say _ (by simp) (by simp) (by simp))
  · simp only [if_true]
    refine ⟨⟨fun t ht => ?_, h.linked⟩, .neutral ((neutral_say s (by simp) (by simp) (by simp)).trans (neutral_push ..))⟩
    simp only [push_tries, say_tries, List.mem_append, List.mem_singleton] at ht
    rcases ht with ht | ht
    · exact h.tries t ht
    · subst ht; exact hj

theorem step_path {c : Setup} {s : State} (e : Event) (hl : s.lazy = false) (h : Valid c s s.tries) :
    Valid c (step c s e) (step c s e).tries ∧ Path c s (step c s e) := by
  cases e with
  | idle => unfold step; dsimp only; rw [hl]; exact ⟨h, .neutral (.refl s)⟩
  | timer k ok =>
    unfold step; dsimp only
    cases ht : s.tries[k]? with
    | none => exact ⟨h, .neutral (.refl s)⟩
    | some t =>
      dsimp only
      split
      · have hm : t ∈ s.tries := List.mem_of_getElem? ht
        obtain ⟨h1, h2⟩ := establish_path (ok := ok) (s := { s with tries := s.tries.eraseIdx k }) (h.tries t hm)
          ⟨fun u hu => h.tries u (List.mem_of_mem_eraseIdx hu), h.linked⟩
        exact ⟨h1, Path.before (neutral_tries s _) h2⟩
      · exact ⟨h, .neutral (.refl s)⟩
  | ready j => exact signal_path (fun _ _ _ h => ready_valid h) (fun s t _ => .neutral (neutral_ready t.milter s)) h
  | failed j own w => exact signal_path (fun _ _ _ h => failed_valid h) (fun s t ht => failed_path s ht) h
  | timeout j => exact signal_path (fun _ _ _ h => clear_valid h) (fun s t ht => .one ht (decides_clear t.milter s)) h
  | accepts j =>
    unfold step; dsimp only
    split
    · rename_i hj
      exact ⟨⟨by simpa using h.tries, fun i hi => h.linked i (by simpa using hi)⟩, .one (h.linked j hj) (decides_accepts ..)⟩
    · exact ⟨h, .neutral (.refl s)⟩
  | leaves j =>
    unfold step; dsimp only
    split
    · rename_i hj
      refine ⟨⟨by simpa using h.tries, fun i hi => ?_⟩, .one (h.linked j hj) (decides_leaves ..)⟩
      simp only [settle_linked, expire_linked] at hi
      split at hi
      · cases hi
      · exact h.linked i hi
    · exact ⟨h, .neutral (.refl s)⟩

theorem failed_lazy (c : Setup) (own w : Bool) (t : Try) (s : State) : (failed c own w t s).lazy = s.lazy := by
  unfold failed
  split
  · simp [clear]
  · rcases start_cases c t.milter w s with ⟨hl, he⟩ | ⟨s', he, hs⟩
    · rw [he]; rfl
    · rw [he]; rcases hs with hs | hs <;> subst hs <;> simp [clear]

theorem signal_lazy {f : Try → State → State} (hf : ∀ t s, (f t s).lazy = s.lazy) (j : Nat) (s : State) :
    (signal j f s).lazy = s.lazy := by
  unfold signal; dsimp only
  generalize s.tries.filter (fun t => decide (t.milter = j)) = mine
  have : ∀ (mine : List Try) (u : State), (mine.foldl (fun s t => f t s) u).lazy = u.lazy := by
    intro mine
    induction mine with
    | nil => intro u; rfl
    | cons t rest ih => intro u; exact (ih (f t u)).trans (hf t u)
  exact this mine _

theorem step_lazy {c : Setup} {s : State} (e : Event) (hl : s.lazy = false) : (step c s e).lazy = false := by
  cases e with
  | idle => unfold step; dsimp only; rw [hl]; exact hl
  | timer k ok =>
    unfold step; dsimp only
    cases ht : s.tries[k]? with
    | none => exact hl
    | some t =>
      dsimp only
      split
      · unfold establish; cases ok <;> simp [hl]
      · exact hl
  | ready j => exact (signal_lazy (f := fun t => ready t.milter) (fun _ _ => rfl) j s).trans hl
  | failed j own w => exact (signal_lazy (failed_lazy c own w) j s).trans hl
  | timeout j => exact (signal_lazy (fun t u => by simp [clear]) j s).trans hl
  | accepts j => unfold step; dsimp only; split <;> simp [hl]
  | leaves j => unfold step; dsimp only; split <;> simp [hl]

/-- the queue holds those about whom nothing is decided; the MTA is answered when it is empty -/
structure Counted (c : Setup) (s : State) : Prop where
  nodup : s.queue.Nodup
  queue : ∀ i, i ∈ s.queue ↔ i < c.count ∧ decisions i s.out = 0
  answered : 0 < times .answer s.out ↔ s.queue = []
  once : (∀ i, decisions i s.out ≤ 1) → times .answer s.out ≤ 1

theorem counted_decides {c : Setup} {i : Nat} {s s' : State} (hi : i < c.count) (h : Counted c s) (d : Decides i s s') :
    Counted c s' := by
  refine ⟨?_, fun j => ?_, ?_, fun hone => ?_⟩
  · rw [d.queue]; exact h.nodup.erase i
  · rw [d.queue, h.nodup.mem_erase_iff, h.queue, d.decisions]
    by_cases hj : j = i
    · simp [hj]
    · simp [hj]
  · rw [d.answer, d.queue]
    by_cases hq : s.queue.erase i = []
    · simp [hq]
    · simp only [hq, if_false, Nat.add_zero, iff_false]
      intro ha
      exact hq (by rw [h.answered.mp ha]; rfl)
  · have h0 : decisions i s.out = 0 := by
      have := hone i; rw [d.decisions, if_pos rfl] at this; omega
    have hm : i ∈ s.queue := (h.queue i).mpr ⟨hi, h0⟩
    have : times .answer s.out = 0 := by
      rcases Nat.eq_zero_or_pos (times .answer s.out) with x | x
      · exact x
      · rw [h.answered.mp x] at hm; cases hm
    rw [d.answer, this]; split <;> omega

theorem counted_path {c : Setup} {s s' : State} (p : Path c s s') (h : Counted c s) : Counted c s' := by
  induction p with
  | neutral n =>
    exact ⟨by rw [n.queue]; exact h.nodup, fun i => by rw [n.queue, n.decisions]; exact h.queue i,
      by rw [n.answer, n.queue]; exact h.answered, fun hd => by
        rw [n.answer]; exact h.once fun i => by rw [← n.decisions]; exact hd i⟩
  | decide hi d _ ih => exact ih (counted_decides hi h d)

theorem negotiate_start {c : Setup} (results : Nat → Bool × Bool) (hc : 0 < c.count) :
    Valid c (negotiate c results) (negotiate c results).tries ∧ Counted c (negotiate c results) ∧
    (negotiate c results).lazy = false ∧ (negotiate c results).linked = fun _ => false := by
  unfold negotiate
  rw [if_neg (by omega), establishAll_eq]
  have key : ∀ (l : List Nat) (s : State), (∀ i ∈ l, i < c.count) → Valid c s s.tries → s.lazy = false → (s.linked = fun _ => false) →
      let s' := l.foldl (fun s i => open1 c results i s) s
      Valid c s' s'.tries ∧ Neutral s s' ∧ s'.lazy = false ∧ s'.linked = fun _ => false := by
    intro l
    induction l with
    | nil => intro s _ hv hl hk; exact ⟨hv, .refl s, hl, hk⟩
    | cons i l ih =>
      intro s hi hv hl hk
      obtain ⟨ts, l', ht, ho, hq, hlk, hc'⟩ := open1_effect c results i s
      have hlz : (open1 c results i s).lazy = s.lazy := by
        unfold open1 establish
        cases (results i).1
        · simp only [Bool.false_eq_true, if_false]
          rcases start_cases c i (results i).2 (push ⟨i, true, true⟩ (say .error (say (.attempt i) s))) with ⟨-, he⟩ | ⟨s', he, hs⟩
          · rw [he]; rfl
          · rw [he]; rcases hs with hs | hs <;> subst hs <;> rfl
        · rfl
      have hval : Valid c (open1 c results i s) (open1 c results i s).tries := by
        refine ⟨fun t h => ?_, fun j hj => hv.linked j (hlk ▸ hj)⟩
        rw [ht] at h
        rcases List.mem_append.mp h with h | h
        · exact hv.tries t h
        · have : t.milter = i := by
            rcases hc' with ⟨-, rfl, -⟩ | ⟨-, rfl, -⟩ | ⟨-, -, rfl, -⟩ <;> simp at h
            · rw [h]
            · rw [h]
            · rcases h with h | h <;> rw [h]
          rw [this]; exact hi i (List.mem_cons_self ..)
      have hn : Neutral s (open1 c results i s) :=
        ⟨hq, open1_times (by simp) (by simp) (by simp), fun j => by
          rw [decisions_eq, decisions_eq, open1_times (by simp) (by simp) (by simp), open1_times (by simp) (by simp) (by simp)]⟩
      obtain ⟨a1, a2, a3, a4⟩ := ih (open1 c results i s) (fun j hj => hi j (List.mem_cons_of_mem _ hj)) hval (hlz.trans hl) (hlk.trans hk)
      exact ⟨a1, hn.trans a2, a3, a4⟩
  obtain ⟨a1, a2, a3, a4⟩ := key (List.range c.count) { queue := List.range c.count } (fun i => List.mem_range.mp)
    ⟨fun t h => by simp at h, fun i h => by simp at h⟩ rfl rfl
  refine ⟨a1, counted_path (.neutral a2) ⟨List.nodup_range, fun i => ?_, ?_, fun _ => by simp [times_nil]⟩, a3, a4⟩
  · simp [decisions_eq, times_nil]
  · simp [times_nil]; omega

theorem run_counted {c : Setup} (results : Nat → Bool × Bool) (hc : 0 < c.count) (es : List Event) :
    Counted c (run c results es) ∧ Valid c (run c results es) (run c results es).tries := by
  obtain ⟨h1, h2, h3, -⟩ := negotiate_start results hc
  unfold run
  generalize negotiate c results = s at *
  induction es generalizing s with
  | nil => exact ⟨h2, h1⟩
  | cons e es ih =>
    obtain ⟨v, p⟩ := step_path e h3 h1
    exact ih _ v (counted_path p h2) (step_lazy e h3)

theorem decisions_zero (i : Nat) (log : List Out) : decisions i log = 0 ↔ ¬Decided i log := by
  unfold decisions Decided times
  rw [Nat.add_eq_zero_iff, List.count_eq_zero, List.count_eq_zero, not_or]

/-- **C121** (partial).  With milters, the MTA is answered as soon as every milter answered the offer
or was given up, and not before; and it is answered once if about each milter it was decided only
once. -/
theorem C121_partial {c : Setup} (results : Nat → Bool × Bool) (hc : 0 < c.count) (es : List Event) :
    let log := (run c results es).out
    (.answer ∈ log ↔ ∀ i < c.count, Decided i log) ∧
    ((∀ i, decisions i log ≤ 1) → times .answer log ≤ 1) := by
  obtain ⟨h, -⟩ := run_counted results hc es
  refine ⟨?_, h.once⟩
  rw [show (Out.answer ∈ (run c results es).out) ↔ 0 < times .answer (run c results es).out from
    List.count_pos_iff.symm, h.answered]
  constructor
  · intro hq i hi
    exact Classical.byContradiction fun hn =>
      absurd ((h.queue i).mpr ⟨hi, (decisions_zero _ _).mpr hn⟩) (by rw [hq]; exact List.not_mem_nil)
  · intro hd
    refine List.eq_nil_iff_forall_not_mem.mpr fun i hi => ?_
    obtain ⟨hc, h0⟩ := (h.queue i).mp hi
    exact (decisions_zero _ _).mp h0 (hd i hc)

end Verif.Props.Launch
