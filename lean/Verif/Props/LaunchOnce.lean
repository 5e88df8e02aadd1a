import Verif.Props.Launch
import Verif.Props.ChildrenFailure
import Verif.Spec.Chain
/-
More about the search for the milters of a session: who is still waited for, and what holds if
nothing is launched (C120, C121).
-/
namespace Verif.Props.Launch
open Verif.Launch Verif.Spec.Launch

/-! ## Nobody is forgotten -/

/-- milter `i` is decided about, still tried, or listened to -/
def Followed (i : Nat) (s : State) (ts : List Try) : Prop :=
  0 < decisions i s.out ∨ (∃ t ∈ ts, t.milter = i) ∨ s.linked i = true

theorem followed_clear {i : Nat} {s : State} {t : Try} {rest : List Try} (h : Followed i s (s.tries ++ t :: rest)) :
    Followed i (clear t.milter s) ((clear t.milter s).tries ++ rest) := by
  have hd := (decides_clear t.milter s).decisions i
  by_cases hi : i = t.milter
  · left; rw [hd, if_pos hi]; omega
  · rcases h with h | ⟨u, hu, hm⟩ | h
    · left; rw [hd]; omega
    · right; left
      refine ⟨u, ?_, hm⟩
      simp only [clear, expire_tries, settle_tries]
      rcases List.mem_append.mp hu with hu | hu
      · exact List.mem_append_left _ hu
      · rcases List.mem_cons.mp hu with hu | hu
        · subst hu; exact absurd hm.symm hi
        · exact List.mem_append_right _ hu
    · right; right; simp [clear, hi, h]

theorem followed_ready {i : Nat} {s : State} {t : Try} {rest : List Try} (h : Followed i s (s.tries ++ t :: rest)) :
    Followed i (ready t.milter s) ((ready t.milter s).tries ++ rest) := by
  have hd := (neutral_ready t.milter s).decisions i
  by_cases hi : i = t.milter
  · right; right; rw [ready_linked, if_pos hi]
  · rcases h with h | ⟨u, hu, hm⟩ | h
    · left; rw [hd]; exact h
    · right; left
      refine ⟨u, ?_, hm⟩
      rcases List.mem_append.mp hu with hu | hu
      · exact List.mem_append_left _ hu
      · rcases List.mem_cons.mp hu with hu | hu
        · subst hu; exact absurd hm.symm hi
        · exact List.mem_append_right _ hu
    · right; right; rw [ready_linked, if_neg hi]; exact h

theorem followed_error {i : Nat} {s : State} {ts : List Try} (h : Followed i s ts) : Followed i (say .error s) ts := by
  have hd := (neutral_say (o := .error) s (by simp) (by simp) (by simp)).decisions i
  rcases h with h | h | h
  · left; rw [hd]; exact h
  · exact .inr (.inl h)
  · exact .inr (.inr h)

theorem followed_failed {c : Setup} {own w : Bool} {i : Nat} {s : State} {t : Try} {rest : List Try}
    (h : Followed i s (s.tries ++ t :: rest)) : Followed i (failed c own w t s) ((failed c own w t s).tries ++ rest) := by
  unfold failed
  split
  · exact followed_clear (followed_error h)
  · rcases start_cases c t.milter w s with ⟨hl, he⟩ | ⟨s', he, hs⟩
    · rw [he]
      dsimp only
      have hd := (neutral_say (o := .launch t.milter) s (by simp) (by simp) (by simp)).decisions i
      rcases h with h | ⟨u, hu, hm⟩ | h
      · left; show 0 < decisions i (say (.launch t.milter) s).out; rw [hd]; exact h
      · right; left
        rcases List.mem_append.mp hu with hu | hu
        · exact ⟨u, by simp [hu], hm⟩
        · rcases List.mem_cons.mp hu with hu | hu
          · subst hu; exact ⟨⟨u.milter, true, true⟩, by simp, hm⟩
          · exact ⟨u, by simp [hu], hm⟩
      · exact .inr (.inr h)
    · rw [he]
      dsimp only
      rcases hs with hs | hs <;> subst hs
      · exact followed_clear h
      · exact followed_clear (followed_error h)

theorem followed_signal {i j : Nat} {f : Try → State → State}
    (hf : ∀ s t rest, Followed i s (s.tries ++ t :: rest) → Followed i (f t s) ((f t s).tries ++ rest))
    {s : State} (h : Followed i s s.tries) : Followed i (signal j f s) (signal j f s).tries := by
  unfold signal
  dsimp only
  have fold : ∀ (mine : List Try) (u : State), Followed i u (u.tries ++ mine) →
      Followed i (mine.foldl (fun s t => f t s) u) (mine.foldl (fun s t => f t s) u).tries := by
    intro mine
    induction mine with
    | nil => intro u h; simpa using h
    | cons t rest ih => intro u h; exact ih _ (hf _ _ _ h)
  refine fold _ _ ?_
  rcases h with h | ⟨u, hu, hm⟩ | h
  · exact .inl h
  · right; left
    refine ⟨u, ?_, hm⟩
    by_cases hj : u.milter = j
    · exact List.mem_append_right _ (List.mem_filter.mpr ⟨hu, by simpa using hj⟩)
    · exact List.mem_append_left _ (List.mem_filter.mpr ⟨hu, by simpa using hj⟩)
  · exact .inr (.inr h)

theorem mem_eraseIdx_or {l : List Try} {k : Nat} {t u : Try} (ht : l[k]? = some t) (hu : u ∈ l) : u = t ∨ u ∈ l.eraseIdx k := by
  induction l generalizing k with
  | nil => cases hu
  | cons a l ih =>
    cases k with
    | zero =>
      simp at ht; subst ht
      rcases List.mem_cons.mp hu with hu | hu
      · exact .inl hu
      · exact .inr hu
    | succ k =>
      simp at ht
      rcases List.mem_cons.mp hu with hu | hu
      · exact .inr (by simp [hu])
      · rcases ih ht hu with h | h
        · exact .inl h
        · exact .inr (List.mem_cons_of_mem _ h)

theorem followed_step {c : Setup} {i : Nat} {s : State} (e : Event) (hl : s.lazy = false) (h : Followed i s s.tries) :
    Followed i (step c s e) (step c s e).tries := by
  cases e with
  | idle => unfold step; dsimp only; rw [hl]; exact h
  | timer k ok =>
    unfold step; dsimp only
    cases ht : s.tries[k]? with
    | none => exact h
    | some t =>
      dsimp only
      split
      · have here : t.milter = i →
            Followed i (establish t.milter true ok { s with tries := s.tries.eraseIdx k })
              (establish t.milter true ok { s with tries := s.tries.eraseIdx k }).tries := by
          intro hm
          unfold establish
          cases ok
          · simp only [Bool.false_eq_true, if_false, if_true]
            left
            have := (decides_clear t.milter (say .error (say (.attempt t.milter) { s with tries := s.tries.eraseIdx k }))).decisions i
            unfold clear at this
            rw [this, if_pos hm.symm]; omega
          · right; left; exact ⟨⟨t.milter, true, false⟩, by simp, hm⟩
        by_cases hm : t.milter = i
        · exact here hm
        · have hn : decisions i (establish t.milter true ok { s with tries := s.tries.eraseIdx k }).out = decisions i s.out ∧
              (establish t.milter true ok { s with tries := s.tries.eraseIdx k }).linked i = s.linked i ∧
              (∀ u ∈ s.tries.eraseIdx k, u ∈ (establish t.milter true ok { s with tries := s.tries.eraseIdx k }).tries) := by
            unfold establish
            cases ok
            · simp only [Bool.false_eq_true, if_false, if_true]
              refine ⟨?_, by simp [Ne.symm hm], fun u hu => by simpa using hu⟩
              simp [decisions_eq, hm]
            · simp only [if_true]
              exact ⟨by simp [decisions_eq], rfl, fun u hu => by simp [hu]⟩
          rcases h with h | ⟨u, hu, hu'⟩ | h
          · left; rw [hn.1]; exact h
          · rcases mem_eraseIdx_or ht hu with h | h
            · exact absurd (h ▸ hu') hm
            · exact .inr (.inl ⟨u, hn.2.2 u h, hu'⟩)
          · right; right; rw [hn.2.1]; exact h
      · exact h
  | ready j => exact followed_signal (fun _ _ _ h => followed_ready h) h
  | failed j own w => exact followed_signal (fun _ _ _ h => followed_failed h) h
  | timeout j => exact followed_signal (fun _ _ _ h => followed_clear h) h
  | accepts j =>
    unfold step; dsimp only
    split
    · have hd := (decides_accepts j s).decisions i
      rcases h with h | h | h
      · left; rw [hd]; omega
      · right; left; simpa using h
      · right; right; simpa using h
    · exact h
  | leaves j =>
    unfold step; dsimp only
    split
    · have hd := (decides_leaves j s).decisions i
      by_cases hi : i = j
      · left; rw [hd, if_pos hi]; omega
      · rcases h with h | h | h
        · left; rw [hd]; omega
        · right; left; simpa using h
        · right; right; simp [hi, h]
    · exact h

theorem negotiate_tried {c : Setup} (results : Nat → Bool × Bool) {i : Nat} (hi : i < c.count) :
    (∃ t ∈ (negotiate c results).tries, t.milter = i ∧ ((results i).1 = false → t.timer = true ∧ t.retry = true)) ∧
      times (.attempt i) (negotiate c results).out = 1 := by
  unfold negotiate
  rw [if_neg (by omega), establishAll_eq]
  have key : ∀ (l : List Nat) (s : State), l.Nodup →
      let s' := l.foldl (fun s i => open1 c results i s) s
      (∀ t ∈ s.tries, t ∈ s'.tries) ∧
      (i ∈ l → ∃ t ∈ s'.tries, t.milter = i ∧ ((results i).1 = false → t.timer = true ∧ t.retry = true)) ∧
      times (.attempt i) s'.out = times (.attempt i) s.out + if i ∈ l then 1 else 0 := by
    intro l
    induction l with
    | nil => intro s _; exact ⟨fun t h => h, fun h => by simp at h, by simp⟩
    | cons j l ih =>
      intro s hnd
      obtain ⟨hj, hnd⟩ := List.nodup_cons.mp hnd
      obtain ⟨ts, l', ht, ho, -, -, hc⟩ := open1_effect c results j s
      obtain ⟨a1, a2, a3⟩ := ih (open1 c results j s) hnd
      refine ⟨fun t h => a1 t (by rw [ht]; exact List.mem_append_left _ h), fun h => ?_, ?_⟩
      · rcases List.mem_cons.mp h with h | h
        · subst h
          rcases hc with ⟨hr, rfl, -⟩ | ⟨-, rfl, -⟩ | ⟨-, -, rfl, -⟩
          · exact ⟨⟨i, false, false⟩, a1 _ (by rw [ht]; simp), rfl, fun x => by rw [hr] at x; cases x⟩
          · exact ⟨⟨i, true, true⟩, a1 _ (by rw [ht]; simp), rfl, fun _ => ⟨rfl, rfl⟩⟩
          · exact ⟨⟨i, true, true⟩, a1 _ (by rw [ht]; simp), rfl, fun _ => ⟨rfl, rfl⟩⟩
        · exact a2 h
      · show times (.attempt i) (l.foldl (fun s i => open1 c results i s) (open1 c results j s)).out = _
        rw [a3, ho, times_append, times_cons]
        have hl0 : times (.attempt i) l' = 0 := by
          rcases hc with ⟨-, -, rfl⟩ | ⟨-, -, rfl | rfl⟩ | ⟨-, -, -, rfl⟩ <;> simp [times_cons, times_nil]
        rw [hl0]
        by_cases hij : i = j
        · subst hij; simp [hj]
        · simp [hij, Ne.symm hij]
  obtain ⟨-, a2, a3⟩ := key (List.range c.count) { queue := List.range c.count } List.nodup_range
  refine ⟨a2 (List.mem_range.mpr hi), ?_⟩
  rw [a3, if_pos (List.mem_range.mpr hi)]; simp [times_nil]

/-- **C121**: as long as the MTA waits for the answer, there is somebody to wait for: every milter
that neither answered nor was given up is being connected to, has a timer for the next attempt
running, or has the offer. -/
theorem C121_waiting {c : Setup} (results : Nat → Bool × Bool) (es : List Event) {i : Nat} (hi : i < c.count) :
    let s := run c results es
    Decided i s.out ∨ (∃ t ∈ s.tries, t.milter = i) ∨ s.linked i = true := by
  have hc : 0 < c.count := by omega
  obtain ⟨-, -, h3, -⟩ := negotiate_start results hc
  have h : Followed i (negotiate c results) (negotiate c results).tries := by
    obtain ⟨t, ht, hm, -⟩ := (negotiate_tried results hi).1
    exact .inr (.inl ⟨t, ht, hm⟩)
  have : Followed i (run c results es) (run c results es).tries := by
    unfold run
    generalize negotiate c results = s at *
    induction es generalizing s with
    | nil => exact h
    | cons e es ih => exact ih _ (step_lazy e h3) (followed_step e h3 h)
  rcases this with h | h
  · refine .inl (Classical.byContradiction fun hn => ?_)
    rw [(decisions_zero _ _).mpr hn] at h; omega
  · exact .inr h

/-! ## Another attempt -/

theorem timer_again {c : Setup} {i : Nat} {s : State} (e : Event) (hq : onConnection i e = false)
    (h1 : 1 ≤ times (.attempt i) s.out)
    (h : times (.attempt i) s.out = 1 → ∃ t ∈ s.tries, t.milter = i ∧ t.timer = true) :
    1 ≤ times (.attempt i) (step c s e).out ∧
    (times (.attempt i) (step c s e).out = 1 → ∃ t ∈ (step c s e).tries, t.milter = i ∧ t.timer = true) := by
  have keep : ∀ s' : State, times (.attempt i) s'.out = times (.attempt i) s.out →
      (∀ t ∈ s.tries, t.milter = i → t ∈ s'.tries) →
      1 ≤ times (.attempt i) s'.out ∧ (times (.attempt i) s'.out = 1 → ∃ t ∈ s'.tries, t.milter = i ∧ t.timer = true) := by
    intro s' ho hk
    refine ⟨by omega, fun hx => ?_⟩
    obtain ⟨t, ht, hm, htm⟩ := h (by omega)
    exact ⟨t, hk t ht hm, hm, htm⟩
  have sig : ∀ (j : Nat) (f : Try → State → State), j ≠ i →
      (∀ t u, times (.attempt i) (f t u).out = times (.attempt i) u.out) → (∀ t u, ∀ x ∈ u.tries, x ∈ (f t u).tries) →
      times (.attempt i) (signal j f s).out = times (.attempt i) s.out ∧ (∀ t ∈ s.tries, t.milter = i → t ∈ (signal j f s).tries) := by
    intro j f hj h1 h2
    have fold : ∀ (mine : List Try) (u : State),
        times (.attempt i) (mine.foldl (fun s t => f t s) u).out = times (.attempt i) u.out ∧
        ∀ x ∈ u.tries, x ∈ (mine.foldl (fun s t => f t s) u).tries := by
      intro mine
      induction mine with
      | nil => intro u; exact ⟨rfl, fun x h => h⟩
      | cons t rest ih =>
        intro u
        obtain ⟨a, b⟩ := ih (f t u)
        exact ⟨a.trans (h1 t u), fun x hx => b x (h2 t u x hx)⟩
    unfold signal
    obtain ⟨a, b⟩ := fold (s.tries.filter fun t => decide (t.milter = j)) { s with tries := s.tries.filter fun t => decide (t.milter ≠ j) }
    exact ⟨a, fun t ht hm => b t (List.mem_filter.mpr ⟨ht, by rw [hm]; simpa using Ne.symm hj⟩)⟩
  cases e with
  | idle =>
    apply keep
    · unfold step; dsimp only; split
      · rw [say_times]; simp
      · rfl
    · intro t ht _; unfold step; dsimp only; split <;> exact ht
  | timer k ok =>
    unfold step; dsimp only
    cases ht : s.tries[k]? with
    | none => exact ⟨h1, h⟩
    | some t =>
      dsimp only
      split
      · have ho : times (.attempt i) (establish t.milter true ok { s with tries := s.tries.eraseIdx k }).out =
            times (.attempt i) s.out + if t.milter = i then 1 else 0 := by
          unfold establish
          cases ok <;> simp
        by_cases hm : t.milter = i
        · rw [if_pos hm] at ho
          exact ⟨by omega, fun hx => by omega⟩
        · apply keep
          · rw [ho, if_neg hm]; rfl
          · intro u hu hum
            rcases mem_eraseIdx_or ht hu with h | h
            · exact absurd (h ▸ hum) hm
            · unfold establish; cases ok <;> simp [h]
      · exact ⟨h1, h⟩
  | ready j =>
    have hj : j ≠ i := by simpa [onConnection] using hq
    obtain ⟨a, b⟩ := sig j (fun t => ready t.milter) hj (fun t u => by simp) (fun t u x hx => by simpa using hx)
    exact keep _ a b
  | failed j own w =>
    have hj : j ≠ i := by simpa [onConnection] using hq
    have hf : ∀ t u, times (.attempt i) (failed c own w t u).out = times (.attempt i) u.out ∧ ∀ x ∈ u.tries, x ∈ (failed c own w t u).tries := by
      intro t u
      unfold failed
      split
      · exact ⟨by simp [clear], fun x hx => by simpa [clear] using hx⟩
      · rcases start_cases c t.milter w u with ⟨hl, he⟩ | ⟨s', he, hs⟩
        · rw [he]; exact ⟨by simp, fun x hx => by simp [hx]⟩
        · rw [he]; rcases hs with hs | hs <;> subst hs
          · exact ⟨by simp [clear], fun x hx => by simpa [clear] using hx⟩
          · exact ⟨by simp [clear], fun x hx => by simpa [clear] using hx⟩
    obtain ⟨a, b⟩ := sig j (failed c own w) hj (fun t u => (hf t u).1) (fun t u => (hf t u).2)
    exact keep _ a b
  | timeout j =>
    have hj : j ≠ i := by simpa [onConnection] using hq
    obtain ⟨a, b⟩ := sig j (fun t => clear t.milter) hj (fun t u => by simp [clear]) (fun t u x hx => by simpa [clear] using hx)
    exact keep _ a b
  | accepts j =>
    apply keep
    · unfold step; dsimp only; split <;> simp
    · intro t ht _; unfold step; dsimp only; split <;> simpa using ht
  | leaves j =>
    apply keep
    · unfold step; dsimp only; split <;> simp
    · intro t ht _; unfold step; dsimp only; split <;> simpa using ht

/-- **C120**: a milter that could not be connected to at once gets another chance.  Unless something
is heard of a connection to it (there is none), the timer for the second attempt runs until that
attempt is made. -/
theorem C120_again {c : Setup} (results : Nat → Bool × Bool) {es : List Event} {i : Nat} (hi : i < c.count)
    (hr : (results i).1 = false) (hq : ∀ e ∈ es, onConnection i e = false) :
    let s := run c results es
    times (.attempt i) s.out = 1 → ∃ t ∈ s.tries, t.milter = i ∧ t.timer = true := by
  obtain ⟨⟨t, ht, hm, hk⟩, h1⟩ := negotiate_tried results hi
  have h : times (.attempt i) (negotiate c results).out = 1 → ∃ t ∈ (negotiate c results).tries, t.milter = i ∧ t.timer = true :=
    fun _ => ⟨t, ht, hm, (hk hr).1⟩
  have h1' : 1 ≤ times (.attempt i) (negotiate c results).out := by omega
  clear h1 ht hm hk
  unfold run
  generalize negotiate c results = s at *
  induction es generalizing s with
  | nil => exact h
  | cons e es ih =>
    obtain ⟨a, b⟩ := timer_again (c := c) e (hq e (List.mem_cons_self ..)) h1' h
    exact ih (fun e he => hq e (List.mem_cons_of_mem _ he)) _ b a

/-! ## Without launching -/

/-- without launching; `n` events by which milter `i` answered or left -/
structure Plain (c : Setup) (i n : Nat) (s : State) (ts : List Try) : Prop where
  linked : s.linked i = true → 1 ≤ times (.offer i) s.out
  tries : times (.offer i) s.out + ts.countP (isFor i) ≤ 1
  before : times (.offer i) s.out = 0 → decisions i s.out + ts.countP (isFor i) ≤ 1
  after : 1 ≤ times (.offer i) s.out → decisions i s.out ≤ n

theorem plain_clear {c : Setup} {i n : Nat} {s : State} {t : Try} {rest : List Try} (h : Plain c i n s (s.tries ++ t :: rest)) :
    Plain c i n (clear t.milter s) ((clear t.milter s).tries ++ rest) := by
  have hd := (decides_clear t.milter s).decisions i
  obtain ⟨h1, h2, h3, h4⟩ := h
  have ho : times (.offer i) (clear t.milter s).out = times (.offer i) s.out := by simp [clear]
  have ht : (clear t.milter s).tries = s.tries := by simp [clear]
  simp only [List.countP_append, List.countP_cons] at h2 h3
  by_cases hm : t.milter = i
  · simp [isFor, hm] at h2 h3
    rw [if_pos hm.symm] at hd
    refine ⟨?_, ?_, ?_, ?_⟩ <;> rw [ho]
    · simp [clear, hm]
    · rw [ht, List.countP_append]; omega
    · intro h0
      rw [hd, ht, List.countP_append]; have := h3 h0; omega
    · intro h0; omega
  · simp [isFor, hm] at h2 h3
    rw [if_neg (Ne.symm hm), Nat.add_zero] at hd
    refine ⟨?_, ?_, ?_, ?_⟩ <;> rw [ho]
    · simpa [clear, Ne.symm hm] using h1
    · rw [ht, List.countP_append]; omega
    · intro h0
      rw [hd, ht, List.countP_append]; exact h3 h0
    · rw [hd]; exact h4

theorem plain_ready {c : Setup} {i n : Nat} {s : State} {t : Try} {rest : List Try} (h : Plain c i n s (s.tries ++ t :: rest)) :
    Plain c i n (ready t.milter s) ((ready t.milter s).tries ++ rest) := by
  have hd := (neutral_ready t.milter s).decisions i
  obtain ⟨h1, h2, h3, h4⟩ := h
  have ho : times (.offer i) (ready t.milter s).out = times (.offer i) s.out + if t.milter = i then 1 else 0 := by simp
  simp only [List.countP_append, List.countP_cons] at h2 h3
  by_cases hm : t.milter = i
  · simp [isFor, hm] at h2 h3
    rw [if_pos hm] at ho
    refine ⟨?_, ?_, ?_, ?_⟩ <;> rw [ho]
    · intro _; omega
    · rw [ready_tries, List.countP_append]; omega
    · intro h0; omega
    · intro _; rw [hd]; have := h3 (by omega); omega
  · simp [isFor, hm] at h2 h3
    rw [if_neg hm, Nat.add_zero] at ho
    refine ⟨?_, ?_, ?_, ?_⟩ <;> rw [ho]
    · rw [ready_linked, if_neg (Ne.symm hm)]; exact h1
    · rw [ready_tries, List.countP_append]; omega
    · rw [hd, ready_tries, List.countP_append]; exact h3
    · rw [hd]; exact h4

theorem plain_error {c : Setup} {i n : Nat} {s : State} {ts : List Try} (h : Plain c i n s ts) :
    Plain c i n (say .error s) ts := by
  have hd := (neutral_say (o := .error) s (by simp) (by simp) (by simp)).decisions i
  obtain ⟨h1, h2, h3, h4⟩ := h
  refine ⟨by simpa using h1, by simpa using h2, ?_, ?_⟩
  · rw [hd]; simpa using h3
  · rw [hd]; simpa using h4

theorem plain_failed {c : Setup} {own w : Bool} {i n : Nat} (hl : ∀ i, ¬Launchable c i) {s : State} {t : Try} {rest : List Try}
    (h : Plain c i n s (s.tries ++ t :: rest)) : Plain c i n (failed c own w t s) ((failed c own w t s).tries ++ rest) := by
  unfold failed
  split
  · exact plain_clear (plain_error h)
  · rcases start_cases c t.milter w s with ⟨hl', he⟩ | ⟨s', he, hs⟩
    · exact absurd hl' (hl _)
    · rw [he]
      dsimp only
      rcases hs with hs | hs <;> subst hs
      · exact plain_clear h
      · exact plain_clear (plain_error h)

theorem plain_signal {c : Setup} {i j n : Nat} {f : Try → State → State}
    (hf : ∀ s t rest, Plain c i n s (s.tries ++ t :: rest) → Plain c i n (f t s) ((f t s).tries ++ rest))
    {s : State} (h : Plain c i n s s.tries) : Plain c i n (signal j f s) (signal j f s).tries := by
  unfold signal
  dsimp only
  have fold : ∀ (mine : List Try) (u : State), Plain c i n u (u.tries ++ mine) →
      Plain c i n (mine.foldl (fun s t => f t s) u) (mine.foldl (fun s t => f t s) u).tries := by
    intro mine
    induction mine with
    | nil => intro u h; simpa using h
    | cons t rest ih => intro u h; exact ih _ (hf _ _ _ h)
  refine fold _ _ ?_
  have e : (s.tries.filter fun t => decide (t.milter ≠ j)) = s.tries.filter fun t => !decide (t.milter = j) := by
    congr 1; funext t; by_cases ht : t.milter = j <;> simp [ht]
  obtain ⟨h1, h2, h3, h4⟩ := h
  refine ⟨h1, ?_, ?_, h4⟩
  · dsimp only; rw [e, countP_partition]; exact h2
  · dsimp only; rw [e, countP_partition]; exact h3

theorem plain_step {c : Setup} (hl : ∀ i, ¬Launchable c i) {i n : Nat} {s : State} (e : Event) (hz : s.lazy = false)
    (h : Plain c i n s s.tries) : Plain c i (n + if ofMilter i e then 1 else 0) (step c s e) (step c s e).tries := by
  cases e with
  | idle => unfold step; dsimp only; rw [hz]; exact h
  | timer k ok =>
    show Plain c i n _ _
    unfold step; dsimp only
    cases ht : s.tries[k]? with
    | none => exact h
    | some t =>
      dsimp only
      split
      · obtain ⟨h1, h2, h3, h4⟩ := h
        rw [← countP_eraseIdx ht] at h2 h3
        unfold establish
        cases ok
        · simp only [Bool.false_eq_true, if_false, if_true]
          refine plain_clear (t := t) (rest := []) (s := say .error (say (.attempt t.milter) { s with tries := s.tries.eraseIdx k })) ?_ |> fun x => by
            simpa [clear] using x
          refine plain_error ?_
          have hd := (neutral_say (o := .attempt t.milter) { s with tries := s.tries.eraseIdx k } (by simp) (by simp) (by simp)).decisions i
          refine ⟨by simpa using h1, ?_, ?_, ?_⟩
          · simp only [List.countP_append, List.countP_cons, List.countP_nil, say_times, say_tries]; simpa using h2
          · rw [hd]; simp only [List.countP_append, List.countP_cons, List.countP_nil, say_times, say_tries]; simpa using h3
          · rw [hd]; simpa using h4
        · simp only [if_true]
          have hd := (neutral_say (o := .attempt t.milter) { s with tries := s.tries.eraseIdx k } (by simp) (by simp) (by simp)).decisions i
          have hi : isFor i ⟨t.milter, true, false⟩ = isFor i t := rfl
          refine ⟨by simpa using h1, ?_, ?_, ?_⟩
          · simp only [push_tries, say_tries, List.countP_append, List.countP_cons, List.countP_nil, push_out, say_times, hi]; simpa using h2
          · rw [push_out, hd]
            simp only [push_tries, say_tries, List.countP_append, List.countP_cons, List.countP_nil, say_times, hi]; simpa using h3
          · rw [push_out, hd]; simpa using h4
      · exact h
  | ready j => exact plain_signal (fun _ _ _ h => plain_ready h) h
  | failed j own w => exact plain_signal (fun _ _ _ h => plain_failed hl h) h
  | timeout j => exact plain_signal (fun _ _ _ h => plain_clear h) h
  | accepts j =>
    obtain ⟨h1, h2, h3, h4⟩ := h
    unfold step; dsimp only
    by_cases hj : s.linked j = true
    · rw [if_pos hj]
      have hd := (decides_accepts j s).decisions i
      have ho : times (.offer i) (settle j (say (.accepted j) s)).out = times (.offer i) s.out := by simp
      by_cases hij : i = j
      · subst hij
        have := h1 hj
        refine ⟨fun _ => by rw [ho]; exact this, ?_, fun h0 => by rw [ho] at h0; omega, fun _ => ?_⟩
        · rw [ho]; simpa using h2
        · rw [hd]; have := h4 this; simp [ofMilter]; omega
      · rw [if_neg hij, Nat.add_zero] at hd
        have : ofMilter i (.accepts j) = false := by simp [ofMilter, Ne.symm hij]
        rw [this]
        refine ⟨by rw [ho]; simpa using h1, by rw [ho]; simpa using h2, by rw [ho, hd]; simpa using h3, by rw [ho, hd]; simpa using h4⟩
    · rw [if_neg hj]
      exact ⟨h1, h2, h3, fun x => Nat.le_trans (h4 x) (Nat.le_add_right ..)⟩
  | leaves j =>
    obtain ⟨h1, h2, h3, h4⟩ := h
    unfold step; dsimp only
    by_cases hj : s.linked j = true
    · rw [if_pos hj]
      have hd := (decides_leaves j s).decisions i
      have ho : times (.offer i) (settle j (expire j s)).out = times (.offer i) s.out := by simp
      by_cases hij : i = j
      · subst hij
        have := h1 hj
        refine ⟨fun _ => by rw [ho]; exact this, ?_, fun h0 => by rw [ho] at h0; omega, fun _ => ?_⟩
        · rw [ho]; simpa using h2
        · rw [hd]; have := h4 this; simp [ofMilter]; omega
      · rw [if_neg hij, Nat.add_zero] at hd
        have : ofMilter i (.leaves j) = false := by simp [ofMilter, Ne.symm hij]
        rw [this]
        refine ⟨by rw [ho]; simpa [hij] using h1, by rw [ho]; simpa using h2, by rw [ho, hd]; simpa using h3, by rw [ho, hd]; simpa using h4⟩
    · rw [if_neg hj]
      exact ⟨h1, h2, h3, fun x => Nat.le_trans (h4 x) (Nat.le_add_right ..)⟩

/-- **C121** (partial).  If no milter can be launched, and no milter that answered the offer does so
again or leaves before the MTA's next command, the MTA is answered at most once. -/
theorem C121_unlaunched_partial {c : Setup} (results : Nat → Bool × Bool) (hl : ∀ i, ¬Launchable c i) (hc : 0 < c.count)
    {es : List Event} (he : ∀ i, es.countP (ofMilter i) ≤ 1) : times .answer (run c results es).out ≤ 1 := by
  refine (C121_partial results hc es).2 fun i => ?_
  obtain ⟨-, hcnt, h3, h4⟩ := negotiate_start results hc
  have hb := (bounded_negotiate c results i).offers
  rw [show bonus c i = 0 from if_neg (hl i)] at hb
  have hd0 : decisions i (negotiate c results).out = 0 := by
    by_cases hi : i < c.count
    · refine ((hcnt.queue i).mp ?_).2
      have : (negotiate c results).queue = List.range c.count := by
        unfold negotiate
        rw [if_neg (by omega), establishAll_eq]
        have : ∀ (l : List Nat) (s : State), (l.foldl (fun s i => open1 c results i s) s).queue = s.queue := by
          intro l
          induction l with
          | nil => intro s; rfl
          | cons j l ih => intro s; obtain ⟨_, _, _, _, hq, _⟩ := open1_effect c results j s; exact (ih _).trans hq
        exact this _ _
      rw [this]; exact List.mem_range.mpr hi
    · unfold negotiate
      rw [if_neg (by omega), establishAll_eq]
      have : ∀ (l : List Nat) (s : State), decisions i (l.foldl (fun s i => open1 c results i s) s).out = decisions i s.out := by
        intro l
        induction l with
        | nil => intro s; rfl
        | cons j l ih =>
          intro s
          refine (ih _).trans ?_
          rw [decisions_eq, decisions_eq, open1_times (by simp) (by simp) (by simp), open1_times (by simp) (by simp) (by simp)]
      rw [this]; rfl
  have hp : Plain c i 0 (negotiate c results) (negotiate c results).tries := by
    have ho : times (.offer i) (negotiate c results).out = 0 := by
      unfold negotiate
      rw [if_neg (by omega), establishAll_eq]
      have : ∀ (l : List Nat) (s : State), times (.offer i) (l.foldl (fun s i => open1 c results i s) s).out = times (.offer i) s.out := by
        intro l
        induction l with
        | nil => intro s; rfl
        | cons j l ih => intro s; exact (ih _).trans (open1_times (by simp) (by simp) (by simp))
      rw [this]; rfl
    exact ⟨by rw [h4]; simp, by omega, fun _ => by omega, fun x => by omega⟩
  have main : ∀ (es : List Event) (s : State) (n : Nat), s.lazy = false → Plain c i n s s.tries →
      Plain c i (n + es.countP (ofMilter i)) (es.foldl (step c) s) (es.foldl (step c) s).tries := by
    intro es
    induction es with
    | nil => intro s n _ h; simpa using h
    | cons e es ih =>
      intro s n hz h
      have := ih (step c s e) _ (step_lazy e hz) (plain_step hl e hz h)
      rw [List.countP_cons, show n + (es.countP (ofMilter i) + if ofMilter i e = true then 1 else 0) =
        (n + if ofMilter i e = true then 1 else 0) + es.countP (ofMilter i) by omega]
      exact this
  have := main es _ 0 h3 hp
  show decisions i (es.foldl (step c) (negotiate c results)).out ≤ 1
  have hE := he i
  rcases Nat.eq_zero_or_pos (times (.offer i) (es.foldl (step c) (negotiate c results)).out) with h0 | h0
  · have := this.before h0; omega
  · have := this.after h0; omega

/-! ## Without milters -/

/-- **C121**: a session without milters is answered once, when the loop is idle -/
theorem C121_none {c : Setup} (results : Nat → Bool × Bool) (hc : c.count = 0) (es : List Event) :
    (run c results es).out = if .idle ∈ es then [.answer] else [] := by
  have main : ∀ (es : List Event) (s : State), s.tries = [] → (s.linked = fun _ => false) →
      (es.foldl (step c) s).out = s.out ++ if s.lazy = true ∧ .idle ∈ es then [.answer] else [] := by
    intro es
    induction es with
    | nil => intro s _ _; simp
    | cons e es ih =>
      intro s ht hk
      have quiet : e ≠ .idle → step c s e = s := by
        intro hne
        cases e with
        | idle => exact absurd rfl hne
        | timer k ok => unfold step; rw [ht]; rfl
        | ready j => unfold step signal; dsimp only; rw [ht]; simp; rw [← ht]
        | failed j a b => unfold step signal; dsimp only; rw [ht]; simp; rw [← ht]
        | timeout j => unfold step signal; dsimp only; rw [ht]; simp; rw [← ht]
        | accepts j => unfold step; dsimp only; rw [hk]; rfl
        | leaves j => unfold step; dsimp only; rw [hk]; rfl
      by_cases hidle : e = .idle
      · subst hidle
        rw [List.foldl_cons]
        cases hz : s.lazy
        · rw [show step c s .idle = s by unfold step; dsimp only; rw [hz]; rfl, ih s ht hk, hz]; simp
        · rw [show step c s .idle = say .answer { s with lazy := false } by unfold step; dsimp only; rw [hz]; rfl,
            ih _ (by simpa using ht) (by simpa using hk)]
          simp [say]
      · rw [List.foldl_cons, quiet hidle, ih s ht hk]
        simp [Ne.symm hidle]
  have hn : negotiate c results = { lazy := true } := by unfold negotiate; rw [if_pos hc]
  unfold run
  rw [hn, main es _ rfl rfl]
  simp

/-! ## Cases -/

/-- a privileged manager that may launch its only milter -/
def launching : Setup := { count := 1, privileged := true, launcher := true, command := fun _ => true }

/-- two milters: the first is connected to and answers, the second is absent and given up after the
second attempt; the MTA gets one answer -/
example : (run { count := 2 } (fun i => (i == 0, true)) [.ready 0, .accepts 0, .timer 0 false]).out =
    [.attempt 0, .attempt 1, .error, .offer 0, .accepted 0, .attempt 1, .error, .answer, .gone 1] := by decide +kernel

/-- the second milter is there at the second attempt -/
example : (run { count := 2 } (fun i => (i == 0, true)) [.ready 0, .accepts 0, .timer 0 true, .ready 1, .accepts 1]).out =
    [.attempt 0, .attempt 1, .error, .offer 0, .accepted 0, .attempt 1, .offer 1, .accepted 1, .answer] := by decide +kernel

/-- the connection fails later, and the milter is launched -/
example : (run launching (fun _ => (true, true)) [.failed 0 true true, .timer 0 true, .ready 0, .accepts 0]).out =
    [.attempt 0, .launch 0, .attempt 0, .offer 0, .accepted 0, .answer] := by decide +kernel

example : ∀ i, ([.ready 0, .accepts 0, .timer 0 true, .ready 1, .accepts 1] : List Event).countP (ofMilter i) ≤ 1 := by
  intro i
  by_cases h0 : 0 = i
  · subst h0; decide
  · by_cases h1 : 1 = i
    · subst h1; decide
    · simp [List.countP_cons, ofMilter, h0, h1]

/-- **C120** does not hold for a milter that is launched because it could not be connected to at
once: two timers are started, so that it is connected to twice and gets the offer twice... -/
theorem C120_offer_violated : ∃ (c : Setup) (results : Nat → Bool × Bool) (es : List Event),
    times (.attempt 0) (run c results es).out = 3 ∧ times (.offer 0) (run c results es).out = 2 :=
  ⟨launching, fun _ => (false, true), [.timer 0 true, .timer 0 true, .ready 0], by decide +kernel⟩

/-- ... or, if the first of them fails before the second is made, is launched twice. -/
theorem C120_launch_violated : ∃ (c : Setup) (results : Nat → Bool × Bool) (es : List Event),
    times (.launch 0) (run c results es).out = 2 :=
  ⟨launching, fun _ => (false, true), [.timer 0 true, .failed 0 true true], by decide +kernel⟩

/-- A connection that fails later is not tried again unless the milter can be launched. -/
theorem C120_late_violated : ∃ (c : Setup) (results : Nat → Bool × Bool) (es : List Event),
    times (.attempt 0) (run c results es).out = 1 ∧ .gone 0 ∈ (run c results es).out :=
  ⟨{ count := 1 }, fun _ => (true, true), [.failed 0 true true], by decide +kernel⟩

/-- **C121** does not hold with launching: a milter that cannot be launched either is given up
twice, and the MTA is answered twice... -/
theorem C121_launch_violated : ∃ (c : Setup) (results : Nat → Bool × Bool) (es : List Event),
    times .answer (run c results es).out = 2 ∧ ∀ i, es.countP (ofMilter i) = 0 :=
  ⟨launching, fun _ => (false, true), [.timer 0 false, .timer 0 false], by decide +kernel, fun i => rfl⟩

open Cases in
/-- ... nor without: a milter that leaves between its answer and the MTA's next command makes the
manager answer the MTA's offer again (seen in the complete model of the milters of a session). -/
theorem C121_leaves_violated : ∃ (kids : List Children.Kid) (es : List Children.Event) (s : Children.Sys),
    Children.run 20 (Children.init kids 4) (plain es) = some s ∧ es.countP (· matches .negotiate _) = 1 ∧
    (Spec.Children.told s.out).countP (· matches .negotiateReply _) = 2 := by
  refine ⟨[{}, {}], Cases.negotiation 2 (fun _ => everything) ++ [.finished 0],
    (Children.run 20 (Children.init [{}, {}] 4) (plain (Cases.negotiation 2 (fun _ => everything) ++ [.finished 0]))).get (by decide +kernel),
    ?_, by decide +kernel, by decide +kernel⟩
  rw [Option.some_get]

end Verif.Props.Launch
