import Mathlib.Data.List.Basic
import Verif.Tool.PerformanceCheck
/-!
C159: milter-performance-check sends every mail once.
-/
namespace Verif.Props.PerformanceCheck

open Verif.Tool.PerformanceCheck

/-- No thread can go on. -/
def AtRest (s : State) : Prop := ∀ i, step s i = s

/-- Each turn of the schedule is one of a thread that can go on. -/
def Busy : State → List Nat → Prop
  | _, [] => True
  | s, i :: is => step s i ≠ s ∧ Busy (step s i) is

theorem count_set (l : List Phase) (i : Nat) (a b x : Phase) (h : l[i]? = some a) :
    (l.set i b).count x + (if a = x then 1 else 0) = l.count x + (if b = x then 1 else 0) := by
  induction l generalizing i with
  | nil => simp at h
  | cons y l ih =>
    cases i with
    | zero =>
      simp only [List.getElem?_cons_zero, Option.some.injEq] at h
      subst h
      simp only [List.set_cons_zero, List.count_cons, beq_iff_eq]
      omega
    | succ i =>
      simp only [List.getElem?_cons_succ] at h
      have := ih i h
      simp only [List.set_cons_succ, List.count_cons]
      omega

/-- The steps a thread has before it takes the next mail. -/
def cost : Phase → Nat
  | .work _ => 2
  | .check => 1
  | _ => 0

theorem sum_set (l : List Phase) (i : Nat) (a b : Phase) (h : l[i]? = some a) :
    ((l.set i b).map cost).sum + cost a = (l.map cost).sum + cost b := by
  induction l generalizing i with
  | nil => simp at h
  | cons y l ih =>
    cases i with
    | zero =>
      simp only [List.getElem?_cons_zero, Option.some.injEq] at h
      subst h
      simp only [List.set_cons_zero, List.map_cons, List.sum_cons]
      omega
    | succ i =>
      simp only [List.getElem?_cons_succ] at h
      have := ih i h
      simp only [List.set_cons_succ, List.map_cons, List.sum_cons]
      omega

/-- The steps that are left. -/
def left (s : State) : Nat := 3 * s.queue.length + (s.threads.map cost).sum

/-- What a turn comes to. -/
inductive Turn (s : State) (i : Nat) : State → Prop
  | none : Turn s i s
  | pop (m : Mail) (q : List Mail) (h : s.threads[i]? = some .pop) (hq : s.queue = m :: q) :
      Turn s i ⟨q, s.threads.set i (.work m), s.sent⟩
  | work (m : Mail) (h : s.threads[i]? = some (.work m)) :
      Turn s i ⟨s.queue, s.threads.set i .check, s.sent ++ [m]⟩
  | again (h : s.threads[i]? = some .check) (hq : s.queue ≠ []) :
      Turn s i ⟨s.queue, s.threads.set i .pop, s.sent⟩
  | last (h : s.threads[i]? = some .check) (hq : s.queue = []) :
      Turn s i ⟨s.queue, s.threads.set i .ended, s.sent⟩

theorem turn (s : State) (i : Nat) : Turn s i (step s i) := by
  unfold step
  cases h : s.threads[i]? with
  | none => exact .none
  | some p =>
    cases p with
    | pop =>
      cases hq : s.queue with
      | nil => exact .none
      | cons m q => exact .pop m q h hq
    | work m => exact .work m h
    | check =>
      by_cases hq : s.queue = []
      · dsimp only
        rw [if_pos hq]
        exact .last h hq
      · dsimp only
        rw [if_neg hq]
        exact .again h hq
    | ended => exact .none

/-- Every mail is somewhere, once; who has ended has seen the queue empty; nobody is lost. -/
structure Inv (mails : List Mail) (k : Nat) (s : State) : Prop where
  once : ∀ m, s.sent.count m + s.threads.count (.work m) + s.queue.count m = mails.count m
  ended : .ended ∈ s.threads → s.queue = []
  threads : s.threads.length = k

theorem mem_set {l : List Phase} {i : Nat} {b x : Phase} (h : x ∈ l.set i b) : x ∈ l ∨ x = b :=
  List.mem_or_eq_of_mem_set h

theorem Inv.step {mails : List Mail} {k : Nat} {s : State} (h : Inv mails k s) (i : Nat) :
    Inv mails k (step s i) := by
  have ht := turn s i
  generalize Tool.PerformanceCheck.step s i = t at ht
  cases ht with
  | none => exact h
  | pop m q hi hq =>
    refine ⟨fun x => ?_, fun he => ?_, by simpa using h.threads⟩
    · have h1 := h.once x
      have h2 := count_set s.threads i _ (.work m) (.work x) hi
      rw [hq, List.count_cons] at h1
      simp only [reduceCtorEq, if_false, Phase.work.injEq] at h2
      simp only [beq_iff_eq] at h1
      dsimp only
      omega
    · rcases mem_set he with he | he
      · have := h.ended he
        rw [hq] at this; exact (nomatch this)
      · exact (nomatch he)
  | work m hi =>
    refine ⟨fun x => ?_, fun he => ?_, by simpa using h.threads⟩
    · have h1 := h.once x
      have h2 := count_set s.threads i _ .check (.work x) hi
      simp only [reduceCtorEq, if_false, Phase.work.injEq] at h2
      dsimp only
      rw [List.count_append, List.count_cons, List.count_nil]
      simp only [beq_iff_eq]
      omega
    · rcases mem_set he with he | he
      · exact h.ended he
      · exact (nomatch he)
  | again hi hq =>
    refine ⟨fun x => ?_, fun he => ?_, by simpa using h.threads⟩
    · have h1 := h.once x
      have h2 := count_set s.threads i _ .pop (.work x) hi
      simp only [reduceCtorEq, if_false] at h2
      dsimp only
      omega
    · rcases mem_set he with he | he
      · exact h.ended he
      · exact (nomatch he)
  | last hi hq =>
    refine ⟨fun x => ?_, fun _ => hq, by simpa using h.threads⟩
    have h1 := h.once x
    have h2 := count_set s.threads i _ .ended (.work x) hi
    simp only [reduceCtorEq, if_false] at h2
    dsimp only
    omega

theorem Inv.start (mails : List Mail) (n : Nat) : Inv mails (min mails.length n) (start mails n) := by
  refine ⟨fun m => ?_, fun h => ?_, by simp [Tool.PerformanceCheck.start]⟩
  · show ([] : List Mail).count m + (List.replicate _ Phase.pop).count (.work m) + mails.count m = _
    rw [List.count_replicate]
    simp
  · have := List.eq_of_mem_replicate h
    exact (nomatch this)

theorem Inv.run {mails : List Mail} {k : Nat} (schedule : List Nat) {s : State} (h : Inv mails k s) :
    Inv mails k (run s schedule) := by
  induction schedule generalizing s with
  | nil => exact h
  | cons i is ih => exact ih (h.step i)

theorem left_step (s : State) (i : Nat) : step s i = s ∨ left (step s i) + 1 = left s := by
  have ht := turn s i
  generalize step s i = t at ht
  cases ht with
  | none => exact .inl rfl
  | pop m q hi hq =>
    right
    have := sum_set s.threads i _ (.work m) hi
    simp only [left, hq, List.length_cons, cost] at *
    omega
  | work m hi =>
    right
    have := sum_set s.threads i _ .check hi
    simp only [left, cost] at *
    omega
  | again hi hq =>
    right
    have := sum_set s.threads i _ .pop hi
    simp only [left, cost] at *
    omega
  | last hi hq =>
    right
    have := sum_set s.threads i _ .ended hi
    simp only [left, cost] at *
    omega

theorem busy_left (schedule : List Nat) {s : State} (h : Busy s schedule) :
    left (run s schedule) + schedule.length = left s := by
  induction schedule generalizing s with
  | nil => rfl
  | cons i is ih =>
    have h1 := (left_step s i).resolve_left h.1
    have h2 := ih h.2
    show left (run (step s i) is) + (is.length + 1) = _
    omega

theorem left_start (mails : List Mail) (n : Nat) : left (start mails n) = 3 * mails.length := by
  simp [left, start, cost]

/-- At rest, each thread waits or has ended. -/
theorem rest_phase {s : State} (h : AtRest s) {i : Nat} {p : Phase} (hi : s.threads[i]? = some p) :
    p = .ended ∨ (p = .pop ∧ s.queue = []) := by
  have ht : step s i = s := h i
  have hl : i < s.threads.length := (List.getElem?_eq_some_iff.1 hi).1
  have same : ∀ b, s.threads.set i b = s.threads → p = b := by
    intro b hb
    have : (s.threads.set i b)[i]? = some b := by rw [List.getElem?_set_self hl]
    rw [hb, hi] at this
    exact Option.some.inj this
  unfold step at ht
  rw [hi] at ht
  cases p with
  | ended => exact .inl rfl
  | pop =>
    cases hq : s.queue with
    | nil => exact .inr ⟨rfl, rfl⟩
    | cons m q =>
      rw [hq] at ht
      exact (nomatch same _ (congrArg State.threads ht))
  | work m => exact (nomatch same _ (congrArg State.threads ht))
  | check =>
    have := same _ (congrArg State.threads ht)
    split at this <;> exact (nomatch this)

/-- With one thread: it never waits for nothing. -/
def Fed (s : State) : Prop := s.threads.length ≤ 1 ∧ (.pop ∈ s.threads → s.queue ≠ [])

theorem set_one {l : List Phase} {i : Nat} {p : Phase} (hl : l.length ≤ 1) (hi : l[i]? = some p) (b : Phase) :
    l.set i b = [b] := by
  match l, hl with
  | [], _ => simp at hi
  | [x], _ =>
    cases i with
    | zero => rfl
    | succ i => simp at hi

theorem Fed.step {s : State} (h : Fed s) (i : Nat) : Fed (step s i) := by
  have ht := turn s i
  generalize Tool.PerformanceCheck.step s i = t at ht
  cases ht with
  | none => exact h
  | pop m q hi hq =>
    refine ⟨by simpa using h.1, fun hp => ?_⟩
    dsimp only at hp
    rw [set_one h.1 hi] at hp
    simp at hp
  | work m hi =>
    refine ⟨by simpa using h.1, fun hp => ?_⟩
    dsimp only at hp
    rw [set_one h.1 hi] at hp
    simp at hp
  | again hi hq => exact ⟨by simpa using h.1, fun _ => hq⟩
  | last hi hq =>
    refine ⟨by simpa using h.1, fun hp => ?_⟩
    dsimp only at hp
    rw [set_one h.1 hi] at hp
    simp at hp

theorem Fed.run (schedule : List Nat) {s : State} (h : Fed s) : Fed (run s schedule) := by
  induction schedule generalizing s with
  | nil => exact h
  | cons i is ih => exact ih (h.step i)

/-- C159, for every list of mails, every number of connections and every schedule of the threads: no mail is sent more often
than it is in the list; after at most three turns per mail no thread can go on; then every mail has been
sent as often as it is in the list; and with one connection, the report follows.  Missing: the report with more
connections (below). -/
theorem C159_partial (mails : List Mail) (n : Nat) (hn : 1 ≤ n) (schedule : List Nat) :
    (∀ m, (run (start mails n) schedule).sent.count m ≤ mails.count m) ∧
    (Busy (start mails n) schedule → schedule.length ≤ 3 * mails.length) ∧
    (AtRest (run (start mails n) schedule) → (run (start mails n) schedule).sent.Perm mails) ∧
    (n = 1 → AtRest (run (start mails n) schedule) → reported (run (start mails n) schedule) = true) := by
  have hI := (Inv.start mails n).run schedule
  refine ⟨fun m => ?_, fun hb => ?_, fun hr => ?_, fun h1 hr => ?_⟩
  · have := hI.once m; omega
  · have := busy_left schedule hb
    rw [left_start] at this
    omega
  · rw [List.perm_iff_count]
    intro m
    have h1 := hI.once m
    generalize run (start mails n) schedule = s at *
    have hw : s.threads.count (.work m) = 0 := by
      rw [List.count_eq_zero]
      intro hm
      obtain ⟨i, hi⟩ := List.mem_iff_getElem?.1 hm
      rcases rest_phase hr hi with e | e
      · exact (nomatch e)
      · exact (nomatch e.1)
    have hq : s.queue = [] := by
      cases ht : s.threads with
      | nil =>
        have hl := hI.threads
        rw [ht] at hl
        have : mails.length = 0 := by simp only [List.length_nil] at hl; omega
        have : mails = [] := List.length_eq_zero_iff.1 this
        cases hq : s.queue with
        | nil => rfl
        | cons a q =>
          have := hI.once a
          rw [hq, ‹mails = []›] at this
          simp at this
      | cons p ps =>
        have h0 : s.threads[0]? = some p := by rw [ht]; rfl
        rcases rest_phase hr h0 with e | e
        · subst e
          exact hI.ended (by rw [ht]; exact List.mem_cons_self)
        · exact e.2
    rw [hw, hq] at h1
    simpa using h1
  · subst h1
    have hF : Fed (start mails 1) := by
      refine ⟨by simp [start]; omega, fun hp => ?_⟩
      intro hq
      have : mails = [] := hq
      subst this
      simp [start] at hp
    have hF := Fed.run schedule hF
    generalize run (start mails 1) schedule = s at *
    unfold reported
    rw [List.all_eq_true]
    intro p hp
    obtain ⟨i, hi⟩ := List.mem_iff_getElem?.1 hp
    rcases rest_phase hr hi with e | e
    · exact decide_eq_true e
    · rw [e.1] at hp
      exact absurd e.2 (hF.2 hp)

/-- One thread does all the work. -/
theorem solo (q : List Mail) (m : Mail) (ps : List Phase) (sent : List Mail) :
    run ⟨m :: q, .pop :: ps, sent⟩ (List.replicate (3 * (m :: q).length) 0) = ⟨[], .ended :: ps, sent ++ m :: q⟩ := by
  induction q generalizing m sent with
  | nil => rfl
  | cons m' q ih =>
    have : 3 * (m :: m' :: q).length = 3 * (m' :: q).length + 3 := by simp only [List.length_cons]; omega
    rw [this, List.replicate_succ, List.replicate_succ, List.replicate_succ]
    show run ⟨m' :: q, .pop :: ps, sent ++ [m]⟩ _ = _
    rw [ih]
    simp

/-- C159 is violated with more than one connection, whatever mails there are: a thread that sends them all
before the second has taken one leaves the second waiting for ever; no report is printed. -/
theorem C159_hang_violated (mails : List Mail) (n : Nat) (hm : 2 ≤ mails.length) (hn : 2 ≤ n) :
    ∃ schedule, AtRest (run (start mails n) schedule) ∧ (run (start mails n) schedule).sent = mails ∧
      ∀ more, reported (run (run (start mails n) schedule) more) = false := by
  obtain ⟨k, hk⟩ : ∃ k, min mails.length n = k + 2 := ⟨min mails.length n - 2, by omega⟩
  match mails, hm with
  | m :: q, _ =>
    refine ⟨List.replicate (3 * (m :: q).length) 0, ?_⟩
    have e : run (start (m :: q) n) (List.replicate (3 * (m :: q).length) 0)
        = ⟨[], .ended :: .pop :: List.replicate k .pop, m :: q⟩ := by
      unfold start
      rw [hk, List.replicate_succ, List.replicate_succ]
      exact solo q m _ []
    rw [e]
    have hr : AtRest ⟨[], .ended :: .pop :: List.replicate k .pop, m :: q⟩ := by
      intro i
      have ht := turn ⟨[], .ended :: .pop :: List.replicate k .pop, m :: q⟩ i
      generalize step ⟨[], .ended :: .pop :: List.replicate k .pop, m :: q⟩ i = t at ht
      have hx : ∀ p : Phase, (Phase.ended :: .pop :: List.replicate k .pop)[i]? = some p → p = .ended ∨ p = .pop := by
        intro p hp
        have := List.mem_of_getElem? hp
        simp only [List.mem_cons] at this
        rcases this with h | h | h
        · exact .inl h
        · exact .inr h
        · exact .inr (List.eq_of_mem_replicate h)
      cases ht with
      | none => rfl
      | pop m' q' hi hq => exact (nomatch hq)
      | work m' hi => rcases hx _ hi with h | h <;> exact (nomatch h)
      | again hi hq => exact absurd rfl hq
      | last hi hq => rcases hx _ hi with h | h <;> exact (nomatch h)
    refine ⟨hr, rfl, fun more => ?_⟩
    have : run ⟨[], .ended :: .pop :: List.replicate k .pop, m :: q⟩ more
        = ⟨[], .ended :: .pop :: List.replicate k .pop, m :: q⟩ := by
      induction more with
      | nil => rfl
      | cons i is ih =>
        show run (step _ i) is = _
        rw [hr i]
        exact ih
    rw [this]
    rfl

/-- Three mails over two connections: each takes its turn, and here both end. -/
example :
    let s := run (start [[1], [2], [3]] 2) [0, 1, 1, 1, 1, 0, 1, 0, 1]
    Busy (start [[1], [2], [3]] 2) [0, 1, 1, 1, 1, 0, 1, 0, 1] ∧ s.sent = [[2], [1], [3]] ∧ reported s = true := by
  refine ⟨?_, by decide, by decide⟩
  simp only [Busy]
  decide

end Verif.Props.PerformanceCheck
