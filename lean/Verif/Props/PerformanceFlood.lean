import Mathlib.Data.List.Basic
import Mathlib.Data.List.Range
import Verif.Tool.PerformanceFlood
/-!
C165: milter-performance-check sends mails over a period.
-/
namespace Verif.Props.PerformanceFlood

open Verif.Tool.PerformanceFlood

variable {α : Type}

theorem flood_again (mails : List α) (e : Nat) (hm : mails ≠ []) (ts : List Nat) :
    flood mails e [] ts = flood mails e mails ts := by
  cases ts with
  | nil => simp [flood]
  | cons t ts =>
    cases mails with
    | nil => exact absurd rfl hm
    | cons m l => simp [flood]

/-- The readings of the clock before the first that is after the end. -/
def within (e : Nat) (ts : List Nat) : Nat := (ts.takeWhile fun t => decide (t ≤ e)).length

theorem flood_from (mails : List α) (e : Nat) (ts : List Nat) (j : Nat) (hj : j ≤ mails.length) (hm : mails ≠ []) :
    (flood mails e (mails.drop j) ts).1.map some
        = (List.range (within e ts)).map (fun i => mails[(j + i) % mails.length]?) ∧
      ((flood mails e (mails.drop j) ts).2 = true ↔ ∃ t ∈ ts, e < t) := by
  have pos : 0 < mails.length := List.length_pos_iff.2 hm
  induction ts generalizing j with
  | nil => simp [flood, within]
  | cons t ts ih =>
    have main : ∀ j, j < mails.length → (flood mails e (mails.drop j) (t :: ts)).1.map some
        = (List.range (within e (t :: ts))).map (fun i => mails[(j + i) % mails.length]?) ∧
      ((flood mails e (mails.drop j) (t :: ts)).2 = true ↔ ∃ x ∈ t :: ts, e < x) := by
      intro j hj
      rw [List.drop_eq_getElem_cons hj]
      by_cases ht : e < t
      · have h0 : within e (t :: ts) = 0 := by
          unfold within
          rw [List.takeWhile_cons_of_neg (by simpa using ht)]
          rfl
        rw [h0]
        simp [flood, ht]
      · have h1 : within e (t :: ts) = within e ts + 1 := by
          unfold within
          rw [List.takeWhile_cons_of_pos (by simpa using ht)]
          rfl
        obtain ⟨i1, i2⟩ := ih (j + 1) hj
        rw [h1, List.range_succ_eq_map]
        simp only [flood, ht, if_false, List.map_cons, List.map_map, i1, i2]
        refine ⟨?_, ?_⟩
        · have e0 : mails[(j + 0) % mails.length]? = some mails[j] := by
            show mails[j % mails.length]? = _
            rw [Nat.mod_eq_of_lt hj, List.getElem?_eq_getElem hj]
          rw [e0]
          congr 1
          apply List.map_congr_left
          intro i _
          show mails[(j + 1 + i) % _]? = mails[(j + (i + 1)) % _]?
          rw [Nat.add_assoc, Nat.add_comm 1 i]
        · constructor
          · rintro ⟨x, hx, hl⟩
            exact ⟨x, List.mem_cons_of_mem _ hx, hl⟩
          · rintro ⟨x, hx, hl⟩
            rcases List.mem_cons.1 hx with rfl | hx
            · exact absurd hl ht
            · exact ⟨x, hx, hl⟩
    rcases Nat.lt_or_eq_of_le hj with hlt | heq
    · exact main j hlt
    · have h0 := main 0 pos
      rw [List.drop_zero] at h0
      rw [heq, List.drop_length, flood_again mails e hm]
      refine ⟨h0.1.trans (List.map_congr_left fun i _ => ?_), h0.2⟩
      rw [Nat.zero_add, Nat.add_mod_left]

/-- The mails that are started. -/
def started : List (Act α) → List α
  | [] => []
  | .start m :: l => m :: started l
  | .sleep :: l => started l

/-- How many times it sleeps. -/
def sleeps : List (Act α) → Nat
  | [] => 0
  | .start _ :: l => sleeps l
  | .sleep :: l => sleeps l + 1

theorem interval_from (positive : Bool) (mails : List α) (i : Nat) :
    started (intervalFrom positive (i + mails.length) i mails) = mails ∧
      sleeps (intervalFrom positive (i + mails.length) i mails) = if positive then mails.length - 1 else 0 := by
  induction mails generalizing i with
  | nil => cases positive <;> exact ⟨rfl, rfl⟩
  | cons m l ih =>
    have hlen : i + (m :: l).length = (i + 1) + l.length := by rw [List.length_cons]; omega
    rw [hlen]
    obtain ⟨h1, h2⟩ := ih (i + 1)
    cases positive with
    | false => exact ⟨congrArg (m :: ·) h1, h2⟩
    | true =>
      cases l with
      | nil =>
        have : (true && (i + 1 != i + 1 + ([] : List α).length)) = false := by simp
        unfold intervalFrom
        rw [this]
        exact ⟨rfl, rfl⟩
      | cons x l =>
        have : (true && (i + 1 != i + 1 + (x :: l).length)) = true := by simp
        unfold intervalFrom
        rw [this]
        refine ⟨congrArg (m :: ·) h1, ?_⟩
        show sleeps (intervalFrom true _ (i + 1) (x :: l)) + 1 = _
        rw [h2]
        rfl

/-- C165: with `--flood` and a period, each thread sends the mails in their order, again and again, one for each time it finds that
the end has not been reached, and ends as soon as it finds that it has; with `--interval` or `--period` each mail is started
once, in their order, with as many pauses as there are mails, less one.  Missing: floods without mails (below). -/
theorem C165_partial :
    (∀ (mails : List α) (e : Nat) (clock : List Nat), mails ≠ [] →
      (flood mails e mails clock).1.map some = (List.range (within e clock)).map (fun i => mails[i % mails.length]?) ∧
      ((flood mails e mails clock).2 = true ↔ ∃ t ∈ clock, e < t)) ∧
    (∀ mails : List α, started (interval true mails) = mails ∧ sleeps (interval true mails) = mails.length - 1) := by
  refine ⟨fun mails e clock hm => ?_, fun mails => ?_⟩
  · have := flood_from mails e clock 0 (Nat.zero_le _) hm
    simpa only [List.drop_zero, Nat.zero_add] using this
  · have := interval_from true mails 0
    unfold interval
    rw [Nat.zero_add] at this
    exact this

/-- C165 is violated: with `--n-mails=0` there are no mails, and the thread never ends, whatever the clock says. -/
theorem C165_empty_violated (m : α) (e : Nat) (clock : List Nat) :
    flood (repeated [m] 0) e (repeated [m] 0) clock = ([], false) := by
  cases clock with
  | nil => simp [flood]
  | cons t ts => simp [flood, repeated]

/-- Two mails, until 10; three mails with pauses. -/
example : flood [7, 8] 10 [7, 8] [3, 5, 10, 11, 12] = ([7, 8, 7], true) ∧
    interval true [1, 2, 3] = [.start 1, .sleep, .start 2, .sleep, .start 3] ∧
    repeated [5] 2 = [some 5, some 5] := by decide

end Verif.Props.PerformanceFlood
