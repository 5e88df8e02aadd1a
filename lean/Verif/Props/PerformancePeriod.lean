import Mathlib.Data.List.Basic
import Mathlib.Data.List.Perm.Basic
import Verif.Tool.PerformancePeriod
/-!
C163: the periodical report of milter-performance-check counts each mail once.
-/
namespace Verif.Props.PerformancePeriod

open Verif.Tool.PerformancePeriod

/-- What holds in all states. -/
def Inv (s : State) : Prop := ∀ m,
  s.lines.flatten.count m + s.current.count m + (s.pending.map (·.1)).count m ≤ s.total.count m

theorem step_inv (s : State) (h : Inv s) (a : Step) : Inv (step s a) := by
  intro m
  have hm := h m
  cases a with
  | begin =>
    cases hp : s.phase with
    | new =>
      simp only [step, hp, List.count_nil]
      omega
    | measuring => simpa only [step, hp] using hm
    | measured => simpa only [step, hp] using hm
  | sleepOver =>
    cases hp : s.phase with
    | new => simpa only [step, hp] using hm
    | measuring => simpa only [step, hp] using hm
    | measured => simpa only [step, hp] using hm
  | report =>
    cases hp : s.phase with
    | new => simpa only [step, hp] using hm
    | measuring => simpa only [step, hp] using hm
    | measured =>
      simp only [step, hp, List.flatten_append, List.count_append, List.flatten_cons, List.flatten_nil, List.append_nil,
        List.count_nil]
      omega
  | read mail =>
    simp only [step, List.map_append, List.count_append, List.map_cons, List.map_nil]
    omega
  | count n =>
    cases hp : s.pending[n]? with
    | none => simpa only [step, hp] using hm
    | some q =>
      obtain ⟨mail, p⟩ := q
      obtain ⟨hn, hg⟩ := List.getElem?_eq_some_iff.1 hp
      have hq := ((List.getElem_cons_eraseIdx_perm hn).map (·.1)).count_eq m
      rw [hg, List.map_cons, ← List.singleton_append, List.count_append] at hq
      dsimp only at hq
      simp only [step, hp]
      split
      · simp only [List.count_append]
        omega
      · dsimp only
        omega

theorem run_inv (steps : List Step) (s : State) (h : Inv s) : Inv (run s steps) := by
  induction steps generalizing s with
  | nil => exact h
  | cons a l ih => exact ih _ (step_inv s h a)

/-- The mails whose sending has ended, in the order of the steps. -/
def sent : List Step → List Nat
  | [] => []
  | .read m :: l => m :: sent l
  | _ :: l => sent l

theorem total_sent (steps : List Step) (s : State) : (run s steps).total = s.total ++ sent steps := by
  induction steps generalizing s with
  | nil => exact (List.append_nil _).symm
  | cons a l ih =>
    show (run (step s a) l).total = _
    rw [ih]
    cases a with
    | begin => cases hp : s.phase <;> simp only [step, hp, sent]
    | sleepOver => cases hp : s.phase <;> simp only [step, hp, sent]
    | report => cases hp : s.phase <;> simp only [step, hp, sent]
    | read m => simp [step, sent]
    | count n =>
      cases hp : s.pending[n]? with
      | none => simp only [step, hp, sent]
      | some q =>
        obtain ⟨mail, p⟩ := q
        simp only [step, hp, sent]
        split <;> rfl

/-- A period in which nothing overlaps its ends: it begins, mails are sent and counted, it ends, it is reported. -/
def calm (mails : List Nat) : List Step :=
  .begin :: (mails.flatMap fun m => [.read m, .count 0]) ++ [.sleepOver, .report]

theorem run_append (s : State) (a b : List Step) : run s (a ++ b) = run (run s a) b := List.foldl_append

theorem run_mails (mails : List Nat) (total : List Nat) (period : Nat) (current : List Nat) (ls : List (List Nat)) :
    run ⟨total, .measuring, period, current, ls, []⟩ (mails.flatMap fun m => [.read m, .count 0])
      = ⟨total ++ mails, .measuring, period, current ++ mails, ls, []⟩ := by
  induction mails generalizing total current with
  | nil => simp [run]
  | cons m l ih =>
    rw [List.flatMap_cons, run_append]
    have : run ⟨total, .measuring, period, current, ls, []⟩ [.read m, .count 0]
        = ⟨total ++ [m], .measuring, period, current ++ [m], ls, []⟩ := by
      simp [run, step]
    rw [this, ih]
    simp

theorem run_calm (mails : List Nat) (total : List Nat) (period : Nat) (ls : List (List Nat)) :
    run ⟨total, .new, period, [], ls, []⟩ (calm mails) = ⟨total ++ mails, .new, period + 1, [], ls ++ [mails], []⟩ := by
  unfold calm
  rw [run_append]
  have : run ⟨total, .new, period, [], ls, []⟩ (.begin :: mails.flatMap fun m => [.read m, .count 0])
      = run ⟨total, .measuring, period, [], ls, []⟩ (mails.flatMap fun m => [.read m, .count 0]) := rfl
  rw [this, run_mails]
  rfl

theorem run_rounds (rounds : List (List Nat)) (total : List Nat) (period : Nat) (ls : List (List Nat)) :
    (run ⟨total, .new, period, [], ls, []⟩ (rounds.flatMap calm)).lines = ls ++ rounds := by
  induction rounds generalizing total period ls with
  | nil => exact (List.append_nil _).symm
  | cons r l ih =>
    rw [List.flatMap_cons, run_append, run_calm, ih]
    simp

/-- C163: however the threads take turns, no mail is counted in the lines of the periodical report more often than it has
been sent; and if no mail ends while a period does, the line of each period counts exactly the mails of that period.
Missing: a mail that ends between two periods, or after the last line (below). -/
theorem C163_partial :
    (∀ steps m, (run .initial steps).lines.flatten.count m ≤ (sent steps).count m) ∧
    (∀ rounds : List (List Nat), (run .initial (rounds.flatMap calm)).lines = rounds) := by
  refine ⟨fun steps m => ?_, fun rounds => run_rounds rounds [] 0 []⟩
  have h := run_inv steps .initial (fun m => by simp [State.initial]) m
  rw [total_sent] at h
  have e : State.initial.total ++ sent steps = sent steps := rfl
  rw [e] at h
  omega

/-- C163 is violated: a mail that ends while one period has ended and the next has not begun is in no line, and so are a mail
whose thread is late, and the mails of the period that the end of the program interrupts. -/
theorem C163_lost_violated :
    (run .initial [.begin, .sleepOver, .read 7, .count 0, .report, .begin, .sleepOver, .report]).lines = [[], []] ∧
    (run .initial [.begin, .read 7, .sleepOver, .report, .count 0, .begin, .sleepOver, .report]).lines = [[], []] ∧
    (run .initial [.begin, .read 7, .count 0]).lines = [] := by decide

/-- Three periods. -/
example : (run .initial ([[1, 2], [], [3]].flatMap calm)).lines = [[1, 2], [], [3]] ∧
    sent ([[1, 2], [], [3]].flatMap calm) = [1, 2, 3] := by decide

end Verif.Props.PerformancePeriod
