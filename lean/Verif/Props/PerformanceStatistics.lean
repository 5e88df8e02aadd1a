import Mathlib.Data.List.Basic
import Verif.Tool.PerformanceStatistics
/-!
C160: the report of milter-performance-check counts every mail.
-/
namespace Verif.Props.PerformanceStatistics

open Verif.Tool.PerformanceStatistics
open Verif.Tool.PerformanceCheck (Mail)

/-- The server failed for now: 4XX. -/
def Temporary (j : Job) : Bool := match j.ending with | .code n _ => n / 100 = 4 | _ => false

/-- The server refused: 5XX. -/
def Refused (j : Job) : Bool := match j.ending with | .code n _ => n / 100 = 5 | _ => false

/-- No answer of the server. -/
def Failed (j : Job) : Bool := match j.ending with | .timeout | .system _ | .eof => true | _ => false

/-- The message of an ending. -/
def message (j : Job) : List UInt8 := match j.ending with | .code _ m => m | .system m => m | _ => []

/-- What the program knows how to handle: 4XX, 5XX but for 50X and 53X, timeouts, errors of the system. -/
def Handled (j : Job) : Prop := match j.ending with
  | .code n _ => n / 100 = 4 ∨ (n / 100 = 5 ∧ n / 10 ≠ 50 ∧ n / 10 ≠ 53)
  | .eof => False
  | _ => True

/-- What a report says of the mails. -/
structure Right (js : List Job) (s : Statistics) : Prop where
  n : s.n = js.length
  accumulated : s.accumulated = (js.map (·.time)).sum
  above : ∀ j ∈ js, j.time ≤ s.max
  max : js ≠ [] → ∃ j ∈ js, j.time = s.max
  below : ∀ j ∈ js, minimum s ≤ j.time
  min : js ≠ [] → ∃ j ∈ js, j.time = minimum s
  temporaries : s.temporaries = (js.filter Temporary).map message
  rejects : s.rejects = (js.filter Refused).map message
  errors : s.errors = (js.filter Failed).map message
  sources : s.sources = js.filterMap fun j => j.source.map fun m => (j.time, m)
  rejectedSources : s.rejectedSources = (js.filter Refused).filterMap (·.source)
  temporarySources : s.temporarySources = (js.filter Temporary).filterMap (·.source)

/-- What is noted of a mail that is handled. -/
theorem rescued_handled (j : Job) (h : Handled j) :
    ∃ x, rescued j.ending = some x ∧
      x.temporary = (if Temporary j = true then some (message j) else none) ∧
      x.reject = (if Refused j = true then some (message j) else none) ∧
      x.error = (if Failed j = true then some (message j) else none) := by
  obtain ⟨source, time, ending⟩ := j
  cases ending with
  | sent => exact ⟨{}, rfl, rfl, rfl, rfl⟩
  | timeout => exact ⟨{ error := some [] }, rfl, rfl, rfl, rfl⟩
  | system m => exact ⟨{ error := some m }, rfl, rfl, rfl, rfl⟩
  | eof => exact h.elim
  | code n m =>
    rcases (show n / 100 = 4 ∨ (n / 100 = 5 ∧ n / 10 ≠ 50 ∧ n / 10 ≠ 53) from h) with h | ⟨h, h0, h3⟩
    · refine ⟨{ temporary := some m }, ?_, ?_, ?_, rfl⟩
      · have : exceptionOf n = .serverBusy := by unfold exceptionOf; rw [if_pos h]
        simp only [rescued, this]
      · simp [Temporary, h, message]
      · simp [Refused, h]
    · have h4 : n / 100 ≠ 4 := by omega
      refine ⟨{ reject := some m }, ?_, ?_, ?_, rfl⟩
      · have : exceptionOf n = .fatal := by
          unfold exceptionOf; rw [if_neg h4, if_neg h0, if_neg h3, if_pos h]
        simp only [rescued, this]
      · simp [Temporary, h]
      · simp [Refused, h, message]

theorem push_filter {α β : Type} (js : List α) (j : α) (p : α → Bool) (f : α → β) :
    push ((js.filter p).map f) (if p j = true then some (f j) else none) = ((js ++ [j]).filter p).map f := by
  by_cases h : p j = true
  · simp [push, h, List.filter_append]
  · simp [push, h, List.filter_append]

theorem push_source (js : List Job) (j : Job) (p : Job → Bool) :
    push ((js.filter p).filterMap (·.source)) (if p j = true then j.source else none)
      = ((js ++ [j]).filter p).filterMap (·.source) := by
  by_cases h : p j = true
  · rw [if_pos h, List.filter_append, List.filterMap_append]
    cases hs : j.source <;> simp [push, h, hs]
  · rw [if_neg h]
    simp [push, h, List.filter_append]

theorem isSome_if {α : Type} (b : Bool) (a : α) (m : Option Mail) :
    (if (if b = true then some a else none : Option α).isSome = true then m else none)
      = (if b = true then m else none) := by
  cases b <;> rfl

theorem min_none {js : List Job} {s : Statistics} (h : js = [] ↔ s.min = none) (hj : js ≠ []) :
    ∃ t, s.min = some t := by
  cases e : s.min with
  | none => exact absurd (h.2 e) hj
  | some t => exact ⟨t, rfl⟩

theorem Right.update {js : List Job} {s : Statistics} (h : Right js s) (he : js = [] ↔ s.min = none)
    (h0 : js = [] → s.max = 0) (j : Job) (x : Noted)
    (h1 : x.temporary = (if Temporary j = true then some (message j) else none))
    (h2 : x.reject = (if Refused j = true then some (message j) else none))
    (h3 : x.error = (if Failed j = true then some (message j) else none)) :
    Right (js ++ [j]) (update s j.source j.time x) := by
  refine ⟨?_, ?_, ?_, ?_, ?_, ?_, ?_, ?_, ?_, ?_, ?_, ?_⟩
  · simp [Tool.PerformanceStatistics.update, h.n]
  · simp [Tool.PerformanceStatistics.update, h.accumulated]
  · intro k hk
    show k.time ≤ Nat.max j.time s.max
    rw [List.mem_append, List.mem_singleton] at hk
    rcases hk with hk | rfl
    · exact Nat.le_trans (h.above k hk) (Nat.le_max_right _ _)
    · exact Nat.le_max_left _ _
  · intro _
    show ∃ k ∈ js ++ [j], k.time = Nat.max j.time s.max
    by_cases hle : s.max ≤ j.time
    · exact ⟨j, by simp, (Nat.max_eq_left hle).symm⟩
    · by_cases hj : js = []
      · rw [h0 hj] at hle; omega
      · obtain ⟨k, hk, e⟩ := h.max hj
        exact ⟨k, by simp [hk], by rw [e]; exact (Nat.max_eq_right (by omega)).symm⟩
  · intro k hk
    show (match s.min with | none => j.time | some t => Nat.min j.time t) ≤ k.time
    rw [List.mem_append, List.mem_singleton] at hk
    rcases hk with hk | rfl
    · obtain ⟨t, ht⟩ := min_none he (List.ne_nil_of_mem hk)
      have := h.below k hk
      unfold minimum at this
      rw [ht] at this
      rw [ht]
      exact Nat.le_trans (Nat.min_le_right _ _) this
    · cases s.min with
      | none => exact Nat.le_refl _
      | some t => exact Nat.min_le_left _ _
  · intro _
    show ∃ k ∈ js ++ [j], k.time = (match s.min with | none => j.time | some t => Nat.min j.time t)
    cases ht : s.min with
    | none => exact ⟨j, by simp, rfl⟩
    | some t =>
      have hj : js ≠ [] := by
        intro e
        rw [he.1 e] at ht; exact (nomatch ht)
      obtain ⟨k, hk, e⟩ := h.min hj
      unfold minimum at e
      rw [ht] at e
      change k.time = t at e
      by_cases hle : j.time ≤ t
      · exact ⟨j, by simp, (Nat.min_eq_left hle).symm⟩
      · exact ⟨k, by simp [hk], e.trans (Nat.min_eq_right (by omega)).symm⟩
  · show push s.temporaries x.temporary = _
    rw [h.temporaries, h1]; exact push_filter js j Temporary message
  · show push s.rejects x.reject = _
    rw [h.rejects, h2]; exact push_filter js j Refused message
  · show push s.errors x.error = _
    rw [h.errors, h3]; exact push_filter js j Failed message
  · show push s.sources _ = _
    rw [h.sources, List.filterMap_append]
    cases hs : j.source <;> simp [push, hs]
  · show push s.rejectedSources (if x.reject.isSome = true then j.source else none) = _
    rw [h.rejectedSources, h2, isSome_if]; exact push_source js j Refused
  · show push s.temporarySources (if x.temporary.isSome = true then j.source else none) = _
    rw [h.temporarySources, h1, isSome_if]; exact push_source js j Temporary

theorem process_right (js done : List Job) (s : Statistics) (h : Right done s) (he : done = [] ↔ s.min = none)
    (h0 : done = [] → s.max = 0) (hh : ∀ j ∈ js, Handled j) :
    ∃ t, process s js = some t ∧ Right (done ++ js) t := by
  induction js generalizing done s with
  | nil => exact ⟨s, rfl, by rw [List.append_nil]; exact h⟩
  | cons j js ih =>
    obtain ⟨x, e, h1, h2, h3⟩ := rescued_handled j (hh j List.mem_cons_self)
    obtain ⟨t, ht, hr⟩ := ih (done ++ [j]) (update s j.source j.time x) (h.update he h0 j x h1 h2 h3)
      ⟨fun c => absurd c (by simp), fun c => (nomatch c)⟩ (fun c => absurd c (by simp))
      (fun k hk => hh k (List.mem_cons_of_mem _ hk))
    refine ⟨t, ?_, by simpa using hr⟩
    show (match rescued j.ending with | none => none | some x => process (update s j.source j.time x) js) = _
    rw [e]
    exact ht

/-- C160, for all mails in any order, if the server answers no command with 50X, 53X or an unknown code and does not
close the connection: there is a report; it counts every mail; its times are the greatest, the least and the sum; and it
lists as temporary failures, rejects and errors those mails that were.  Missing: those endings (below). -/
theorem C160_partial (js : List Job) (h : ∀ j ∈ js, Handled j) :
    ∃ s, process {} js = some s ∧ Right js s :=
  process_right js [] {} ⟨rfl, rfl, (fun _ h => (nomatch h)), (fun h => absurd rfl h), (fun _ h => (nomatch h)),
    (fun h => absurd rfl h), rfl, rfl, rfl, rfl, rfl, rfl⟩ ⟨fun _ => rfl, fun _ => rfl⟩ (fun _ => rfl) h

/-- C160 is violated: after any mails, one whose command the server answers with 50X or 53X, or whose connection it
closes, ends the program without a report. -/
theorem C160_lost_violated (before after : List Job) (source : Option Mail) (time n : Nat) (m : List UInt8)
    (hn : n / 10 = 50 ∨ n / 10 = 53) :
    process {} (before ++ ⟨source, time, .code n m⟩ :: after) = none ∧
    process {} (before ++ ⟨source, time, .eof⟩ :: after) = none := by
  have h4 : n / 100 ≠ 4 := by omega
  have key : ∀ (e : Ending), rescued e = none → ∀ s : Statistics,
      process s (before ++ ⟨source, time, e⟩ :: after) = none := by
    intro e he
    induction before with
    | nil =>
      intro s
      show (match rescued e with | none => none | some x => _) = _
      rw [he]
    | cons j js ih =>
      intro s
      show (match rescued j.ending with | none => none | some x => process (update s j.source j.time x) (js ++ _)) = _
      cases rescued j.ending with
      | none => rfl
      | some x => exact ih _
  refine ⟨key _ ?_ _, key _ rfl _⟩
  rcases hn with h | h
  · have : exceptionOf n = .syntax := by unfold exceptionOf; rw [if_neg h4, if_pos h]
    simp only [rescued, this]
  · have : exceptionOf n = .authentication := by
      unfold exceptionOf; rw [if_neg h4, if_neg (by omega), if_pos h]
    simp only [rescued, this]

/-- Four mails, three of them not sent. -/
example :
    let js : List Job := [⟨some [1], 30, .sent⟩, ⟨some [2], 10, .code 451 [0x61]⟩, ⟨none, 50, .code 550 [0x62]⟩,
      ⟨some [3], 20, .timeout⟩]
    (∀ j ∈ js, Handled j) ∧
    ∃ s, process {} js = some s ∧ s.n = 4 ∧ s.max = 50 ∧ minimum s = 10 ∧ s.accumulated = 110 ∧
      s.temporaries = [[0x61]] ∧ s.rejects = [[0x62]] ∧ s.errors = [[]] ∧ s.temporarySources = [[2]] := by
  refine ⟨?_, _, rfl, by decide⟩
  intro j hj
  simp only [List.mem_cons, List.not_mem_nil, or_false] at hj
  rcases hj with rfl | rfl | rfl | rfl
  · trivial
  · exact .inl rfl
  · exact .inr ⟨rfl, by decide, by decide⟩
  · trivial

end Verif.Props.PerformanceStatistics
