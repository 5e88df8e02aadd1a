import Mathlib.Data.List.Basic
import Verif.Client.RubyLogger
import Verif.Props.Testing
/-!
C166: what is logged from Ruby.
-/
namespace Verif.Props.RubyLogger

open Verif Verif.RubyLogger
open Verif.Testing (lines chomp)
open Verif.Props.Testing (lines_line chomp_line)

/-- A line: without line feeds, and without a carriage return at its end. -/
def Line (l : Bytes) : Prop := (0x0a : UInt8) ∉ l ∧ l.getLast? ≠ some 0x0d

/-- Lines with line feeds between them; the last one may have one too. -/
def Lines (s : Bytes) (ls : List Bytes) : Prop :=
  s = ls.flatMap (· ++ [0x0a]) ∨ (ls.getLast? ≠ some [] ∧ s ++ [0x0a] = ls.flatMap (· ++ [0x0a]))

theorem lines_single (l : Bytes) (h : (0x0a : UInt8) ∉ l) (hn : l ≠ []) : lines l = [l] := by
  induction l with
  | nil => exact absurd rfl hn
  | cons b r ih =>
    have hb : b ≠ 0x0a := fun e => h (e ▸ List.mem_cons_self)
    have hr : (0x0a : UInt8) ∉ r := fun e => h (List.mem_cons_of_mem _ e)
    rw [lines, if_neg hb]
    by_cases h0 : r = []
    · rw [h0]; rfl
    · rw [ih hr h0]

theorem chomp_single (l : Bytes) (h : Line l) : chomp l = l := by
  unfold chomp
  cases hr : l.reverse with
  | nil => rfl
  | cons a r =>
    have hl : l.getLast? = some a := by rw [← List.head?_reverse, hr]; rfl
    have h1 : a ≠ 0x0a := fun e => h.1 (e ▸ List.mem_of_getLast? hl)
    have h2 : a ≠ 0x0d := fun e => h.2 (e ▸ hl)
    dsimp only
    rw [if_neg h1, if_neg h2]

theorem chomped_closed (ls : List Bytes) (h : ∀ l ∈ ls, Line l) :
    (lines (ls.flatMap (· ++ [0x0a]))).map chomp = ls := by
  induction ls with
  | nil => rfl
  | cons l r ih =>
    have hl := h l List.mem_cons_self
    rw [List.flatMap_cons, List.append_assoc]
    show (lines (l ++ 0x0a :: r.flatMap (· ++ [0x0a]))).map chomp = _
    rw [lines_line l hl.1, List.map_cons, chomp_line l hl.2, ih (fun x hx => h x (List.mem_cons_of_mem _ hx))]

theorem chomped_open (ls : List Bytes) (h : ∀ l ∈ ls, Line l) (hn : ls.getLast? ≠ some []) (s : Bytes)
    (hs : s ++ [0x0a] = ls.flatMap (· ++ [0x0a])) : (lines s).map chomp = ls := by
  induction ls generalizing s with
  | nil => exact absurd hs (by simp)
  | cons l r ih =>
    have hl := h l List.mem_cons_self
    cases r with
    | nil =>
      have : s = l := by simpa using hs
      rw [this]
      have hne : l ≠ [] := fun e => hn (by rw [e]; rfl)
      rw [lines_single l hl.1 hne, List.map_cons, chomp_single l hl]
      rfl
    | cons m r =>
      have hr : (m :: r).flatMap (· ++ [0x0a]) = (((m :: r).flatMap (· ++ [0x0a])).dropLast) ++ [0x0a] := by
        have hne : (m :: r).flatMap (· ++ [(0x0a : UInt8)]) ≠ [] := by simp
        have hlast : ((m :: r).flatMap (· ++ [(0x0a : UInt8)])).getLast hne = 0x0a := by
          have : ∀ (q : List Bytes) (hq : q.flatMap (· ++ [(0x0a : UInt8)]) ≠ []),
              (q.flatMap (· ++ [(0x0a : UInt8)])).getLast hq = 0x0a := by
            intro q
            induction q with
            | nil => intro hq; exact absurd rfl hq
            | cons x y ihy =>
              intro hq
              by_cases h0 : y.flatMap (· ++ [(0x0a : UInt8)]) = []
              · simp [List.flatMap_cons, h0]
              · simp only [List.flatMap_cons]
                rw [List.getLast_append_of_ne_nil _ h0]
                exact ihy h0
          exact this _ hne
        have e := (List.dropLast_append_getLast hne).symm
        rw [hlast] at e
        exact e
      rw [List.flatMap_cons, hr] at hs
      have hs' : s = l ++ 0x0a :: ((m :: r).flatMap (· ++ [0x0a])).dropLast := by
        have : s ++ [0x0a] = (l ++ 0x0a :: ((m :: r).flatMap (· ++ [0x0a])).dropLast) ++ [0x0a] := by
          rw [hs]; simp
        exact List.append_cancel_right this
      rw [hs', lines_line l hl.1, List.map_cons, chomp_line l hl.2,
        ih (fun x hx => h x (List.mem_cons_of_mem _ hx)) (by simpa using hn) _ hr.symm]

theorem chomped (s : Bytes) (ls : List Bytes) (h : ∀ l ∈ ls, Line l) (hs : Lines s ls) : (lines s).map chomp = ls := by
  rcases hs with rfl | ⟨hn, hs⟩
  · exact chomped_closed ls h
  · exact chomped_open ls h hn s hs

theorem join_lines (ls : List Bytes) (hn : ls ≠ []) : join ls ++ [0x0a] = ls.flatMap (· ++ [0x0a]) := by
  induction ls with
  | nil => exact absurd rfl hn
  | cons l r ih =>
    cases r with
    | nil => simp [join]
    | cons m r =>
      rw [List.flatMap_cons, ← ih (by simp)]
      simp [join]

/-- C166: a message of an interesting level, given as it is or by the block, is logged line by line, all lines, in their order;
the block is called only then.  An exception that has been raised is logged with its class, its message and its backtrace.
Whatever a callback raises, the guard gives the fallback and logs the exception.  Missing: exceptions that have not been
raised (below). -/
theorem C166_partial :
    (∀ s ls, (∀ l ∈ ls, Line l) → Lines s ls →
      log true (.text s) none = .logged ls false ∧ log true .nothing (some (.text s)) = .logged ls true) ∧
    (∀ message block, log false message block = .logged [] false) ∧
    (∀ cls message backtrace, Line (cls ++ [0x3a, 0x20] ++ message ++ [0x3a]) → (∀ l ∈ backtrace, Line l ∧ l ≠ []) →
      ∀ α : Type, ∀ fallback : α, guard true fallback (.raised cls message backtrace)
        = (fallback, .logged ((cls ++ [0x3a, 0x20] ++ message ++ [0x3a]) :: backtrace) false)) ∧
    (∀ (α : Type) (interesting : Bool) (fallback v : α), guard interesting fallback (.value v) = (v, .logged [] false)) ∧
    (∀ (α : Type) (interesting : Bool) (fallback : α) cls message backtrace, ∃ ls,
      guard interesting fallback (.raised cls message backtrace) = (fallback, .logged ls false)) := by
  refine ⟨?_, fun _ _ => rfl, ?_, fun _ _ _ _ => rfl, ?_⟩
  · intro s ls h hs
    have := chomped s ls h hs
    constructor
    · show Outcome.logged ((lines s).map chomp) false = _
      rw [this]
    · show Outcome.logged ((lines s).map chomp) true = _
      rw [this]
  · intro cls message backtrace h hb α fallback
    show (fallback, Outcome.logged ((lines (cls ++ [0x3a, 0x20] ++ message ++ [0x3a, 0x0a] ++ join backtrace)).map chomp)
      false) = _
    have e : cls ++ [0x3a, 0x20] ++ message ++ [0x3a, 0x0a] ++ join backtrace
        = (cls ++ [0x3a, 0x20] ++ message ++ [0x3a]) ++ 0x0a :: join backtrace := by simp
    have hj : (lines (join backtrace)).map chomp = backtrace := by
      by_cases h0 : backtrace = []
      · rw [h0]; rfl
      · refine chomped _ _ (fun l hl => (hb l hl).1) (.inr ⟨fun hx => ?_, join_lines _ h0⟩)
        exact (hb [] (List.mem_of_getLast? hx)).2 rfl
    rw [e, lines_line _ h.1, List.map_cons, chomp_line _ h.2, hj]
  · intro α interesting fallback cls message backtrace
    cases interesting with
    | false => exact ⟨[], rfl⟩
    | true => exact ⟨_, rfl⟩

/-- C166 is violated: an exception that has not been raised has no backtrace, and logging it raises NoMethodError. -/
theorem C166_backtrace_violated (cls message : Bytes) (block : Option Message) :
    log true (.exception cls message none) block = .noMethodError := rfl

/-- Two lines, with and without the last line feed; an empty line between; and an exception. -/
example : log true (.text [0x61, 0x0a, 0x0a, 0x62]) none = .logged [[0x61], [], [0x62]] false ∧
    log true .nothing (some (.text [0x61, 0x0a])) = .logged [[0x61]] true ∧
    (guard true 3 (.raised [0x45] [0x6d] [[0x66], [0x67]])).2
      = .logged [[0x45, 0x3a, 0x20, 0x6d, 0x3a], [0x66], [0x67]] false ∧
    Line [0x45, 0x3a, 0x20, 0x6d, 0x3a] ∧ Lines [0x61, 0x0a, 0x0a, 0x62] [[0x61], [], [0x62]] := by
  refine ⟨by decide, by decide, by decide, ⟨by decide, by decide⟩, .inr ⟨by decide, by decide⟩⟩

end Verif.Props.RubyLogger
