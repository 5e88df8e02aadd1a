import Mathlib.Data.List.Basic
import Mathlib.Data.List.TakeWhile
import Verif.Tool.PerformanceOption
/-!
C164: the periods milter-performance-check takes.
-/
namespace Verif.Props.PerformanceOption

open Verif Verif.Tool.PerformanceOption

/-- Some digits, and nothing else. -/
def Digits (a : Bytes) : Prop := a ≠ [] ∧ ∀ b ∈ a, 0x30 ≤ b.toNat ∧ b.toNat ≤ 0x39

/-- Letters in any case. -/
def AnyCase (name u : Bytes) : Prop := u.map (fun b => if 0x41 ≤ b.toNat ∧ b.toNat ≤ 0x5a then b + 0x20 else b) = name

/-- The units and their seconds: nothing, s, sec, second, seconds; m, min, minute, minutes; h, hour, hours. -/
def unitTable : List (Bytes × Nat) := [([], 1), ([0x73], 1), ([0x73, 0x65, 0x63], 1),
  ([0x73, 0x65, 0x63, 0x6f, 0x6e, 0x64], 1), ([0x73, 0x65, 0x63, 0x6f, 0x6e, 0x64, 0x73], 1),
  ([0x6d], 60), ([0x6d, 0x69, 0x6e], 60), ([0x6d, 0x69, 0x6e, 0x75, 0x74, 0x65], 60),
  ([0x6d, 0x69, 0x6e, 0x75, 0x74, 0x65, 0x73], 60),
  ([0x68], 3600), ([0x68, 0x6f, 0x75, 0x72], 3600), ([0x68, 0x6f, 0x75, 0x72, 0x73], 3600)]

/-- A text is a unit of so many seconds. -/
def Unit (u : Bytes) (secs : Nat) : Prop := ∃ name, (name, secs) ∈ unitTable ∧ AnyCase name u

/-- The number that digits are. -/
def number : Bytes → Nat
  | [] => 0
  | b :: l => (b.toNat - 0x30) * 10 ^ l.length + number l

theorem value_from (s : Bytes) (n : Nat) :
    s.foldl (fun a b => 10 * a + (b.toNat - 0x30)) n = n * 10 ^ s.length + number s := by
  induction s generalizing n with
  | nil => simp [number]
  | cons b l ih =>
    rw [List.foldl_cons, ih, number, List.length_cons, Nat.pow_succ, Nat.add_mul, ← Nat.add_assoc,
      Nat.mul_comm 10 n, Nat.mul_assoc, Nat.mul_comm 10 (10 ^ l.length)]

theorem value_number (s : Bytes) : value s = number s := by
  unfold value
  rw [value_from, Nat.zero_mul, Nat.zero_add]

theorem digit_iff (b : UInt8) : digit b = true ↔ 0x30 ≤ b.toNat ∧ b.toNat ≤ 0x39 := by
  unfold digit
  rw [Bool.and_eq_true, decide_eq_true_eq, decide_eq_true_eq, UInt8.le_iff_toNat_le, UInt8.le_iff_toNat_le]
  exact Iff.rfl

theorem lower_eq (b : UInt8) : lower b = if 0x41 ≤ b.toNat ∧ b.toNat ≤ 0x5a then b + 0x20 else b := by
  unfold lower
  simp only [UInt8.le_iff_toNat_le]
  rfl

theorem map_lower {name u : Bytes} (h : AnyCase name u) : u.map lower = name := by
  rw [← h]
  exact List.map_congr_left fun b _ => lower_eq b

theorem lower_digit (b : UInt8) (h : digit b = true) : lower b = b := by
  rw [lower_eq, if_neg]
  have := (digit_iff b).1 h
  omega

theorem unit_is {u : Bytes} {secs : Nat} (h : Unit u secs) : isUnit u = true ∧ factor u = secs := by
  obtain ⟨name, hn, hu⟩ := h
  unfold isUnit factor
  rw [map_lower hu]
  have : ∀ q ∈ unitTable, units.contains q.1 = true ∧ (match q.1 with
    | 0x6d :: _ => 60
    | 0x68 :: _ => 60 * 60
    | _ => 1) = q.2 := by decide
  exact this _ hn

theorem is_unit {u : Bytes} (h : isUnit u = true) : Unit u (factor u) := by
  unfold isUnit at h
  have hm : u.map lower ∈ units := by simpa using h
  have : ∀ n ∈ units, (n, (match n with
    | 0x6d :: _ => 60
    | 0x68 :: _ => 60 * 60
    | _ => 1)) ∈ unitTable := by decide
  refine ⟨u.map lower, this _ hm, ?_⟩
  exact List.map_congr_left fun b _ => (lower_eq b).symm

theorem unit_no_digit {u : Bytes} (h : isUnit u = true) : ∀ b ∈ u, digit b = false := by
  intro b hb
  cases hd : digit b with
  | false => rfl
  | true =>
    have hm : u.map lower ∈ units := by
      unfold isUnit at h
      simpa using h
    have h1 : b ∈ u.map lower := List.mem_map.2 ⟨b, hb, lower_digit b hd⟩
    have : ∀ n ∈ units, ∀ b ∈ n, digit b = false := by decide
    rw [this _ hm b h1] at hd
    exact (nomatch hd)

theorem split_digits (a rest : Bytes) (h : Digits a) (hr : ∀ b ∈ rest.head?, digit b = false) :
    (a ++ rest).takeWhile digit = a ∧ (a ++ rest).dropWhile digit = rest := by
  have ha : ∀ b ∈ a, digit b = true := fun b hb => (digit_iff b).2 (h.2 b hb)
  rw [List.takeWhile_append_of_pos ha, List.dropWhile_append_of_pos ha]
  cases rest with
  | nil => simp
  | cons c l =>
    have hc : digit c = false := hr c rfl
    rw [List.takeWhile_cons_of_neg (by simp [hc]), List.dropWhile_cons_of_neg (by simp [hc])]
    simp

theorem head_no_digit {u : Bytes} (h : isUnit u = true) : ∀ b ∈ u.head?, digit b = false := by
  intro b hb
  exact unit_no_digit h b (List.mem_of_head? hb)

theorem fraction_unit {u : Bytes} (h : isUnit u = true) : fraction u = none := by
  cases u with
  | nil => rfl
  | cons c r =>
    simp only [fraction]
    have : r.takeWhile digit = [] := by
      cases r with
      | nil => rfl
      | cons d r =>
        rw [List.takeWhile_cons_of_neg]
        rw [unit_no_digit h d (by simp)]
        simp
    rw [if_neg]
    intro hh
    exact hh.2.1 this

theorem parse_middle (a b u : Bytes) (c : UInt8) (ha : Digits a) (hb : Digits b) (hc : digit c = false) (hl : c ≠ 0x0a)
    (hu : isUnit u = true) : parsePeriod (a ++ c :: (b ++ u)) = float a c b (factor u) := by
  obtain ⟨h1, h2⟩ := split_digits a (c :: (b ++ u)) ha (by
    intro x hx
    cases hx
    exact hc)
  obtain ⟨h3, h4⟩ := split_digits b u hb (head_no_digit hu)
  have hf : fraction (c :: (b ++ u)) = some (c, b, u) := by
    simp only [fraction]
    rw [h3, h4, if_pos ⟨hl, hb.1, hu⟩]
  unfold parsePeriod
  rw [h1, h2, if_neg ha.1, hf]

theorem digits_take (p : Bytes) (h : p.takeWhile digit ≠ []) : Digits (p.takeWhile digit) :=
  ⟨h, fun b hb => (digit_iff b).1 (List.mem_takeWhile_imp hb)⟩

/-- C164: a period is digits, perhaps a point and more digits, and perhaps a unit in letters of any case; it is taken for that
many seconds, minutes or hours; every other text is rejected, unless there is another byte in the place of the point.
Missing: that one (below). -/
theorem C164_partial :
    (∀ a u secs, Digits a → Unit u secs → parsePeriod (a ++ u) = .seconds (number a * secs) 0) ∧
    (∀ a b u secs, Digits a → Digits b → Unit u secs →
      parsePeriod (a ++ 0x2e :: (b ++ u)) = .seconds (number (a ++ b) * secs) b.length) ∧
    (∀ p, parsePeriod p ≠ .invalid → ∃ a u secs, Digits a ∧ Unit u secs ∧
      (p = a ++ u ∨ ∃ c b, Digits b ∧ p = a ++ c :: (b ++ u))) := by
  refine ⟨?_, ?_, ?_⟩
  · intro a u secs ha hu
    obtain ⟨h1, h2⟩ := unit_is hu
    obtain ⟨h3, h4⟩ := split_digits a u ha (head_no_digit h1)
    unfold parsePeriod
    rw [h3, h4, if_neg ha.1, fraction_unit h1]
    dsimp only
    rw [if_pos h1, h2, value_number]
  · intro a b u secs ha hb hu
    obtain ⟨h1, h2⟩ := unit_is hu
    rw [parse_middle a b u 0x2e ha hb (by decide) (by decide) h1]
    unfold float
    rw [if_pos rfl, h2, value_number]
  · intro p hp
    by_cases h0 : p.takeWhile digit = []
    · exact absurd (by unfold parsePeriod; rw [if_pos h0]) hp
    · have ha := digits_take p h0
      have hsplit : p.takeWhile digit ++ p.dropWhile digit = p := List.takeWhile_append_dropWhile
      cases hf : fraction (p.dropWhile digit) with
      | none =>
        cases hu : isUnit (p.dropWhile digit) with
        | true => exact ⟨_, _, _, ha, is_unit hu, .inl hsplit.symm⟩
        | false =>
          refine absurd ?_ hp
          unfold parsePeriod
          rw [if_neg h0, hf]
          dsimp only
          rw [hu]
          rfl
      | some q =>
        cases hd : p.dropWhile digit with
        | nil => rw [hd] at hf; exact (nomatch hf)
        | cons c r =>
          rw [hd] at hf
          simp only [fraction] at hf
          by_cases hc : c ≠ 0x0a ∧ r.takeWhile digit ≠ [] ∧ isUnit (r.dropWhile digit) = true
          · refine ⟨_, _, _, ha, is_unit hc.2.2, .inr ⟨c, _, digits_take r hc.2.1, ?_⟩⟩
            rw [List.takeWhile_append_dropWhile, ← hd, hsplit]
          · rw [if_neg hc] at hf
            exact (nomatch hf)

/-- C164 is violated: the point in the regular expression is any byte, so 1e5 is taken for 100000 seconds, 0x10s for 16 and
1_5 for 15, and 1,5s ends the program with ArgumentError. -/
theorem C164_point_violated :
    parsePeriod [0x31, 0x65, 0x35] = .seconds 100000 0 ∧
    parsePeriod [0x30, 0x78, 0x31, 0x30, 0x73] = .seconds 16 0 ∧
    parsePeriod [0x31, 0x5f, 0x35] = .seconds 15 0 ∧
    parsePeriod [0x31, 0x2c, 0x35, 0x73] = .argumentError := by decide +kernel

/-- 1.5H is one hour and a half; 90 is 90 seconds; 1.s and 5d are rejected. -/
example : Digits [0x31] ∧ Digits [0x35] ∧ Unit [0x48] 3600 ∧
    parsePeriod [0x31, 0x2e, 0x35, 0x48] = .seconds (15 * 3600) 1 ∧
    parsePeriod [0x39, 0x30] = .seconds 90 0 ∧
    parsePeriod [0x31, 0x2e, 0x73] = .invalid ∧ parsePeriod [0x35, 0x64] = .invalid := by
  refine ⟨⟨by decide, by decide⟩, ⟨by decide, by decide⟩, ⟨[0x68], by decide, rfl⟩, ?_⟩
  decide +kernel

end Verif.Props.PerformanceOption
