import Verif.Core.FileMode
import Verif.Spec.FileMode
/-
C21: file modes.
-/
namespace Verif.Props
open Verif Verif.FileMode Verif.Spec.FileMode

/-- all target letters -/
def isTarget (c : UInt8) : Prop := c ∈ [byte 'a', byte 'u', byte 'g', byte 'o']

theorem targetMask_none (c : UInt8) : targetMask c = none ↔ ¬ isTarget c := by
  have e : [byte 'a', byte 'u', byte 'g', byte 'o'] = [0x61, 0x75, 0x67, 0x6f] := by decide
  unfold targetMask isTarget
  rw [e]
  split
  · simp [*]
  · split
    · simp [*]
    · split
      · simp [*]
      · split <;> simp [*]

theorem permMask_none (c : UInt8) : permMask c = none ↔ c ∉ [byte 'r', byte 'w', byte 'x'] := by
  have e : [byte 'r', byte 'w', byte 'x'] = [0x72, 0x77, 0x78] := by decide
  unfold permMask
  rw [e]
  split
  · simp [*]
  · split
    · simp [*]
    · split <;> simp [*]

theorem testBit_lt_pow (m n k : Nat) (h : m < 2 ^ n) (hk : n ≤ k) : m.testBit k = false :=
  Nat.testBit_lt_two_pow (Nat.lt_of_lt_of_le h (Nat.pow_le_pow_right (by omega) hk))

theorem targetMask_bit (c : UInt8) (m : Nat) (h : targetMask c = some m) (b : Nat) :
    m.testBit b = true ↔ b < 9 ∧ (c = byte 'a' ∨ c = byte (classLetter b)) := by
  by_cases hb : b < 9
  · unfold targetMask at h
    have : ∀ b < 9,
      ((0o777 : Nat).testBit b = true ↔ (0x61 = byte 'a' ∨ 0x61 = byte (classLetter b))) ∧
      ((0o700 : Nat).testBit b = true ↔ (0x75 = byte 'a' ∨ 0x75 = byte (classLetter b))) ∧
      ((0o070 : Nat).testBit b = true ↔ (0x67 = byte 'a' ∨ 0x67 = byte (classLetter b))) ∧
      ((0o007 : Nat).testBit b = true ↔ (0x6f = byte 'a' ∨ 0x6f = byte (classLetter b))) := by decide
    have := this b hb
    simp only [hb, true_and]
    split at h
    · simp only [Option.some.injEq] at h; subst h; rename_i hc; subst hc; exact this.1
    · split at h
      · simp only [Option.some.injEq] at h; subst h; rename_i hc; subst hc; exact this.2.1
      · split at h
        · simp only [Option.some.injEq] at h; subst h; rename_i hc; subst hc; exact this.2.2.1
        · split at h
          · simp only [Option.some.injEq] at h; subst h; rename_i hc; subst hc; exact this.2.2.2
          · cases h
  · have : m < 2 ^ 9 := by
      unfold targetMask at h
      split at h
      · simp only [Option.some.injEq] at h; omega
      · split at h
        · simp only [Option.some.injEq] at h; omega
        · split at h
          · simp only [Option.some.injEq] at h; omega
          · split at h
            · simp only [Option.some.injEq] at h; omega
            · cases h
    rw [testBit_lt_pow m 9 b this (by omega)]
    simp [hb]

theorem permMask_bit (c : UInt8) (m : Nat) (h : permMask c = some m) (b : Nat) (hb : b < 9) :
    m.testBit b = true ↔ c = byte (permLetter b) := by
  unfold permMask at h
  have : ∀ b < 9,
    ((0o444 : Nat).testBit b = true ↔ (0x72 = byte (permLetter b))) ∧
    ((0o222 : Nat).testBit b = true ↔ (0x77 = byte (permLetter b))) ∧
    ((0o111 : Nat).testBit b = true ↔ (0x78 = byte (permLetter b))) := by decide
  have := this b hb
  split at h
  · simp only [Option.some.injEq] at h; subst h; rename_i hc; subst hc; exact this.1
  · split at h
    · simp only [Option.some.injEq] at h; subst h; rename_i hc; subst hc; exact this.2.1
    · split at h
      · simp only [Option.some.injEq] at h; subst h; rename_i hc; subst hc; exact this.2.2
      · cases h

/-- the target loop reads the longest run of target letters -/
theorem targets_spec (i t : Nat) (s : Bytes) (t' : Nat) (r : Bytes) :
    targets i t s = some (t', r) ↔ ∃ ts, s = ts ++ r ∧ (∀ c ∈ ts, isTarget c) ∧
      (i = 0 → ts = [] → r = []) ∧ (∀ c r', r = c :: r' → ¬ isTarget c) ∧
      ∀ b, t'.testBit b = true ↔ t.testBit b = true ∨
        b < 9 ∧ (byte 'a' ∈ ts ∨ byte (classLetter b) ∈ ts) := by
  induction s generalizing i t with
  | nil =>
    simp only [targets, Option.some.injEq, Prod.mk.injEq]
    constructor
    · rintro ⟨rfl, rfl⟩
      exact ⟨[], rfl, by simp, by simp, by simp, by simp⟩
    · rintro ⟨ts, h1, -, -, -, h5⟩
      have := List.append_eq_nil_iff.1 h1.symm
      rw [this.1] at h5
      simp only [List.not_mem_nil, or_self, and_false, or_false] at h5
      exact ⟨(Nat.eq_of_testBit_eq (fun b => by
        have := h5 b
        rw [Bool.eq_iff_iff]; exact this.symm)), this.2.symm⟩
  | cons c s ih =>
    rw [targets]
    cases hc : targetMask c with
    | none =>
      have hn := (targetMask_none c).1 hc
      simp only
      by_cases hi : i = 0
      · rw [if_pos hi]
        constructor
        · intro h; cases h
        · rintro ⟨ts, h1, h2, h3, -, -⟩
          cases ts with
          | nil =>
            simp only [List.nil_append] at h1
            rw [h3 hi rfl] at h1
            cases h1
          | cons d ts =>
            simp only [List.cons_append, List.cons.injEq] at h1
            exact absurd (h2 d List.mem_cons_self) (h1.1 ▸ hn)
      · rw [if_neg hi]
        simp only [Option.some.injEq, Prod.mk.injEq]
        constructor
        · rintro ⟨rfl, rfl⟩
          refine ⟨[], rfl, by simp, fun h => absurd h hi, ?_, by simp⟩
          rintro d r' h
          simp only [List.cons.injEq] at h
          exact h.1 ▸ hn
        · rintro ⟨ts, h1, h2, h3, h4, h5⟩
          cases ts with
          | nil =>
            simp only [List.not_mem_nil, or_self, and_false, or_false] at h5
            exact ⟨(Nat.eq_of_testBit_eq (fun b => by
              have := h5 b
              rw [Bool.eq_iff_iff]; exact this.symm)), h1⟩
          | cons d ts =>
            simp only [List.cons_append, List.cons.injEq] at h1
            exact absurd (h2 d List.mem_cons_self) (h1.1 ▸ hn)
    | some m =>
      have hn : isTarget c := Classical.byContradiction fun h => by
        rw [(targetMask_none c).2 h] at hc; cases hc
      have hbit := targetMask_bit c m hc
      simp only
      rw [ih]
      have hcomb : ∀ b (ts : List UInt8), ((t ||| m).testBit b = true ∨
          b < 9 ∧ (byte 'a' ∈ ts ∨ byte (classLetter b) ∈ ts)) ↔
          (t.testBit b = true ∨ b < 9 ∧ (byte 'a' ∈ c :: ts ∨ byte (classLetter b) ∈ c :: ts)) := by
        intro b ts
        rw [Nat.testBit_or, Bool.or_eq_true, hbit b]
        simp only [List.mem_cons]
        have e1 : (byte 'a' = c) ↔ (c = byte 'a') := eq_comm
        have e2 : (byte (classLetter b) = c) ↔ (c = byte (classLetter b)) := eq_comm
        rw [e1, e2]
        generalize (byte 'a' ∈ ts) = x1
        generalize (byte (classLetter b) ∈ ts) = x2
        generalize (c = byte 'a') = x3
        generalize (c = byte (classLetter b)) = x4
        constructor
        · rintro ((h | ⟨h1, h2 | h2⟩) | ⟨h1, h2 | h2⟩)
          · exact .inl h
          · exact .inr ⟨h1, .inl (.inl h2)⟩
          · exact .inr ⟨h1, .inr (.inl h2)⟩
          · exact .inr ⟨h1, .inl (.inr h2)⟩
          · exact .inr ⟨h1, .inr (.inr h2)⟩
        · rintro (h | ⟨h1, (h2 | h2) | (h2 | h2)⟩)
          · exact .inl (.inl h)
          · exact .inl (.inr ⟨h1, .inl h2⟩)
          · exact .inr ⟨h1, .inl h2⟩
          · exact .inl (.inr ⟨h1, .inr h2⟩)
          · exact .inr ⟨h1, .inr h2⟩
      constructor
      · rintro ⟨ts, h1, h2, h3, h4, h5⟩
        refine ⟨c :: ts, by simp [h1], ?_, fun _ h => (by cases h), h4, fun b => ?_⟩
        · simp only [List.mem_cons, forall_eq_or_imp]; exact ⟨hn, h2⟩
        · rw [h5 b]; exact hcomb b ts
      · rintro ⟨ts, h1, h2, h3, h4, h5⟩
        cases ts with
        | nil =>
          simp only [List.nil_append] at h1
          exact absurd hn (h4 c s h1.symm)
        | cons d ts =>
          simp only [List.cons_append, List.cons.injEq] at h1
          obtain ⟨rfl, h1⟩ := h1
          refine ⟨ts, h1, fun x hx => h2 x (List.mem_cons_of_mem _ hx), fun h => (by omega), h4, fun b => ?_⟩
          rw [h5 b]; exact (hcomb b ts).symm

theorem perms_spec (t n : Nat) (s : Bytes) (m : Nat) (ht : ∀ b, t.testBit b = true → b < 9) :
    perms t n s = some m ↔ (∀ c ∈ s, c ∈ [byte 'r', byte 'w', byte 'x']) ∧
      ∀ b, m.testBit b = true ↔ n.testBit b = true ∨
        t.testBit b = true ∧ byte (permLetter b) ∈ s := by
  induction s generalizing n with
  | nil =>
    simp only [perms, Option.some.injEq, List.not_mem_nil, false_imp_iff, implies_true, true_and,
      and_false, or_false]
    constructor
    · rintro rfl b; rfl
    · intro h
      exact Nat.eq_of_testBit_eq fun b => by rw [Bool.eq_iff_iff]; exact (h b).symm
  | cons c s ih =>
    rw [perms]
    cases hc : permMask c with
    | none =>
      constructor
      · intro h; cases h
      · rintro ⟨h, -⟩
        exact absurd (h c List.mem_cons_self) ((permMask_none c).1 hc)
    | some k =>
      have hn : c ∈ [byte 'r', byte 'w', byte 'x'] := Classical.byContradiction fun h => by
        rw [(permMask_none c).2 h] at hc; cases hc
      simp only
      rw [ih]
      have hcomb : ∀ b, ((n ||| (t &&& k)).testBit b = true ∨
          t.testBit b = true ∧ byte (permLetter b) ∈ s) ↔
          (n.testBit b = true ∨ t.testBit b = true ∧ byte (permLetter b) ∈ c :: s) := by
        intro b
        rw [Nat.testBit_or, Nat.testBit_and, Bool.or_eq_true, Bool.and_eq_true, List.mem_cons]
        by_cases hb : t.testBit b = true
        · rw [permMask_bit c k hc b (ht b hb), eq_comm (a := c)]
          simp only [hb, true_and]
          exact or_assoc
        · simp [hb]
      constructor
      · rintro ⟨h1, h2⟩
        refine ⟨?_, fun b => (h2 b).trans (hcomb b)⟩
        simp only [List.mem_cons (a := _) (b := c), forall_eq_or_imp]
        exact ⟨hn, h1⟩
      · rintro ⟨h1, h2⟩
        exact ⟨fun x hx => h1 x (List.mem_cons_of_mem _ hx), fun b => (h2 b).trans (hcomb b).symm⟩

theorem parseSymbol_iff (s : Bytes) (m : Nat) : parseSymbol s = some m ↔ Symbolic s m := by
  have heq : byte '=' = 0x3d := by decide
  constructor
  · intro h
    unfold parseSymbol at h
    split at h
    · cases h
    · cases h
    · rename_i t c r ht
      obtain ⟨ts, h1, h2, h3, h4, h5⟩ := (targets_spec 0 0 s t (c :: r)).1 ht
      split at h
      · rename_i hc
        split at h
        · cases h
        · rename_i hr
          have hb : ∀ b, t.testBit b = true → b < 9 := by
            intro b hb
            have := (h5 b).1 hb
            simp at this
            exact this.1
          obtain ⟨p1, p2⟩ := (perms_spec t 0 r m hb).1 h
          refine ⟨ts, r, by rw [h1, hc, heq]; simp, ?_, hr, h2, p1, fun b => ?_⟩
          · intro e
            have := h3 rfl e
            cases this
          · rw [p2 b, h5 b]
            simp [and_assoc]
      · cases h
  · rintro ⟨ts, ps, rfl, ht, hp, h1, h2, h3⟩
    unfold parseSymbol
    cases hr : targets 0 0 (ts ++ [byte '='] ++ ps) with
    | none =>
      exfalso
      obtain ⟨c, ts, rfl⟩ := List.exists_cons_of_ne_nil ht
      have : ∀ (i t : Nat) (s : Bytes), 0 < i → targets i t s ≠ none := by
        intro i t s
        induction s generalizing i t with
        | nil => intro _; simp [targets]
        | cons c s ih =>
          intro hi
          rw [targets]
          cases targetMask c with
          | none => simp; omega
          | some m => exact ih _ _ (by omega)
      rw [List.cons_append, List.cons_append, targets] at hr
      cases hc : targetMask c with
      | none => exact absurd (h1 c List.mem_cons_self) ((targetMask_none c).1 hc)
      | some m =>
        rw [hc] at hr
        exact this _ _ _ (by omega) hr
    | some x =>
      obtain ⟨t, r⟩ := x
      obtain ⟨ts', e1, e2, e3, e4, e5⟩ := (targets_spec 0 0 _ t r).1 hr
      have hnt : ¬ isTarget (byte '=') := by unfold isTarget; decide
      -- the run of target letters is unique
      have huniq : ∀ (a b : Bytes) (r : Bytes), a ++ byte '=' :: ps = b ++ r → (∀ c ∈ a, isTarget c) →
          (∀ c ∈ b, isTarget c) → (∀ c r', r = c :: r' → ¬ isTarget c) → a = b ∧ r = byte '=' :: ps := by
        intro a
        induction a with
        | nil =>
          intro b r h _ hb _
          cases b with
          | nil => exact ⟨rfl, h.symm⟩
          | cons d b =>
            simp only [List.nil_append, List.cons_append, List.cons.injEq] at h
            exact absurd (hb d List.mem_cons_self) (h.1 ▸ hnt)
        | cons c a iha =>
          intro b r h ha hb hr
          cases b with
          | nil =>
            simp only [List.nil_append, List.cons_append] at h
            exact absurd (ha c List.mem_cons_self) (hr c _ h.symm)
          | cons d b =>
            simp only [List.cons_append, List.cons.injEq] at h
            obtain ⟨i1, i2⟩ := iha b r h.2 (fun x hx => ha x (List.mem_cons_of_mem _ hx))
              (fun x hx => hb x (List.mem_cons_of_mem _ hx)) hr
            exact ⟨by rw [h.1, i1], i2⟩
      obtain ⟨rfl, rfl⟩ := huniq ts ts' r (by rw [← e1]; simp) h1 e2 e4
      simp only
      rw [if_pos heq, if_neg hp]
      have hb : ∀ b, t.testBit b = true → b < 9 := by
        intro b hb
        have := (e5 b).1 hb
        simp at this
        exact this.1
      rw [perms_spec t 0 ps m hb]
      refine ⟨h2, fun b => ?_⟩
      rw [h3 b, e5 b]
      simp [and_assoc]

theorem numeric_iff (i n m : Nat) (s : Bytes) :
    numeric i n s = some m ↔ (s = [] ∨ i + s.length ≤ 3) ∧
      (∀ c ∈ s, byte '0' ≤ c ∧ c ≤ byte '7') ∧
      m = s.foldl (fun n c => 8 * n + (c.toNat - 48)) n := by
  have e0 : byte '0' = 0x30 := by decide
  have e7 : byte '7' = 0x37 := by decide
  induction s generalizing i n with
  | nil => simp [numeric, eq_comm]
  | cons c s ih =>
    rw [numeric]
    by_cases hi : 2 < i
    · rw [if_pos hi]
      constructor
      · intro h; cases h
      · rintro ⟨h | h, -⟩
        · cases h
        · simp at h; omega
    · rw [if_neg hi]
      by_cases hc : 0x30 ≤ c ∧ c ≤ 0x37
      · have : (decide (0x30 ≤ c) && decide (c ≤ 0x37)) = true := by simp [hc]
        have ih' := ih (i + 1) ((n <<< 3) ||| (c.toNat - 48))
        rw [if_pos this]
        refine Iff.trans ih' ?_
        have hlt : c.toNat - 48 < 2 ^ 3 := by
          have := UInt8.le_iff_toNat_le.1 hc.2
          have : c.toNat ≤ 55 := this
          omega
        have hv : (n <<< 3) ||| (c.toNat - 48) = 8 * n + (c.toNat - 48) := by
          rw [Nat.shiftLeft_eq, Nat.mul_comm, ← Nat.two_pow_add_eq_or_of_lt hlt]
        rw [hv, List.foldl_cons]
        simp only [List.length_cons, List.mem_cons, forall_eq_or_imp, e0, e7, hc, true_and, reduceCtorEq,
          false_or, and_true]
        constructor
        · rintro ⟨h1, h2, h3⟩
          refine ⟨?_, h2, h3⟩
          rcases h1 with rfl | h1
          · simp; omega
          · omega
        · rintro ⟨h1, h2, h3⟩
          exact ⟨.inr (by omega), h2, h3⟩
      · have : (decide (0x30 ≤ c) && decide (c ≤ 0x37)) = false := by
          rw [Bool.eq_false_iff]; simpa using hc
        rw [this]
        constructor
        · intro h; cases h
        · rintro ⟨-, h, -⟩
          have := h c List.mem_cons_self
          rw [e0, e7] at this
          exact absurd this hc

/-- **C21**: a file mode string is accepted with result `mode` exactly if it denotes it. -/
theorem C21 (s : Bytes) (mode : Nat) : parse s = some mode ↔ Denotes s mode := by
  have e0 : byte '0' = 0x30 := by decide
  have e7 : byte '7' = 0x37 := by decide
  have et : [byte 'a', byte 'u', byte 'g', byte 'o'] = [0x61, 0x75, 0x67, 0x6f] := by decide
  unfold Denotes
  cases s with
  | nil =>
    simp only [parse, Option.some.injEq, true_and]
    constructor
    · rintro rfl; exact .inl rfl
    · rintro (h | ⟨h, -⟩ | ⟨a, b, h, ha, -⟩)
      · exact h.symm
      · simp at h
      · simp at h
  | cons c s =>
    rw [parse]
    have no_octal : isTarget c → ¬ Octal (c :: s) mode := by
      rintro h ⟨-, -, h', -⟩
      have := h' c List.mem_cons_self
      rw [e0, e7] at this
      unfold isTarget at h
      rw [et] at h
      simp only [List.mem_cons, List.not_mem_nil, or_false] at h
      rcases h with rfl | rfl | rfl | rfl <;> exact absurd this (by decide)
    have no_symbolic : ¬ isTarget c → ¬ Symbolic (c :: s) mode := by
      rintro h ⟨a, b, e, ha, -, h1, -⟩
      obtain ⟨d, a, rfl⟩ := List.exists_cons_of_ne_nil ha
      simp only [List.cons_append, List.cons.injEq] at e
      exact h (e.1 ▸ h1 d List.mem_cons_self)
    by_cases ht : c = 0x61 ∨ c = 0x75 ∨ c = 0x67 ∨ c = 0x6f
    · have hi : isTarget c := by
        unfold isTarget
        rw [et]
        simpa using ht
      rw [if_pos ht, parseSymbol_iff]
      constructor
      · intro h; exact .inr (.inr h)
      · rintro (⟨h, -⟩ | h | h)
        · cases h
        · exact absurd h (no_octal hi)
        · exact h
    · have hi : ¬ isTarget c := by
        unfold isTarget
        rw [et]
        simpa using ht
      rw [if_neg ht]
      by_cases hc : 0x30 ≤ c ∧ c ≤ 0x37
      · have : (decide (0x30 ≤ c) && decide (c ≤ 0x37)) = true := by simp [hc]
        rw [if_pos this, parseNumeric, numeric_iff]
        constructor
        · rintro ⟨h1, h2, h3⟩
          refine .inr (.inl ⟨by simp, ?_, h2, h3⟩)
          rcases h1 with h1 | h1
          · cases h1
          · omega
        · rintro (⟨h, -⟩ | ⟨-, h1, h2, h3⟩ | h)
          · cases h
          · exact ⟨.inr (by omega), h2, h3⟩
          · exact absurd h (no_symbolic hi)
      · have : (decide (0x30 ≤ c) && decide (c ≤ 0x37)) = false := by
          rw [Bool.eq_false_iff]; simpa using hc
        rw [this]
        constructor
        · intro h; cases h
        · rintro (⟨h, -⟩ | ⟨-, -, h, -⟩ | h)
          · cases h
          · have := h c List.mem_cons_self
            rw [e0, e7] at this
            exact absurd this hc
          · exact absurd h (no_symbolic hi)

/-- "660" and "ug=rw" are the same mode -/
example : Denotes [0x36, 0x36, 0x30] 0o660 ∧ Denotes [0x75, 0x67, 0x3d, 0x72, 0x77] 0o660 :=
  ⟨(C21 _ _).1 (by decide), (C21 _ _).1 (by decide)⟩

/-- "0660", "u+r" and "8" denote nothing -/
example : ∀ mode, ¬ Denotes [0x30, 0x36, 0x36, 0x30] mode ∧ ¬ Denotes [0x75, 0x2b, 0x72] mode ∧
    ¬ Denotes [0x38] mode := by
  intro m
  simp only [← C21]
  exact ⟨fun h => (by cases h), fun h => (by cases h), fun h => (by cases h)⟩

end Verif.Props
