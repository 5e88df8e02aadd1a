import Verif.Core.Status
import Verif.Spec.Severity
import Verif.Core.Option
/-
C11, C12, C13: options and severities.
-/
namespace Verif.Props
open Verif

/-- flag number `i` of a word -/
def hasBit (w : UInt32) (i : Nat) : Bool := w.toNat.testBit i

theorem hasBit_and (a b : UInt32) (i : Nat) : hasBit (a &&& b) i = (hasBit a i && hasBit b i) := by
  simp [hasBit, UInt32.toNat_and, Nat.testBit_and]

theorem hasBit_or (a b : UInt32) (i : Nat) : hasBit (a ||| b) i = (hasBit a i || hasBit b i) := by
  simp [hasBit, UInt32.toNat_or, Nat.testBit_or]

/-! ## C11 -/

/-- **C11**: combining is refused exactly for a newer milter (and then changes nothing);
otherwise the version is the milter's and a flag is kept exactly if both sides set it. -/
theorem C11 (mta milter : Opt) :
    (mta.version < milter.version → Opt.combine mta milter = (false, mta)) ∧
    (¬ mta.version < milter.version →
      (Opt.combine mta milter).1 = true ∧
      (Opt.combine mta milter).2.version = milter.version ∧
      ∀ i, (hasBit (Opt.combine mta milter).2.action i = true ↔
              hasBit mta.action i = true ∧ hasBit milter.action i = true) ∧
           (hasBit (Opt.combine mta milter).2.step i = true ↔
              hasBit mta.step i = true ∧ hasBit milter.step i = true)) := by
  constructor
  · intro h; simp [Opt.combine, h]
  · intro h
    simp only [Opt.combine, h, if_false, true_and]
    intro i
    simp [hasBit_and, Bool.and_eq_true]

/-- **C11**: combining twice is combining once, and the flags do not depend on the order. -/
theorem C11_algebra (a b : Opt) (h : ¬ a.version < b.version) :
    Opt.combine (Opt.combine a b).2 b = Opt.combine a b ∧
    (¬ b.version < a.version →
      (Opt.combine a b).2.action = (Opt.combine b a).2.action ∧
      (Opt.combine a b).2.step = (Opt.combine b a).2.step) := by
  constructor
  · have e : Opt.combine a b = (true, ⟨b.version, a.action &&& b.action, a.step &&& b.step⟩) := by
      simp [Opt.combine, h]
    rw [e]
    have : ¬ b.version < b.version := by simp
    simp [Opt.combine, UInt32.and_assoc]
  · intro h'
    simp only [Opt.combine, h, h', if_false]
    exact ⟨UInt32.and_comm _ _, UInt32.and_comm _ _⟩

example : Opt.combine ⟨6, 0x1ff, 0x1fffff⟩ ⟨2, 0x11, 0x7f⟩ = (true, ⟨2, 0x11, 0x7f⟩) ∧
    Opt.combine ⟨2, 0x1ff, 0x7f⟩ ⟨6, 0x11, 0x7f⟩ = (false, ⟨2, 0x1ff, 0x7f⟩) := by decide

/-! ## C12 -/

/-- no-event and no-reply flags of the protocol: no connect, helo, from, rcpt, body,
headers, end of header, (no header reply), unknown, data; no reply to connect, helo, from,
rcpt, data, unknown, end of header, body -/
def noFlags : List Nat := [0, 1, 2, 3, 4, 5, 6, 7, 8, 9, 12, 13, 14, 15, 16, 17, 18, 19]

/-- capability flags: skip, rejected recipients, leading space -/
def yesFlags : List Nat := [10, 11, 20]

theorem noMask_bits : ∀ i < 32, hasBit Opt.noMask i = noFlags.contains i := by decide
theorem yesMask_bits : ∀ i < 32, hasBit Opt.yesMask i = yesFlags.contains i := by decide

theorem hasBit_high (w : UInt32) (i : Nat) (h : 32 ≤ i) : hasBit w i = false := by
  unfold hasBit
  apply Nat.testBit_lt_two_pow
  exact Nat.lt_of_lt_of_le w.toNat_lt (Nat.pow_le_pow_right (by omega) h)

theorem mem_lt (i : Nat) (h : i ∈ noFlags ∨ i ∈ yesFlags) : i < 32 := by
  simp only [noFlags, yesFlags, List.mem_cons, List.not_mem_nil, or_false] at h
  omega

theorem mergeSteps_no (a b : UInt32) (i : Nat) (h : i ∈ noFlags) :
    hasBit (Opt.mergeSteps a b) i = (hasBit a i && hasBit b i) := by
  have hl := mem_lt i (.inl h)
  have h1 : hasBit Opt.noMask i = true := by rw [noMask_bits i hl]; simpa using h
  have h2 : hasBit Opt.yesMask i = false := by
    rw [yesMask_bits i hl]
    simp only [noFlags, List.mem_cons, List.not_mem_nil, or_false] at h
    have : i ∉ yesFlags := by
      simp only [yesFlags, List.mem_cons, List.not_mem_nil, or_false]; omega
    simpa using this
  simp [Opt.mergeSteps, hasBit_and, hasBit_or, h1, h2]

theorem mergeSteps_yes (a b : UInt32) (i : Nat) (h : i ∈ yesFlags) :
    hasBit (Opt.mergeSteps a b) i = (hasBit a i || hasBit b i) := by
  have hl := mem_lt i (.inr h)
  have h1 : hasBit Opt.yesMask i = true := by rw [yesMask_bits i hl]; simpa using h
  have h2 : hasBit Opt.noMask i = false := by
    rw [noMask_bits i hl]
    simp only [yesFlags, List.mem_cons, List.not_mem_nil, or_false] at h
    have : i ∉ noFlags := by
      simp only [noFlags, List.mem_cons, List.not_mem_nil, or_false]; omega
    simpa using this
  simp [Opt.mergeSteps, hasBit_and, hasBit_or, h1, h2]

/-- **C12** when no later milter announces a newer version than the first: a no-flag
survives exactly if all set it, a capability if any set it, an action if any set it. -/
theorem C12_partial (first : Opt) (rest : List Opt)
    (hv : ∀ o ∈ rest, ¬ first.version < o.version) :
    let m := Opt.mergeAll first rest
    m.version = first.version ∧
    (∀ i ∈ noFlags, hasBit m.step i = true ↔ ∀ o ∈ first :: rest, hasBit o.step i = true) ∧
    (∀ i ∈ yesFlags, hasBit m.step i = true ↔ ∃ o ∈ first :: rest, hasBit o.step i = true) ∧
    (∀ i, hasBit m.action i = true ↔ ∃ o ∈ first :: rest, hasBit o.action i = true) := by
  intro m
  induction rest generalizing first with
  | nil => simp [m, Opt.mergeAll]
  | cons o os ih =>
    have hm : (Opt.merge first o).2 =
        ⟨first.version, first.action ||| o.action, Opt.mergeSteps first.step o.step⟩ := by
      simp [Opt.merge, hv o List.mem_cons_self]
    have := ih (Opt.merge first o).2 (by
      rw [hm]; exact fun p hp => hv p (List.mem_cons_of_mem _ hp))
    have hfold : Opt.mergeAll first (o :: os) = Opt.mergeAll (Opt.merge first o).2 os := rfl
    rw [← hfold] at this
    obtain ⟨h1, h2, h3, h4⟩ := this
    refine ⟨by rw [h1, hm], fun i hi => ?_, fun i hi => ?_, fun i => ?_⟩
    · rw [h2 i hi, hm]
      simp only [List.mem_cons, forall_eq_or_imp, mergeSteps_no _ _ i hi, Bool.and_eq_true, and_assoc]
    · rw [h3 i hi, hm]
      simp only [List.mem_cons, exists_eq_or_imp, mergeSteps_yes _ _ i hi, Bool.or_eq_true, or_assoc]
    · rw [h4 i, hm]
      simp only [List.mem_cons, exists_eq_or_imp, hasBit_or, Bool.or_eq_true, or_assoc]

/-- **C12**: hence with equal versions the order of the answers is irrelevant for all
defined flags. -/
theorem C12_order_partial (a b : Opt) (as bs : List Opt) (hp : (a :: as).Perm (b :: bs)) (v : UInt32)
    (hv : ∀ o ∈ a :: as, o.version = v) :
    let m := Opt.mergeAll a as
    let m' := Opt.mergeAll b bs
    m.version = m'.version ∧
    (∀ i ∈ noFlags ++ yesFlags, hasBit m.step i = hasBit m'.step i) ∧
    (∀ i, hasBit m.action i = hasBit m'.action i) := by
  intro m m'
  have hv' : ∀ o ∈ b :: bs, o.version = v := fun o ho => hv o (hp.mem_iff.2 ho)
  have va := hv a List.mem_cons_self
  have vb := hv' b List.mem_cons_self
  obtain ⟨h1, h2, h3, h4⟩ := C12_partial a as (fun o ho => by
    rw [va, hv o (List.mem_cons_of_mem _ ho)]; simp)
  obtain ⟨k1, k2, k3, k4⟩ := C12_partial b bs (fun o ho => by
    rw [vb, hv' o (List.mem_cons_of_mem _ ho)]; simp)
  refine ⟨by rw [h1, k1, va, vb], fun i hi => ?_, fun i => ?_⟩
  · rw [Bool.eq_iff_iff]
    rcases List.mem_append.1 hi with hi | hi
    · rw [h2 i hi, k2 i hi]
      exact ⟨fun h o ho => h o (hp.mem_iff.2 ho), fun h o ho => h o (hp.mem_iff.1 ho)⟩
    · rw [h3 i hi, k3 i hi]
      exact ⟨fun ⟨o, ho, h⟩ => ⟨o, hp.mem_iff.1 ho, h⟩, fun ⟨o, ho, h⟩ => ⟨o, hp.mem_iff.2 ho, h⟩⟩
  · rw [Bool.eq_iff_iff, h4, k4]
    exact ⟨fun ⟨o, ho, h⟩ => ⟨o, hp.mem_iff.1 ho, h⟩, fun ⟨o, ho, h⟩ => ⟨o, hp.mem_iff.2 ho, h⟩⟩

/-- **C12 is violated** when versions differ: an older milter that answers first makes the
newer one's options disappear, in the other order they are merged - here the merged result
announces no data event although the second milter wants it. -/
theorem C12_violated :
    let old : Opt := ⟨2, 0x1, 0x200⟩
    let new : Opt := ⟨6, 0x2, 0x0⟩
    Opt.mergeAll old [new] = ⟨2, 0x1, 0x200⟩ ∧ Opt.mergeAll new [old] = ⟨6, 0x3, 0x0⟩ ∧
    9 ∈ noFlags ∧ hasBit (Opt.mergeAll old [new]).step 9 = true ∧ hasBit new.step 9 = false := by
  decide

example : ∀ o ∈ [(⟨6, 0x2, 0x37f⟩ : Opt), ⟨2, 0x10, 0x410⟩], ¬ (⟨6, 0x1, 0x10⟩ : Opt).version < o.version := by
  decide

/-! ## C13 -/

/-- **C13**: on decisions the comparison is the severity order. -/
theorem C13_order (a b : Status) (ha : IsDecision a) (hb : IsDecision b) :
    (Status.compare a b < 0 ↔ severity a < severity b) ∧
    (Status.compare a b = 0 ↔ a = b) ∧
    (0 < Status.compare a b ↔ severity b < severity a) ∧
    (severity a = severity b → a = b) := by
  cases a <;> cases b <;> first | (exact absurd rfl ha) | (exact absurd rfl hb) | decide

theorem compile_severity (c s : Status) (hc : IsDecision c ∨ c = .notChange) (hs : IsDecision s) :
    IsDecision (Status.compile c s) ∧
    severity (Status.compile c s) = max (severity c) (severity s) ∧
    (Status.compile c s = c ∨ Status.compile c s = s) := by
  cases c <;> cases s <;> first | (exact absurd rfl hs) | decide |
    (rcases hc with h | h
     · exact absurd rfl h
     · cases h)

theorem compileAll_ge (c : Status) (l : List Status) (hc : IsDecision c ∨ c = .notChange)
    (hl : ∀ s ∈ l, IsDecision s) :
    severity c ≤ severity (Status.compileAll c l) ∧
    (∀ s ∈ l, severity s ≤ severity (Status.compileAll c l)) ∧
    (Status.compileAll c l ∈ l ∨ Status.compileAll c l = c) := by
  induction l generalizing c with
  | nil => simp [Status.compileAll]
  | cons s l ih =>
    have h := compile_severity c s hc (hl s List.mem_cons_self)
    obtain ⟨i1, i2, i3⟩ := ih (Status.compile c s) (.inl h.1) (fun t ht => hl t (List.mem_cons_of_mem _ ht))
    have e : Status.compileAll c (s :: l) = Status.compileAll (Status.compile c s) l := rfl
    rw [e]
    rw [h.2.1] at i1
    refine ⟨by omega, ?_, ?_⟩
    · intro t ht
      rcases List.mem_cons.1 ht with rfl | ht
      · omega
      · exact i2 t ht
    · rcases i3 with i3 | i3
      · exact .inl (List.mem_cons_of_mem _ i3)
      · rw [i3]
        rcases h.2.2 with h | h
        · exact .inr h
        · rw [h]; exact .inl List.mem_cons_self

/-- **C13**: folding the replies to a command gives one of them, of maximal severity. -/
theorem C13_max (l : List Status) (h0 : l ≠ []) (hl : ∀ s ∈ l, IsDecision s) :
    Status.compileAll .notChange l ∈ l ∧
    ∀ s ∈ l, severity s ≤ severity (Status.compileAll .notChange l) := by
  obtain ⟨_, h2, h3⟩ := compileAll_ge .notChange l (.inr rfl) hl
  refine ⟨?_, h2⟩
  rcases h3 with h3 | h3
  · exact h3
  · exfalso
    cases l with
    | nil => exact h0 rfl
    | cons s l =>
      have := h2 s List.mem_cons_self
      rw [h3] at this
      have hs : severity s ≠ 0 := hl s List.mem_cons_self
      have h0 : severity .notChange = 0 := rfl
      omega

/-- **C13**: hence order and repetition are irrelevant. -/
theorem C13_order_free (l l' : List Status) (h0 : l ≠ []) (hl : ∀ s ∈ l, IsDecision s)
    (hsame : ∀ s, s ∈ l ↔ s ∈ l') :
    Status.compileAll .notChange l = Status.compileAll .notChange l' := by
  have h0' : l' ≠ [] := by
    rintro rfl
    cases l with
    | nil => exact h0 rfl
    | cons s l => exact absurd ((hsame s).1 List.mem_cons_self) (by simp)
  have hl' : ∀ s ∈ l', IsDecision s := fun s hs => hl s ((hsame s).2 hs)
  obtain ⟨a1, a2⟩ := C13_max l h0 hl
  obtain ⟨b1, b2⟩ := C13_max l' h0' hl'
  have := a2 _ ((hsame _).2 b1)
  have := b2 _ ((hsame _).1 a1)
  exact (C13_order _ _ (hl _ a1) (hl' _ b1)).2.2.2 (by omega)

example : Status.compileAll .notChange [.accept, .temporaryFailure, .continue_, .skip] =
    .temporaryFailure := by decide

end Verif.Props
