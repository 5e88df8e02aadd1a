import Verif.Client.SetReply
import Verif.Spec.SetReply
/-
C10: custom replies.
-/
namespace Verif.Props
open Verif Verif.SetReply Verif.Spec

theorem isDigit_iff (c : UInt8) : isDigit c = true ↔ 0x30 ≤ c ∧ c ≤ 0x39 := by
  simp [isDigit]

theorem digit_ne_dot (c : UInt8) (h : isDigit c = true) : c ≠ 0x2e := by
  rintro rfl; exact absurd h (by decide)

theorem parseDetail_iff (i : Nat) (s : Bytes) :
    (parseDetail i s).isSome = true ↔
      1 ≤ i + s.length ∧ (s ≠ [] → i + s.length ≤ 3) ∧ ∀ c ∈ s, isDigit c = true := by
  induction s generalizing i with
  | nil => simp only [parseDetail]; split <;> simp_all; omega
  | cons c s ih =>
    simp only [parseDetail]
    by_cases h3 : 3 ≤ i
    · simp [h3]; omega
    · by_cases hd : isDigit c = true
      · simp only [h3, if_false, hd, Bool.not_true, Bool.false_eq_true, ih]
        simp only [List.length_cons, List.mem_cons, forall_eq_or_imp, hd, true_and, ne_eq,
          reduceCtorEq, not_false_eq_true, forall_const]
        constructor
        · rintro ⟨a, b, c⟩
          refine ⟨by omega, ?_, c⟩
          by_cases hs : s = []
          · subst hs; simp; omega
          · have := b hs; omega
        · rintro ⟨a, b, c⟩
          exact ⟨by omega, fun _ => by omega, c⟩
      · simp [h3, hd]

theorem parseSubject_iff (i : Nat) (s r : Bytes) (hr : r ≠ []) :
    parseSubject i s = some r ↔
      ∃ a, s = a ++ 0x2e :: r ∧ 1 ≤ i + a.length ∧ (a ≠ [] → i + a.length ≤ 3) ∧
        ∀ c ∈ a, isDigit c = true := by
  induction s generalizing i with
  | nil =>
    simp only [parseSubject]
    constructor
    · split
      · simp
      · intro h; simp at h; exact absurd h hr
    · rintro ⟨a, h, -⟩; simp at h
  | cons c s ih =>
    simp only [parseSubject]
    by_cases hc : c = 0x2e
    · subst hc
      constructor
      · intro h
        rw [if_pos rfl] at h
        split at h
        · simp at h
        · refine ⟨[], by simpa using h, ?_⟩
          simp; omega
      · rintro ⟨a, h, h1, h2, h3⟩
        cases a with
        | nil =>
          simp at h h1
          rw [if_pos rfl, if_neg (by omega), h]
        | cons x a =>
          simp at h
          exact absurd h.1.symm (digit_ne_dot x (h3 x (by simp)))
    · rw [if_neg hc]
      by_cases h3 : 3 ≤ i
      · rw [if_pos h3]
        constructor
        · simp
        · rintro ⟨a, h, h1, h2, -⟩
          cases a with
          | nil => simp at h; exact absurd h.1 hc
          | cons x a => have := h2 (by simp); simp at this; omega
      · rw [if_neg h3]
        by_cases hd : isDigit c = true
        · simp only [hd, Bool.not_true, Bool.false_eq_true, if_false, ih]
          constructor
          · rintro ⟨a, h, h1, h2, h3'⟩
            refine ⟨c :: a, by simp [h], by simp; omega, ?_, ?_⟩
            · intro _
              by_cases ha : a = []
              · subst ha; simp; omega
              · have := h2 ha; simp; omega
            · simp only [List.mem_cons, forall_eq_or_imp]; exact ⟨hd, h3'⟩
          · rintro ⟨a, h, h1, h2, h3'⟩
            cases a with
            | nil => simp at h; exact absurd h.1 hc
            | cons x a =>
              simp only [List.cons_append, List.cons.injEq] at h
              have := h2 (by simp)
              simp at this
              exact ⟨a, h.2, by omega, fun _ => by omega, fun c hc => h3' c (by simp [hc])⟩
        · simp only [hd, Bool.not_false, if_true]
          constructor
          · simp
          · rintro ⟨a, h, -, -, h3'⟩
            cases a with
            | nil => simp at h; exact absurd h.1 hc
            | cons x a =>
              simp at h
              have := h3' x (by simp)
              rw [← h.1] at this
              exact absurd this hd

theorem parseClass_iff (e r : Bytes) (k : Nat) (hr : r ≠ []) :
    parseClass 0 0 e = some (k, r) ↔
      (k = 2 ∨ k = 4 ∨ k = 5) ∧ e = UInt8.ofNat (48 + k) :: 0x2e :: r := by
  match e with
  | [] => simp [parseClass]
  | [c] =>
    simp only [parseClass]
    by_cases hc : c = 0x2e
    · simp [hc]
    · simp only [hc, if_false]
      split
      · omega
      · split
        · simp
        · simp; intro _ h; exact absurd h hr
  | c :: d :: s =>
    simp only [parseClass]
    by_cases hc : c = 0x2e
    · subst hc
      simp
      rintro (rfl | rfl | rfl) h <;> exact absurd h (by decide)
    · by_cases hd : d = 0x2e
      · subst hd
        by_cases h : c = 0x32 ∨ c = 0x34 ∨ c = 0x35
        · rcases h with rfl | rfl | rfl
          · simp
            constructor
            · rintro ⟨rfl, rfl⟩; simp
            · rintro ⟨rfl | rfl | rfl, h, rfl⟩
              · simp
              · exact absurd h (by decide)
              · exact absurd h (by decide)
          · simp
            constructor
            · rintro ⟨rfl, rfl⟩; simp
            · rintro ⟨rfl | rfl | rfl, h, rfl⟩
              · exact absurd h (by decide)
              · simp
              · exact absurd h (by decide)
          · simp
            constructor
            · rintro ⟨rfl, rfl⟩; simp
            · rintro ⟨rfl | rfl | rfl, h, rfl⟩
              · exact absurd h (by decide)
              · exact absurd h (by decide)
              · simp
        · simp only [not_or] at h
          simp [hc, h]
          rintro (rfl | rfl | rfl) hh
          · exact absurd hh h.1
          · exact absurd hh h.2.1
          · exact absurd hh h.2.2
      · simp [hc, hd]

theorem parse_iff (e : Bytes) (k : Nat) :
    parse e = some k ↔ (k = 2 ∨ k = 4 ∨ k = 5) ∧ ∃ a b, OneToThreeDigits a ∧ OneToThreeDigits b ∧
      e = [UInt8.ofNat (48 + k), 0x2e] ++ a ++ [0x2e] ++ b := by
  constructor
  · intro h
    simp only [parse] at h
    split at h
    · simp at h
    · rename_i k' s hs
      split at h
      · simp at h
      · rename_i hne
        split at h
        · simp at h
        · rename_i s' hs'
          split at h
          · simp at h
          · rename_i hne'
            split at h
            · simp at h
            · rename_i d hd
              simp only [Option.some.injEq] at h
              subst h
              obtain ⟨hk, he⟩ := (parseClass_iff e s k' hne).1 hs
              obtain ⟨a, ha, h1, h2, h3⟩ := (parseSubject_iff 0 s s' hne').1 hs'
              obtain ⟨g1, g2, g3⟩ := (parseDetail_iff 0 s').1 (by rw [hd]; rfl)
              refine ⟨hk, a, s', ⟨by omega, ?_, fun c hc => (isDigit_iff c).1 (h3 c hc)⟩,
                ⟨by omega, ?_, fun c hc => (isDigit_iff c).1 (g3 c hc)⟩, ?_⟩
              · by_cases ha0 : a = []
                · simp [ha0]
                · have := h2 ha0; omega
              · have := g2 hne'; omega
              · rw [he, ha]; simp
  · rintro ⟨hk, a, b, ⟨a1, a2, a3⟩, ⟨b1, b2, b3⟩, rfl⟩
    have hb : b ≠ [] := by rintro rfl; simp at b1
    have h1 := (parseClass_iff ([UInt8.ofNat (48 + k), 0x2e] ++ a ++ [0x2e] ++ b)
      (a ++ 0x2e :: b) k (by simp)).2 ⟨hk, by simp⟩
    have h2 := (parseSubject_iff 0 (a ++ 0x2e :: b) b hb).2
      ⟨a, rfl, by omega, fun _ => by omega, fun c hc => (isDigit_iff c).2 (a3 c hc)⟩
    have h3 := (parseDetail_iff 0 b).2
      ⟨by omega, fun _ => by omega, fun c hc => (isDigit_iff c).2 (b3 c hc)⟩
    unfold parse
    simp only [h1, h2, hb]
    cases hd : parseDetail 0 b with
    | none => rw [hd] at h3; simp at h3
    | some d => simp

/-- **C10**: a custom reply is accepted exactly when it is legal. -/
theorem C10_accepts (s : Custom) (code : Nat) (ext message : Option Bytes) :
    (setReply s code ext message).1 = true ↔ LegalReply code ext := by
  have hext : extOk code ext = true ↔ ∀ e, ext = some e → parse e = some (code / 100) := by
    cases ext with
    | none => simp [extOk]
    | some e =>
      simp only [extOk, Option.some.injEq, forall_eq']
      cases parse e <;> simp
  unfold setReply LegalReply
  by_cases hc : 400 ≤ code ∧ code < 600
  · have hcl : code / 100 = 4 ∨ code / 100 = 5 := by omega
    have : (decide (400 ≤ code) && decide (code < 600)) = true := by simp [hc]
    simp only [this, Bool.not_true, Bool.false_eq_true, if_false]
    have e1 : (if (!extOk code ext) = true then (false, s) else (true, (⟨code, ext, message⟩ : Custom))).1
        = extOk code ext := by cases extOk code ext <;> rfl
    rw [e1, hext]
    constructor
    · intro h
      refine ⟨hc.1, by omega, fun e he => ?_⟩
      exact ((parse_iff e _).1 (h e he)).2
    · rintro ⟨-, -, h⟩ e he
      exact (parse_iff e _).2 ⟨by omega, h e he⟩
  · have : (decide (400 ≤ code) && decide (code < 600)) = false := by
      simp only [Bool.and_eq_false_iff, decide_eq_false_iff_not]; omega
    simp only [this, Bool.not_false, if_true]
    constructor
    · intro h; exact absurd h (by decide)
    · rintro ⟨a, b, -⟩; omega

/-- **C10**: an accepted reply is stored as given, a refused one leaves the stored reply
unchanged. -/
theorem C10_stores (s : Custom) (code : Nat) (ext message : Option Bytes) :
    (LegalReply code ext → (setReply s code ext message).2 = ⟨code, ext, message⟩) ∧
    (¬ LegalReply code ext → (setReply s code ext message).2 = s) := by
  constructor
  · intro h
    have := (C10_accepts s code ext message).2 h
    unfold setReply at this ⊢
    split
    · rename_i h1; rw [if_pos h1] at this; simp at this
    · rename_i h1
      rw [if_neg h1] at this
      split
      · rename_i h2; rw [if_pos h2] at this; simp at this
      · rfl
  · intro h
    have := mt (C10_accepts s code ext message).1 h
    unfold setReply at this ⊢
    split
    · rfl
    · rename_i h1
      rw [if_neg h1] at this
      split
      · rfl
      · rename_i h2; rw [if_neg h2] at this; simp at this

/-- "5.7.11" fits 550; "5.7.1111" and "4.7.1" do not -/
example : LegalReply 550 (some [0x35, 0x2e, 0x37, 0x2e, 0x31, 0x31]) :=
  (C10_accepts {} 550 _ none).1 (by decide)
example : ¬ LegalReply 550 (some [0x35, 0x2e, 0x37, 0x2e, 0x31, 0x31, 0x31, 0x31]) :=
  mt (C10_accepts {} 550 _ none).2 (by decide)
example : ¬ LegalReply 550 (some [0x34, 0x2e, 0x37, 0x2e, 0x31]) :=
  mt (C10_accepts {} 550 _ none).2 (by decide)
example : ¬ LegalReply 250 none := mt (C10_accepts {} 250 _ none).2 (by decide)

end Verif.Props
