import Verif.Core.MacrosRequests
/-
C18: merging macro requests.
-/
namespace Verif.Props
open Verif Verif.MacrosRequests

/-- the table the manager ends up with when the milters' tables arrive in this order -/
def mergeAllRequests (same : Bytes → Bytes → Bool) (l : List Requests) : Requests :=
  l.foldl (merge same) new

variable (same : Bytes → Bytes → Bool) (hs : ∀ a b, same a b = true ↔ a = b)

include hs in
theorem any_same (l : List Bytes) (s : Bytes) : (l.any fun x => same x s) = true ↔ s ∈ l := by
  simp [List.any_eq_true, hs]

include hs in
theorem mem_appendNew (a b : List Bytes) (s : Bytes) :
    s ∈ appendNew same a b ↔ s ∈ a ∨ s ∈ b := by
  induction b generalizing a with
  | nil => simp [appendNew]
  | cons x b ih =>
    rw [appendNew]
    split
    · rename_i h
      rw [any_same same hs] at h
      rw [ih]
      simp only [List.mem_cons]
      constructor
      · rintro (h' | h') <;> simp [h']
      · rintro (h' | rfl | h')
        · exact .inl h'
        · exact .inl h
        · exact .inr h'
    · rw [ih]; simp [or_assoc]

theorem prefix_appendNew (a b : List Bytes) : a <+: appendNew same a b := by
  induction b generalizing a with
  | nil => exact List.prefix_refl _
  | cons x b ih =>
    rw [appendNew]
    split
    · exact ih a
    · exact (List.prefix_append _ _).trans (ih _)

include hs in
theorem nodup_appendNew (a b : List Bytes) (ha : a.Nodup) : (appendNew same a b).Nodup := by
  induction b generalizing a with
  | nil => exact ha
  | cons x b ih =>
    rw [appendNew]
    split
    · exact ih a ha
    · rename_i h
      rw [any_same same hs] at h
      refine ih _ ?_
      rw [List.nodup_append]
      refine ⟨ha, by simp, ?_⟩
      rintro y hy z hz rfl
      simp at hz; subst hz
      exact h hy

theorem sublist_appendNew (a b : List Bytes) :
    ∃ t, appendNew same a b = a ++ t ∧ t.Sublist b := by
  induction b generalizing a with
  | nil => exact ⟨[], by simp [appendNew], List.Sublist.refl _⟩
  | cons x b ih =>
    rw [appendNew]
    split
    · obtain ⟨t, h1, h2⟩ := ih a
      exact ⟨t, h1, h2.cons _⟩
    · obtain ⟨t, h1, h2⟩ := ih (a ++ [x])
      exact ⟨x :: t, by simp [h1], h2.cons_cons _⟩

include hs in
/-- **C18**: after merging any number of request tables, a stage has a symbol exactly if
some milter asked for it, and has an entry exactly if some milter had one. -/
theorem C18_union (l : List Requests) (c : UInt8) :
    (∀ s, s ∈ getSymbols (mergeAllRequests same l) c ↔ ∃ r ∈ l, s ∈ getSymbols r c) ∧
    (mergeAllRequests same l c ≠ none ↔ ∃ r ∈ l, r c ≠ none) := by
  unfold mergeAllRequests
  have key : ∀ (l : List Requests) (r0 : Requests),
      (∀ s, s ∈ getSymbols (l.foldl (merge same) r0) c ↔
        s ∈ getSymbols r0 c ∨ ∃ r ∈ l, s ∈ getSymbols r c) ∧
      (l.foldl (merge same) r0 c ≠ none ↔ r0 c ≠ none ∨ ∃ r ∈ l, r c ≠ none) := by
    intro l
    induction l with
    | nil => intro r0; simp
    | cons r l ih =>
      intro r0
      rw [List.foldl_cons]
      obtain ⟨i1, i2⟩ := ih (merge same r0 r)
      have m1 : ∀ s, s ∈ getSymbols (merge same r0 r) c ↔ s ∈ getSymbols r0 c ∨ s ∈ getSymbols r c := by
        intro s
        unfold getSymbols merge
        cases hr : r c with
        | none => simp
        | some x => simp [mem_appendNew same hs]
      have m2 : merge same r0 r c ≠ none ↔ r0 c ≠ none ∨ r c ≠ none := by
        unfold merge
        cases hr : r c with
        | none => simp
        | some x => simp
      constructor
      · intro s; rw [i1, m1]; simp [or_assoc]
      · rw [i2, m2]; simp [or_assoc]
  have := key l new
  simpa [getSymbols, new] using this

include hs in
/-- **C18**: no symbol is requested twice once the first table has none twice; what was
requested before keeps its place, and new symbols follow in the order asked for. -/
theorem C18_order (l : List Requests) (r : Requests) (c : UInt8) :
    (getSymbols (mergeAllRequests same l) c).Nodup ∧
    ∃ new, getSymbols (mergeAllRequests same (l ++ [r])) c =
        getSymbols (mergeAllRequests same l) c ++ new ∧ new.Sublist (getSymbols r c) ∧
        ∀ s, s ∈ new ↔ s ∈ getSymbols r c ∧ s ∉ getSymbols (mergeAllRequests same l) c := by
  have nd : ∀ (l : List Requests) (r0 : Requests), (getSymbols r0 c).Nodup →
      (getSymbols (l.foldl (merge same) r0) c).Nodup := by
    intro l
    induction l with
    | nil => intro r0 h; exact h
    | cons r l ih =>
      intro r0 h
      rw [List.foldl_cons]
      refine ih _ ?_
      unfold getSymbols merge
      cases hr : r c with
      | none => exact h
      | some x => exact nodup_appendNew same hs _ _ h
  have n1 := nd l new (by simp [getSymbols, new])
  have n2 := nd (l ++ [r]) new (by simp [getSymbols, new])
  refine ⟨n1, ?_⟩
  unfold mergeAllRequests at *
  rw [List.foldl_append] at n2 ⊢
  simp only [List.foldl_cons, List.foldl_nil] at n2 ⊢
  generalize l.foldl (merge same) new = m at *
  have hm : getSymbols (merge same m r) c = appendNew same (getSymbols m c) (getSymbols r c) := by
    unfold getSymbols merge
    cases hr : r c with
    | none => simp [appendNew]
    | some x => simp
  rw [hm] at n2 ⊢
  obtain ⟨t, h1, h2⟩ := sublist_appendNew same (getSymbols m c) (getSymbols r c)
  refine ⟨t, h1, h2, fun s => ⟨fun hst => ⟨h2.subset hst, fun hsm => ?_⟩, fun ⟨a, b⟩ => ?_⟩⟩
  · rw [h1, List.nodup_append] at n2
    exact n2.2.2 s hsm s hst rfl
  · have := (mem_appendNew same hs (getSymbols m c) (getSymbols r c) s).2 (.inr a)
    rw [h1, List.mem_append] at this
    exact this.resolve_left b

example :
    let a : Requests := setSymbols new 0x43 [[0x6a], [0x5f]]
    let b : Requests := setSymbols (setSymbols new 0x43 [[0x5f], [0x76]]) 0x48 [[0x74]]
    let m := mergeAllRequests (· == ·) [a, b]
    getSymbols m 0x43 = [[0x6a], [0x5f], [0x76]] ∧ getSymbols m 0x48 = [[0x74]] ∧ m 0x4d = none := by
  decide

end Verif.Props
