import Verif.Spec.Headers
/-
C14: header lists.
-/
namespace Verif.Props
open Verif Verif.Spec

theorem positionsOf_nil (name : Bytes) : positionsOf [] name = [] := rfl

theorem positionsOf_cons (h : Header) (l : List Header) (name : Bytes) :
    positionsOf (h :: l) name =
      (if h.name = name then [0] else []) ++ (positionsOf l name).map (· + 1) := by
  unfold positionsOf
  rw [List.length_cons, List.range_succ_eq_map, List.filter_cons]
  have : List.filter (fun i => Option.map (fun x => x.name) ((h :: l)[i]?) == some name)
      (List.map Nat.succ (List.range l.length)) =
      List.map (· + 1) (List.filter (fun i => Option.map (fun x => x.name) (l[i]?) == some name)
        (List.range l.length)) := by
    rw [List.filter_map]
    rfl
  rw [this]
  by_cases hn : h.name = name <;> simp [hn]

theorem positionFrom_spec (l : List Header) (name : Bytes) (c n : Nat) :
    Headers.positionFrom c l name n =
      if n ≤ c then none else (positionsOf l name)[n - c - 1]? := by
  induction l generalizing c with
  | nil => simp [Headers.positionFrom, positionsOf_nil]
  | cons h l ih =>
    rw [Headers.positionFrom, positionsOf_cons]
    by_cases hn : h.name = name
    · simp only [hn, ne_eq, not_true_eq_false, if_false, if_true]
      by_cases hc : c + 1 = n
      · subst hc
        simp
      · rw [if_neg hc, ih]
        by_cases hle : n ≤ c
        · rw [if_pos hle, if_pos (by omega)]; rfl
        · rw [if_neg hle, if_neg (by omega)]
          have : n - c - 1 = (n - (c + 1) - 1) + 1 := by omega
          rw [this, List.cons_append, List.nil_append, List.getElem?_cons_succ, List.getElem?_map]
    · simp only [ne_eq, hn, not_false_eq_true, if_true, if_false, List.nil_append, ih]
      split
      · rfl
      · rw [List.getElem?_map]

theorem position_spec (l : List Header) (name : Bytes) (n : Nat) :
    Headers.position l name n = nthOf l name n := by
  unfold Headers.position nthOf
  rw [positionFrom_spec]
  simp only [Nat.sub_zero, Nat.le_zero_eq]

theorem nthOf_name (l : List Header) (name : Bytes) (n i : Nat) (h : nthOf l name n = some i) :
    ∃ v, l[i]? = some ⟨name, v⟩ := by
  unfold nthOf at h
  split at h
  · exact absurd h (by simp)
  · have := List.mem_of_getElem? h
    unfold positionsOf at this
    rw [List.mem_filter] at this
    obtain ⟨h1, h2⟩ := this
    cases hl : l[i]? with
    | none => simp [hl] at h2
    | some x =>
      simp only [hl, Option.map_some, beq_iff_eq, Option.some.injEq] at h2
      exact ⟨x.value, by rw [← h2]⟩

/-- **C14**: deleting the n-th header of a name removes that one header and nothing else;
without such a header nothing changes and FALSE is returned. -/
theorem C14_delete (l : List Header) (name : Bytes) (n : Nat) :
    Headers.delete l name n =
      match nthOf l name n with
      | none => (false, l)
      | some i => (true, l.eraseIdx i) := by
  unfold Headers.delete
  rw [position_spec]
  rfl

/-- **C14**: changing the n-th header of a name to a value replaces that header's value and
nothing else; changing to no value deletes it; without such a header it is added. -/
theorem C14_change (l : List Header) (name : Bytes) (n : Nat) (value : Option Bytes) :
    Headers.change l name n value =
      match value, nthOf l name n with
      | none, none => (false, l)
      | none, some i => (true, l.eraseIdx i)
      | some v, some i => (true, l.set i ⟨name, some v⟩)
      | some v, none => (true, Headers.add l name (some v)) := by
  cases value with
  | none =>
    unfold Headers.change
    rw [C14_delete]
    cases nthOf l name n <;> rfl
  | some v =>
    unfold Headers.change
    simp only
    rw [position_spec]
    cases h : nthOf l name n with
    | none => rfl
    | some i =>
      obtain ⟨w, hw⟩ := nthOf_name l name n i h
      simp [hw]

/-- **C14**: inserting puts the header at the position, or at the end when the position is
past the end, and moves nothing else. -/
theorem C14_insert (l : List Header) (p : Nat) (name : Bytes) (value : Option Bytes)
    (hl : l.length < intLimit) :
    Headers.insert l p name value = l.take p ++ ⟨name, value⟩ :: l.drop p := by
  unfold Headers.insert
  split
  · rfl
  · rename_i h
    have : l.length ≤ p := by
      by_cases h1 : p < intLimit
      · have := fun h2 => h ⟨h1, h2⟩; omega
      · omega
    rw [List.take_of_length_le this, List.drop_eq_nil_of_le this]

/-- **C14**: adding puts the header before the first one of that name (ASCII
case-insensitively), or at the end, and moves nothing else. -/
theorem C14_add (l : List Header) (name : Bytes) (value : Option Bytes) :
    ∃ a b, l = a ++ b ∧ Headers.add l name value = a ++ ⟨name, value⟩ :: b ∧
      (∀ h ∈ a, ¬ SameNameCI h.name name) ∧
      (b = [] ∨ ∃ h b', b = h :: b' ∧ SameNameCI h.name name) := by
  induction l with
  | nil => exact ⟨[], [], rfl, rfl, by simp, .inl rfl⟩
  | cons h l ih =>
    by_cases hs : Headers.sameNameCI h.name name = true
    · refine ⟨[], h :: l, rfl, ?_, by simp, .inr ⟨h, l, rfl, ?_⟩⟩
      · rw [Headers.add, if_pos hs]; rfl
      · simpa [Headers.sameNameCI, SameNameCI] using hs
    · obtain ⟨a, b, h1, h2, h3, h4⟩ := ih
      refine ⟨h :: a, b, by rw [h1]; rfl, ?_, ?_, h4⟩
      · rw [Headers.add, if_neg hs, h2]; rfl
      · intro x hx
        rcases List.mem_cons.1 hx with rfl | hx
        · simpa [Headers.sameNameCI, SameNameCI] using hs
        · exact h3 x hx

/-- **C14**: appending puts the header at the end. -/
theorem C14_append (l : List Header) (name : Bytes) (value : Option Bytes) :
    Headers.append l name value = l ++ [⟨name, value⟩] := rfl

/-- **C14**: removing a header removes the first one with that name and value. -/
theorem C14_remove (l : List Header) (h : Header) :
    (h ∉ l → Headers.remove l h = (false, l)) ∧
    (∀ a b, l = a ++ h :: b → h ∉ a → Headers.remove l h = (true, a ++ b)) := by
  constructor
  · intro hn
    have : Headers.find l h = none := by
      simp only [Headers.find, List.find?_eq_none, beq_iff_eq]
      rintro x hx rfl; exact hn hx
    simp [Headers.remove, this]
  · rintro a b rfl ha
    have : Headers.find (a ++ h :: b) h = some h := by
      simp only [Headers.find, List.find?_append, List.find?_cons, BEq.rfl]
      have : List.find? (· == h) a = none := by
        simp only [List.find?_eq_none, beq_iff_eq]
        rintro x hx rfl; exact ha hx
      rw [this]; rfl
    simp only [Headers.remove, this]
    rw [List.erase_append_right _ ha, List.erase_cons_head]

/-- **C14**: the index of a header among those of its name is the n for which the n-th
header of that name is the first one equal to it. -/
theorem C14_index (l : List Header) (h : Header) (n : Nat) :
    Headers.indexInSameName l h = some n ↔
      ∃ i, nthOf l h.name n = some i ∧ l[i]? = some h ∧ ∀ j < i, l[j]? ≠ some h := by
  have key : ∀ (l : List Header) (c m : Nat), Headers.indexInSameNameFrom c l h = some m ↔
      c < m ∧ ∃ i, (positionsOf l h.name)[m - c - 1]? = some i ∧ l[i]? = some h ∧
        ∀ j < i, l[j]? ≠ some h := by
    intro l
    induction l with
    | nil => intro c m; simp [Headers.indexInSameNameFrom, positionsOf_nil]
    | cons x l ih =>
      intro c m
      rw [Headers.indexInSameNameFrom, positionsOf_cons]
      by_cases hn : x.name = h.name
      · simp only [hn, ne_eq, not_true_eq_false, if_false, if_true]
        by_cases hv : x.value = h.value
        · have hx : x = h := by cases x; cases h; simp_all
          subst hx
          simp only [if_true, Option.some.injEq]
          constructor
          · rintro rfl
            exact ⟨by omega, 0, by simp, by simp, by simp⟩
          · rintro ⟨h1, i, h2, h3, h4⟩
            have : i = 0 := by
              rcases Nat.eq_zero_or_pos i with h | h
              · exact h
              · exact absurd (by simp) (h4 0 h)
            subst this
            by_cases hm : m - c - 1 = 0
            · omega
            · obtain ⟨k, hk⟩ := Nat.exists_eq_succ_of_ne_zero hm
              rw [hk, List.cons_append, List.nil_append, Nat.succ_eq_add_one,
                List.getElem?_cons_succ, List.getElem?_map] at h2
              simp only [Option.map_eq_some_iff] at h2
              obtain ⟨a, _, ha⟩ := h2
              omega
        · have hx : x ≠ h := by rintro rfl; exact hv rfl
          rw [if_neg hv, ih]
          constructor
          · rintro ⟨h1, i, h2, h3, h4⟩
            refine ⟨by omega, i + 1, ?_, by simpa using h3, ?_⟩
            · have : m - c - 1 = (m - (c + 1) - 1) + 1 := by omega
              rw [this, List.cons_append, List.nil_append, List.getElem?_cons_succ,
                List.getElem?_map, h2]; rfl
            · intro j hj
              cases j with
              | zero => simpa using hx
              | succ j => simpa using h4 j (by omega)
          · rintro ⟨h1, i, h2, h3, h4⟩
            cases i with
            | zero => simp at h3; exact absurd h3 hx
            | succ i =>
              have hm : m - c - 1 ≠ 0 := by
                intro hm; rw [hm] at h2; simp at h2
              have : m - c - 1 = (m - (c + 1) - 1) + 1 := by omega
              rw [this, List.cons_append, List.nil_append, List.getElem?_cons_succ,
                List.getElem?_map] at h2
              simp only [Option.map_eq_some_iff, Nat.add_right_cancel_iff, exists_eq_right] at h2
              refine ⟨by omega, i, h2, by simpa using h3, fun j hj => ?_⟩
              simpa using h4 (j + 1) (by omega)
      · have hx : x ≠ h := by rintro rfl; exact hn rfl
        simp only [ne_eq, hn, not_false_eq_true, if_true, if_false, List.nil_append, ih]
        constructor
        · rintro ⟨h1, i, h2, h3, h4⟩
          refine ⟨h1, i + 1, ?_, by simpa using h3, ?_⟩
          · rw [List.getElem?_map, h2]; rfl
          · intro j hj
            cases j with
            | zero => simpa using hx
            | succ j => simpa using h4 j (by omega)
        · rintro ⟨h1, i, h2, h3, h4⟩
          cases i with
          | zero => simp at h3; exact absurd h3 hx
          | succ i =>
            rw [List.getElem?_map] at h2
            simp only [Option.map_eq_some_iff, Nat.add_right_cancel_iff, exists_eq_right] at h2
            exact ⟨h1, i, h2, by simpa using h3, fun j hj => by simpa using h4 (j + 1) (by omega)⟩
  have := key l 0 n
  unfold Headers.indexInSameName
  rw [this]
  unfold nthOf
  by_cases hn : n = 0
  · simp [hn]
  · simp [hn, Nat.pos_of_ne_zero hn]

/-- **C14**: copying gives an equal list. -/
theorem C14_copy (l : List Header) : Headers.copy l = l := by
  have : ∀ acc, l.foldl (fun acc h => Headers.append acc h.name h.value) acc = acc ++ l := by
    induction l with
    | nil => simp
    | cons h l ih => intro acc; rw [List.foldl_cons, ih]; simp [Headers.append]
  simpa [Headers.copy] using this []

example : nthOf [⟨ascii "A", none⟩, ⟨ascii "B", none⟩, ⟨ascii "A", some (ascii "x")⟩] (ascii "A") 2 = some 2 ∧
    nthOf [⟨ascii "A", none⟩] (ascii "A") 2 = none := by decide

/-- **C14**: the n-th header (from 1) is the one with exactly n-1 headers before it, and
there is one exactly for the numbers 1 to the length. -/
theorem C14_nth (l : List Header) (n : Nat) (h : Header) :
    Headers.getNth l n = some h ↔ ∃ before after, l = before ++ h :: after ∧ before.length + 1 = n := by
  unfold Headers.getNth
  constructor
  · intro e
    cases n with
    | zero => cases e
    | succ m =>
      rw [if_neg (by omega), Nat.add_sub_cancel] at e
      obtain ⟨hlt, hg⟩ := List.getElem?_eq_some_iff.1 e
      refine ⟨l.take m, l.drop (m + 1), ?_, ?_⟩
      · rw [← hg, ← List.drop_eq_getElem_cons hlt, List.take_append_drop]
      · rw [List.length_take]; omega
  · rintro ⟨b, a, rfl, rfl⟩
    simp

example : Headers.getNth [⟨[1], none⟩, ⟨[2], none⟩] 2 = some ⟨[2], none⟩ := by decide

/-- **C14**: looking a name up gives the first header of exactly that name. -/
theorem C14_lookup (l : List Header) (name : Bytes) (h : Header) :
    Headers.lookupByName l name = some h ↔
      ∃ before after, l = before ++ h :: after ∧ h.name = name ∧ ∀ x ∈ before, x.name ≠ name := by
  unfold Headers.lookupByName
  rw [List.find?_eq_some_iff_append]
  constructor
  · rintro ⟨h1, b, a, e, hb⟩
    exact ⟨b, a, e, by simpa using h1, fun x hx => by simpa using hb x hx⟩
  · rintro ⟨b, a, e, h1, hb⟩
    exact ⟨by simpa using h1, b, a, e, fun x hx => by simpa using hb x hx⟩

example : Headers.lookupByName [⟨[1], none⟩, ⟨[2], some [3]⟩, ⟨[2], none⟩] [2] = some ⟨[2], some [3]⟩ := by
  decide

/-- **C14**: a header is found exactly when it is in the list with the same name and value. -/
theorem C14_find (l : List Header) (h : Header) :
    Headers.find l h = if h ∈ l then some h else none := by
  unfold Headers.find
  induction l with
  | nil => rfl
  | cons x l ih =>
    rw [List.find?_cons]
    by_cases hx : x = h
    · subst hx; simp
    · have : (x == h) = false := by simpa using hx
      rw [this, ih]
      have hm : h ∈ x :: l ↔ h ∈ l := by
        simp only [List.mem_cons]; exact ⟨fun k => k.resolve_left (fun e => hx e.symm), Or.inr⟩
      simp only [hm]

end Verif.Props
