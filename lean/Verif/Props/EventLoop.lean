import Verif.Spec.EventLoop
/-
C76, C77: the event loop.
-/
namespace Verif.Props.EventLoop
open Verif Verif.EventLoop Verif.Spec.EventLoop

/-! ### Ids -/

theorem length_le_of_nodup {α : Type} [DecidableEq α] : ∀ (r l : List α), r.Nodup → (∀ x ∈ r, x ∈ l) → r.length ≤ l.length
  | [], _, _, _ => Nat.zero_le _
  | a :: r, l, hn, hs => by
    have ha := hs a List.mem_cons_self
    obtain ⟨h1, h2⟩ := List.nodup_cons.mp hn
    have h3 := length_le_of_nodup r (l.erase a) h2 fun x hx => by
      have hne : x ≠ a := fun e => h1 (e ▸ hx)
      exact (List.mem_erase_of_ne hne).mpr (hs x (List.mem_cons_of_mem _ hx))
    have h4 := List.length_erase_of_mem ha
    have h5 : 0 < l.length := List.length_pos_of_mem ha
    rw [List.length_cons]
    omega

/-- an id that cannot be taken -/
def Bad (table : List (UInt32 × Source)) (id : UInt32) : Prop := id = 0 ∨ used table id = true

theorem nextId_spec (table : List (UInt32 × Source)) : ∀ (n : Nat) (c : UInt32),
    ¬Bad table (nextId table n c) ∨ ∀ i, 1 ≤ i → i ≤ n → Bad table (c + UInt32.ofNat i)
  | 0, c => .inr fun i h1 h2 => by omega
  | n + 1, c => by
    have key : Bad table (c + 1) → (¬Bad table (nextId table n (c + 1)) ∨ ∀ i, 1 ≤ i → i ≤ n + 1 → Bad table (c + UInt32.ofNat i)) := by
      intro hb
      rcases nextId_spec table n (c + 1) with h | h
      · exact .inl h
      · refine .inr fun i h1 h2 => ?_
        by_cases hi : i = 1
        · subst hi; exact hb
        · have := h (i - 1) (by omega) (by omega)
          have e : c + 1 + UInt32.ofNat (i - 1) = c + UInt32.ofNat i := by
            rw [UInt32.add_assoc]
            congr 1
            have : UInt32.ofNat i = UInt32.ofNat (1 + (i - 1)) := by congr 1; omega
            rw [this, UInt32.ofNat_add]
            rfl
          rw [← e]; exact this
    unfold nextId
    dsimp only
    split
    · rename_i h; exact key (.inl h)
    · split
      · rename_i h; exact key (.inr h)
      · rename_i h1 h2
        exact .inl fun h => h.elim h1 h2

theorem used_iff (table : List (UInt32 × Source)) (id : UInt32) : used table id = true ↔ ∃ x ∈ table, x.1 = id := by
  simp [used, List.any_eq_true]

theorem every_id (v c : UInt32) : ∃ i, 1 ≤ i ∧ i ≤ 2 ^ 32 ∧ v = c + UInt32.ofNat i := by
  have h := (v - c).toNat_lt
  have e : c + (v - c) = v := by
    rw [UInt32.add_comm]; exact UInt32.sub_add_cancel v c
  by_cases h0 : (v - c).toNat = 0
  · refine ⟨2 ^ 32, by decide, Nat.le_refl _, ?_⟩
    have h1 : v - c = 0 := UInt32.toNat_inj.mp h0
    rw [h1, UInt32.add_zero] at e
    rw [← e, show UInt32.ofNat (2 ^ 32) = 0 by decide, UInt32.add_zero]
  · exact ⟨(v - c).toNat, by omega, by omega, by rw [UInt32.ofNat_toNat]; exact e.symm⟩

theorem ids_nodup (n : Nat) (hn : n < 2 ^ 32) : ((List.range n).map fun i => UInt32.ofNat (i + 1)).Nodup := by
  rw [List.Nodup, List.pairwise_map]
  refine List.Pairwise.imp_of_mem ?_ (List.nodup_range (n := n))
  intro a b ha hb hab e
  have ha := List.mem_range.mp ha
  have hb := List.mem_range.mp hb
  have := congrArg UInt32.toNat e
  rw [UInt32.toNat_ofNat_of_lt' (by show _ < 2 ^ 32; omega), UInt32.toNat_ofNat_of_lt' (by show _ < 2 ^ 32; omega)] at this
  omega

/-- a new id is neither 0 nor one in use, unless all are in use -/
theorem nextId_good (table : List (UInt32 × Source)) (c : UInt32) (h : table.length < 2 ^ 32 - 1) :
    nextId table (2 ^ 32) c ≠ 0 ∧ ∀ x ∈ table, x.1 ≠ nextId table (2 ^ 32) c := by
  rcases nextId_spec table (2 ^ 32) c with h1 | h1
  · exact ⟨fun e => h1 (.inl e), fun x hx e => h1 (.inr ((used_iff _ _).mpr ⟨x, hx, e⟩))⟩
  · exfalso
    have h2 : ∀ v : UInt32, v ≠ 0 → v ∈ table.map (·.1) := by
      intro v hv
      obtain ⟨i, a, b, e⟩ := every_id v c
      rcases h1 i a b with h | h
      · exact absurd (e.trans h) hv
      · obtain ⟨x, hx, ex⟩ := (used_iff _ _).mp h
        exact List.mem_map.mpr ⟨x, hx, by rw [ex, e]⟩
    have := length_le_of_nodup _ (table.map (·.1)) (ids_nodup (2 ^ 32 - 1) (by decide)) fun v hv => by
      obtain ⟨i, hi, e⟩ := List.mem_map.mp hv
      have hi := List.mem_range.mp hi
      refine h2 v fun e0 => ?_
      have := congrArg UInt32.toNat (e.trans e0)
      rw [UInt32.toNat_ofNat_of_lt' (by show _ < 2 ^ 32; omega)] at this
      exact absurd this (by show i + 1 ≠ 0; omega)
    rw [List.length_map, List.length_map, List.length_range] at this
    omega

/-! ### Sources -/

def toLive (x : UInt32 × Source) : Live := ⟨x.2.serial, x.2.kind, x.1⟩

def isCalling (n : Nat) : Frame → Bool
  | .calling _ src => src.serial == n
  | _ => false

/-- the state and what is known from outside -/
structure Inv (s : State) (k : Known) (t : List Item) : Prop where
  gone : k.gone = []
  count : k.count = s.next
  live : k.live = s.table.map toLive
  ids : (s.table.map (·.1)).Nodup
  serials : (s.table.map (·.2.serial)).Nodup
  given : ∀ x ∈ s.table, .added x.2.serial x.2.kind x.1 ∈ t
  frames : ∀ id src, .calling id src ∈ s.stack → .added src.serial src.kind id ∈ t ∧ ∀ x ∈ s.table, x.1 = id → x.2.serial = src.serial
  old : ∀ n kind id, .added n kind id ∈ t → n < s.next
  unique : ∀ n kind id kind' id', .added n kind id ∈ t → .added n kind' id' ∈ t → kind = kind' ∧ id = id'
  busy : ∀ n, calls t n = returns t n + s.stack.countP (isCalling n)
  size : s.table.length + tellings t = addings t

theorem Inv.start : Inv {} {} [] where
  gone := rfl
  count := rfl
  live := rfl
  ids := .nil
  serials := .nil
  given := fun _ h => nomatch h
  frames := fun _ _ h => nomatch h
  old := fun _ _ _ h => nomatch h
  unique := fun _ _ _ _ _ h => nomatch h
  busy := fun _ => rfl
  size := rfl

theorem calls_snoc (t : List Item) (x : Item) (n : Nat) : calls (t ++ [x]) n = calls t n + if x = .called n then 1 else 0 := by
  simp [calls, List.countP_append, List.countP_cons]

theorem returns_snoc (t : List Item) (x : Item) (n : Nat) :
    returns (t ++ [x]) n = returns t n + if (x = .answered n true || x = .answered n false) = true then 1 else 0 := by
  simp [returns, List.countP_append, List.countP_cons]

theorem addings_snoc (t : List Item) (x : Item) : addings (t ++ [x]) = addings t + if isAdded x = true then 1 else 0 := by
  simp [addings, List.countP_append, List.countP_cons]

theorem tellings_snoc (t : List Item) (x : Item) : tellings (t ++ [x]) = tellings t + if isNotified x = true then 1 else 0 := by
  simp [tellings, List.countP_append, List.countP_cons]

/-- an item that says nothing about sources -/
def silent : Item → Bool
  | .removed _ _ | .run | .left | .quit _ => true
  | _ => false

theorem Inv.quiet {s : State} {k : Known} {t : List Item} (h : Inv s k t) (x : Item) (hx : silent x = true) : Inv s k (t ++ [x]) where
  gone := h.gone
  count := h.count
  live := h.live
  ids := h.ids
  serials := h.serials
  given := fun y hy => List.mem_append_left _ (h.given y hy)
  frames := fun id src hf => ⟨List.mem_append_left _ (h.frames id src hf).1, (h.frames id src hf).2⟩
  old := fun n kind id hm => by
    rcases List.mem_append.mp hm with hm | hm
    · exact h.old n kind id hm
    · rw [← List.mem_singleton.mp hm] at hx; cases hx
  unique := fun n kind id kind' id' h1 h2 => by
    rcases List.mem_append.mp h1 with h1 | h1
    · rcases List.mem_append.mp h2 with h2 | h2
      · exact h.unique n kind id kind' id' h1 h2
      · rw [← List.mem_singleton.mp h2] at hx; cases hx
    · rw [← List.mem_singleton.mp h1] at hx; cases hx
  busy := fun n => by
    rw [calls_snoc, returns_snoc, h.busy n]
    cases x <;> first | (cases hx; done) | simp
  size := by
    rw [addings_snoc, tellings_snoc, ← h.size]
    cases x <;> first | (cases hx; done) | rfl

/-- frames of runs do not matter -/
theorem Inv.restack {s : State} {k : Known} {t : List Item} (h : Inv s k t) (depth : Nat) (stack : List Frame)
    (h1 : ∀ id src, .calling id src ∈ stack → .calling id src ∈ s.stack) (h2 : ∀ n, stack.countP (isCalling n) = s.stack.countP (isCalling n)) :
    Inv { s with depth := depth, stack := stack } k t where
  gone := h.gone
  count := h.count
  live := h.live
  ids := h.ids
  serials := h.serials
  given := h.given
  frames := fun id src hf => h.frames id src (h1 id src hf)
  old := h.old
  unique := h.unique
  busy := fun n => by rw [h.busy n]; exact congrArg _ (h2 n).symm
  size := h.size

theorem nodup_inj {α β : Type} {f : α → β} : ∀ {l : List α}, (l.map f).Nodup → ∀ x ∈ l, ∀ y ∈ l, f x = f y → x = y
  | a :: l, hn, x, hx, y, hy, e => by
    rw [List.map_cons, List.nodup_cons] at hn
    rcases List.mem_cons.mp hx with hx | hx <;> rcases List.mem_cons.mp hy with hy | hy
    · rw [hx, hy]
    · refine absurd (List.mem_map.mpr ⟨y, hy, ?_⟩) hn.1
      rw [← e, hx]
    · refine absurd (List.mem_map.mpr ⟨x, hx, ?_⟩) hn.1
      rw [e, hy]
    · exact nodup_inj hn.2 x hx y hy e

theorem filter_one {α β : Type} [DecidableEq β] {f : α → β} : ∀ {l : List α}, (l.map f).Nodup → ∀ x ∈ l,
    l.filter (fun y => decide (f y = f x)) = [x]
  | a :: l, hn, x, hx => by
    rw [List.map_cons, List.nodup_cons] at hn
    rcases List.mem_cons.mp hx with rfl | hx
    · rw [List.filter_cons_of_pos (by simp)]
      congr 1
      rw [List.filter_eq_nil_iff]
      intro y hy e
      exact hn.1 (List.mem_map.mpr ⟨y, hy, of_decide_eq_true e⟩)
    · rw [List.filter_cons_of_neg (fun e => hn.1 (List.mem_map.mpr ⟨x, hx, (of_decide_eq_true e).symm⟩))]
      exact filter_one hn.2 x hx

theorem filter_length {α β : Type} [DecidableEq β] {f : α → β} : ∀ {l : List α}, (l.map f).Nodup → ∀ x ∈ l,
    (l.filter (fun y => !decide (f y = f x))).length + 1 = l.length := by
  intro l hn x hx
  have h1 := filter_one hn x hx
  have h2 := List.length_eq_countP_add_countP (l := l) (p := fun y => decide (f y = f x))
  rw [List.countP_eq_length_filter, List.countP_eq_length_filter, h1] at h2
  simp only [List.length_singleton] at h2
  have h3 : (l.filter fun y => decide ¬(decide (f y = f x)) = true) = l.filter fun y => !decide (f y = f x) := by
    congr 1; funext y; simp
  rw [h3] at h2
  omega

/-- a source is taken away -/
theorem Inv.taken {s : State} {k : Known} {t : List Item} (h : Inv s k t) (x : UInt32 × Source) (hx : x ∈ s.table) :
    (k.without x.2.serial).gone = [x.2.serial] ∧
    Inv { s with table := s.table.filter (fun y => !(y.1 == x.1)), stack := .notifying x.2.serial :: s.stack }
      { k.without x.2.serial with gone := [] } (t ++ [.notified x.2.serial]) := by
  have hs : ∀ y ∈ s.table, y.1 = x.1 ↔ y.2.serial = x.2.serial := fun y hy =>
    ⟨fun e => by rw [nodup_inj h.ids y hy x hx e], fun e => by rw [nodup_inj h.serials y hy x hx e]⟩
  refine ⟨?_, ?_⟩
  · show (k.live.filter _).map _ = _
    rw [h.live, List.filter_map, List.map_map]
    have : (fun (a : Live) => decide (a.serial = x.2.serial)) ∘ toLive = fun y => decide (y.2.serial = x.2.serial) := rfl
    rw [this, filter_one (f := fun (y : UInt32 × Source) => y.2.serial) h.serials x hx]
    rfl
  · refine { gone := rfl, count := h.count, live := ?_, ids := ?_, serials := ?_, given := ?_, frames := ?_, old := ?_, unique := ?_, busy := ?_, size := ?_ }
    · show k.live.filter _ = (s.table.filter _).map toLive
      rw [h.live, List.filter_map]
      congr 1
      refine List.filter_congr fun y hy => ?_
      have := hs y hy
      by_cases e : y.1 = x.1
      · simp [toLive, e, this.mp e]
      · have e' : ¬y.2.serial = x.2.serial := fun e' => e (this.mpr e')
        show decide (y.2.serial ≠ x.2.serial) = !(y.1 == x.1)
        rw [decide_eq_true e', beq_eq_false_iff_ne.mpr e]
        rfl
    · exact h.ids.sublist (List.filter_sublist.map _)
    · exact h.serials.sublist (List.filter_sublist.map _)
    · exact fun y hy => List.mem_append_left _ (h.given y (List.mem_filter.mp hy).1)
    · intro id src hf
      rcases List.mem_cons.mp hf with hf | hf
      · cases hf
      · exact ⟨List.mem_append_left _ (h.frames id src hf).1, fun y hy => (h.frames id src hf).2 y (List.mem_filter.mp hy).1⟩
    · intro n kind id hm
      rcases List.mem_append.mp hm with hm | hm
      · exact h.old n kind id hm
      · cases List.mem_singleton.mp hm
    · intro n kind id kind' id' h1 h2
      rcases List.mem_append.mp h1 with h1 | h1
      · rcases List.mem_append.mp h2 with h2 | h2
        · exact h.unique n kind id kind' id' h1 h2
        · cases List.mem_singleton.mp h2
      · cases List.mem_singleton.mp h1
    · intro n
      rw [calls_snoc, returns_snoc, h.busy n, if_neg (fun e => nomatch e), if_neg (by simp), List.countP_cons]
      rfl
    · rw [addings_snoc, tellings_snoc, ← h.size]
      have := filter_length (f := fun (y : UInt32 × Source) => y.1) h.ids x hx
      have e : (s.table.filter fun y => !(y.1 == x.1)) = s.table.filter fun y => !decide (y.1 = x.1) := by
        congr 1
      show (s.table.filter _).length + (tellings t + 1) = s.table.length + tellings t + 0
      rw [e]
      omega

/-- a source is added -/
theorem Inv.added {s : State} {k : Known} {t : List Item} (h : Inv s k t) (kind : Kind) (hroom : s.table.length < 2 ^ 32 - 1)
    (hre : ¬Reused (t ++ (add s kind).2)) :
    ∃ k', AllFine k (add s kind).2 k' ∧ Inv (add s kind).1 k' (t ++ (add s kind).2) := by
  obtain ⟨g1, g2⟩ := nextId_good s.table s.id hroom
  unfold add at hre ⊢
  dsimp only at hre ⊢
  generalize nextId s.table (2 ^ 32) s.id = id at g1 g2 hre ⊢
  have hnew : ∀ id src, .calling id src ∈ s.stack → src.serial < s.next := fun id src hf => h.old _ _ _ (h.frames id src hf).1
  refine ⟨{ k with live := ⟨k.count, kind, id⟩ :: k.live, count := k.count + 1 }, ?_, ?_⟩
  · have := Fine.added k kind id h.gone g1 (by
      rw [h.live]
      intro x hx
      obtain ⟨y, hy, e⟩ := List.mem_map.mp hx
      rw [← e]
      exact g2 y hy)
    rw [h.count] at this ⊢
    exact .cons _ _ _ _ _ this (.nil _)
  · refine { gone := h.gone, count := by rw [h.count], live := ?_, ids := ?_, serials := ?_, given := ?_, frames := ?_, old := ?_, unique := ?_, busy := ?_, size := ?_ }
    · show _ :: k.live = _
      rw [h.live, h.count]; rfl
    · rw [List.map_cons, List.nodup_cons]
      refine ⟨fun hm => ?_, h.ids⟩
      obtain ⟨y, hy, e⟩ := List.mem_map.mp hm
      exact g2 y hy e
    · rw [List.map_cons, List.nodup_cons]
      refine ⟨fun hm => ?_, h.serials⟩
      obtain ⟨y, hy, e⟩ := List.mem_map.mp hm
      have := h.old _ _ _ (h.given y hy)
      dsimp only at e
      omega
    · intro x hx
      rcases List.mem_cons.mp hx with rfl | hx
      · exact List.mem_append_right _ List.mem_cons_self
      · exact List.mem_append_left _ (h.given x hx)
    · intro id' src hf
      obtain ⟨f1, f2⟩ := h.frames id' src hf
      refine ⟨List.mem_append_left _ f1, fun x hx e => ?_⟩
      rcases List.mem_cons.mp hx with rfl | hx
      · exfalso
        refine hre ⟨t, [], src.serial, src.kind, s.next, kind, id, rfl, ?_, ?_⟩
        · rw [show id = id' from e]; exact f1
        · rw [h.busy]
          have : 0 < s.stack.countP (isCalling src.serial) := List.countP_pos_iff.mpr ⟨_, hf, by simp [isCalling]⟩
          omega
      · exact f2 x hx e
    · intro n kind' id' hm
      show n < s.next + 1
      rcases List.mem_append.mp hm with hm | hm
      · exact Nat.lt_succ_of_lt (h.old n kind' id' hm)
      · cases List.mem_singleton.mp hm
        exact Nat.lt_succ_self _
    · intro n k1 i1 k2 i2 h1 h2
      rcases List.mem_append.mp h1 with h1 | h1 <;> rcases List.mem_append.mp h2 with h2 | h2
      · exact h.unique n k1 i1 k2 i2 h1 h2
      · cases List.mem_singleton.mp h2
        exact absurd (h.old _ _ _ h1) (Nat.lt_irrefl _)
      · cases List.mem_singleton.mp h1
        exact absurd (h.old _ _ _ h2) (Nat.lt_irrefl _)
      · cases List.mem_singleton.mp h1
        cases List.mem_singleton.mp h2
        exact ⟨rfl, rfl⟩
    · intro n
      rw [calls_snoc, returns_snoc, h.busy n, if_neg (fun e => nomatch e), if_neg (by simp)]
      rfl
    · rw [addings_snoc, tellings_snoc, ← h.size]
      show s.table.length + 1 + (tellings t + 0) = s.table.length + tellings t + 1
      omega

theorem Inv.removed {s : State} {k : Known} {t : List Item} (h : Inv s k t) (id : UInt32) :
    ∃ k', AllFine k (remove s id).2 k' ∧ Inv (remove s id).1 k' (t ++ (remove s id).2) := by
  unfold remove removeWatcher
  cases hf : s.table.find? fun x => x.1 == id with
  | none =>
    refine ⟨k, .cons _ _ _ _ _ (.notRemoved k id h.gone ?_) (.nil _), h.quiet _ rfl⟩
    rw [h.live]
    intro x hx e
    obtain ⟨y, hy, rfl⟩ := List.mem_map.mp hx
    have := List.find?_eq_none.mp hf y hy
    exact this (beq_iff_eq.mpr e)
  | some x =>
    have hx := List.mem_of_find?_eq_some hf
    have hid : x.1 = id := by simpa using List.find?_some hf
    obtain ⟨h1, h2⟩ := (h.quiet (.removed id true) rfl).taken x hx
    have hm : toLive x ∈ k.live := by rw [h.live]; exact List.mem_map_of_mem hx
    have := Fine.removed k (toLive x) h.gone hm
    rw [show (toLive x).id = id from hid] at this
    refine ⟨_, .cons _ _ _ _ _ this (.cons _ _ _ _ _ (.notified _ _ h1) (.nil _)), ?_⟩
    rw [List.append_assoc] at h2
    rw [← hid]
    rw [← hid] at h2
    exact h2

theorem stop_same (id : UInt32) (y : UInt32 × Source) :
    (if y.1 == id then stopOnce y else y).1 = y.1 ∧ (if y.1 == id then stopOnce y else y).2.serial = y.2.serial ∧
    (if y.1 == id then stopOnce y else y).2.kind = y.2.kind := by
  unfold stopOnce
  split
  · split <;> exact ⟨rfl, rfl, rfl⟩
  · exact ⟨rfl, rfl, rfl⟩

theorem Inv.dispatched {s : State} {k : Known} {t : List Item} (h : Inv s k t) (id : UInt32) :
    ∃ k', AllFine k (dispatch s id).2 k' ∧ Inv (dispatch s id).1 k' (t ++ (dispatch s id).2) := by
  have none' : ∃ k', AllFine k [] k' ∧ Inv s k' (t ++ []) := ⟨k, .nil _, by rw [List.append_nil]; exact h⟩
  unfold dispatch
  split
  · cases hf : s.table.find? fun x => x.1 == id && x.2.started with
    | none => exact none'
    | some x =>
      have hx := List.mem_of_find?_eq_some hf
      have hid : x.1 = id := by
        have := List.find?_some hf
        simp only [Bool.and_eq_true] at this
        exact beq_iff_eq.mp this.1
      have hm : toLive x ∈ k.live := by rw [h.live]; exact List.mem_map_of_mem hx
      refine ⟨k, .cons _ _ _ _ _ (.called k (toLive x) h.gone hm) (.nil _), ?_⟩
      have hmap : ∀ {β : Type} (f : UInt32 × Source → β), (∀ y, f (if y.1 == id then stopOnce y else y) = f y) →
          (s.table.map fun y => if y.1 == id then stopOnce y else y).map f = s.table.map f := by
        intro β f hf
        rw [List.map_map]
        exact List.map_congr_left fun y _ => hf y
      have hback : ∀ z ∈ s.table.map (fun y => if y.1 == id then stopOnce y else y), ∃ y ∈ s.table, z.1 = y.1 ∧ z.2.serial = y.2.serial ∧ z.2.kind = y.2.kind := by
        intro z hz
        obtain ⟨y, hy, rfl⟩ := List.mem_map.mp hz
        exact ⟨y, hy, stop_same id y⟩
      refine { gone := h.gone, count := h.count, live := ?_, ids := ?_, serials := ?_, given := ?_, frames := ?_, old := ?_, unique := ?_, busy := ?_, size := ?_ }
      · rw [h.live]
        refine (hmap toLive fun y => ?_).symm
        obtain ⟨e1, e2, e3⟩ := stop_same id y
        unfold toLive
        rw [e1, e2, e3]
      · show ((s.table.map _).map _).Nodup
        rw [hmap _ fun y => (stop_same id y).1]; exact h.ids
      · show ((s.table.map _).map _).Nodup
        rw [hmap (fun y => y.2.serial) fun y => (stop_same id y).2.1]; exact h.serials
      · intro z hz
        obtain ⟨y, hy, e1, e2, e3⟩ := hback z hz
        rw [e1, e2, e3]
        exact List.mem_append_left _ (h.given y hy)
      · intro id' src hf'
        rcases List.mem_cons.mp hf' with hf' | hf'
        · cases hf'
          refine ⟨List.mem_append_left _ (hid ▸ h.given x hx), fun z hz e => ?_⟩
          obtain ⟨y, hy, e1, e2, e3⟩ := hback z hz
          rw [e2, nodup_inj h.ids y hy x hx (by rw [← e1, e, hid])]
        · obtain ⟨f1, f2⟩ := h.frames id' src hf'
          refine ⟨List.mem_append_left _ f1, fun z hz e => ?_⟩
          obtain ⟨y, hy, e1, e2, e3⟩ := hback z hz
          rw [e2]
          exact f2 y hy (e1 ▸ e)
      · intro n kind id' hm'
        rcases List.mem_append.mp hm' with hm' | hm'
        · exact h.old n kind id' hm'
        · cases List.mem_singleton.mp hm'
      · intro n k1 i1 k2 i2 h1 h2
        rcases List.mem_append.mp h1 with h1 | h1
        · rcases List.mem_append.mp h2 with h2 | h2
          · exact h.unique n k1 i1 k2 i2 h1 h2
          · cases List.mem_singleton.mp h2
        · cases List.mem_singleton.mp h1
      · intro n
        rw [calls_snoc, returns_snoc, h.busy n, List.countP_cons]
        have : (isCalling n (.calling id x.2) = true) ↔ Item.called x.2.serial = Item.called n := by
          show (x.2.serial == n) = true ↔ Item.called x.2.serial = Item.called n
          rw [beq_iff_eq]
          exact ⟨fun e => by rw [e], fun e => Item.called.inj e⟩
        have e0 : (decide (Item.called x.2.serial = .answered n true) || decide (Item.called x.2.serial = .answered n false)) = false := by simp
        have e1 : ∀ (b : Bool), b = false → (if b = true then 1 else 0) = 0 := fun b hb => by rw [hb]; rfl
        rw [e1 _ e0]
        by_cases e : Item.called x.2.serial = Item.called n
        · rw [if_pos e, if_pos (this.mpr e)]; omega
        · rw [if_neg e, if_neg fun e' => e (this.mp e')]; omega
      · rw [addings_snoc, tellings_snoc, ← h.size, if_neg (fun e => nomatch e), if_neg (fun e => nomatch e)]
        show (s.table.map _).length + _ = _
        rw [List.length_map]
        omega
  · exact none'

/-- a function has returned -/
theorem Inv.popped {s : State} {k : Known} {t : List Item} (h : Inv s k t) (id : UInt32) (src : Source) (stack : List Frame) (again : Bool)
    (hs : s.stack = .calling id src :: stack) : Inv { s with stack := stack } k (t ++ [.answered src.serial again]) where
  gone := h.gone
  count := h.count
  live := h.live
  ids := h.ids
  serials := h.serials
  given := fun y hy => List.mem_append_left _ (h.given y hy)
  frames := fun id' src' hf => by
    obtain ⟨f1, f2⟩ := h.frames id' src' (by rw [hs]; exact List.mem_cons_of_mem _ hf)
    exact ⟨List.mem_append_left _ f1, f2⟩
  old := fun n kind id hm => by
    rcases List.mem_append.mp hm with hm | hm
    · exact h.old n kind id hm
    · cases List.mem_singleton.mp hm
  unique := fun n kind id kind' id' h1 h2 => by
    rcases List.mem_append.mp h1 with h1 | h1
    · rcases List.mem_append.mp h2 with h2 | h2
      · exact h.unique n kind id kind' id' h1 h2
      · cases List.mem_singleton.mp h2
    · cases List.mem_singleton.mp h1
  busy := fun n => by
    rw [calls_snoc, returns_snoc, h.busy n, hs, if_neg (fun e => nomatch e), List.countP_cons]
    have : (isCalling n (.calling id src) = true) ↔ src.serial = n := by
      show (src.serial == n) = true ↔ src.serial = n
      rw [beq_iff_eq]
    by_cases e : src.serial = n
    · rw [if_pos (this.mpr e), if_pos (by rw [e]; cases again <;> simp)]
      show _ = _ + stack.countP _
      omega
    · rw [if_neg fun e' => e (this.mp e'), if_neg (by
        simp only [Bool.or_eq_true, decide_eq_true_eq, Item.answered.injEq]
        rintro (⟨h1, _⟩ | ⟨h1, _⟩) <;> exact e h1)]
      rfl
  size := by
    rw [addings_snoc, tellings_snoc, if_neg (fun e => nomatch e), if_neg (fun e => nomatch e)]
    exact h.size

theorem Inv.answered {s : State} {k : Known} {t : List Item} (h : Inv s k t) (again : Bool) :
    ∃ k', AllFine k (answer s again).2 k' ∧ Inv (answer s again).1 k' (t ++ (answer s again).2) := by
  unfold answer
  split
  · rename_i id src stack hs
    have hp := h.popped id src stack again hs
    obtain ⟨f1, f2⟩ := h.frames id src (by rw [hs]; exact List.mem_cons_self)
    have hlive : ∀ x ∈ k.live, x.serial = src.serial → x.kind = src.kind ∧ x.id = id := by
      rw [h.live]
      intro x hx e
      obtain ⟨y, hy, rfl⟩ := List.mem_map.mp hx
      have := h.given y hy
      rw [show y.2.serial = src.serial from e] at this
      exact h.unique _ _ _ _ _ this f1
    dsimp only
    split
    · rename_i hc
      simp only [Bool.and_eq_true, decide_eq_true_eq] at hc
      obtain ⟨hc, rfl⟩ := hc
      refine ⟨k, .cons _ _ _ _ _ (.again k src.serial h.gone fun x hx e => ?_) (.nil _), hp⟩
      rw [(hlive x hx e).1]
      exact hc
    · rename_i hc
      have hover : Fine k (.answered src.serial again) (k.without src.serial) := by
        refine .over k src.serial again h.gone fun ha x hx e => ?_
        rw [(hlive x hx e).1]
        refine Classical.byContradiction fun hk => hc ?_
        simp only [Bool.and_eq_true, decide_eq_true_eq]
        exact ⟨hk, ha⟩
      unfold removeWatcher
      cases hf : s.table.find? fun x => x.1 == id with
      | none =>
        have hno : ∀ x ∈ k.live, x.serial ≠ src.serial := by
          intro x hx e
          obtain ⟨_, e2⟩ := hlive x hx e
          rw [h.live] at hx
          obtain ⟨y, hy, rfl⟩ := List.mem_map.mp hx
          exact List.find?_eq_none.mp hf y hy (beq_iff_eq.mpr e2)
        have hk : k.without src.serial = k := by
          unfold Known.without
          rw [List.filter_eq_self.mpr (fun x hx => decide_eq_true (hno x hx)),
            List.filter_eq_nil_iff.mpr (fun x hx e => hno x hx (of_decide_eq_true e))]
          rw [show ([] : List Live).map (·.serial) = k.gone from h.gone.symm]
        rw [hk] at hover
        exact ⟨k, .cons _ _ _ _ _ hover (.nil _), hp⟩
      | some x =>
        have hx := List.mem_of_find?_eq_some hf
        have hid : x.1 = id := by simpa using List.find?_some hf
        have hser := f2 x hx hid
        obtain ⟨h1, h2⟩ := hp.taken x hx
        rw [hser] at h1 h2
        have hn : Fine (k.without src.serial) (.notified x.2.serial) { k.without src.serial with gone := [] } := by rw [hser]; exact .notified _ _ h1
        refine ⟨_, .cons _ _ _ _ _ hover (.cons _ _ _ _ _ hn (.nil _)), ?_⟩
        rw [List.append_assoc] at h2
        rw [← hid]
        show Inv _ _ (t ++ ([Item.answered src.serial again] ++ [.notified x.2.serial]))
        dsimp only
        rw [hser]
        exact h2
  · exact ⟨k, .nil _, by rw [List.append_nil]; exact h⟩

theorem Inv.step {s : State} {k : Known} {t : List Item} (h : Inv s k t) (e : Event) (hroom : Room (t ++ (step s e).2))
    (hre : ¬Reused (t ++ (step s e).2)) :
    ∃ k', AllFine k (step s e).2 k' ∧ Inv (step s e).1 k' (t ++ (step s e).2) := by
  have none' : ∃ k', AllFine k [] k' ∧ Inv s k' (t ++ []) := ⟨k, .nil _, by rw [List.append_nil]; exact h⟩
  cases e with
  | add kind =>
    refine h.added kind ?_ hre
    have := hroom t _ rfl
    have := h.size
    omega
  | remove id => exact h.removed id
  | dispatch id => exact h.dispatched id
  | answer again => exact h.answered again
  | told =>
    show ∃ k', AllFine k (told s).2 k' ∧ Inv (told s).1 k' (t ++ (told s).2)
    unfold told
    split
    · rename_i n stack hs
      refine ⟨k, .nil _, ?_⟩
      rw [List.append_nil]
      exact h.restack s.depth stack (fun id src hf => by rw [hs]; exact List.mem_cons_of_mem _ hf) (fun n => by rw [hs, List.countP_cons]; rfl)
    · exact none'
  | run =>
    refine ⟨k, .cons _ _ _ _ _ (.run k h.gone) (.nil _), ?_⟩
    refine (h.quiet .run rfl).restack (s.depth + 1) (.running s.depth :: s.stack) (fun id src hf => ?_) (fun n => by rw [List.countP_cons]; rfl)
    rcases List.mem_cons.mp hf with hf | hf
    · cases hf
    · exact hf
  | check =>
    show ∃ k', AllFine k (check s).2 k' ∧ Inv (check s).1 k' (t ++ (check s).2)
    unfold check
    split
    · rename_i d stack hs
      split
      · exact none'
      · exact ⟨k, .cons _ _ _ _ _ (.left k h.gone) (.nil _), (h.quiet .left rfl).restack s.depth stack
          (fun id src hf => by rw [hs]; exact List.mem_cons_of_mem _ hf) (fun n => by rw [hs, List.countP_cons]; rfl)⟩
    · exact none'
  | quit =>
    show ∃ k', AllFine k (quit s).2 k' ∧ Inv (quit s).1 k' (t ++ (quit s).2)
    unfold quit
    split
    · exact ⟨k, .cons _ _ _ _ _ (.quit k true h.gone) (.nil _), (h.quiet (.quit true) rfl).restack (s.depth - 1) s.stack (fun _ _ hf => hf) (fun _ => rfl)⟩
    · exact ⟨k, .cons _ _ _ _ _ (.quit k false h.gone) (.nil _), h.quiet (.quit false) rfl⟩

theorem allFine_append {k k' k'' : Known} {a b : List Item} (ha : AllFine k a k') (hb : AllFine k' b k'') : AllFine k (a ++ b) k'' := by
  induction ha with
  | nil => exact hb
  | cons k x k1 t k2 h1 _ ih => exact .cons _ _ _ _ _ h1 (ih hb)

theorem room_prefix {a b : List Item} (h : Room (a ++ b)) : Room a := fun x y e => h x (y ++ b) (by rw [e, List.append_assoc])

theorem not_reused_prefix {a b : List Item} (h : ¬Reused (a ++ b)) : ¬Reused a := by
  rintro ⟨x, y, n, kind, m, kind', id, e, h1, h2⟩
  exact h ⟨x, y ++ b, n, kind, m, kind', id, by rw [e]; simp, h1, h2⟩

theorem Inv.history (es : List Event) : ∀ {s : State} {k : Known} {t : List Item}, Inv s k t →
    Room (t ++ (history s es).2) → ¬Reused (t ++ (history s es).2) →
    ∃ k', AllFine k (history s es).2 k' ∧ Inv (history s es).1 k' (t ++ (history s es).2) := by
  induction es with
  | nil => intro s k t h _ _; exact ⟨k, .nil _, by rw [show (Verif.EventLoop.history s []).2 = [] from rfl, List.append_nil]; exact h⟩
  | cons e es ih =>
    intro s k t h hroom hre
    have he : (Verif.EventLoop.history s (e :: es)).2 = (Verif.EventLoop.step s e).2 ++ (Verif.EventLoop.history (Verif.EventLoop.step s e).1 es).2 := rfl
    rw [he, ← List.append_assoc] at hroom hre
    obtain ⟨k1, a1, i1⟩ := h.step e (room_prefix hroom) (not_reused_prefix hre)
    obtain ⟨k2, a2, i2⟩ := ih i1 hroom hre
    exact ⟨k2, by rw [he]; exact allFine_append a1 a2, by rw [he, ← List.append_assoc]; exact i2⟩

/-- **C76**: in every history of an event loop, with any nesting of functions that add and remove sources, everything that is seen of its sources is
as it should be (`Fine`), provided that there are ids left, and that no id is given out again while the function of the source it belonged to is being called.
Missing: that an id is not given out again then (`C76_violated`). -/
theorem C76_partial (es : List Event) (hroom : Room (history {} es).2) (hre : ¬Reused (history {} es).2) :
    ∃ k, AllFine {} (history {} es).2 k := by
  obtain ⟨k, h, _⟩ := Inv.history es Inv.start hroom hre
  exact ⟨k, h⟩

/-! ### Few sources -/

theorem nextId_free (table : List (UInt32 × Source)) (n : Nat) (c : UInt32) (h0 : c + 1 ≠ 0) (hu : used table (c + 1) = false) :
    nextId table (n + 1) c = c + 1 := by
  unfold nextId
  dsimp only
  rw [if_neg h0, if_neg (by rw [hu]; exact Bool.false_ne_true)]

/-- ids in order -/
structure Straight (s : State) (t : List Item) : Prop where
  id : s.id.toNat = s.next
  table : ∀ x ∈ s.table, x.1.toNat ≤ s.next
  given : ∀ n kind id, .added n kind id ∈ t → id.toNat = n + 1 ∧ n < s.next
  fresh : ¬Reused t
  room : Room t
  size : addings t = s.next

theorem succ_toNat (c : UInt32) (h : c.toNat + 1 < 2 ^ 32) : (c + 1).toNat = c.toNat + 1 := by
  rw [UInt32.toNat_add, show (1 : UInt32).toNat = 1 from rfl, Nat.mod_eq_of_lt h]

theorem reused_snoc {t : List Item} (x : Item) (h : ¬Reused t)
    (hx : ∀ m kind id, x = .added m kind id → ∀ n kind', .added n kind' id ∉ t) : ¬Reused (t ++ [x]) := by
  rintro ⟨a, b, n, kind, m, kind', id, e, h1, h2⟩
  rcases b.eq_nil_or_concat with rfl | ⟨b', y, rfl⟩
  · obtain ⟨e1, e2⟩ := List.append_inj' e rfl
    cases e2
    subst e1
    exact hx _ _ _ rfl n kind h1
  · rw [List.concat_eq_append, ← List.cons_append, ← List.append_assoc] at e
    obtain ⟨e1, _⟩ := List.append_inj' e rfl
    exact h ⟨a, b', n, kind, m, kind', id, e1, h1, h2⟩

theorem room_snoc {t : List Item} (x : Item) (h : Room t) (hx : addings (t ++ [x]) < 2 ^ 32 - 1) : Room (t ++ [x]) := by
  intro a b e
  rcases b.eq_nil_or_concat with rfl | ⟨b', y, rfl⟩
  · rw [List.append_nil] at e
    rw [← e]
    omega
  · rw [List.concat_eq_append, ← List.append_assoc] at e
    obtain ⟨e1, _⟩ := List.append_inj' e rfl
    exact h a b' e1

/-- an item that is no new source -/
theorem Straight.item {s : State} {t : List Item} (h : Straight s t) (x : Item) (hx : isAdded x = false) (hn : s.next < 2 ^ 32 - 1) : Straight s (t ++ [x]) where
  id := h.id
  table := h.table
  given := fun n kind id hm => by
    rcases List.mem_append.mp hm with hm | hm
    · exact h.given n kind id hm
    · rw [← List.mem_singleton.mp hm] at hx; cases hx
  fresh := reused_snoc x h.fresh fun m kind id e => by rw [e] at hx; cases hx
  room := room_snoc x h.room (by rw [addings_snoc, h.size, hx]; simpa using hn)
  size := by rw [addings_snoc, h.size, hx]; rfl

theorem Straight.items {s : State} (xs : List Item) (hn : s.next < 2 ^ 32 - 1) : ∀ {t : List Item}, Straight s t → (∀ x ∈ xs, isAdded x = false) →
    Straight s (t ++ xs) := by
  induction xs with
  | nil => intro t h _; rw [List.append_nil]; exact h
  | cons x xs ih =>
    intro t h hx
    have := ih (h.item x (hx x List.mem_cons_self) hn) fun y hy => hx y (List.mem_cons_of_mem _ hy)
    rw [List.append_assoc] at this
    exact this

theorem Straight.state {s s' : State} {t : List Item} (h : Straight s t) (h1 : s'.id = s.id) (h2 : s'.next = s.next)
    (h3 : ∀ x ∈ s'.table, ∃ y ∈ s.table, x.1 = y.1) : Straight s' t where
  id := by rw [h1, h2]; exact h.id
  table := fun x hx => by
    obtain ⟨y, hy, e⟩ := h3 x hx
    rw [e, h2]; exact h.table y hy
  given := fun n kind id hm => by rw [h2]; exact h.given n kind id hm
  fresh := h.fresh
  room := h.room
  size := by rw [h2]; exact h.size

theorem removeWatcher_mem (s : State) (id : UInt32) : (removeWatcher s id).1.id = s.id ∧ (removeWatcher s id).1.next = s.next ∧
    (∀ x ∈ (removeWatcher s id).1.table, ∃ y ∈ s.table, x.1 = y.1) ∧ ∀ x ∈ (removeWatcher s id).2.2, isAdded x = false := by
  unfold removeWatcher
  split
  · exact ⟨rfl, rfl, fun x hx => ⟨x, hx, rfl⟩, fun x hx => nomatch hx⟩
  · exact ⟨rfl, rfl, fun x hx => ⟨x, (List.mem_filter.mp hx).1, rfl⟩, fun x hx => by rw [List.mem_singleton.mp hx]; rfl⟩

theorem Straight.step {s : State} {t : List Item} (h : Straight s t) (e : Event) (hn : (step s e).1.next < 2 ^ 32 - 1) :
    Straight (step s e).1 (t ++ (step s e).2) := by
  have same : ∀ {s' : State} {out : List Item}, s'.next < 2 ^ 32 - 1 → s'.id = s.id → s'.next = s.next → (∀ x ∈ s'.table, ∃ y ∈ s.table, x.1 = y.1) →
      (∀ x ∈ out, isAdded x = false) → Straight s' (t ++ out) := by
    intro s' out hn h1 h2 h3 h4
    rw [h2] at hn
    exact (h.items out hn h4).state h1 h2 h3
  have self : ∀ x ∈ s.table, ∃ y ∈ s.table, x.1 = y.1 := fun x hx => ⟨x, hx, rfl⟩
  cases e with
  | add kind =>
    have hlt : s.next + 1 < 2 ^ 32 - 1 := hn
    have hid := h.id
    have e1 := succ_toNat s.id (by omega)
    have e2 : nextId s.table (2 ^ 32) s.id = s.id + 1 := by
      refine nextId_free s.table (2 ^ 32 - 1) s.id (fun e0 => ?_) ?_
      · rw [e0] at e1
        have : (0 : UInt32).toNat = 0 := rfl
        omega
      · cases hu : used s.table (s.id + 1) with
        | false => rfl
        | true =>
          obtain ⟨x, hx, e⟩ := (used_iff _ _).mp hu
          have := h.table x hx
          rw [e] at this
          omega
    show Straight (add s kind).1 (t ++ (add s kind).2)
    unfold add
    rw [e2]
    refine { id := ?_, table := ?_, given := ?_, fresh := ?_, room := ?_, size := ?_ }
    · show (s.id + 1).toNat = s.next + 1
      omega
    · intro x hx
      show x.1.toNat ≤ s.next + 1
      rcases List.mem_cons.mp hx with rfl | hx
      · show (s.id + 1).toNat ≤ _
        omega
      · exact Nat.le_succ_of_le (h.table x hx)
    · intro n kind' id hm
      show _ ∧ n < s.next + 1
      rcases List.mem_append.mp hm with hm | hm
      · exact ⟨(h.given n kind' id hm).1, Nat.lt_succ_of_lt (h.given n kind' id hm).2⟩
      · cases List.mem_singleton.mp hm
        exact ⟨by omega, Nat.lt_succ_self _⟩
    · refine reused_snoc _ h.fresh fun m kind' id e n kind'' hm => ?_
      cases e
      obtain ⟨a, b⟩ := h.given _ _ _ hm
      omega
    · refine room_snoc _ h.room ?_
      rw [addings_snoc, h.size]
      exact hlt
    · rw [addings_snoc, h.size]
      rfl
  | remove id =>
    obtain ⟨h1, h2, h3, h4⟩ := removeWatcher_mem s id
    refine same hn h1 h2 h3 fun x hx => ?_
    rcases List.mem_cons.mp hx with rfl | hx
    · rfl
    · exact h4 x hx
  | dispatch id =>
    show Straight (dispatch s id).1 (t ++ (dispatch s id).2)
    replace hn : (dispatch s id).1.next < _ := hn
    unfold dispatch at hn ⊢
    split
    · split
      · exact same (by rename_i h1 _ h2; simpa [h1, h2] using hn) rfl rfl self (fun x hx => nomatch hx)
      · refine same (by rename_i h1 _ _ h2; simpa [h1, h2] using hn) rfl rfl (fun x hx => ?_) (fun x hx => by rw [List.mem_singleton.mp hx]; rfl)
        obtain ⟨y, hy, rfl⟩ := List.mem_map.mp hx
        exact ⟨y, hy, (stop_same id y).1⟩
    · exact same (by simpa using hn) rfl rfl self (fun x hx => nomatch hx)
  | answer again =>
    show Straight (answer s again).1 (t ++ (answer s again).2)
    replace hn : (answer s again).1.next < _ := hn
    unfold answer at hn ⊢
    split
    · rename_i id src stack hs
      rw [hs] at hn
      dsimp only at hn ⊢
      split
      · rename_i hc
        rw [if_pos hc] at hn
        exact same hn rfl rfl self (fun x hx => by rw [List.mem_singleton.mp hx]; rfl)
      · rename_i hc
        rw [if_neg hc] at hn
        obtain ⟨h1, h2, h3, h4⟩ := removeWatcher_mem { s with stack := stack } id
        refine same hn h1 h2 h3 fun x hx => ?_
        rcases List.mem_cons.mp hx with rfl | hx
        · rfl
        · exact h4 x hx
    · exact same (by simpa using hn) rfl rfl self (fun x hx => nomatch hx)
  | told =>
    show Straight (told s).1 (t ++ (told s).2)
    have e : (told s).1.next = s.next ∧ (told s).1.id = s.id ∧ (told s).1.table = s.table ∧ (told s).2 = [] := by
      unfold told; split <;> exact ⟨rfl, rfl, rfl, rfl⟩
    exact same hn e.2.1 e.1 (by rw [e.2.2.1]; exact self) (by rw [e.2.2.2]; exact fun x hx => nomatch hx)
  | run => exact same hn rfl rfl self (fun x hx => by rw [List.mem_singleton.mp hx]; rfl)
  | check =>
    show Straight (check s).1 (t ++ (check s).2)
    have e : (check s).1.next = s.next ∧ (check s).1.id = s.id ∧ (check s).1.table = s.table ∧ ∀ x ∈ (check s).2, isAdded x = false := by
      unfold check
      split
      · split
        · exact ⟨rfl, rfl, rfl, fun x hx => nomatch hx⟩
        · exact ⟨rfl, rfl, rfl, fun x hx => by rw [List.mem_singleton.mp hx]; rfl⟩
      · exact ⟨rfl, rfl, rfl, fun x hx => nomatch hx⟩
    exact same hn e.2.1 e.1 (by rw [e.2.2.1]; exact self) e.2.2.2
  | quit =>
    show Straight (quit s).1 (t ++ (quit s).2)
    have e : (quit s).1.next = s.next ∧ (quit s).1.id = s.id ∧ (quit s).1.table = s.table ∧ ∀ x ∈ (quit s).2, isAdded x = false := by
      unfold quit
      split <;> exact ⟨rfl, rfl, rfl, fun x hx => by rw [List.mem_singleton.mp hx]; rfl⟩
    exact same hn e.2.1 e.1 (by rw [e.2.2.1]; exact self) e.2.2.2

theorem step_next (s : State) (e : Event) : (step s e).1.next = s.next + if isAdd e = true then 1 else 0 := by
  cases e with
  | add kind => rfl
  | remove id => exact (removeWatcher_mem s id).2.1
  | dispatch id =>
    show (dispatch s id).1.next = s.next
    unfold dispatch
    split
    · split <;> rfl
    · rfl
  | answer again =>
    show (answer s again).1.next = s.next
    unfold answer
    split
    · dsimp only
      split
      · rfl
      · exact (removeWatcher_mem _ _).2.1
    · rfl
  | told => show (told s).1.next = s.next; unfold told; split <;> rfl
  | run => rfl
  | check =>
    show (check s).1.next = s.next
    unfold check
    split
    · split <;> rfl
    · rfl
  | quit => show (quit s).1.next = s.next; unfold quit; split <;> rfl

theorem Straight.history (es : List Event) : ∀ {s : State} {t : List Item}, Straight s t → s.next + es.countP isAdd < 2 ^ 32 - 1 →
    Straight (history s es).1 (t ++ (history s es).2) := by
  induction es with
  | nil => intro s t h _; rw [show (Verif.EventLoop.history s []).2 = [] from rfl, List.append_nil]; exact h
  | cons e es ih =>
    intro s t h hn
    rw [List.countP_cons] at hn
    have h1 := step_next s e
    have h2 := h.step e (by rw [h1]; omega)
    have := ih h2 (by rw [h1]; omega)
    rw [List.append_assoc] at this
    exact this

/-- **C76** for the first 4294967294 sources: nothing else is needed. -/
theorem C76_first_partial (es : List Event) (hn : es.countP isAdd < 2 ^ 32 - 1) : ∃ k, AllFine {} (history {} es).2 k := by
  have h0 : Straight {} [] := ⟨rfl, (fun _ h => nomatch h), (fun _ _ _ h => nomatch h), (fun ⟨a, b, _, _, _, _, _, e, _⟩ => by simp at e),
    (fun a b e => by rw [(List.append_eq_nil_iff.mp e.symm).1]; decide), rfl⟩
  have h := Straight.history es h0 (by show 0 + _ < _; omega)
  exact C76_partial es h.room h.fresh

/-! ### An id that is given out again -/

theorem history_append (s : State) (a b : List Event) : history s (a ++ b) = ((history (history s a).1 b).1, (history s a).2 ++ (history (history s a).1 b).2) := by
  induction a generalizing s with
  | nil => rfl
  | cons e a ih => simp only [List.cons_append, history, ih, List.append_assoc]

/-- one source, the one with the id 2, and the last id given out -/
def old (c : UInt32) (n : Nat) : State := { id := c, table := [(2, { serial := 1, kind := .idle })], next := n }

/-- a source comes and goes -/
def cycle (c : UInt32) : List Event := [.add .idle, .remove (c + 1), .told]

theorem cycle_old (c : UInt32) (n : Nat) (h2 : 2 ≤ c.toNat) (h : c.toNat + 1 < 2 ^ 32) : (history (old c n) (cycle c)).1 = old (c + 1) (n + 1) := by
  have e1 := succ_toNat c h
  have hne : c + 1 ≠ 2 := fun e => by
    rw [e] at e1
    have : (2 : UInt32).toNat = 2 := rfl
    omega
  have hid : nextId [(2, { serial := 1, kind := .idle })] (2 ^ 32) c = c + 1 := by
    refine nextId_free _ (2 ^ 32 - 1) c (fun e => ?_) ?_
    · rw [e] at e1
      have : (0 : UInt32).toNat = 0 := rfl
      omega
    · simp only [used, List.any_cons, List.any_nil, Bool.or_false]
      exact beq_eq_false_iff_ne.mpr (Ne.symm hne)
  have hadd : (add (old c n) .idle).1 = { id := c + 1, table := [(c + 1, { serial := n, kind := .idle }), (2, { serial := 1, kind := .idle })], next := n + 1 } := by
    unfold add old
    dsimp only
    rw [hid]
  show (told (remove (add (old c n) .idle).1 (c + 1)).1).1 = _
  rw [hadd]
  unfold remove removeWatcher
  simp only [List.find?_cons, beq_self_eq_true, List.filter_cons, Bool.not_true, beq_eq_false_iff_ne.mpr (Ne.symm hne), Bool.not_false, List.filter_nil]
  rfl

/-- so many of them -/
def cycles : Nat → List Event
  | 0 => []
  | n + 1 => cycles n ++ cycle (UInt32.ofNat (2 + n))

theorem cycles_old (n : Nat) (h : n + 2 < 2 ^ 32) : (history (old 2 2) (cycles n)).1 = old (UInt32.ofNat (2 + n)) (2 + n) := by
  induction n with
  | zero => rfl
  | succ n ih =>
    have hn : (UInt32.ofNat (2 + n)).toNat = 2 + n := UInt32.toNat_ofNat_of_lt' (by show _ < 2 ^ 32; omega)
    rw [cycles, history_append, ih (by omega)]
    show (history (old (UInt32.ofNat (2 + n)) (2 + n)) (cycle (UInt32.ofNat (2 + n)))).1 = _
    rw [cycle_old _ _ (by omega) (by omega)]
    congr 1
    rw [show 2 + (n + 1) = 2 + n + 1 from rfl, UInt32.ofNat_add (2 + n) 1]
    rfl

/-- all ids were in use once, and the counter has come round -/
theorem come_round : ∃ es n, (history {} es).1 = old 1 n ∧ 2 ≤ n := by
  obtain ⟨N, hN, e0⟩ : ∃ N, N + 2 < 2 ^ 32 ∧ UInt32.ofNat (2 + N) = 0xffffffff := ⟨2 ^ 32 - 3, by decide, by decide⟩
  refine ⟨[.add .idle, .remove 1, .told, .add .idle] ++ cycles N ++ [.add .idle, .remove 1, .told], 2 + N + 1, ?_, by omega⟩
  rw [history_append, history_append]
  have h0 : (history {} [.add .idle, .remove 1, .told, .add .idle]).1 = old 2 2 := by
    have e1 : nextId [] (2 ^ 32) 0 = 1 := nextId_free [] (2 ^ 32 - 1) 0 (by decide) rfl
    have e2 : nextId [] (2 ^ 32) 1 = 2 := nextId_free [] (2 ^ 32 - 1) 1 (by decide) rfl
    have a1 : (add {} .idle).1 = { id := 1, table := [(1, { serial := 0, kind := .idle })], next := 1 } := by
      unfold add
      dsimp only
      rw [e1]
    have a2 : (told (remove (add {} .idle).1 1).1).1 = { id := 1, next := 1 } := by rw [a1]; rfl
    show (add (told (remove (add {} .idle).1 1).1).1 .idle).1 = _
    rw [a2]
    unfold add
    dsimp only
    rw [e2]
    rfl
  dsimp only
  rw [h0, cycles_old N hN, e0]
  generalize 2 + N = n
  have e3 : nextId [(2, { serial := 1, kind := .idle })] (2 ^ 32) 0xffffffff = 1 := by
    have : ∀ m, nextId [((2 : UInt32), ({ serial := 1, kind := .idle } : Source))] (m + 2) 0xffffffff = 1 := by
      intro m
      show nextId _ (m + 1 + 1) _ = _
      unfold nextId
      rw [if_pos (by decide)]
      exact nextId_free _ m _ (by decide) (by decide)
    exact this (2 ^ 32 - 2)
  have a3 : (add (old 0xffffffff n) .idle).1 = { id := 1, table := [(1, { serial := n, kind := .idle }), (2, { serial := 1, kind := .idle })], next := n + 1 } := by
    unfold add old
    dsimp only
    rw [e3]
  show (told (remove (add (old 0xffffffff n) .idle).1 1).1).1 = _
  rw [a3]
  rfl

theorem allFine_split {a b : List Item} : ∀ {k k' : Known}, AllFine k (a ++ b) k' → ∃ k1, AllFine k a k1 ∧ AllFine k1 b k' := by
  induction a with
  | nil => intro k k' h; exact ⟨k, .nil _, h⟩
  | cons x a ih =>
    intro k k' h
    cases h with
    | cons _ _ k1 _ _ h1 h2 =>
      obtain ⟨k2, h3, h4⟩ := ih h2
      exact ⟨k2, .cons _ _ _ _ _ h1 h3, h4⟩

/-- **C76** is violated when the ids have come round: the function of a source removes its own source, adds another, which gets the same id, and returns
FALSE; the new source is taken away. -/
theorem C76_violated : ∃ es pre m, m ≠ 1 ∧
    (history {} es).2 = pre ++ [.called 1, .removed 2 true, .notified 1, .added m .idle 2, .answered 1 false, .notified m] ∧
    ¬∃ k, AllFine {} (history {} es).2 k := by
  obtain ⟨es, n, h, hn⟩ := come_round
  have key : (history {} (es ++ [.run, .dispatch 2, .remove 2, .told, .add .idle, .answer false])).2 =
      ((history {} es).2 ++ [.run]) ++ [.called 1, .removed 2 true, .notified 1, .added n .idle 2, .answered 1 false, .notified n] := by
    rw [history_append]
    dsimp only
    rw [h, List.append_assoc]
    congr 1
  refine ⟨_, _, n, by omega, key, ?_⟩
  rw [key]
  rintro ⟨k, hk⟩
  rw [show ([.called 1, .removed 2 true, .notified 1, .added n .idle 2, .answered 1 false, .notified n] : List Item) =
    [.called 1, .removed 2 true, .notified 1, .added n .idle 2] ++ [.answered 1 false, .notified n] from rfl, ← List.append_assoc] at hk
  obtain ⟨k1, _, h1⟩ := allFine_split hk
  cases h1 with
  | cons _ _ k2 _ _ f1 h2 =>
    cases h2 with
    | cons _ _ k3 _ _ f2 _ =>
      cases f1 with
      | over _ _ _ _ =>
        cases f2 with
        | notified _ hg =>
          have : n ∈ (k1.without 1).gone := by rw [hg]; exact List.mem_cons_self
          obtain ⟨x, hx, e⟩ := List.mem_map.mp this
          have := of_decide_eq_true (List.mem_filter.mp hx).2
          omega

/-- the hypotheses of C76 are met in a history where a function removes its own source and another one, adds one, and a removal is told in between -/
example : (history {} [.add .io, .add (.timer 5), .add .child, .run, .dispatch 1, .remove 1, .told, .remove 2, .add .idle, .told, .answer true, .dispatch 3,
      .answer true, .told, .quit, .check]).2 =
    [.added 0 .io 1, .added 1 (.timer 5) 2, .added 2 .child 3, .run, .called 0, .removed 1 true, .notified 0, .removed 2 true, .notified 1, .added 3 .idle 4,
      .answered 0 true, .called 2, .answered 2 true, .notified 2, .quit true, .left] := by decide +kernel

/-! ### A source can be called -/

theorem started_history : ∀ (es : List Event) (s : State), (∀ x ∈ s.table, x.2.kind ≠ .timer 0 → x.2.started = true) →
    ∀ x ∈ (history s es).1.table, x.2.kind ≠ .timer 0 → x.2.started = true := by
  intro es
  induction es with
  | nil => exact fun s h => h
  | cons e es ih =>
    intro s h
    refine ih _ ?_
    have hr : ∀ (s : State) (id : UInt32), (∀ x ∈ s.table, x.2.kind ≠ .timer 0 → x.2.started = true) →
        ∀ x ∈ (removeWatcher s id).1.table, x.2.kind ≠ .timer 0 → x.2.started = true := by
      intro s id h x hx
      unfold removeWatcher at hx
      split at hx
      · exact h x hx
      · exact h x (List.mem_filter.mp hx).1
    intro x hx
    cases e with
    | add kind =>
      rcases List.mem_cons.mp hx with rfl | hx
      · exact fun _ => rfl
      · exact h x hx
    | remove id => exact hr s id h x hx
    | dispatch id =>
      replace hx : x ∈ (dispatch s id).1.table := hx
      unfold dispatch at hx
      split at hx
      · split at hx
        · exact h x hx
        · obtain ⟨y, hy, rfl⟩ := List.mem_map.mp hx
          intro hk
          rw [(stop_same id y).2.2] at hk
          have := h y hy hk
          unfold stopOnce
          rw [if_neg hk]
          split <;> exact this
      · exact h x hx
    | answer again =>
      replace hx : x ∈ (answer s again).1.table := hx
      unfold answer at hx
      split at hx
      · rename_i id src stack hs
        dsimp only at hx
        split at hx
        · exact h x hx
        · exact hr { s with stack := stack } id h x hx
      · exact h x hx
    | told =>
      replace hx : x ∈ (told s).1.table := hx
      unfold told at hx
      split at hx <;> exact h x hx
    | run => exact h x hx
    | check =>
      replace hx : x ∈ (check s).1.table := hx
      unfold check at hx
      split at hx
      · split at hx <;> exact h x hx
      · exact h x hx
    | quit =>
      replace hx : x ∈ (quit s).1.table := hx
      unfold quit at hx
      split at hx <;> exact h x hx

/-- **C76**, the other direction: as long as a source is there, and is no timer of no time, it is called whenever the loop runs and libev has something for
it.  Missing: such timers (`C76_zero_interval_violated`), and what `C76_partial` misses. -/
theorem C76_callable_partial (es : List Event) (hroom : Room (history {} es).2) (hre : ¬Reused (history {} es).2) :
    ∃ k, AllFine {} (history {} es).2 k ∧ ∀ x ∈ k.live, x.kind ≠ .timer 0 → ∀ depth stack, (history {} es).1.stack = .running depth :: stack →
      (step (history {} es).1 (.dispatch x.id)).2 = [.called x.serial] := by
  obtain ⟨k, h, hi⟩ := Inv.history es Inv.start hroom hre
  refine ⟨k, h, fun l hl hk depth stack hs => ?_⟩
  rw [hi.live] at hl
  obtain ⟨x, hx, rfl⟩ := List.mem_map.mp hl
  have hst := started_history es {} (fun _ h => nomatch h) x hx hk
  show (dispatch _ x.1).2 = _
  unfold dispatch
  rw [hs]
  dsimp only
  cases hf : (history {} es).1.table.find? fun y => y.1 == x.1 && y.2.started with
  | none =>
    have := List.find?_eq_none.mp hf x hx
    simp [hst] at this
  | some y =>
    have h1 : y.1 = x.1 ∧ y.2.started = true := by simpa using List.find?_some hf
    have := nodup_inj hi.ids y (List.mem_of_find?_eq_some hf) x hx h1.1
    rw [this]
    rfl

/-- a timer of no time that was called once, and wanted to be called again -/
def stuck : State := (history {} [.add (.timer 0), .run, .dispatch 1, .answer true]).1

theorem stuck_history (es : List Event) : ∀ s : State, 1 ≤ s.next → (∀ x ∈ s.table, x.2.serial = 0 → x.2.started = false) →
    .called 0 ∉ (history s es).2 := by
  induction es with
  | nil => intro s _ _ h; exact nomatch h
  | cons e es ih =>
    intro s hn h
    have hr : ∀ (s : State) (id : UInt32), (∀ x ∈ s.table, x.2.serial = 0 → x.2.started = false) →
        (∀ x ∈ (removeWatcher s id).1.table, x.2.serial = 0 → x.2.started = false) ∧ .called 0 ∉ (removeWatcher s id).2.2 := by
      intro s id h
      unfold removeWatcher
      split
      · exact ⟨h, by simp⟩
      · exact ⟨fun x hx => h x (List.mem_filter.mp hx).1, by simp⟩
    have key : (∀ x ∈ (step s e).1.table, x.2.serial = 0 → x.2.started = false) ∧ .called 0 ∉ (step s e).2 := by
      cases e with
      | add kind =>
        refine ⟨fun x hx => ?_, by simp [step, add]⟩
        rcases List.mem_cons.mp hx with rfl | hx
        · intro e
          have : s.next = 0 := e
          omega
        · exact h x hx
      | remove id =>
        refine ⟨(hr s id h).1, fun hm => ?_⟩
        rcases List.mem_cons.mp hm with e | hm
        · exact nomatch e
        · exact (hr s id h).2 hm
      | dispatch id =>
        show (∀ x ∈ (dispatch s id).1.table, _) ∧ _ ∉ (dispatch s id).2
        unfold dispatch
        split
        · split
          · exact ⟨h, by simp⟩
          · rename_i y hf
            refine ⟨fun x hx => ?_, fun hm => ?_⟩
            · obtain ⟨z, hz, rfl⟩ := List.mem_map.mp hx
              intro e
              rw [(stop_same id z).2.1] at e
              have := h z hz e
              split
              · unfold stopOnce
                split
                · rfl
                · exact this
              · exact this
            · have e : 0 = y.2.serial := by simpa using hm
              have h1 : y.1 = id ∧ y.2.started = true := by simpa using List.find?_some hf
              have := h y (List.mem_of_find?_eq_some hf) e.symm
              rw [h1.2] at this
              exact nomatch this
        · exact ⟨h, by simp⟩
      | answer again =>
        show (∀ x ∈ (answer s again).1.table, _) ∧ _ ∉ (answer s again).2
        unfold answer
        split
        · rename_i id src stack hs
          dsimp only
          split
          · exact ⟨h, by simp⟩
          · have := hr { s with stack := stack } id h
            refine ⟨this.1, fun hm => ?_⟩
            rcases List.mem_cons.mp hm with e | hm
            · exact nomatch e
            · exact this.2 hm
        · exact ⟨h, by simp⟩
      | told =>
        show (∀ x ∈ (told s).1.table, _) ∧ _ ∉ (told s).2
        unfold told
        split <;> exact ⟨h, by simp⟩
      | run => exact ⟨h, by simp [step, run]⟩
      | check =>
        show (∀ x ∈ (check s).1.table, _) ∧ _ ∉ (check s).2
        unfold check
        split
        · split <;> exact ⟨h, by simp⟩
        · exact ⟨h, by simp⟩
      | quit =>
        show (∀ x ∈ (quit s).1.table, _) ∧ _ ∉ (quit s).2
        unfold quit
        split <;> exact ⟨h, by simp⟩
    intro hm
    rcases List.mem_append.mp hm with hm | hm
    · exact key.2 hm
    · refine ih _ ?_ key.1 hm
      rw [step_next]
      omega

/-- **C76**, the other direction, is violated for a timer of no time: its function has asked to be called again, it is there, and it is never
called again, whatever happens. -/
theorem C76_zero_interval_violated :
    (history {} [.add (.timer 0), .run, .dispatch 1, .answer true]).2 = [.added 0 (.timer 0) 1, .run, .called 0, .answered 0 true] ∧
    (∃ x ∈ stuck.table, x.2.serial = 0) ∧ ∀ es, .called 0 ∉ (history stuck es).2 := by
  have e1 : nextId [] (2 ^ 32) 0 = 1 := nextId_free [] (2 ^ 32 - 1) 0 (by decide) rfl
  have a1 : add {} (.timer 0) = ({ id := 1, table := [(1, { serial := 0, kind := .timer 0 })], next := 1 }, [.added 0 (.timer 0) 1]) := by
    unfold add
    dsimp only
    rw [e1]
  have hs : stuck = { id := 1, table := [(1, { serial := 0, kind := .timer 0, started := false })], depth := 1, stack := [.running 0], next := 1 } := by
    unfold stuck
    simp only [history, step, a1]
    rfl
  refine ⟨?_, ?_, fun es => stuck_history es _ ?_ ?_⟩
  · simp only [history, step, a1]
    rfl
  · rw [hs]
    exact ⟨_, List.mem_cons_self, rfl⟩
  · rw [hs]
    exact Nat.le_refl 1
  · rw [hs]
    intro x hx _
    rw [List.mem_singleton.mp hx]

/-! ### Running and quitting -/

/-- the saved depths of the runs -/
def saved : List Frame → List Nat
  | [] => []
  | .running d :: l => d :: saved l
  | _ :: l => saved l

/-- a saved depth is the number of runs further out that were not told; it may be more once the run was told -/
inductive Match : List Nat → List Bool → Prop
  | nil : Match [] []
  | told (d ds l) : Match ds l → l.count false ≤ d → Match (d :: ds) (true :: l)
  | untold (ds l) : Match ds l → Match (l.count false :: ds) (false :: l)

theorem tell_count (l : List Bool) : (tell l).count false = l.count false - 1 := by
  induction l with
  | nil => rfl
  | cons b l ih => cases b <;> simp [tell, ih]

theorem tell_match {ds : List Nat} {l : List Bool} (h : Match ds l) : Match ds (tell l) := by
  induction h with
  | nil => exact .nil
  | told d ds l h hd ih => exact .told d ds _ ih (by rw [tell_count]; omega)
  | untold ds l h ih => exact .told _ ds l h (Nat.le_refl _)

theorem removeWatcher_runs (s : State) (id : UInt32) : (removeWatcher s id).1.depth = s.depth ∧ saved (removeWatcher s id).1.stack = saved s.stack ∧
    ∀ l, (removeWatcher s id).2.2.foldlM runsAfter l = some l := by
  unfold removeWatcher
  split <;> exact ⟨rfl, rfl, fun _ => rfl⟩

/-- what is known of the runs -/
def Runs (s : State) (l : List Bool) : Prop := Match (saved s.stack) l ∧ s.depth = l.count false

theorem Runs.step {s : State} {l : List Bool} (h : Runs s l) (e : Event) : ∃ l', (step s e).2.foldlM runsAfter l = some l' ∧ Runs (step s e).1 l' := by
  cases e with
  | add kind => exact ⟨l, rfl, h⟩
  | remove id =>
    obtain ⟨h1, h2, h3⟩ := removeWatcher_runs s id
    refine ⟨l, h3 l, ?_, ?_⟩
    · show Match (saved (removeWatcher s id).1.stack) l
      rw [h2]
      exact h.1
    · show (removeWatcher s id).1.depth = _
      rw [h1]
      exact h.2
  | dispatch id =>
    refine ⟨l, ?_, ?_⟩
    · show (dispatch s id).2.foldlM _ _ = _
      unfold dispatch
      split
      · split <;> rfl
      · rfl
    · show Runs (dispatch s id).1 l
      unfold dispatch
      split
      · split <;> exact h
      · exact h
  | answer again =>
    show ∃ l', (answer s again).2.foldlM _ _ = _ ∧ Runs (answer s again).1 l'
    unfold answer
    split
    · rename_i id src stack hs
      have hs' : saved s.stack = saved stack := by rw [hs]; rfl
      have hm : Match (saved stack) l := hs' ▸ h.1
      dsimp only
      split
      · exact ⟨l, rfl, hm, h.2⟩
      · obtain ⟨h1, h2, h3⟩ := removeWatcher_runs { s with stack := stack } id
        refine ⟨l, h3 l, ?_, ?_⟩
        · show Match (saved (removeWatcher { s with stack := stack } id).1.stack) l
          rw [h2]
          exact hm
        · show (removeWatcher { s with stack := stack } id).1.depth = _
          rw [h1]
          exact h.2
    · exact ⟨l, rfl, h⟩
  | told =>
    show ∃ l', (told s).2.foldlM _ _ = _ ∧ Runs (told s).1 l'
    unfold told
    split
    · rename_i n stack hs
      have hs' : saved s.stack = saved stack := by rw [hs]; rfl
      exact ⟨l, rfl, hs' ▸ h.1, h.2⟩
    · exact ⟨l, rfl, h⟩
  | run =>
    refine ⟨false :: l, rfl, ?_, ?_⟩
    · show Match (s.depth :: saved s.stack) _
      rw [h.2]
      exact .untold _ _ h.1
    · show s.depth + 1 = _
      rw [h.2]
      simp
  | check =>
    show ∃ l', (check s).2.foldlM _ _ = _ ∧ Runs (check s).1 l'
    unfold check
    split
    · rename_i d stack hs
      have hs' : saved s.stack = d :: saved stack := by rw [hs]; rfl
      split
      · exact ⟨l, rfl, h⟩
      · rename_i hd
        have hm := h.1
        rw [hs'] at hm
        cases hm with
        | told _ _ l h1 h2 => exact ⟨l, rfl, h1, by rw [h.2]; simp⟩
        | untold _ l h1 =>
          exfalso
          apply hd
          rw [h.2]
          simp
    · exact ⟨l, rfl, h⟩
  | quit =>
    show ∃ l', (quit s).2.foldlM _ _ = _ ∧ Runs (quit s).1 l'
    have hc : l.contains false = decide (s.depth > 0) := by
      rw [h.2]
      by_cases hm : false ∈ l
      · simp [hm, List.count_pos_iff]
      · simp [hm, List.count_eq_zero.mpr hm]
    unfold quit
    split
    · rename_i hd
      refine ⟨tell l, ?_, tell_match h.1, ?_⟩
      · show (if true = l.contains false then some (tell l) else none).bind _ = _
        rw [hc, decide_eq_true hd]
        rfl
      · show s.depth - 1 = _
        rw [tell_count, h.2]
    · rename_i hd
      refine ⟨tell l, ?_, tell_match h.1, ?_⟩
      · show (if false = l.contains false then some (tell l) else none).bind _ = _
        rw [hc, decide_eq_false hd]
        rfl
      · show s.depth = _
        rw [tell_count, h.2.symm]
        omega

theorem Runs.history (es : List Event) : ∀ {s : State} {l : List Bool}, Runs s l → ∃ l', (history s es).2.foldlM runsAfter l = some l' ∧
    Runs (history s es).1 l' := by
  induction es with
  | nil => intro s l h; exact ⟨l, rfl, h⟩
  | cons e es ih =>
    intro s l h
    obtain ⟨l1, e1, h1⟩ := h.step e
    obtain ⟨l2, e2, h2⟩ := ih h1
    refine ⟨l2, ?_, h2⟩
    show ((EventLoop.step s e).2 ++ _).foldlM _ _ = _
    rw [List.foldlM_append, e1]
    exact e2

/-- **C77**: in every history, a quit is for the innermost run that has not been told yet, and is refused if there is none; a run leaves only if it was told;
and it leaves as soon as it was told and nothing is going on within it (the loop having gone once round). -/
theorem C77 (es : List Event) : ∃ l, runs (history {} es).2 = some l ∧
    ∀ depth stack, (history {} es).1.stack = .running depth :: stack →
      ∃ told rest, l = told :: rest ∧ (step (history {} es).1 .check).2 = if told = true then [.left] else [] := by
  obtain ⟨l, h1, h2⟩ := Runs.history es (s := {}) (l := []) ⟨.nil, rfl⟩
  refine ⟨l, h1, fun depth stack hs => ?_⟩
  have hm := h2.1
  rw [hs, show saved (.running depth :: stack) = depth :: saved stack from rfl] at hm
  have hc : (step (history {} es).1 .check).2 = if (history {} es).1.depth > depth then [] else [.left] := by
    show (check _).2 = _
    unfold check
    rw [hs]
    dsimp only
    split <;> rfl
  rw [hc]
  cases hm with
  | told _ _ l h3 h4 =>
    refine ⟨true, l, rfl, ?_⟩
    rw [if_pos rfl, if_neg]
    rw [h2.2]
    simpa using h4
  | untold _ l h3 =>
    refine ⟨false, l, rfl, ?_⟩
    rw [if_neg Bool.false_ne_true, if_pos]
    rw [h2.2]
    simp

/-- the loop is run within a function that it calls; the first quit is for the inner run -/
example : (history {} [.add .io, .run, .dispatch 1, .run, .check, .quit, .check, .quit, .quit, .answer true, .check]).2 =
    [.added 0 .io 1, .run, .called 0, .run, .quit true, .left, .quit true, .quit false, .answered 0 true, .left] := by decide +kernel

end Verif.Props.EventLoop
