import Verif.Spec.LogAnalyzer
/-
The statistics milter-manager-log-analyzer makes of the log (C149).
-/
namespace Verif.Props.LogAnalyzer
open Verif Verif.LogAnalyzer Verif.Spec.LogAnalyzer

/-! ### What is counted for a key -/

/-- what data add to what is there for a key -/
def combine (k : Bytes) (v : Nat) (ds : List Datum) : Nat :=
  ds.foldl (fun v d => if normalize d.key = k then (match d.kind with | .count => v + d.count | .max => Nat.max v d.count) else v) v

theorem combine_append (k : Bytes) (v : Nat) (a b : List Datum) : combine k v (a ++ b) = combine k (combine k v a) b := List.foldl_append

theorem value_update (k : Bytes) (ds : List Datum) : ∀ data, value k (updateData data ds) = combine k (value k data) ds := by
  induction ds with
  | nil => exact fun _ => rfl
  | cons d ds ih =>
    intro data
    show value k (updateData (_ :: data) ds) = combine k (if normalize d.key = k then _ else _) ds
    rw [ih]
    congr 1
    by_cases h : normalize d.key = k
    · subst h
      rw [if_pos rfl]
      unfold value
      rw [List.lookup_cons, beq_self_eq_true]
      rfl
    · rw [if_neg h]
      unfold value
      rw [List.lookup_cons, beq_eq_false_iff_ne.mpr (fun e => h e.symm)]

theorem update_ne (data : List (Bytes × Nat)) (ds : List Datum) (h : ds ≠ []) : updateData data ds ≠ [] := by
  have : ∀ (ds : List Datum) data, data ≠ [] → updateData data ds ≠ [] := by
    intro ds
    induction ds with
    | nil => exact fun _ h => h
    | cons d ds ih => exact fun data _ => ih _ (List.cons_ne_nil _ _)
  cases ds with
  | nil => exact absurd rfl h
  | cons d ds => exact this ds _ (List.cons_ne_nil _ _)

/-- the amount of a key in a minute -/
def amount (src : Source) (lines : List Line) (m : Nat) (k : Bytes) : Nat := combine k 0 ((during lines m).flatMap src.find)

/-- a row -/
def rowOf (src : Source) (said : List Stat) : List Nat := src.items.map fun i => combine (normalize i) 0 (said.flatMap src.find)

/-- does a line count -/
def counts (src : Source) (s : Stat) : Bool := !(src.find s).isEmpty

theorem counts_iff {src : Source} {s : Stat} : counts src s = true ↔ src.find s ≠ [] := by
  unfold counts
  cases src.find s with
  | nil => exact ⟨(fun h => nomatch h), (fun h => absurd rfl h)⟩
  | cons a b => exact ⟨(fun _ h => nomatch h), (fun _ => rfl)⟩

theorem during_append (a b : List Line) (m : Nat) : during (a ++ b) m = during a m ++ during b m := by
  unfold during
  rw [List.filter_append, List.map_append]

theorem during_one (l : Line) (m : Nat) : during [l] m = if minute l.1 = m then [l.2] else [] := by
  unfold during
  by_cases h : minute l.1 = m
  · simp [h]
  · simp [h]

theorem amount_quiet {src : Source} {lines : List Line} {m : Nat} (h : ∀ l ∈ lines, counts src l.2 = true → minute l.1 ≠ m) (k : Bytes) : amount src lines m k = 0 := by
  unfold amount
  have : (during lines m).flatMap src.find = [] := by
    rw [List.flatMap_eq_nil_iff]
    intro s hs
    unfold during at hs
    obtain ⟨l, hl, rfl⟩ := List.mem_map.mp hs
    obtain ⟨h1, h2⟩ := List.mem_filter.mp hl
    refine Classical.byContradiction fun hc => ?_
    exact h l h1 (counts_iff.mpr hc) (eq_of_beq h2)
  rw [this]
  rfl

theorem amount_irrelevant {src : Source} {lines : List Line} {l : Line} (h : counts src l.2 = false) (m : Nat) (k : Bytes) : amount src (lines ++ [l]) m k = amount src lines m k := by
  unfold amount
  rw [during_append, List.flatMap_append, combine_append, during_one]
  have hf : src.find l.2 = [] := by
    cases hh : src.find l.2 with
    | nil => rfl
    | cons a b => rw [counts_iff.mpr (by rw [hh]; exact List.cons_ne_nil _ _)] at h; cases h
  split
  · rw [List.flatMap_cons, hf]; rfl
  · rfl

theorem amount_other {src : Source} {lines : List Line} {l : Line} {m : Nat} (h : minute l.1 ≠ m) (k : Bytes) : amount src (lines ++ [l]) m k = amount src lines m k := by
  unfold amount
  rw [during_append, List.flatMap_append, combine_append, during_one, if_neg h]
  rfl

theorem amount_same {src : Source} {lines : List Line} {l : Line} {m : Nat} (h : minute l.1 = m) (k : Bytes) :
    amount src (lines ++ [l]) m k = combine k (amount src lines m k) (src.find l.2) := by
  unfold amount
  rw [during_append, List.flatMap_append, combine_append, during_one, if_pos h, List.flatMap_cons, List.flatMap_nil, List.append_nil]

theorem rowOf_amount (src : Source) (lines : List Line) (m : Nat) : rowOf src (during lines m) = src.items.map fun i => amount src lines m (normalize i) := rfl

/-! ### Times -/

theorem normalizeTime_eq (t : Nat) : normalizeTime t = 60 * minute t := by
  unfold normalizeTime minute
  omega

theorem gap_eq (a b : Nat) : gap (60 * a) (60 * b) = (List.range' a (b - a)).map (60 * ·) := by
  unfold gap
  rw [show (60 * b - 60 * a) / 60 = b - a by omega, List.range'_eq_map_range, List.map_map]
  refine List.map_congr_left fun i _ => ?_
  show _ = 60 * (a + i)
  omega

/-- the rows of a span of minutes -/
def span (src : Source) (lines : List Line) (a b : Nat) : List (Nat × List Nat) :=
  (List.range' a (b - a)).map fun m => (60 * m, src.items.map fun i => amount src lines m (normalize i))

theorem span_append (src : Source) (lines : List Line) {a b c : Nat} (h1 : a ≤ b) (h2 : b ≤ c) : span src lines a b ++ span src lines b c = span src lines a c := by
  unfold span
  rw [← List.map_append]
  have h := List.range'_append (s := a) (m := b - a) (n := c - b) (step := 1)
  rw [show a + 1 * (b - a) = b by omega, show b - a + (c - b) = c - a by omega] at h
  rw [h]

theorem span_one (src : Source) (lines : List Line) (a : Nat) : span src lines a (a + 1) = [(60 * a, src.items.map fun i => amount src lines a (normalize i))] := by
  unfold span
  rw [show a + 1 - a = 1 by omega]
  rfl

theorem span_congr {src : Source} {l1 l2 : List Line} {a b : Nat} (h : ∀ m, a ≤ m → m < b → ∀ k, amount src l1 m k = amount src l2 m k) : span src l1 a b = span src l2 a b := by
  unfold span
  refine List.map_congr_left fun m hm => ?_
  obtain ⟨h1, h2⟩ := List.mem_range'_1.mp hm
  rw [Prod.mk.injEq]
  exact ⟨rfl, List.map_congr_left fun i _ => h m h1 (by omega) _⟩

/-! ### A generator -/

/-- the rows in the file -/
def rowsOf (g : Gen) : List (Nat × List Nat) := (g.db.map (·.rows)).getD []

/-- the minutes of the lines that count -/
def relevant (src : Source) (lines : List Line) : List Nat := (lines.filter fun l => counts src l.2).map fun l => minute l.1

/-- a generator that has been given some lines; `c` is its minute -/
structure At (src : Source) (done : List Line) (g : Gen) (first last c : Nat) : Prop where
  minutes : ∃ rest, relevant src done = first :: rest ∧ (first :: rest).getLast? = some last
  upto : ∀ m ∈ relevant src done, first ≤ m ∧ m ≤ last
  current : g.current = some (60 * c)
  where_ : (c = last ∧ g.data ≠ []) ∨ (c = last + 1 ∧ g.data = [] ∧ g.db ≠ none)
  data : ∀ k, value k g.data = amount src done c k
  rows : rowsOf g = span src done first c

def Inv (src : Source) (done : List Line) (g : Gen) : Prop :=
  (relevant src done = [] ∧ g.db = none ∧ g.current = none ∧ g.data = []) ∨ ∃ first last c, At src done g first last c

theorem relevant_append (src : Source) (a b : List Line) : relevant src (a ++ b) = relevant src a ++ relevant src b := by
  unfold relevant
  rw [List.filter_append, List.map_append]

theorem relevant_no {src : Source} {l : Line} (h : counts src l.2 = false) (a : List Line) : relevant src (a ++ [l]) = relevant src a := by
  rw [relevant_append]
  unfold relevant
  simp [h]

theorem relevant_yes {src : Source} {l : Line} (h : counts src l.2 = true) (a : List Line) : relevant src (a ++ [l]) = relevant src a ++ [minute l.1] := by
  rw [relevant_append]
  unfold relevant
  simp [h]

theorem quiet_of {src : Source} {lines : List Line} {m : Nat} (h : ∀ m' ∈ relevant src lines, m' ≠ m) (k : Bytes) : amount src lines m k = 0 :=
  amount_quiet (fun l hl hc => h _ (List.mem_map_of_mem (List.mem_filter.mpr ⟨hl, hc⟩))) k

theorem Inv.irrelevant {src : Source} {done : List Line} {g : Gen} {l : Line} (h : Inv src done g) (hl : counts src l.2 = false) : Inv src (done ++ [l]) g := by
  rcases h with h | ⟨first, last, c, h⟩
  · left
    rw [relevant_no hl]
    exact h
  · right
    refine ⟨first, last, c, ?_, ?_, h.current, h.where_, ?_, ?_⟩
    · rw [relevant_no hl]; exact h.minutes
    · rw [relevant_no hl]; exact h.upto
    · intro k; rw [amount_irrelevant hl]; exact h.data k
    · rw [h.rows]
      exact span_congr fun m _ _ k => (amount_irrelevant hl m k).symm

theorem feed_irrelevant {src : Source} {g : Gen} {l : Line} (now : Nat) (hl : counts src l.2 = false) : feed src now g l = g := by
  have hf : src.find l.2 = [] := by
    cases hh : src.find l.2 with
    | nil => rfl
    | cons a b => rw [counts_iff.mpr (by rw [hh]; exact List.cons_ne_nil _ _)] at hl; cases hl
  unfold feed
  dsimp only
  split
  · rfl
  · split
    · rfl
    · first | rfl | rw [if_pos hf]

/-- a line that counts, not before the minute of the generator -/
theorem Inv.relevant {src : Source} {done : List Line} {g : Gen} {l : Line} {now : Nat} (h : Inv src done g) (hl : counts src l.2 = true) (hnow : minute l.1 < minute now)
    (hlast : ∀ t, g.last = some t → t ≤ 60 * minute l.1) (hcur : ∀ t, g.current = some t → t ≤ 60 * minute l.1) :
    Inv src (done ++ [l]) (feed src now g l) ∧ (feed src now g l).current = some (60 * minute l.1) ∧ (feed src now g l).last = g.last := by
  have hf := counts_iff.mp hl
  have e1 : (g.last.any fun last => decide (normalizeTime l.1 < last)) = false := by
    cases hg : g.last with
    | none => rfl
    | some t =>
      have := hlast t hg
      rw [normalizeTime_eq]
      exact decide_eq_false (by omega)
  unfold feed
  dsimp only
  rw [e1, if_neg (show ¬ (false = true) from fun h => nomatch h), if_neg (by rw [normalizeTime_eq, normalizeTime_eq]; omega), if_neg hf, normalizeTime_eq]
  rcases h with ⟨h1, h2, h3, h4⟩ | ⟨first, last, c, h⟩
  · rw [h3]
    show Inv _ _ (if _ then _ else _) ∧ _
    simp only [Option.getD_none, Nat.lt_irrefl, if_false]
    unfold flush
    dsimp only
    rw [if_pos rfl]
    refine ⟨.inr ⟨minute l.1, minute l.1, minute l.1, ⟨[], by rw [relevant_yes hl, h1]; rfl, rfl⟩, ?_, rfl, .inl ⟨rfl, update_ne _ _ hf⟩, ?_, ?_⟩, rfl, rfl⟩
    · rw [relevant_yes hl, h1]
      intro m hm
      rw [List.mem_singleton.mp hm]
      exact ⟨Nat.le_refl _, Nat.le_refl _⟩
    · intro k
      rw [value_update, h4, amount_same rfl, quiet_of (by rw [h1]; exact fun _ h => nomatch h)]
      rfl
    · show ((g.db.map (·.rows)).getD []) = _
      rw [h2]
      unfold span
      rw [Nat.sub_self]
      rfl
  · rw [h.current]
    have hc := hcur _ h.current
    simp only [Option.getD_some]
    rw [if_neg (by omega)]
    obtain ⟨rest, hm1, hm2⟩ := h.minutes
    have hfirst : first ≤ last := (h.upto last (by rw [hm1]; exact List.mem_of_getLast? hm2)).1
    have hlast' : last ≤ minute l.1 := by rcases h.where_ with ⟨e, _⟩ | ⟨e, _⟩ <;> omega
    have hfc : first ≤ c := by rcases h.where_ with ⟨e, _⟩ | ⟨e, _⟩ <;> omega
    have hmin : ∃ rest', Props.LogAnalyzer.relevant src (done ++ [l]) = first :: rest' ∧ (first :: rest').getLast? = some (minute l.1) := by
      refine ⟨rest ++ [minute l.1], by rw [relevant_yes hl, hm1]; rfl, ?_⟩
      rw [← List.cons_append, List.getLast?_concat]
    have hup : ∀ m ∈ Props.LogAnalyzer.relevant src (done ++ [l]), first ≤ m ∧ m ≤ minute l.1 := by
      intro m hm
      rw [relevant_yes hl] at hm
      rcases List.mem_append.mp hm with hm | hm
      · have := h.upto m hm; omega
      · rw [List.mem_singleton.mp hm]; omega
    by_cases hcm : c = minute l.1
    · subst hcm
      unfold flush
      dsimp only
      rw [if_pos rfl]
      refine ⟨.inr ⟨first, minute l.1, minute l.1, hmin, hup, rfl, .inl ⟨rfl, update_ne _ _ hf⟩, ?_, ?_⟩, rfl, rfl⟩
      · intro k
        rw [value_update, amount_same rfl]
        show combine k (value k g.data) _ = _
        rw [h.data]
      · show rowsOf g = _
        rw [h.rows]
        exact span_congr fun m _ hm k => (amount_other (by omega) k).symm
    · have hlt : c < minute l.1 := by omega
      unfold flush
      dsimp only
      rw [if_neg (fun e => hcm (by have := Option.some.inj e; omega))]
      refine ⟨.inr ⟨first, minute l.1, minute l.1, hmin, hup, rfl, .inl ⟨rfl, update_ne _ _ hf⟩, ?_, ?_⟩, rfl, rfl⟩
      · intro k
        show value k (updateData [] _) = _
        rw [value_update, amount_same rfl, quiet_of (fun m' hm' => by have := h.upto m' hm'; rcases h.where_ with ⟨e, _⟩ | ⟨e, _⟩ <;> omega)]
        rfl
      · have hz : ∀ a, last < a → (gap (60 * a) (60 * minute l.1)).map (fun t => (t, src.items.map fun _ => 0)) = span src (done ++ [l]) a (minute l.1) := by
          intro a ha
          rw [gap_eq, List.map_map]
          unfold span
          refine List.map_congr_left fun m hm => ?_
          obtain ⟨h1, h2⟩ := List.mem_range'_1.mp hm
          show (60 * m, _) = _
          rw [Prod.mk.injEq]
          refine ⟨rfl, List.map_congr_left fun i _ => ?_⟩
          rw [amount_other (by omega), quiet_of (fun m' hm' => by have := h.upto m' hm'; omega)]
        have hd : (g.db.getD { start := 60 * c }).rows = span src (done ++ [l]) first c := by
          have : (g.db.getD { start := 60 * c }).rows = rowsOf g := by
            unfold rowsOf
            cases g.db <;> rfl
          rw [this, h.rows]
          exact span_congr fun m _ hm k => (amount_other (by omega) k).symm
        rcases h.where_ with ⟨rfl, hne⟩ | ⟨hc', he, _⟩
        · show _ ++ _ = _
          simp only [if_neg hne]
          rw [hd, show 60 * c + 60 = 60 * (c + 1) by omega, hz (c + 1) (by omega), List.append_assoc,
            show (src.items.map fun i => value (normalize i) g.data) = src.items.map fun i => amount src (done ++ [l]) c (normalize i) from
              List.map_congr_left fun i _ => by rw [h.data, amount_other (by omega)],
            ← span_one, span_append _ _ (by omega) (by omega), span_append _ _ (by omega) (by omega)]
        · show _ ++ _ = _
          simp only [if_pos he]
          rw [hd, hz c (by omega), span_append _ _ (by omega) (by omega)]

theorem Inv.flushed {src : Source} {done : List Line} {g : Gen} (h : Inv src done g) : rows (flush src g none).db = table (counts src) (rowOf src) done := by
  unfold table
  rcases h with ⟨h1, h2, h3, h4⟩ | ⟨first, last, c, h⟩
  · rw [show ((done.filter fun l => counts src l.2).map fun l => minute l.1) = [] from h1]
    unfold flush
    rw [h3]
    show rows g.db = none
    rw [h2]
    rfl
  · obtain ⟨rest, hm1, hm2⟩ := h.minutes
    have hfirst : first ≤ last := (h.upto last (by rw [hm1]; exact List.mem_of_getLast? hm2)).1
    rw [show ((done.filter fun l => counts src l.2).map fun l => minute l.1) = first :: rest from hm1]
    dsimp only
    rw [hm2]
    unfold flush
    rw [h.current]
    dsimp only
    rw [if_neg (show ¬ ((none : Option Nat) = some (60 * c)) from fun h => nomatch h)]
    show some _ = some (span src done first (last + 1))
    congr 1
    have hd : (g.db.getD { start := 60 * c }).rows = span src done first c := by
      rw [← h.rows]
      unfold rowsOf
      cases g.db <;> rfl
    rcases h.where_ with ⟨rfl, hne⟩ | ⟨rfl, he, _⟩
    · rw [if_neg hne]
      show (g.db.getD { start := 60 * c }).rows ++ _ = _
      rw [hd, show (src.items.map fun i => value (normalize i) g.data) = src.items.map fun i => amount src done c (normalize i) from
          List.map_congr_left fun i _ => by rw [h.data],
        ← span_one, span_append _ _ hfirst (by omega)]
    · rw [if_pos he]
      exact hd

def Sorted (lines : List Line) : Prop := lines.Pairwise fun a b => minute a.1 ≤ minute b.1

theorem sorted_relevant {src : Source} {lines : List Line} (h : Sorted lines) : (relevant src lines).Pairwise (· ≤ ·) := by
  unfold relevant
  rw [List.pairwise_map]
  exact List.Pairwise.filter _ h

theorem last_max : ∀ (l : List Nat) (a last : Nat), (a :: l).Pairwise (· ≤ ·) → (a :: l).getLast? = some last → ∀ m ∈ a :: l, a ≤ m ∧ m ≤ last := by
  intro l
  induction l with
  | nil =>
    intro a last _ h m hm
    cases h
    rw [List.mem_singleton.mp hm]
    exact ⟨Nat.le_refl _, Nat.le_refl _⟩
  | cons b l ih =>
    intro a last hp h m hm
    rw [List.getLast?_cons_cons] at h
    obtain ⟨h1, h2⟩ := List.pairwise_cons.mp hp
    have hl := ih b last h2 h
    have hlast := hl b List.mem_cons_self
    cases hm with
    | head => have := h1 b List.mem_cons_self; omega
    | tail _ hm => exact ⟨h1 m hm, (hl m hm).2⟩

/-- what a generator begins with -/
theorem prepared {src : Source} {done : List Line} {db : Option Db} {n : Nat} (hs : Sorted done) (hn : ∀ l ∈ done, minute l.1 < n)
    (h : rows db = table (counts src) (rowOf src) done) :
    Inv src done (prepare db) ∧ (∀ t, (prepare db).last = some t → t < 60 * n) ∧ (∀ t, (prepare db).current = some t → t ≤ 60 * n) ∧
      ∀ l ∈ done, ∀ now, feed src now (prepare db) l = prepare db := by
  unfold table at h
  cases hr : (done.filter fun l => counts src l.2).map fun l => minute l.1 with
  | nil =>
    rw [hr] at h
    cases db with
    | some d => cases h
    | none =>
      refine ⟨.inl ⟨hr, rfl, rfl, rfl⟩, fun _ h => (nomatch h), fun _ h => (nomatch h), fun l hl now => ?_⟩
      refine feed_irrelevant now ?_
      cases hc : counts src l.2 with
      | false => rfl
      | true =>
        have : minute l.1 ∈ ([] : List Nat) := by rw [← hr]; exact List.mem_map_of_mem (List.mem_filter.mpr ⟨hl, hc⟩)
        cases this
  | cons first rest =>
    rw [hr] at h
    dsimp only at h
    cases db with
    | none => cases h
    | some d =>
      have hl : ∃ last, (first :: rest).getLast? = some last := by
        rw [List.getLast?_eq_some_getLast (List.cons_ne_nil _ _)]
        exact ⟨_, rfl⟩
      obtain ⟨last, hl⟩ := hl
      rw [hl] at h
      have hd : d.rows = span src done first (last + 1) := Option.some.inj h
      have hup : ∀ m ∈ relevant src done, first ≤ m ∧ m ≤ last := by
        have := sorted_relevant (src := src) hs
        rw [show relevant src done = first :: rest from hr] at this ⊢
        exact last_max rest first last this hl
      have hmem : last ∈ relevant src done := by rw [show relevant src done = first :: rest from hr]; exact List.mem_of_getLast? hl
      have hfirst : first ≤ last := (hup last hmem).1
      have hlastn : last < n := by
        obtain ⟨l, h1, h2⟩ := List.mem_map.mp hmem
        rw [← h2]
        exact hn l (List.mem_filter.mp h1).1
      have hdl : d.last = 60 * last := by
        unfold Db.last
        rw [hd, ← span_append src done hfirst (Nat.le_succ last), span_one, List.getLast?_concat]
      have e : prepare (some d) = { db := some d, last := some (60 * last), current := some (60 * (last + 1)) } := by
        unfold prepare
        dsimp only
        rw [hdl, normalizeTime_eq, show minute (60 * last) = last by unfold minute; omega]
        rfl
      rw [e]
      refine ⟨.inr ⟨first, last, last + 1, ⟨rest, hr, hl⟩, hup, rfl, .inr ⟨rfl, rfl, fun h => nomatch h⟩, ?_, hd⟩, ?_, ?_, ?_⟩
      · intro k
        rw [quiet_of (fun m hm => by have := hup m hm; omega)]
        rfl
      · intro t ht
        have := Option.some.inj ht
        omega
      · intro t ht
        have := Option.some.inj ht
        omega
      · intro l hl now
        cases hc : counts src l.2 with
        | false => exact feed_irrelevant now hc
        | true =>
          have hm := (hup (minute l.1) (List.mem_map_of_mem (List.mem_filter.mpr ⟨hl, hc⟩))).2
          unfold feed
          dsimp only
          split
          · rfl
          · split
            · rfl
            · rw [if_neg (counts_iff.mp hc), normalizeTime_eq, if_pos (by show 60 * minute l.1 < 60 * (last + 1); omega)]
              rfl

theorem fold_same {src : Source} {now : Nat} {g : Gen} : ∀ ls : List Line, (∀ l ∈ ls, feed src now g l = g) → ls.foldl (feed src now) g = g := by
  intro ls
  induction ls with
  | nil => exact fun _ => rfl
  | cons l ls ih =>
    intro h
    rw [List.foldl_cons, h l List.mem_cons_self]
    exact ih fun l' hl' => h l' (List.mem_cons_of_mem _ hl')

theorem feed_late {src : Source} {now : Nat} {g : Gen} {l : Line} (h : minute now ≤ minute l.1) : feed src now g l = g := by
  unfold feed
  dsimp only
  split
  · rfl
  · rw [if_pos (by rw [normalizeTime_eq, normalizeTime_eq]; omega)]

theorem Inv.fold {src : Source} {now : Nat} : ∀ (ls : List Line) (done : List Line) (g : Gen), Sorted ls → Inv src done g →
    (∀ t, g.last = some t → ∀ l ∈ ls, t ≤ 60 * minute l.1) → (∀ t, g.current = some t → ∀ l ∈ ls, t ≤ 60 * minute l.1) →
    Inv src (done ++ ls.filter fun l => minute l.1 < minute now) (ls.foldl (feed src now) g) := by
  intro ls
  induction ls with
  | nil =>
    intro done g _ h _ _
    rw [List.filter_nil, List.append_nil]
    exact h
  | cons l ls ih =>
    intro done g hs h h1 h2
    obtain ⟨hs1, hs2⟩ := List.pairwise_cons.mp hs
    have h1' := fun t ht l' hl' => h1 t ht l' (List.mem_cons_of_mem l hl')
    have h2' := fun t ht l' hl' => h2 t ht l' (List.mem_cons_of_mem l hl')
    rw [List.foldl_cons, List.filter_cons]
    by_cases hn : minute l.1 < minute now
    · rw [if_pos (decide_eq_true hn), List.append_cons]
      cases hc : counts src l.2 with
      | false =>
        rw [feed_irrelevant now hc]
        exact ih _ _ hs2 (h.irrelevant hc) h1' h2'
      | true =>
        obtain ⟨i1, i2, i3⟩ := h.relevant hc hn (fun t ht => h1 t ht l List.mem_cons_self) (fun t ht => h2 t ht l List.mem_cons_self)
        refine ih _ _ hs2 i1 (fun t ht => h1' t (i3 ▸ ht)) (fun t ht l' hl' => ?_)
        rw [i2] at ht
        have := Option.some.inj ht
        have := hs1 l' hl'
        omega
    · rw [if_neg (by simpa using hn), feed_late (by omega)]
      exact ih _ _ hs2 h h1' h2'

theorem sorted_split (n : Nat) : ∀ ls : List Line, Sorted ls → ls = (ls.filter fun l => minute l.1 < n) ++ ls.filter fun l => ! decide (minute l.1 < n) := by
  intro ls
  induction ls with
  | nil => exact fun _ => rfl
  | cons l ls ih =>
    intro hs
    obtain ⟨hs1, hs2⟩ := List.pairwise_cons.mp hs
    by_cases h : minute l.1 < n
    · rw [List.filter_cons_of_pos (by simpa using h), List.filter_cons_of_neg (by simpa using h), List.cons_append, ← ih hs2]
    · rw [List.filter_cons_of_neg (by simpa using h), List.filter_cons_of_pos (by simpa using h)]
      rw [List.filter_eq_nil_iff.mpr (fun l' hl' => by have := hs1 l' hl'; simp; omega), List.nil_append,
        List.filter_eq_self.mpr (fun l' hl' => by have := hs1 l' hl'; simp; omega)]

/-- **a run** of a generator -/
theorem runOne_table {src : Source} {whole old seen new : List Line} {n now u : Nat} {db : Option Db} (hs : Sorted whole) (hn : n ≤ minute now) (hw : whole = old ++ seen ++ new)
    (hold : ∀ l ∈ old, minute l.1 < n) (hnew : ∀ l ∈ new, minute now ≤ minute l.1) (hu : u ≤ 60 * n)
    (h : rows db = table (counts src) (rowOf src) (before whole n)) :
    rows (runOne src now db (seen.filter fun l => ! decide (l.1 < u))) = table (counts src) (rowOf src) (before whole (minute now)) := by
  have hseen : Sorted seen := by
    rw [hw] at hs
    exact (List.pairwise_append.mp (List.pairwise_append.mp hs).1).2.1
  have hb : before whole n = old ++ seen.filter fun l => minute l.1 < n := by
    unfold before
    rw [hw, List.filter_append, List.filter_append, List.filter_eq_self.mpr (fun l hl => by simpa using hold l hl),
      show (new.filter fun l => decide (minute l.1 < n)) = [] from List.filter_eq_nil_iff.mpr (fun l hl => by have := hnew l hl; simp; omega), List.append_nil]
  have hb' : before whole (minute now) = before whole n ++ (seen.filter fun l => ! decide (minute l.1 < n)).filter fun l => minute l.1 < minute now := by
    rw [hb]
    unfold before
    rw [hw, List.filter_append, List.filter_append, List.filter_eq_self.mpr (fun l hl => by have := hold l hl; simp; omega),
      show (new.filter fun l => decide (minute l.1 < minute now)) = [] from List.filter_eq_nil_iff.mpr (fun l hl => by have := hnew l hl; simp; omega), List.append_nil, List.append_assoc]
    congr 1
    conv => lhs; rw [sorted_split n seen hseen]
    rw [List.filter_append]
    congr 1
    exact List.filter_eq_self.mpr fun l hl => by
      have : minute l.1 < n := by simpa using (List.mem_filter.mp hl).2
      simp; omega
  obtain ⟨i1, i2, i3, i4⟩ := prepared (List.Pairwise.filter _ hs) (fun l hl => by simpa using (List.mem_filter.mp hl).2) h
  have hsplit : (seen.filter fun l => ! decide (l.1 < u)) =
      ((seen.filter fun l => minute l.1 < n).filter fun l => ! decide (l.1 < u)) ++ seen.filter fun l => ! decide (minute l.1 < n) := by
    conv => lhs; rw [sorted_split n seen hseen]
    rw [List.filter_append]
    congr 1
    exact List.filter_eq_self.mpr fun l hl => by
      have h1 : ¬ minute l.1 < n := by simpa using (List.mem_filter.mp hl).2
      have h2 : 60 * minute l.1 ≤ l.1 := by unfold minute; omega
      simp; omega
  unfold runOne
  rw [hsplit, List.foldl_append, fold_same _ fun l hl => i4 l (by show l ∈ before whole n; rw [hb]; exact List.mem_append_right _ (List.mem_filter.mp hl).1) now, hb']
  have hge : ∀ l ∈ (seen.filter fun l => ! decide (minute l.1 < n)), n ≤ minute l.1 := fun l hl => by
    have h1 : ¬ minute l.1 < n := by simpa using (List.mem_filter.mp hl).2
    omega
  refine (Inv.fold _ _ _ (List.Pairwise.filter _ hseen) i1 (fun t ht l hl => ?_) (fun t ht l hl => ?_)).flushed
  · have := i2 t ht; have := hge l hl; omega
  · have := i3 t ht; have := hge l hl; omega

/-! ### The time of the last update -/

/-- the last update of a file is before a minute -/
def Bounded (db : Option Db) (n : Nat) : Prop := ∀ d, db = some d → d.last < 60 * n

theorem last_append {d : Db} {r : List (Nat × List Nat)} {b : Nat} (h : d.last < b) (hr : ∀ x ∈ r, x.1 < b) : Db.last { d with rows := d.rows ++ r } < b := by
  cases hl : r.getLast? with
  | none =>
    rw [List.getLast?_eq_none_iff.mp hl, List.append_nil]
    exact h
  | some x =>
    unfold Db.last
    dsimp only
    rw [List.getLast?_append, hl]
    exact hr x (List.mem_of_getLast? hl)

/-- a generator in a run -/
structure Within (n : Nat) (g : Gen) : Prop where
  db : Bounded g.db n
  current : ∀ c, g.current = some c → g.data ≠ [] ∨ g.db = none → c < 60 * n

theorem Within.prepare {db : Option Db} {n : Nat} (h : Bounded db n) : Within n (prepare db) := by
  cases db with
  | none => exact ⟨h, fun c hc => nomatch hc⟩
  | some d =>
    refine ⟨h, fun c _ hc => ?_⟩
    rcases hc with hc | hc
    · exact absurd rfl hc
    · cases hc

theorem Within.flush {src : Source} {g : Gen} {n : Nat} (h : Within n g) (next : Option Nat) (hnext : ∀ t, next = some t → t < 60 * n) :
    Bounded (flush src g next).db n ∧ ((flush src g next).current = g.current ∨ ∃ t, next = some t ∧ (flush src g next).current = some t) ∧
      (flush src g next = g ∨ (flush src g next).db ≠ none ∧ (flush src g next).data = []) := by
  unfold LogAnalyzer.flush
  cases hc : g.current with
  | none => exact ⟨h.db, .inl hc, .inl rfl⟩
  | some c =>
    dsimp only
    by_cases he : next = some c
    · rw [if_pos he]
      exact ⟨h.db, .inl hc, .inl rfl⟩
    · rw [if_neg he]
      refine ⟨?_, ?_, .inr ⟨fun h => (nomatch h), rfl⟩⟩
      · intro d' hd'
        have hd' := Option.some.inj hd'
        subst hd'
        have h0 : (g.db.getD { start := c }).last < 60 * n := by
          cases hdb : g.db with
          | some d => exact h.db d hdb
          | none =>
            have : c < 60 * n := h.current c hc (.inr hdb)
            show c - 1 < 60 * n
            omega
        have h1 : (if g.data = [] then g.db.getD { start := c } else
            { g.db.getD { start := c } with rows := (g.db.getD { start := c }).rows ++ [(c, src.items.map fun i => value (normalize i) g.data)] }).last < 60 * n := by
          by_cases hd : g.data = []
          · rw [if_pos hd]; exact h0
          · rw [if_neg hd]
            refine last_append h0 fun x hx => ?_
            rw [List.mem_singleton.mp hx]
            exact h.current c hc (.inl hd)
        cases next with
        | none => exact h1
        | some t =>
          refine last_append h1 fun x hx => ?_
          obtain ⟨t', ht', rfl⟩ := List.mem_map.mp hx
          unfold gap at ht'
          obtain ⟨i, hi, rfl⟩ := List.mem_map.mp ht'
          have := List.mem_range.mp hi
          have := hnext t rfl
          show _ + 60 * i < 60 * n
          omega
      · cases next with
        | none => exact .inl rfl
        | some t => exact .inr ⟨t, rfl, rfl⟩

theorem Within.feed {src : Source} {g : Gen} {now : Nat} (h : Within (minute now) g) (l : Line) : Within (minute now) (feed src now g l) := by
  unfold LogAnalyzer.feed
  dsimp only
  split
  · exact h
  · split
    · exact h
    · rename_i hn
      rw [normalizeTime_eq, normalizeTime_eq] at hn
      split
      · exact h
      · rw [normalizeTime_eq]
        have h' : Within (minute now) { g with current := some (g.current.getD (60 * minute l.1)) } := by
          refine ⟨h.db, fun c hc hd => ?_⟩
          have hc := Option.some.inj hc
          cases hg : g.current with
          | none => rw [hg] at hc; rw [← hc]; show 60 * minute l.1 < _; omega
          | some c' => rw [hg] at hc; rw [← hc]; exact h.current c' hg hd
        split
        · refine ⟨h.db, fun c hc hd => ?_⟩
          rcases hd with hd | hd
          · exact absurd rfl hd
          · exact h'.current c hc (.inr hd)
        · rename_i hlt
          obtain ⟨f1, f2, f3⟩ := h'.flush (src := src) (some (60 * minute l.1)) (fun t ht => by have := Option.some.inj ht; omega)
          refine ⟨f1, fun c hc _ => ?_⟩
          rcases f2 with f2 | ⟨t, ht, f2⟩
          · rcases f3 with f3 | ⟨_, f3⟩
            · have hc : (LogAnalyzer.flush src { g with current := some (g.current.getD (60 * minute l.1)) } (some (60 * minute l.1))).current = some c := hc
              rw [f2] at hc
              have hc := Option.some.inj hc
              omega
            · have hc : (LogAnalyzer.flush src { g with current := some (g.current.getD (60 * minute l.1)) } (some (60 * minute l.1))).current = some c := hc
              rw [f2] at hc
              have hc := Option.some.inj hc
              omega
          · have hc : (LogAnalyzer.flush src { g with current := some (g.current.getD (60 * minute l.1)) } (some (60 * minute l.1))).current = some c := hc
            rw [f2] at hc
            have hc := Option.some.inj hc
            have := Option.some.inj ht
            omega

/-! ### The milters -/

theorem flush_prepare (src : Source) (db : Option Db) : (flush src (prepare db) none).db = db := by
  cases db <;> rfl

theorem milter_irrelevant {n : Bytes} {s : Stat} (h : ∀ t, s ≠ .milterEnd n t) : counts (milterStatus n) s = false := by
  cases s with
  | milterEnd name t =>
    have hn : name ≠ n := fun e => h t (by rw [e])
    unfold counts milterStatus
    simp [hn]
  | _ => rfl

/-- the generator of a milter, if it is there -/
def genOf (n : Bytes) (gens : List (Bytes × Gen × Gen)) : Option (Bytes × Gen × Gen) := gens.find? fun g => g.1 == n

theorem genOf_name {n : Bytes} {gens : List (Bytes × Gen × Gen)} {g : Bytes × Gen × Gen} (h : genOf n gens = some g) : g.1 = n :=
  eq_of_beq (List.find?_some (p := fun g : Bytes × Gen × Gen => g.1 == n) h)

theorem genOf_map (n : Bytes) (f : Bytes × Gen × Gen → Bytes × Gen × Gen) (hf : ∀ g, (f g).1 = g.1) (gens : List (Bytes × Gen × Gen)) :
    genOf n (gens.map f) = (genOf n gens).map f := by
  unfold genOf
  rw [List.find?_map]
  congr 2
  funext g
  show ((f g).1 == n) = _
  rw [hf]

/-- what the generators of a milter are, also before they are there -/
def ghost (disk : Disk) (n : Bytes) (gens : List (Bytes × Gen × Gen)) : Gen := ((genOf n gens).map (·.2.1)).getD (prepare (disk.milterStatus n))

theorem ghost_step (keys : Bytes → Bytes → List Bytes) (now : Nat) (disk : Disk) (gens : List (Bytes × Gen × Gen)) (l : Line) (n : Bytes) :
    ghost disk n (feedMilters keys now disk gens l) = feed (milterStatus n) now (ghost disk n gens) l := by
  have key : ∀ gens' : List (Bytes × Gen × Gen), (genOf n gens' = none → counts (milterStatus n) l.2 = false) →
      ghost disk n (gens'.map fun g : Bytes × Gen × Gen => (g.1, feed (milterStatus g.1) now g.2.1 l, feed (milterReport keys g.1) now g.2.2 l)) =
        feed (milterStatus n) now (ghost disk n gens') l := by
    intro gens' h
    unfold ghost
    rw [genOf_map n (fun g : Bytes × Gen × Gen => (g.1, feed (milterStatus g.1) now g.2.1 l, feed (milterReport keys g.1) now g.2.2 l)) (fun _ => rfl)]
    cases hg : genOf n gens' with
    | none =>
      show prepare _ = feed _ now (prepare _) l
      rw [feed_irrelevant now (h hg)]
    | some g =>
      show feed (milterStatus g.1) now g.2.1 l = feed (milterStatus n) now g.2.1 l
      rw [genOf_name hg]
  unfold feedMilters
  dsimp only
  cases hs : l.2 with
  | milterEnd name t =>
    dsimp only
    by_cases hname : (gens.find? fun g : Bytes × Gen × Gen => g.1 == name).isSome = true
    · rw [if_pos hname]
      refine key gens fun hn => ?_
      rw [hs]
      refine milter_irrelevant fun t' ht' => ?_
      cases ht'
      unfold genOf at hn
      rw [hn] at hname
      cases hname
    · rw [if_neg hname]
      have hnone : gens.find? (fun g : Bytes × Gen × Gen => g.1 == name) = none := by
        cases hh : gens.find? (fun g : Bytes × Gen × Gen => g.1 == name) with
        | none => rfl
        | some g => rw [hh] at hname; exact absurd rfl hname
      have hg : ghost disk n (gens ++ [(name, prepare (disk.milterStatus name), prepare (disk.milterReport name))]) = ghost disk n gens := by
        unfold ghost genOf
        rw [List.find?_append]
        by_cases hn : name = n
        · subst hn
          rw [hnone]
          simp
        · have : ([(name, prepare (disk.milterStatus name), prepare (disk.milterReport name))] : List (Bytes × Gen × Gen)).find? (fun g => g.1 == n) = none := by
            rw [List.find?_eq_none]
            intro g hg
            rw [List.mem_singleton.mp hg]
            simpa using hn
          rw [this, Option.or_none]
      rw [key _ ?_, hg]
      intro hn
      rw [hs]
      refine milter_irrelevant fun t' ht' => ?_
      cases ht'
      unfold genOf at hn
      rw [List.find?_append, hnone] at hn
      simp at hn
  | _ =>
    refine key gens fun _ => ?_
    rw [hs]
    exact milter_irrelevant fun t' ht' => nomatch ht'

theorem ghost_fold (keys : Bytes → Bytes → List Bytes) (now : Nat) (disk : Disk) (n : Bytes) : ∀ (ls : List Line) (gens : List (Bytes × Gen × Gen)),
    ghost disk n (ls.foldl (feedMilters keys now disk) gens) = ls.foldl (feed (milterStatus n) now) (ghost disk n gens) := by
  intro ls
  induction ls with
  | nil => exact fun _ => rfl
  | cons l ls ih =>
    intro gens
    rw [List.foldl_cons, List.foldl_cons, ih, ghost_step]

/-- the file of a milter after a run -/
theorem run_milter (keys : Bytes → Bytes → List Bytes) (now : Nat) (disk : Disk) (log : List Line) (n : Bytes) :
    (run keys now disk log).milterStatus n = runOne (milterStatus n) now (disk.milterStatus n) (log.filter fun l => ! decide (l.1 < lastUpdate disk)) := by
  unfold runOne
  have h := ghost_fold keys now disk n (log.filter fun l => ! decide (l.1 < lastUpdate disk)) []
  rw [show ghost disk n [] = prepare (disk.milterStatus n) from rfl] at h
  rw [← h]
  show (match genOf n _ with | some g => _ | none => _) = _
  unfold ghost
  cases genOf n ((log.filter fun l => ! decide (l.1 < lastUpdate disk)).foldl (feedMilters keys now disk) []) with
  | none => exact (flush_prepare _ _).symm
  | some g => rfl

theorem reports_within (keys : Bytes → Bytes → List Bytes) (now : Nat) (disk : Disk) (hb : ∀ n, Bounded (disk.milterReport n) (minute now)) :
    ∀ (ls : List Line) (gens : List (Bytes × Gen × Gen)), (∀ g ∈ gens, Within (minute now) g.2.2) → ∀ g ∈ ls.foldl (feedMilters keys now disk) gens, Within (minute now) g.2.2 := by
  intro ls
  induction ls with
  | nil => exact fun _ h => h
  | cons l ls ih =>
    intro gens h
    refine ih _ ?_
    have key : ∀ gens' : List (Bytes × Gen × Gen), (∀ g ∈ gens', Within (minute now) g.2.2) →
        ∀ g ∈ gens'.map (fun g : Bytes × Gen × Gen => (g.1, feed (milterStatus g.1) now g.2.1 l, feed (milterReport keys g.1) now g.2.2 l)), Within (minute now) g.2.2 := by
      intro gens' h' g hg
      obtain ⟨g', hg', rfl⟩ := List.mem_map.mp hg
      exact (h' g' hg').feed l
    unfold feedMilters
    dsimp only
    cases l.2 with
    | milterEnd name t =>
      dsimp only
      split
      · exact key gens h
      · refine key _ fun g hg => ?_
        rcases List.mem_append.mp hg with hg | hg
        · exact h g hg
        · rw [List.mem_singleton.mp hg]
          exact Within.prepare (hb name)
    | _ => exact key gens h

/-! ### What is counted -/

theorem table_congr {c1 c2 : Stat → Bool} {r1 r2 : List Stat → List Nat} (hc : ∀ s, c1 s = c2 s) (hr : ∀ said, r1 said = r2 said) (lines : List Line) :
    table c1 r1 lines = table c2 r2 lines := by
  rw [show c1 = c2 from funext hc, show r1 = r2 from funext hr]

theorem combine_count {k : Bytes} : ∀ (ds : List Datum), (∀ d ∈ ds, d.kind = .count ∧ d.count = 1) → ∀ v, combine k v ds = v + ds.countP fun d => normalize d.key == k := by
  intro ds
  induction ds with
  | nil => exact fun _ _ => rfl
  | cons d ds ih =>
    intro h v
    obtain ⟨h1, h2⟩ := h d List.mem_cons_self
    show combine k (if normalize d.key = k then _ else _) ds = _
    rw [ih (fun d' hd' => h d' (List.mem_cons_of_mem _ hd')), h1, h2, List.countP_cons]
    by_cases hk : normalize d.key = k
    · rw [if_pos hk]
      simp [hk]
      omega
    · rw [if_neg hk]
      simp [hk]

theorem normalize_beq (a b : Bytes) : (normalize a == normalize b) = sameItem a b := rfl

theorem sessions_counts (s : Stat) : counts sessions s = sessionsCount s := by
  cases s <;> rfl

theorem sessions_row (said : List Stat) : rowOf sessions said = sessionsRow said := by
  have h : ∀ (said : List Stat) (a b c d : Nat),
      combine (normalize (ascii "smtp")) a (said.flatMap sessions.find) = a + said.countP endOfSession ∧
      combine (normalize (ascii "child")) b (said.flatMap sessions.find) = b + said.countP endOfMilter ∧
      combine (normalize (ascii "disconnected")) c (said.flatMap sessions.find) = c + said.countP (· == .disconnected) ∧
      combine (normalize (ascii "concurrent")) d (said.flatMap sessions.find) = (said.map open_).foldl max d := by
    intro said
    induction said with
    | nil => exact fun _ _ _ _ => ⟨rfl, rfl, rfl, rfl⟩
    | cons s said ih =>
      intro a b c d
      rw [List.flatMap_cons, combine_append, combine_append, combine_append, combine_append]
      obtain ⟨i1, i2, i3, i4⟩ := ih (combine (normalize (ascii "smtp")) a (sessions.find s)) (combine (normalize (ascii "child")) b (sessions.find s))
        (combine (normalize (ascii "disconnected")) c (sessions.find s)) (combine (normalize (ascii "concurrent")) d (sessions.find s))
      rw [i1, i2, i3, i4, List.countP_cons, List.countP_cons, List.countP_cons, List.map_cons, List.foldl_cons]
      cases s with
      | sessionEnd t =>
        refine ⟨?_, ?_, ?_, ?_⟩
        · show a + 1 + _ = a + (_ + 1); omega
        · rfl
        · rfl
        · show _ = List.foldl max (max d 0) _; rw [Nat.max_zero]; rfl
      | milterEnd n t =>
        refine ⟨rfl, ?_, rfl, ?_⟩
        · show b + 1 + _ = b + (_ + 1); omega
        · show _ = List.foldl max (max d 0) _; rw [Nat.max_zero]; rfl
      | disconnected =>
        refine ⟨rfl, rfl, ?_, ?_⟩
        · show c + 1 + _ = c + (_ + 1); omega
        · show _ = List.foldl max (max d 0) _; rw [Nat.max_zero]; rfl
      | finished r => exact ⟨rfl, rfl, rfl, rfl⟩
      | headerAdd m n v => exact ⟨rfl, rfl, rfl, by show _ = List.foldl max (max d 0) _; rw [Nat.max_zero]; rfl⟩
      | quarantine => exact ⟨rfl, rfl, rfl, by show _ = List.foldl max (max d 0) _; rw [Nat.max_zero]; rfl⟩
      | other => exact ⟨rfl, rfl, rfl, by show _ = List.foldl max (max d 0) _; rw [Nat.max_zero]; rfl⟩
  obtain ⟨h1, h2, h3, h4⟩ := h said 0 0 0 0
  show [_, _, _, _] = [_, _, _, _]
  dsimp only
  rw [h1, h2, h3, h4, Nat.zero_add, Nat.zero_add, Nat.zero_add]

/-- each line counts once or not at all -/
theorem count_lines {find : Stat → List Datum} {k : Bytes} {p : Stat → Bool}
    (h : ∀ s, (find s).countP (fun d => normalize d.key == k) = if p s then 1 else 0) (said : List Stat) :
    (said.flatMap find).countP (fun d => normalize d.key == k) = said.countP p := by
  induction said with
  | nil => rfl
  | cons s said ih => rw [List.flatMap_cons, List.countP_append, ih, h, List.countP_cons, Nat.add_comm]

theorem plain_data {find : Stat → List Datum} (h : ∀ s, ∀ d ∈ find s, d.kind = .count ∧ d.count = 1) (said : List Stat) :
    ∀ d ∈ said.flatMap find, d.kind = .count ∧ d.count = 1 := by
  intro d hd
  obtain ⟨s, _, hs⟩ := List.mem_flatMap.mp hd
  exact h s d hs

theorem status_counts (s : Stat) : counts LogAnalyzer.status s = endOfSession s := by
  cases s <;> rfl

theorem status_row (said : List Stat) : rowOf LogAnalyzer.status said = statusRow said := by
  refine List.map_congr_left fun i _ => ?_
  rw [combine_count _ (plain_data (fun s d hd => ?_) said), Nat.zero_add]
  · refine count_lines (fun s => ?_) said
    cases s with
    | sessionEnd t =>
      show List.countP _ [_] = _
      rw [List.countP_cons, List.countP_nil, Nat.zero_add]
      rfl
    | _ => rfl
  · cases s with
    | sessionEnd t => rw [List.mem_singleton.mp hd]; exact ⟨rfl, rfl⟩
    | _ => cases hd

theorem milter_counts (n : Bytes) (s : Stat) : counts (milterStatus n) s = milterCounts n s := by
  cases s with
  | milterEnd m t =>
    unfold counts milterStatus milterCounts
    by_cases h : m = n
    · simp [h]
    · simp [h]
  | _ => rfl

theorem milter_row (n : Bytes) (said : List Stat) : rowOf (milterStatus n) said = milterRow n said := by
  refine List.map_congr_left fun i _ => ?_
  rw [combine_count _ (plain_data (fun s d hd => ?_) said), Nat.zero_add]
  · refine count_lines (fun s => ?_) said
    cases s with
    | milterEnd m t =>
      show List.countP _ (if m = n then [_] else []) = if (m == n && sameItem t i) = true then 1 else 0
      by_cases h : m = n
      · rw [if_pos h, List.countP_cons, List.countP_nil, Nat.zero_add, show (m == n) = true by simp [h], Bool.true_and]
        rfl
      · rw [if_neg h, show (m == n) = false by simp [h]]
        rfl
    | _ => rfl
  · cases s with
    | milterEnd m t =>
      have hd : d ∈ (if m = n then [_] else [] : List Datum) := hd
      split at hd
      · rw [List.mem_singleton.mp hd]; exact ⟨rfl, rfl⟩
      · cases hd
    | _ => cases hd

theorem report_find (keys : Bytes → Bytes → List Bytes) (s : Stat) : (report keys).find s = (found keys s).map fun k => { key := k } := by
  cases s with
  | headerAdd m name value =>
    show (if name = [] ∨ value = [] then [] else _) = (if (name.isEmpty || value.isEmpty) = true then [] else keys name value).map _
    cases name with
    | nil => rfl
    | cons a b =>
      cases value with
      | nil => rw [if_pos (.inr rfl)]; rfl
      | cons c d => rw [if_neg (fun h => by rcases h with h | h <;> cases h)]; rfl
  | _ => rfl

theorem report_counts (keys : Bytes → Bytes → List Bytes) (s : Stat) : counts (report keys) s = !(found keys s).isEmpty := by
  unfold counts
  rw [report_find, List.isEmpty_map]

theorem report_row (keys : Bytes → Bytes → List Bytes) (said : List Stat) : rowOf (report keys) said = reportRow keys said := by
  refine List.map_congr_left fun i _ => ?_
  rw [combine_count _ (plain_data (fun s d hd => ?_) said), Nat.zero_add]
  · induction said with
    | nil => rfl
    | cons s said ih =>
      rw [List.flatMap_cons, List.flatMap_cons, List.countP_append, List.countP_append, ih, report_find, List.countP_map]
      rfl
  · rw [report_find] at hd
    obtain ⟨k, _, rfl⟩ := List.mem_map.mp hd
    exact ⟨rfl, rfl⟩

/-! ### C149 -/

/-- the databases after the runs up to a minute -/
structure Good (keys : Bytes → Bytes → List Bytes) (whole : List Line) (n : Nat) (d : Disk) : Prop where
  exact_ : Exact keys d (before whole n)
  reports : ∀ name, Bounded (d.milterReport name) n

theorem table_bounded {src : Source} {whole : List Line} {db : Option Db} {n : Nat} (hs : Sorted whole) (h : rows db = table (counts src) (rowOf src) (before whole n)) :
    (∀ t, (prepare db).last = some t → t ≤ 60 * n) ∧ Bounded db n := by
  obtain ⟨i1, i2, _⟩ := prepared (List.Pairwise.filter _ hs) (fun l hl => by simpa using (List.mem_filter.mp hl).2) h
  refine ⟨fun t ht => Nat.le_of_lt (i2 t ht), fun d hd => ?_⟩
  subst hd
  rcases i1 with ⟨_, h1, _⟩ | ⟨first, last, c, ha⟩
  · cases h1
  · have hc : some (normalizeTime d.last + 60) = some (60 * c) := ha.current
    have hl := i2 (normalizeTime d.last) rfl
    rcases ha.where_ with ⟨_, he⟩ | ⟨rfl, _⟩
    · exact absurd rfl he
    · have hc := Option.some.inj hc
      rw [normalizeTime_eq] at hl hc
      have : d.last < 60 * minute d.last + 60 := by unfold minute; omega
      omega

theorem lastUpdate_le {keys : Bytes → Bytes → List Bytes} {whole : List Line} {n : Nat} {d : Disk} (hs : Sorted whole) (h : Good keys whole n d) : lastUpdate d ≤ 60 * n := by
  have hm : ∀ t ∈ [(prepare d.sessions).last, (prepare d.status).last, (prepare d.report).last, lastOfMilters d].map fun t => t.getD 0, t ≤ 60 * n := by
    intro t ht
    obtain ⟨o, ho, rfl⟩ := List.mem_map.mp ht
    cases o with
    | none => exact Nat.zero_le _
    | some t =>
      simp only [List.mem_cons, List.not_mem_nil, or_false] at ho
      rcases ho with ho | ho | ho | ho
      · exact (table_bounded hs (h.exact_.sessions.trans (table_congr sessions_counts sessions_row _).symm)).1 t ho.symm
      · exact (table_bounded hs (h.exact_.status.trans (table_congr status_counts status_row _).symm)).1 t ho.symm
      · exact (table_bounded hs (h.exact_.report.trans (table_congr (report_counts keys) (report_row keys) _).symm)).1 t ho.symm
      · have hmem := List.min?_mem ho.symm
        obtain ⟨db, hdb, rfl⟩ := List.mem_map.mp hmem
        rcases List.mem_append.mp hdb with hdb | hdb
        · obtain ⟨name, _, hname⟩ := List.mem_filterMap.mp hdb
          exact Nat.le_of_lt ((table_bounded hs ((h.exact_.milters name).trans (table_congr (milter_counts name) (milter_row name) _).symm)).2 db hname)
        · obtain ⟨name, _, hname⟩ := List.mem_filterMap.mp hdb
          exact Nat.le_of_lt (h.reports name db hname)
  unfold lastUpdate
  cases hx : (([(prepare d.sessions).last, (prepare d.status).last, (prepare d.report).last, lastOfMilters d].map fun t => t.getD 0).max?) with
  | none => exact Nat.zero_le _
  | some t => exact hm t (List.max?_mem hx)

theorem Good.step {keys : Bytes → Bytes → List Bytes} {whole old seen new : List Line} {n now : Nat} {d : Disk} (hs : Sorted whole) (h : Good keys whole n d) (hn : n ≤ minute now)
    (hw : whole = old ++ seen ++ new) (hold : ∀ l ∈ old, minute l.1 < n) (hnew : ∀ l ∈ new, minute now ≤ minute l.1) : Good keys whole (minute now) (run keys now d seen) := by
  have hu := lastUpdate_le hs h
  refine ⟨⟨?_, ?_, ?_, fun name => ?_⟩, fun name => ?_⟩
  · rw [← table_congr sessions_counts sessions_row]
    exact runOne_table hs hn hw hold hnew hu (h.exact_.sessions.trans (table_congr sessions_counts sessions_row _).symm)
  · rw [← table_congr status_counts status_row]
    exact runOne_table hs hn hw hold hnew hu (h.exact_.status.trans (table_congr status_counts status_row _).symm)
  · rw [← table_congr (report_counts keys) (report_row keys)]
    exact runOne_table hs hn hw hold hnew hu (h.exact_.report.trans (table_congr (report_counts keys) (report_row keys) _).symm)
  · rw [← table_congr (milter_counts name) (milter_row name), run_milter]
    exact runOne_table hs hn hw hold hnew hu ((h.exact_.milters name).trans (table_congr (milter_counts name) (milter_row name) _).symm)
  · have hb : ∀ name, Bounded (d.milterReport name) (minute now) := fun name db hdb => by have := h.reports name db hdb; omega
    have hg := reports_within keys now d hb (seen.filter fun l => ! decide (l.1 < lastUpdate d)) [] (fun _ h => nomatch h)
    show Bounded (match genOf name _ with | some g => _ | none => _) _
    cases hf : genOf name ((seen.filter fun l => ! decide (l.1 < lastUpdate d)).foldl (feedMilters keys now d) []) with
    | none => exact hb name
    | some g => exact ((hg g (List.mem_of_find?_eq_some hf)).flush none (fun _ h => nomatch h)).1

/-- **C149**: after any number of runs over a log that grows, and may be rotated, in between, each database has one row for every minute from the first with anything to count to the last complete one, with the times in
order, and in it exactly what the log says of that minute, each line counted once: sessions, what became of them, what the headers report, and what became of the sessions of each milter.
Missing: what headers report by milters (`C149_milter_report_violated`), quarantine (`C149_quarantine_violated`), logs out of order (`C149_order_violated`). -/
theorem C149_partial (keys : Bytes → Bytes → List Bytes) (whole : List Line) (hs : whole.Pairwise fun a b => minute a.1 ≤ minute b.1) (rs : List (Nat × List Line)) (hfed : Fed whole 0 rs)
    (now : Nat) (seen : List Line) (hlast : rs.getLast? = some (now, seen)) : Exact keys (runs keys {} rs) (before whole (minute now)) := by
  have key : ∀ (rs : List (Nat × List Line)) (n : Nat) (d : Disk), Good keys whole n d → Fed whole n rs → ∀ now seen, rs.getLast? = some (now, seen) →
      Good keys whole (minute now) (runs keys d rs) := by
    intro rs
    induction rs with
    | nil => intro _ _ _ _ _ _ h; cases h
    | cons r rs ih =>
      intro n d hg hf now seen hl
      obtain ⟨now', seen'⟩ := r
      obtain ⟨h1, ⟨old, new, h2, h3, h4⟩, h5⟩ := hf
      have hstep := hg.step hs h1 h2 h3 h4
      cases rs with
      | nil => cases hl; exact hstep
      | cons r rs =>
        rw [List.getLast?_cons_cons] at hl
        exact ih _ _ hstep h5 now seen hl
  refine (key rs 0 {} ⟨?_, fun _ _ h => nomatch h⟩ hfed now seen hlast).exact_
  have : before whole 0 = [] := List.filter_eq_nil_iff.mpr fun l _ => by simp
  rw [this]
  exact ⟨rfl, rfl, rfl, fun _ => rfl⟩

/-- A log: in minute 10 a session ends, with one of its milters and a header of it, in minute 13 another, in minute 14 there are two at a time. -/
def log : List Line :=
  [(605, .milterEnd (ascii "clamav") (ascii "pass")), (606, .headerAdd (ascii "clamav") (ascii "X-Virus-Status") (ascii "Infected")), (607, .finished 3), (610, .sessionEnd (ascii "temporary-failure")),
    (790, .disconnected), (795, .sessionEnd (ascii "accept")), (841, .finished 2), (842, .milterEnd (ascii "clamav") (ascii "accept")), (850, .finished 1)]

/-- an example of what headers report -/
def virus (name value : Bytes) : List Bytes := if name = ascii "X-Virus-Status" ∧ value = ascii "Infected" then [ascii "virus"] else []

/-- two runs, in minute 13 in the middle of it and in minute 20; the second is given only what is left after a rotation -/
def example_runs : List (Nat × List Line) := [(792, log.take 5), (1200, log.drop 3)]

/-- the hypotheses are met -/
example : log.Pairwise (fun a b => minute a.1 ≤ minute b.1) ∧ Fed log 0 example_runs ∧ example_runs.getLast? = some (1200, log.drop 3) := by
  refine ⟨by decide +kernel, ⟨Nat.zero_le _, ⟨[], log.drop 5, by decide +kernel, (fun _ h => nomatch h), by decide +kernel⟩,
    by decide +kernel, ⟨log.take 3, [], by decide +kernel, by decide +kernel, (fun _ h => nomatch h)⟩, trivial⟩, rfl⟩

/-- and what the databases then have -/
example : rows (runs virus {} example_runs).sessions = some [(600, [1, 1, 0, 3]), (660, [0, 0, 0, 0]), (720, [0, 0, 0, 0]), (780, [1, 0, 1, 0]), (840, [0, 1, 0, 2])] := by
  decide +kernel

example : rows (runs virus {} example_runs).status =
    some [(600, [0, 0, 0, 0, 1, 0, 0, 0]), (660, [0, 0, 0, 0, 0, 0, 0, 0]), (720, [0, 0, 0, 0, 0, 0, 0, 0]), (780, [0, 1, 0, 0, 0, 0, 0, 0])] := by
  decide +kernel

example : rows (runs virus {} example_runs).report = some [(600, [0, 1, 0, 0, 0, 0, 0, 0, 0, 0, 0, 0, 0])] := by
  decide +kernel

/-- **C149, violated**: what the header of a milter reports is lost from the statistics of the milter if no session of the milter ended before in what the run is given.  Milters write the header at the end of the message and
the session ends later. -/
theorem C149_milter_report_violated :
    rows ((runs virus {} [(1200, [(606, .headerAdd (ascii "clamav") (ascii "X-Virus-Status") (ascii "Infected")), (607, .milterEnd (ascii "clamav") (ascii "pass"))])]).milterReport (ascii "clamav")) = none ∧
    rows ((runs virus {} [(1200, [(605, .milterEnd (ascii "clamav") (ascii "pass")), (606, .headerAdd (ascii "clamav") (ascii "X-Virus-Status") (ascii "Infected"))])]).milterReport (ascii "clamav")) =
      some [(600, [0, 1, 0, 0, 0, 0, 0, 0, 0, 0, 0, 0, 0])] := by
  decide +kernel

/-- **C149, violated**: messages that are quarantined are never counted, although there is an item for them. -/
theorem C149_quarantine_violated (now : Nat) (g : Gen) (t : Nat) : feed LogAnalyzer.status now g (t, .quarantine) = g := by
  unfold feed
  dsimp only
  rw [if_pos (show LogAnalyzer.status.find Stat.quarantine = [] from rfl)]
  simp

/-- **C149, violated**: a line that is late, as those of several processes can be, erases what was counted of the minute. -/
theorem C149_order_violated :
    rows (runs virus {} [(1200, [(590, .sessionEnd (ascii "accept")), (600, .sessionEnd (ascii "accept")), (601, .sessionEnd (ascii "accept")), (599, .sessionEnd (ascii "accept"))])]).status =
      some [(540, [0, 1, 0, 0, 0, 0, 0, 0])] := by
  decide +kernel

end Verif.Props.LogAnalyzer
