import Verif.Spec.Tables
import Verif.Props.Conditions
/-
C94, C95: tables in the format of Postfix.
-/
namespace Verif.Props.Tables
open Verif Verif.Tables Verif.Conditions

/-! ## Expansion of variables -/

theorem number_foldl (ds : Bytes) (k : Nat) : ds.foldl (fun n d => 10 * n + (d.toNat - 0x30)) k = k * 10 ^ ds.length + Spec.Tables.value ds := by
  induction ds generalizing k with
  | nil => simp [Spec.Tables.value]
  | cons d ds ih =>
    rw [List.foldl_cons, ih, Spec.Tables.value, List.length_cons, Nat.pow_succ, Nat.add_mul, Nat.add_assoc]
    congr 1
    rw [Nat.mul_comm 10 k, Nat.mul_assoc, Nat.mul_comm 10]

theorem number_value (ds : Bytes) : number ds = Spec.Tables.value ds := by
  unfold number; rw [number_foldl]; simp

theorem digit_iff (c : UInt8) : digit c = true ↔ 0x30 ≤ c ∧ c ≤ 0x39 := by simp [digit]

theorem takeWhile_digits (l : Bytes) (h : l.takeWhile digit ≠ []) : Spec.Tables.Digits (l.takeWhile digit) := by
  refine ⟨h, fun d hd => (digit_iff d).1 ?_⟩
  clear h
  induction l with
  | nil => cases hd
  | cons c l ih =>
    rw [List.takeWhile_cons] at hd
    split at hd
    · rename_i hc
      rcases List.mem_cons.mp hd with rfl | hd
      · exact hc
      · exact ih hd
    · cases hd

theorem takeWhile_split (l : Bytes) : l = l.takeWhile digit ++ l.drop (l.takeWhile digit).length ∧
    ∀ c r, l.drop (l.takeWhile digit).length = c :: r → ¬ (0x30 ≤ c ∧ c ≤ 0x39) := by
  induction l with
  | nil => exact ⟨rfl, fun _ _ h => nomatch h⟩
  | cons c l ih =>
    rw [List.takeWhile_cons]
    split
    · refine ⟨by simpa using ih.1, fun d r h => ih.2 d r (by simpa using h)⟩
    · rename_i hc
      refine ⟨rfl, fun d r h => ?_⟩
      simp only [List.length_nil, List.drop_zero, List.cons.injEq] at h
      rw [← h.1, ← digit_iff]; exact hc

theorem takeWhile_append (ds rest : Bytes) (h : ∀ d ∈ ds, 0x30 ≤ d ∧ d ≤ 0x39) (hr : ∀ c r, rest = c :: r → ¬ (0x30 ≤ c ∧ c ≤ 0x39)) : (ds ++ rest).takeWhile digit = ds := by
  induction ds with
  | nil =>
    cases rest with
    | nil => rfl
    | cons c r =>
      have : ¬ digit c = true := fun hc => hr c r rfl ((digit_iff c).1 hc)
      simp [this]
  | cons d ds ih =>
    have : digit d = true := (digit_iff d).2 (h d List.mem_cons_self)
    rw [List.cons_append, List.takeWhile_cons, if_pos this, ih (fun e he => h e (List.mem_cons_of_mem _ he))]

/-- a digit is neither `$`, `(` nor `{` -/
theorem digit_first (ds rest : Bytes) (h : Spec.Tables.Digits ds) : ∃ d more, ds ++ rest = d :: more ∧ d ≠ 0x24 ∧ d ≠ 0x28 ∧ d ≠ 0x7b := by
  cases ds with
  | nil => exact absurd rfl h.1
  | cons d ds =>
    refine ⟨d, ds ++ rest, rfl, ?_, ?_, ?_⟩ <;>
    · intro hd
      have := h.2 d List.mem_cons_self
      rw [hd] at this
      exact absurd this (by decide)

theorem bracket (more : Bytes) (close : UInt8) (hclose : ¬ (0x30 ≤ close ∧ close ≤ 0x39)) (open_ : UInt8) :
    (∃ ds rest, Spec.Tables.Digits ds ∧ open_ :: more = [open_] ++ ds ++ [close] ++ rest) ↔
      (more.takeWhile digit ≠ [] ∧ more[(more.takeWhile digit).length]? = some close) := by
  constructor
  · rintro ⟨ds, rest, hd, he⟩
    have he : more = ds ++ ([close] ++ rest) := by simpa using he
    have ht : more.takeWhile digit = ds := by
      rw [he]; exact takeWhile_append ds _ hd.2 (fun c r h => by
        simp only [List.cons_append, List.nil_append, List.cons.injEq] at h
        rw [← h.1]; exact hclose)
    rw [ht]
    refine ⟨hd.1, ?_⟩
    rw [he]; simp
  · rintro ⟨h1, h2⟩
    obtain ⟨hs, _⟩ := takeWhile_split more
    refine ⟨more.takeWhile digit, more.drop ((more.takeWhile digit).length + 1), takeWhile_digits more h1, ?_⟩
    obtain ⟨hlt, hget⟩ := List.getElem?_eq_some_iff.1 h2
    have : more.drop (more.takeWhile digit).length = close :: more.drop ((more.takeWhile digit).length + 1) := by
      rw [List.drop_eq_getElem_cons hlt, hget]
    have hm : more = more.takeWhile digit ++ (close :: more.drop ((more.takeWhile digit).length + 1)) := by rw [← this]; exact hs
    simpa using hm

/-- the text of a group, for the specification -/
def textOf (g : Groups) (n : Nat) : Option Bytes := (g[n]?).join

theorem group_eq (g : Groups) (n : Nat) : group g n = (textOf g n).getD [] := by
  unfold group textOf
  cases h : g[n]? with
  | none => rfl
  | some t => cases t <;> rfl

theorem placeholder_some (g : Groups) (rest t : Bytes) (used : Nat) (h : placeholder g rest = some (t, used)) :
    (∃ r, rest = 0x24 :: r ∧ t = [0x24] ∧ used = 1) ∨ ∃ n, Spec.Tables.Variable rest n (rest.drop used) ∧ t = group g n := by
  unfold placeholder at h
  split at h
  · rename_i more
    simp only [Option.some.injEq, Prod.mk.injEq] at h
    exact .inl ⟨_, rfl, h.1.symm, h.2.symm⟩
  · rename_i more
    by_cases hc : more.takeWhile digit ≠ [] ∧ more[(more.takeWhile digit).length]? = some 0x29
    · rw [if_pos hc] at h
      simp only [Option.some.injEq, Prod.mk.injEq] at h
      obtain ⟨rfl, rfl⟩ := h
      obtain ⟨hs, _⟩ := takeWhile_split more
      obtain ⟨hlt, hget⟩ := List.getElem?_eq_some_iff.1 hc.2
      have hd : more.drop (more.takeWhile digit).length = 0x29 :: more.drop ((more.takeWhile digit).length + 1) := by
        rw [List.drop_eq_getElem_cons hlt, hget]
      refine .inr ⟨_, ?_, by rw [number_value]⟩
      have := Spec.Tables.Variable.parentheses (more.takeWhile digit) (more.drop ((more.takeWhile digit).length + 1)) (takeWhile_digits _ hc.1)
      have hm : [0x28] ++ more.takeWhile digit ++ [0x29] ++ more.drop ((more.takeWhile digit).length + 1) = 0x28 :: more := by
        have : more.takeWhile digit ++ (0x29 :: more.drop ((more.takeWhile digit).length + 1)) = more := by rw [← hd]; exact hs.symm
        simpa using this
      rw [hm] at this
      exact this
    · rw [if_neg hc] at h; cases h
  · rename_i more
    by_cases hc : more.takeWhile digit ≠ [] ∧ more[(more.takeWhile digit).length]? = some 0x7d
    · rw [if_pos hc] at h
      simp only [Option.some.injEq, Prod.mk.injEq] at h
      obtain ⟨rfl, rfl⟩ := h
      obtain ⟨hs, _⟩ := takeWhile_split more
      obtain ⟨hlt, hget⟩ := List.getElem?_eq_some_iff.1 hc.2
      have hd : more.drop (more.takeWhile digit).length = 0x7d :: more.drop ((more.takeWhile digit).length + 1) := by
        rw [List.drop_eq_getElem_cons hlt, hget]
      refine .inr ⟨_, ?_, by rw [number_value]⟩
      have := Spec.Tables.Variable.braces (more.takeWhile digit) (more.drop ((more.takeWhile digit).length + 1)) (takeWhile_digits _ hc.1)
      have hm : [0x7b] ++ more.takeWhile digit ++ [0x7d] ++ more.drop ((more.takeWhile digit).length + 1) = 0x7b :: more := by
        have : more.takeWhile digit ++ (0x7d :: more.drop ((more.takeWhile digit).length + 1)) = more := by rw [← hd]; exact hs.symm
        simpa using this
      rw [hm] at this
      exact this
    · rw [if_neg hc] at h; cases h
  · by_cases hc : rest.takeWhile digit ≠ []
    · rw [if_pos hc] at h
      simp only [Option.some.injEq, Prod.mk.injEq] at h
      obtain ⟨rfl, rfl⟩ := h
      obtain ⟨hs, hm⟩ := takeWhile_split rest
      refine .inr ⟨_, ?_, by rw [number_value]⟩
      have := Spec.Tables.Variable.plain (rest.takeWhile digit) _ (takeWhile_digits _ hc) hm
      rw [← hs] at this
      exact this
    · rw [if_neg hc] at h; cases h

theorem placeholder_none (g : Groups) (rest : Bytes) (h : placeholder g rest = none) : (∀ r, rest ≠ 0x24 :: r) ∧ ∀ n r, ¬ Spec.Tables.Variable rest n r := by
  constructor
  · rintro r rfl; cases h
  · rintro n r hv
    cases hv with
    | plain ds rest hd hm =>
      have ht := takeWhile_append ds r hd.2 hm
      obtain ⟨d, more, e, h1, h2, h3⟩ := digit_first ds r hd
      unfold placeholder at h
      split at h
      · rename_i e'; rw [e] at e'; simp only [List.cons.injEq] at e'; exact h1 e'.1
      · rename_i e'; rw [e] at e'; simp only [List.cons.injEq] at e'; exact h2 e'.1
      · rename_i e'; rw [e] at e'; simp only [List.cons.injEq] at e'; exact h3 e'.1
      · rw [ht] at h
        simp [hd.1] at h
    | parentheses ds rest hd =>
      have := (bracket (ds ++ [0x29] ++ r) 0x29 (by decide) 0x28).1 ⟨ds, r, hd, by simp⟩
      simp only [placeholder, List.cons_append, List.nil_append] at h
      simp only [List.append_assoc, List.cons_append, List.nil_append] at this h
      rw [if_pos this] at h
      cases h
    | braces ds rest hd =>
      have := (bracket (ds ++ [0x7d] ++ r) 0x7d (by decide) 0x7b).1 ⟨ds, r, hd, by simp⟩
      simp only [placeholder, List.cons_append, List.nil_append] at h
      simp only [List.append_assoc, List.cons_append, List.nil_append] at this h
      rw [if_pos this] at h
      cases h

theorem gsub_skip (g : Groups) (k : Nat) (text : Bytes) : gsub g k text = gsub g 0 (text.drop k) := by
  induction k generalizing text with
  | zero => rfl
  | succ k ih =>
    cases text with
    | nil => simp [gsub]
    | cons c text => rw [gsub, ih]; rfl

/-- **C94** (variables): in the action of a rule, `$$` becomes a `$`, `$1`, `$(1)` and `${1}` the text of the group, or nothing if there is no such group or it took no part in the
match; everything else stays as it is. -/
theorem C94_variables (g : Groups) (action : Bytes) : Spec.Tables.Expands (textOf g) action (expand action (some g)) := by
  show Spec.Tables.Expands (textOf g) action (gsub g 0 action)
  have key : ∀ n, ∀ action : Bytes, action.length ≤ n → Spec.Tables.Expands (textOf g) action (gsub g 0 action) := by
    intro n
    induction n with
    | zero =>
      intro action h
      have : action = [] := List.eq_nil_of_length_eq_zero (Nat.le_zero.mp h)
      subst this
      exact .nil
    | succ n ih =>
      intro action h
      cases action with
      | nil => exact .nil
      | cons c rest =>
        have hl : rest.length ≤ n := by simpa using h
        unfold gsub
        by_cases hc : c = 0x24
        · subst hc
          rw [if_pos rfl]
          cases hp : placeholder g rest with
          | none =>
            obtain ⟨h1, h2⟩ := placeholder_none g rest hp
            exact .alone rest _ h1 h2 (ih rest hl)
          | some tu =>
            obtain ⟨t, used⟩ := tu
            simp only
            rw [gsub_skip]
            have hd : (rest.drop used).length ≤ n := by rw [List.length_drop]; omega
            rcases placeholder_some g rest t used hp with ⟨r, rfl, rfl, rfl⟩ | ⟨m, hv, rfl⟩
            · exact .dollar r _ (ih r (by simp at hl; omega))
            · rw [group_eq]
              exact .variable rest _ _ m hv (ih _ hd)
        · rw [if_neg hc]
          exact .char c rest _ hc (ih rest hl)
  exact key _ action (Nat.le_refl _)

/-- an action without `$` is left alone -/
theorem expand_plain (action : Bytes) (h : 0x24 ∉ action) (m : Option Groups) : expand action m = action := by
  cases m with
  | none => rfl
  | some g =>
    show gsub g 0 action = action
    induction action with
    | nil => rfl
    | cons c rest ih =>
      have hc : ¬ c = 0x24 := fun e => h (by rw [e]; exact List.mem_cons_self)
      rw [gsub, if_neg hc, ih (fun hm => h (List.mem_cons_of_mem _ hm))]

/-! ## Rules and conditions -/

/-- a rule: negated or not, pattern, action -/
abbrev Rule := Bool × Pattern × Bytes

/-- the lines of rules -/
def ruleLines (rs : List Rule) : List Line := rs.map fun r => .rule r.1 r.2.1 r.2.2

/-- rules, then a condition with rules of its own, then one within that, and so on; all conditions end at the end -/
def nested (rs : List Rule) (blocks : List (Bool × Pattern × List Rule)) : List Line :=
  ruleLines rs ++ (blocks.flatMap fun b => .if b.1 b.2.1 :: ruleLines b.2.2) ++ List.replicate blocks.length .endif

def entries (rs : List Rule) : List Entry := rs.map fun r => .action r.1 r.2.1 r.2.2

theorem takes_eq (neg : Bool) (p : Pattern) (text : Bytes) :
    takes neg p text = if Spec.Tables.applies neg p text then some (Spec.Tables.groups neg p text) else none := by
  unfold takes Spec.Tables.applies Spec.Tables.groups
  cases neg <;> cases h : p text <;> rfl

theorem lines_append (s : State) (a b : List Line) (s' : State) (h : lines s a = (s', true)) : lines s (a ++ b) = lines s' b := by
  induction a generalizing s with
  | nil => simp only [lines, Prod.mk.injEq, and_true] at h; rw [h]; rfl
  | cons l a ih =>
    simp only [List.cons_append, lines] at h ⊢
    cases hl : line s l with
    | none => rw [hl] at h; simp at h
    | some t => rw [hl] at h; exact ih t h

theorem lines_rules (s : State) (c : Nat) (hc : s.current = some c) (rs : List Rule) :
    lines s (ruleLines rs) = ({ s with table := fun i => if i = c then s.table i ++ entries rs else s.table i }, true) := by
  induction rs generalizing s with
  | nil =>
    simp only [ruleLines, List.map_nil, lines, entries, List.append_nil, Prod.mk.injEq, and_true]
    have : (fun i => if i = c then s.table i else s.table i) = s.table := funext fun i => by split <;> rfl
    rw [this]
  | cons r rs ih =>
    have : lines s (ruleLines (r :: rs)) = lines (s.push c (.action r.1 r.2.1 r.2.2)) (ruleLines rs) := by
      simp only [ruleLines, List.map_cons, lines, line, hc]
    rw [this, ih (s.push c (.action r.1 r.2.1 r.2.2)) hc]
    simp only [State.push, entries, List.map_cons, Prod.mk.injEq, and_true, State.mk.injEq]
    funext i
    split
    · simp
    · rfl

theorem lines_endif (s : State) (k : Nat) (h : s.tables.length = k) :
    ∃ c, lines s (List.replicate k .endif) = ({ s with current := c, tables := [] }, true) := by
  induction k generalizing s with
  | zero =>
    have : s.tables = [] := List.eq_nil_of_length_eq_zero h
    exact ⟨s.current, by simp only [List.replicate_zero, lines]; rw [← this]⟩
  | succ k ih =>
    cases ht : s.tables with
    | nil => rw [ht] at h; simp at h
    | cons t ts =>
      rw [ht] at h
      obtain ⟨c, hc⟩ := ih { s with current := some t, tables := ts } (by simpa using h)
      refine ⟨c, ?_⟩
      rw [List.replicate_succ, lines]
      simp only [line, ht, List.head?_cons, List.tail_cons]
      exact hc

/-- what is found in rules and nested conditions: each condition's match data is used once more on what was found inside -/
def chain (text : Bytes) : List Rule → List (Bool × Pattern × List Rule) → Option Bytes
  | rs, [] => findIn (fun _ => none) text (entries rs)
  | rs, b :: bs =>
    match findIn (fun _ => none) text (entries rs) with
    | some a => some a
    | none =>
      match takes b.1 b.2.1 text with
      | some m => (chain text b.2.2 bs).map fun a => expand a m
      | none => none

theorem findIn_entries (inner : Nat → Option Bytes) (text : Bytes) (rs : List Rule) (es : List Entry) :
    findIn inner text (entries rs ++ es) = match findIn (fun _ => none) text (entries rs) with
      | some a => some a
      | none => findIn inner text es := by
  induction rs with
  | nil => rfl
  | cons r rs ih =>
    simp only [entries, List.map_cons, List.cons_append, findIn]
    cases takes r.1 r.2.1 text with
    | some m => rfl
    | none => exact ih

theorem lines_nested (text : Bytes) (blocks : List (Bool × Pattern × List Rule)) (s : State) (c : Nat) (hc : s.current = some c) (hlt : c < s.next)
    (hempty : s.table c = []) (hfree : ∀ i, s.next ≤ i → s.table i = []) (rs : List Rule) :
    ∃ s', lines s (ruleLines rs ++ blocks.flatMap fun b => .if b.1 b.2.1 :: ruleLines b.2.2) = (s', true) ∧
      s'.next = s.next + blocks.length ∧ s'.tables.length = s.tables.length + blocks.length ∧ (∀ i, i < s.next → i ≠ c → s'.table i = s.table i) ∧
      ∀ fuel, blocks.length < fuel → findAction s' text fuel c = chain text rs blocks := by
  induction blocks generalizing s c rs with
  | nil =>
    refine ⟨{ s with table := fun i => if i = c then s.table i ++ entries rs else s.table i }, ?_, rfl, rfl, ?_, ?_⟩
    · rw [List.flatMap_nil, List.append_nil, lines_rules s c hc]
    · intro i _ hi; exact if_neg hi
    · intro fuel hf
      cases fuel with
      | zero => cases hf
      | succ fuel =>
        simp only [findAction, hempty, List.nil_append, if_true, chain]
        have := findIn_entries (findAction { s with table := fun i => if i = c then s.table i ++ entries rs else s.table i } text fuel) text rs []
        rw [List.append_nil] at this
        rw [this]
        cases findIn (fun _ => none) text (entries rs) <;> rfl
  | cons b bs ih =>
    let s1 : State := { s with table := fun i => if i = c then s.table i ++ entries rs else s.table i }
    let s2 : State := { (s1.push c (.table b.1 b.2.1 s.next)) with next := s.next + 1, current := some s.next, tables := s.next :: s.tables }
    have h2 : ∀ i, s.next ≤ i → s2.table i = [] := by
      intro i hi
      have hic : i ≠ c := by omega
      show (if i = c then _ else (if i = c then _ else s.table i)) = []
      rw [if_neg hic, if_neg hic]
      exact hfree i hi
    obtain ⟨s', e1, e2, e3, e4, e5⟩ := ih s2 s.next rfl (Nat.lt_succ_self _) (h2 _ (Nat.le_refl _)) (fun i hi => h2 i (by have : s.next + 1 ≤ i := hi; omega)) b.2.2
    refine ⟨s', ?_, ?_, ?_, ?_, ?_⟩
    · have : lines s (ruleLines rs) = (s1, true) := lines_rules s c hc rs
      rw [lines_append s _ _ s1 this, List.flatMap_cons, List.cons_append, lines]
      have : line s1 (.if b.1 b.2.1) = some s2 := by simp only [line, s1, s2, hc]
      rw [this]
      exact e1
    · rw [e2]; show s.next + 1 + bs.length = _; simp; omega
    · rw [e3]; show s.tables.length + 1 + bs.length = _; simp; omega
    · intro i hi hne
      rw [e4 i (Nat.lt_succ_of_lt hi) (by omega)]
      show (if i = c then _ else (if i = c then _ else s.table i)) = _
      rw [if_neg hne, if_neg hne]
    · intro fuel hf
      cases fuel with
      | zero => cases hf
      | succ fuel =>
        have hb : bs.length < fuel := by simpa using hf
        have hcs : s'.table c = entries rs ++ [.table b.1 b.2.1 s.next] := by
          rw [e4 c (Nat.lt_succ_of_lt hlt) (by omega)]
          show (if c = c then (if c = c then s.table c ++ entries rs else s.table c) ++ _ else _) = _
          rw [if_pos rfl, if_pos rfl, hempty]; rfl
        rw [findAction, hcs, findIn_entries, chain]
        cases findIn (fun _ => none) text (entries rs) with
        | some a => rfl
        | none =>
          simp only [findIn, e5 fuel hb]
          cases takes b.1 b.2.1 text with
          | none => rfl
          | some m => cases chain text b.2.2 bs <;> rfl

theorem find_nested (text : Bytes) (rs : List Rule) (blocks : List (Bool × Pattern × List Rule)) :
    (parse (nested rs blocks)).2 = true ∧ find (parse (nested rs blocks)).1 text = chain text rs blocks := by
  obtain ⟨s', e1, e2, e3, _, e5⟩ := lines_nested text blocks {} 0 rfl (Nat.zero_lt_succ 0) rfl (fun _ _ => rfl) rs
  obtain ⟨c, hc⟩ := lines_endif s' blocks.length (by rw [e3]; exact Nat.zero_add _)
  have : lines {} (nested rs blocks) = ({ s' with current := c, tables := [] }, true) := by
    unfold nested
    rw [lines_append {} _ _ s' e1]
    exact hc
  simp only [parse, this]
  refine ⟨rfl, ?_⟩
  unfold find
  have hsame : ∀ fuel i, findAction { s' with current := c, tables := [] } text fuel i = findAction s' text fuel i := by
    intro fuel
    induction fuel with
    | zero => intro _; rfl
    | succ f ih =>
      intro i
      have : findAction { s' with current := c, tables := [] } text f = findAction s' text f := funext ih
      rw [findAction, findAction, this]
  rw [hsame]
  have hn : ({ s' with current := c, tables := [] } : State).next = blocks.length + 1 := by show s'.next = _; rw [e2]; exact Nat.add_comm _ _
  rw [hn]
  exact e5 _ (Nat.lt_succ_self _)

theorem decides_rules (text : Bytes) (rs : List Rule) (ls : List Line) :
    Spec.Tables.decides text 0 (ruleLines rs ++ ls) = match Spec.Tables.decides text 0 (ruleLines rs) with
      | some d => some d
      | none => Spec.Tables.decides text 0 ls := by
  induction rs with
  | nil => simp [ruleLines, Spec.Tables.decides]
  | cons r rs ih =>
    simp only [ruleLines, List.map_cons, List.cons_append, Spec.Tables.decides]
    split
    · rfl
    · exact ih

theorem decides_found (text : Bytes) (rs : List Rule) :
    findIn (fun _ => none) text (entries rs) = (Spec.Tables.decides text 0 (ruleLines rs)).map fun d => expand d.1 d.2 := by
  induction rs with
  | nil => rfl
  | cons r rs ih =>
    simp only [entries, List.map_cons, ruleLines, findIn, Spec.Tables.decides, takes_eq]
    split
    · rename_i m h
      split at h
      · rename_i ha
        rw [if_pos ha]
        simp only [Option.some.injEq] at h
        rw [← h]; rfl
      · cases h
    · rename_i h
      split at h
      · cases h
      · rename_i ha
        rw [if_neg ha]
        exact ih

theorem decides_endif (text : Bytes) (k depth : Nat) : Spec.Tables.decides text depth (List.replicate k .endif) = none := by
  induction k generalizing depth with
  | zero => simp [Spec.Tables.decides]
  | succ k ih =>
    rw [List.replicate_succ]
    cases depth with
    | zero => rw [Spec.Tables.decides]; exact ih 0
    | succ d => rw [Spec.Tables.decides]; exact ih d

/-- lines within a condition that does not apply -/
theorem decides_skip (text : Bytes) (depth : Nat) (rs : List Rule) (ls : List Line) :
    Spec.Tables.decides text (depth + 1) (ruleLines rs ++ ls) = Spec.Tables.decides text (depth + 1) ls := by
  induction rs with
  | nil => rfl
  | cons r rs ih =>
    simp only [ruleLines, List.map_cons, List.cons_append, Spec.Tables.decides]
    exact ih

theorem decides_skip_blocks (text : Bytes) (depth : Nat) (blocks : List (Bool × Pattern × List Rule)) (k : Nat) :
    Spec.Tables.decides text (depth + 1) ((blocks.flatMap fun b => .if b.1 b.2.1 :: ruleLines b.2.2) ++ List.replicate k .endif) = none := by
  induction blocks generalizing depth with
  | nil => exact decides_endif text k (depth + 1)
  | cons b bs ih =>
    rw [List.flatMap_cons, List.append_assoc, List.cons_append, Spec.Tables.decides, decides_skip]
    exact ih (depth + 1)

/-- what decides does not depend on how the conditions end -/
def decidesNested (text : Bytes) : List Rule → List (Bool × Pattern × List Rule) → Option (Bytes × Option Groups)
  | rs, [] => Spec.Tables.decides text 0 (ruleLines rs)
  | rs, b :: bs =>
    match Spec.Tables.decides text 0 (ruleLines rs) with
    | some d => some d
    | none => if Spec.Tables.applies b.1 b.2.1 text then decidesNested text b.2.2 bs else none

theorem decides_nested (text : Bytes) (blocks : List (Bool × Pattern × List Rule)) (rs : List Rule) (k : Nat) :
    Spec.Tables.decides text 0 (ruleLines rs ++ (blocks.flatMap fun b => .if b.1 b.2.1 :: ruleLines b.2.2) ++ List.replicate k .endif) = decidesNested text rs blocks := by
  induction blocks generalizing rs with
  | nil =>
    rw [List.flatMap_nil, List.append_nil, decides_rules, decides_endif, decidesNested]
    cases Spec.Tables.decides text 0 (ruleLines rs) <;> rfl
  | cons b bs ih =>
    rw [List.append_assoc, decides_rules, decidesNested]
    cases Spec.Tables.decides text 0 (ruleLines rs) with
    | some d => rfl
    | none =>
      simp only
      rw [List.flatMap_cons, List.append_assoc, List.cons_append, Spec.Tables.decides, ← List.append_assoc]
      split
      · exact ih b.2.2
      · rw [List.append_assoc, decides_skip]
        exact decides_skip_blocks text 0 bs k

theorem chain_decides (text : Bytes) (blocks : List (Bool × Pattern × List Rule)) (rs : List Rule)
    (h : (∀ b ∈ blocks, b.1 = true) ∨ ∀ d, decidesNested text rs blocks = some d → 0x24 ∉ expand d.1 d.2) :
    chain text rs blocks = (decidesNested text rs blocks).map fun d => expand d.1 d.2 := by
  induction blocks generalizing rs with
  | nil => rw [chain, decidesNested, decides_found]
  | cons b bs ih =>
    rw [chain, decidesNested, decides_found]
    cases hr : Spec.Tables.decides text 0 (ruleLines rs) with
    | some d => rfl
    | none =>
      simp only [Option.map_none, takes_eq]
      by_cases ha : Spec.Tables.applies b.1 b.2.1 text = true
      · rw [if_pos ha, if_pos ha]
        simp only
        have hd : decidesNested text rs (b :: bs) = decidesNested text b.2.2 bs := by rw [decidesNested, hr]; simp only; rw [if_pos ha]
        have := ih b.2.2 (by
          rcases h with h | h
          · exact .inl fun c hc => h c (List.mem_cons_of_mem _ hc)
          · refine .inr fun d hd' => h d ?_
            rw [hd]; exact hd')
        rw [this]
        cases hx : decidesNested text b.2.2 bs with
        | none => rfl
        | some d =>
          simp only [Option.map_some, Option.some.injEq]
          rcases h with h | h
          · rw [Spec.Tables.groups, h b List.mem_cons_self]; rfl
          · exact expand_plain _ (h d (by rw [hd]; exact hx)) _
      · rw [if_neg ha, if_neg ha]
        rfl

theorem chain_some (text : Bytes) (blocks : List (Bool × Pattern × List Rule)) (rs : List Rule) :
    (chain text rs blocks).isSome = (decidesNested text rs blocks).isSome := by
  induction blocks generalizing rs with
  | nil => rw [chain, decidesNested, decides_found, Option.isSome_map]
  | cons b bs ih =>
    rw [chain, decidesNested, decides_found]
    cases Spec.Tables.decides text 0 (ruleLines rs) with
    | some d => rfl
    | none =>
      simp only [Option.map_none, takes_eq]
      by_cases ha : Spec.Tables.applies b.1 b.2.1 text = true
      · rw [if_pos ha, if_pos ha]
        simp only [Option.isSome_map]
        exact ih b.2.2
      · rw [if_neg ha, if_neg ha]; rfl

/-- **C94** (without conditions): a table of rules is accepted, and looking a text up gives the action of the first rule that applies to it, its variables replaced by what its pattern
matched; nothing if no rule applies. -/
theorem C94_rules (rs : List Rule) (text : Bytes) :
    (parse (ruleLines rs)).2 = true ∧
    find (parse (ruleLines rs)).1 text = (Spec.Tables.decides text 0 (ruleLines rs)).map fun d => expand d.1 d.2 := by
  have h := find_nested text rs []
  have e : nested rs [] = ruleLines rs := by simp [nested]
  rw [e] at h
  exact ⟨h.1, by rw [h.2, chain, decides_found]⟩

/-- **C94** (nested conditions): a table of rules and conditions, any number of them within each other, none of which is followed by a rule or another condition, is accepted; a lookup
finds something if and only if a rule decides, and finds its action if all conditions are negated ones or there is no `$` in the action found.
Missing: rules and conditions after an `endif`, and actions with a `$` in them within conditions, for which see below. -/
theorem C94_conditions_partial (rs : List Rule) (blocks : List (Bool × Pattern × List Rule)) (text : Bytes) :
    (parse (nested rs blocks)).2 = true ∧
    ((find (parse (nested rs blocks)).1 text).isSome = (Spec.Tables.decides text 0 (nested rs blocks)).isSome) ∧
    (((∀ b ∈ blocks, b.1 = true) ∨ ∀ d, Spec.Tables.decides text 0 (nested rs blocks) = some d → 0x24 ∉ expand d.1 d.2) →
      find (parse (nested rs blocks)).1 text = (Spec.Tables.decides text 0 (nested rs blocks)).map fun d => expand d.1 d.2) := by
  obtain ⟨h1, h2⟩ := find_nested text rs blocks
  have hd : Spec.Tables.decides text 0 (nested rs blocks) = decidesNested text rs blocks := decides_nested text blocks rs blocks.length
  rw [h2, hd]
  exact ⟨h1, chain_some text blocks rs, chain_decides text blocks rs⟩

/-- **C94** (after conditions): if a condition within another one gives nothing, the rules after them decide, as far as the outer condition applies to the text
(if it does not, see below).
Missing: as in `C94_conditions_partial`. -/
theorem C94_after_partial (neg1 neg2 : Bool) (p q : Pattern) (inner outer : List Rule) (text : Bytes) (h : Spec.Tables.applies neg1 p text = true) :
    let ls := .if neg1 p :: .if neg2 q :: (ruleLines inner ++ (.endif :: .endif :: ruleLines outer))
    (parse ls).2 = true ∧ (find (parse ls).1 text).isSome = (Spec.Tables.decides text 0 ls).isSome ∧
    ((∀ d, Spec.Tables.decides text 0 ls = some d → 0x24 ∉ expand d.1 d.2) →
      find (parse ls).1 text = (Spec.Tables.decides text 0 ls).map fun d => expand d.1 d.2) := by
  intro ls
  let s2 : State := { table := fun i => if i = 1 then [.table neg2 q 2] else if i = 0 then [.table neg1 p 1] else [], next := 3, current := some 2, tables := [2, 1] }
  let s3 : State := { s2 with table := fun i => if i = 2 then s2.table i ++ entries inner else s2.table i }
  let s4 : State := { s3 with current := some 1, tables := [] }
  let s5 : State := { s4 with table := fun i => if i = 1 then s4.table i ++ entries outer else s4.table i }
  have e1 : lines {} [.if neg1 p, .if neg2 q] = (s2, true) := by
    simp only [lines, line, State.push, s2]
    congr 2
    funext i
    by_cases h0 : i = 0
    · subst h0; rfl
    · by_cases h1 : i = 1
      · subst h1; rfl
      · simp [h0, h1]
  have e2 : lines s2 (ruleLines inner) = (s3, true) := lines_rules s2 2 rfl inner
  have e3 : lines s3 [.endif, .endif] = (s4, true) := rfl
  have e4 : lines s4 (ruleLines outer) = (s5, true) := lines_rules s4 1 rfl outer
  have e : lines {} ls = (s5, true) := by
    show lines {} ([.if neg1 p, .if neg2 q] ++ (ruleLines inner ++ ([.endif, .endif] ++ ruleLines outer))) = _
    rw [lines_append _ _ _ _ e1, lines_append _ _ _ _ e2, lines_append _ _ _ _ e3, e4]
  have hp : parse ls = (s5, true) := by
    unfold parse; rw [e]; rfl
  have t0 : s5.table 0 = [.table neg1 p 1] := rfl
  have t1 : s5.table 1 = .table neg2 q 2 :: entries outer := rfl
  have t2 : s5.table 2 = entries inner := rfl
  have ht : takes neg1 p text = some (Spec.Tables.groups neg1 p text) := by rw [takes_eq, if_pos h]
  have f2 : ∀ f, findAction s5 text (f + 1) 2 = (Spec.Tables.decides text 0 (ruleLines inner)).map fun d => expand d.1 d.2 := by
    intro f
    have := findIn_entries (findAction s5 text f) text inner []
    rw [List.append_nil] at this
    rw [findAction, t2, this, decides_found]
    cases Spec.Tables.decides text 0 (ruleLines inner) <;> rfl
  have f1 : ∀ f, findAction s5 text (f + 2) 1 = match (if Spec.Tables.applies neg2 q text then
        (Spec.Tables.decides text 0 (ruleLines inner)).map fun d => expand (expand d.1 d.2) (Spec.Tables.groups neg2 q text) else none) with
      | some a => some a
      | none => (Spec.Tables.decides text 0 (ruleLines outer)).map fun d => expand d.1 d.2 := by
    intro f
    have h3 := findIn_entries (findAction s5 text (f + 1)) text outer []
    rw [List.append_nil] at h3
    have h3 : findIn (findAction s5 text (f + 1)) text (entries outer) = (Spec.Tables.decides text 0 (ruleLines outer)).map fun d => expand d.1 d.2 := by
      rw [h3, decides_found]
      cases Spec.Tables.decides text 0 (ruleLines outer) <;> rfl
    rw [findAction, t1, findIn, takes_eq]
    by_cases hq : Spec.Tables.applies neg2 q text = true
    · rw [if_pos hq, if_pos hq]
      simp only [f2]
      cases Spec.Tables.decides text 0 (ruleLines inner) with
      | none => exact h3
      | some d => rfl
    · rw [if_neg hq, if_neg hq]
      exact h3
  have f0 : find s5 text = (findAction s5 text 2 1).map fun a => expand a (Spec.Tables.groups neg1 p text) := by
    show findAction s5 text 3 0 = _
    rw [findAction, t0, findIn, ht]
    simp only
    cases findAction s5 text 2 1 <;> rfl
  have hd : Spec.Tables.decides text 0 ls = match (if Spec.Tables.applies neg2 q text then Spec.Tables.decides text 0 (ruleLines inner) else none) with
      | some d => some d
      | none => Spec.Tables.decides text 0 (ruleLines outer) := by
    show Spec.Tables.decides text 0 (.if neg1 p :: .if neg2 q :: _) = _
    rw [Spec.Tables.decides, if_pos h, Spec.Tables.decides]
    by_cases hq : Spec.Tables.applies neg2 q text = true
    · rw [if_pos hq, if_pos hq, decides_rules]
      cases Spec.Tables.decides text 0 (ruleLines inner) <;> rfl
    · rw [if_neg hq, if_neg hq, decides_skip]
      rfl
  rw [hp]
  refine ⟨rfl, ?_, ?_⟩
  · rw [f0, f1 0, hd]
    by_cases hq : Spec.Tables.applies neg2 q text = true
    · rw [if_pos hq, if_pos hq]
      cases Spec.Tables.decides text 0 (ruleLines inner) <;> cases Spec.Tables.decides text 0 (ruleLines outer) <;> rfl
    · rw [if_neg hq, if_neg hq]
      cases Spec.Tables.decides text 0 (ruleLines outer) <;> rfl
  · intro hdollar
    rw [hd] at hdollar
    rw [f0, f1 0, hd]
    by_cases hq : Spec.Tables.applies neg2 q text = true
    · rw [if_pos hq] at hdollar
      rw [if_pos hq, if_pos hq]
      cases hi : Spec.Tables.decides text 0 (ruleLines inner) with
      | some d =>
        rw [hi] at hdollar
        have := hdollar d rfl
        show some (expand (expand (expand d.1 d.2) _) _) = some _
        rw [expand_plain _ this, expand_plain _ this]
      | none =>
        rw [hi] at hdollar
        cases ho : Spec.Tables.decides text 0 (ruleLines outer) with
        | none => rfl
        | some d =>
          have := hdollar d ho
          show some (expand (expand d.1 d.2) _) = some _
          rw [expand_plain _ this]
    · rw [if_neg hq] at hdollar
      rw [if_neg hq, if_neg hq]
      cases ho : Spec.Tables.decides text 0 (ruleLines outer) with
      | none => rfl
      | some d =>
        have := hdollar d ho
        show some (expand (expand d.1 d.2) _) = some _
        rw [expand_plain _ this]

/-- a pattern that matches one text only, as a whole -/
def exactly (t : Bytes) : Pattern := fun text => if text = t then some [some t] else none

/-- a pattern that matches everything, with the whole text as its first group -/
def anything : Pattern := fun text => some [some text, some text]

def exampleRules : List Rule := [(false, exactly (ascii "a"), ascii "A"), (true, exactly (ascii "b"), ascii "not b")]
example : find (parse (ruleLines exampleRules)).1 (ascii "a") = some (ascii "A") ∧ find (parse (ruleLines exampleRules)).1 (ascii "b") = none ∧
    find (parse (ruleLines exampleRules)).1 (ascii "c") = some (ascii "not b") := by decide +kernel
example : find (parse (nested [] [(false, exactly (ascii "a"), [(false, anything, ascii "OK")])])).1 (ascii "a") = some (ascii "OK") := by decide +kernel

/-- the outer condition applies, the inner one does not, or gives nothing: the rule after both is found -/
example : Spec.Tables.applies false anything (ascii "x") = true ∧
    find (parse (.if false anything :: .if false anything :: (ruleLines [(false, exactly (ascii "a"), ascii "A")] ++ (.endif :: .endif :: ruleLines [(false, anything, ascii "OK")])))).1 (ascii "x") =
      some (ascii "OK") := by decide +kernel

/-- **C94**, where the code departs from it: `endif` does not end a condition.  A rule after it belongs to the condition still: it is not found for a text to which the condition does not
apply.  The same goes for a second condition after the first. -/
theorem C94_endif_violated :
    (∃ ls : List Line, ∃ text : Bytes, (parse ls).2 = true ∧ Spec.Tables.decides text 0 ls = some (ascii "REJECT", some [some (ascii "b")]) ∧ find (parse ls).1 text = none) ∧
    (∃ ls : List Line, ∃ text : Bytes, (parse ls).2 = true ∧ (Spec.Tables.decides text 0 ls).isSome = true ∧ find (parse ls).1 text = none) := by
  refine ⟨⟨[.if false (exactly (ascii "a")), .rule false anything (ascii "OK"), .endif, .rule false (exactly (ascii "b")) (ascii "REJECT")], ascii "b", ?_⟩,
    ⟨[.if false (exactly (ascii "a")), .rule false anything (ascii "OK"), .endif, .if false (exactly (ascii "b")), .rule false anything (ascii "REJECT"), .endif], ascii "b", ?_⟩⟩
  · exact ⟨by decide +kernel, rfl, by decide +kernel⟩
  · exact ⟨by decide +kernel, rfl, by decide +kernel⟩

/-- **C94**, where the code departs from it: what a rule within a condition gives is expanded a second time, with what the condition matched.  `$$1` becomes a group of the condition, and
so does a `$1` that was part of the text looked up - which whoever sends a mail may choose -/
theorem C94_twice_violated :
    (∃ d, Spec.Tables.decides (ascii "x") 0 (nested [] [(false, anything, [(false, anything, ascii "cost: $$1")])]) = some d ∧ expand d.1 d.2 = ascii "cost: $1") ∧
    find (parse (nested [] [(false, anything, [(false, anything, ascii "cost: $$1")])])).1 (ascii "x") = some (ascii "cost: x") ∧
    (∃ d, Spec.Tables.decides (ascii "$1$1") 0 (nested [] [(false, anything, [(false, anything, ascii "<$1>")])]) = some d ∧ expand d.1 d.2 = ascii "<$1$1>") ∧
    find (parse (nested [] [(false, anything, [(false, anything, ascii "<$1>")])])).1 (ascii "$1$1") = some (ascii "<$1$1$1$1>") := by
  refine ⟨⟨_, rfl, by decide +kernel⟩, by decide +kernel, ⟨_, rfl, by decide +kernel⟩, by decide +kernel⟩

/-- **C94**, where the code departs from it: an `endif` without an `if` is accepted, but a rule after it is not -/
theorem C94_stray_endif_violated : (parse [.endif]).2 = true ∧ (parse [.endif, .rule false anything (ascii "OK")]).2 = false ∧
    (parse [.if false anything, .endif, .endif, .endif]).2 = true := by decide +kernel

/-- **C94**, where the code departs from it: the flag `i`, which is to make a pattern case sensitive (patterns are case insensitive without it), does nothing -/
theorem C94_flag_violated (flag : Option Bytes) : ignoreCase flag = true := by
  cases flag with
  | none => rfl
  | some f => simp only [ignoreCase]; split <;> rfl

/-- **C94**: a table with a line that is no rule, condition or end of one is refused, whatever is before or after it; and so is one with an `if` that is not ended. -/
theorem C94_refused (before after : List Line) : (parse (before ++ .invalid :: after)).2 = false := by
  have key : ∀ s, (lines s (before ++ .invalid :: after)).2 = false := by
    induction before with
    | nil => intro s; rfl
    | cons l ls ih =>
      intro s
      simp only [List.cons_append, lines]
      cases line s l with
      | none => rfl
      | some t => exact ih t
  have := key {}
  unfold parse
  rcases h : lines {} (before ++ .invalid :: after) with ⟨s, b⟩
  rw [h] at this
  cases b
  · rfl
  · cases this

/-- how many more `if`s than `endif`s there are: no fewer tables are left -/
theorem C94_unended (ls : List Line) (h : (ls.filter fun l => match l with | .endif => true | _ => false).length < (ls.filter fun l => match l with | .if _ _ => true | _ => false).length) :
    (parse ls).2 = false := by
  have key : ∀ ls : List Line, ∀ s s', lines s ls = (s', true) →
      s.tables.length + (ls.filter fun l => match l with | .if _ _ => true | _ => false).length ≤
        s'.tables.length + (ls.filter fun l => match l with | .endif => true | _ => false).length := by
    intro ls
    induction ls with
    | nil => intro s s' h; simp only [lines, Prod.mk.injEq, and_true] at h; rw [h]; simp
    | cons l ls ih =>
      intro s s' h
      simp only [lines] at h
      cases hl : line s l with
      | none => rw [hl] at h; simp at h
      | some t =>
        rw [hl] at h
        have := ih t s' h
        cases l with
        | «if» neg p =>
          simp only [line] at hl
          cases hc : s.current with
          | none => rw [hc] at hl; cases hl
          | some c =>
            rw [hc] at hl
            simp only [Option.some.injEq] at hl
            rw [← hl] at this
            simp only [List.length_cons, List.filter_cons_of_pos, List.filter_cons, if_true, Bool.false_eq_true, if_false] at this ⊢
            omega
        | rule neg p a =>
          simp only [line] at hl
          cases hc : s.current with
          | none => rw [hc] at hl; cases hl
          | some c =>
            rw [hc] at hl
            simp only [Option.some.injEq] at hl
            rw [← hl] at this
            simpa [List.filter_cons, State.push] using this
        | endif =>
          simp only [line, Option.some.injEq] at hl
          rw [← hl] at this
          simp only [List.length_tail, List.length_cons, List.filter_cons, if_true, Bool.false_eq_true, if_false] at this ⊢
          omega
        | invalid => cases hl
  unfold parse
  rcases hl : lines {} ls with ⟨s, b⟩
  cases b
  · rfl
  · have := key ls {} s hl
    have h0 : ({} : State).tables.length = 0 := rfl
    rw [h0] at this
    simp only
    cases ht : s.tables with
    | nil => rw [ht] at this; simp only [List.length_nil] at this; omega
    | cons _ _ => rfl

/-! ## C95 -/

/-- **C95**: looking an IP address up in a CIDR table gives the action of the first line whose network the address is in, and nothing if there is no such line -/
theorem C95_first (table : List (Network × Bytes)) (x : Address) :
    (∀ action, findCidr table x = some action ↔ ∃ before n later, table = before ++ (n, action) :: later ∧ Spec.Conditions.InNetwork n.v6 n.base n.length x ∧
      ∀ m ∈ before, ¬ Spec.Conditions.InNetwork m.1.v6 m.1.base m.1.length x) ∧
    (findCidr table x = none ↔ ∀ m ∈ table, ¬ Spec.Conditions.InNetwork m.1.v6 m.1.base m.1.length x) := by
  induction table with
  | nil =>
    refine ⟨fun a => ⟨fun h => (nomatch h), ?_⟩, ⟨fun _ _ hm => (nomatch hm), fun _ => rfl⟩⟩
    rintro ⟨b, n, l, h, _⟩
    cases b <;> cases h
  | cons e table ih =>
    obtain ⟨n, action⟩ := e
    by_cases hi : n.includes x = true
    · have hin := (Conditions.includes_iff n x).1 hi
      refine ⟨fun a => ?_, ?_⟩
      · simp only [findCidr, if_pos hi, Option.some.injEq]
        constructor
        · rintro rfl; exact ⟨[], n, table, rfl, hin, fun _ hm => nomatch hm⟩
        · rintro ⟨b, m, l, h, hm, hb⟩
          cases b with
          | nil => simp only [List.nil_append, List.cons.injEq, Prod.mk.injEq] at h; exact h.1.2
          | cons c b =>
            simp only [List.cons_append, List.cons.injEq] at h
            exact absurd hin (by have := hb c List.mem_cons_self; rw [← h.1] at this; exact this)
      · simp only [findCidr, if_pos hi, reduceCtorEq, false_iff]
        intro h
        exact h (n, action) List.mem_cons_self hin
    · have hin : ¬ Spec.Conditions.InNetwork n.v6 n.base n.length x := fun h => hi ((Conditions.includes_iff n x).2 h)
      have e : findCidr ((n, action) :: table) x = findCidr table x := by rw [findCidr, if_neg hi]
      refine ⟨fun a => ?_, ?_⟩
      · rw [e, ih.1]
        constructor
        · rintro ⟨b, m, l, rfl, hm, hb⟩
          refine ⟨(n, action) :: b, m, l, rfl, hm, fun c hc => ?_⟩
          rcases List.mem_cons.mp hc with rfl | hc
          · exact hin
          · exact hb c hc
        · rintro ⟨b, m, l, h, hm, hb⟩
          cases b with
          | nil =>
            simp only [List.nil_append, List.cons.injEq, Prod.mk.injEq] at h
            exact absurd hm (by rw [← h.1.1]; exact hin)
          | cons c b =>
            simp only [List.cons_append, List.cons.injEq] at h
            exact ⟨b, m, l, h.2, hm, fun d hd => hb d (List.mem_cons_of_mem _ hd)⟩
      · rw [e, ih.2]
        constructor
        · intro h m hm
          rcases List.mem_cons.mp hm with rfl | hm
          · exact hin
          · exact h m hm
        · intro h m hm
          exact h m (List.mem_cons_of_mem _ hm)

example : findCidr [(⟨false, 0xc0a80100, 32⟩, ascii "OK"), (⟨false, 0xc0a80000, 16⟩, ascii "REJECT")] (.ipv4 0xc0a80101) = some (ascii "REJECT") ∧
    findCidr [(⟨false, 0xc0a80100, 32⟩, ascii "OK"), (⟨false, 0xc0a80000, 16⟩, ascii "REJECT")] (.ipv6 1) = none := by decide

end Verif.Props.Tables
