import Verif.Manager.PackageOptions
import Verif.Props.EnvelopeAddress
/-
C130: options of the package.
-/
namespace Verif.Props.PackageOptions
open Verif Verif.PackageOptions
open Verif.Conditions (isBlank lstrip)

/-- an option as it may be written: blanks before and behind the name, the `=` and the value -/
structure Item where
  before : Bytes := []
  name : Bytes
  left : Bytes := []
  right : Bytes := []
  value : Bytes
  after : Bytes := []

/-- the option as it is written -/
def Item.text (i : Item) : Bytes := i.before ++ (i.name ++ i.left ++ 0x3d :: (i.right ++ i.value)) ++ i.after

/-- begins and ends with something that is not blank -/
def Solid (s : Bytes) : Prop := (∃ c, s.head? = some c ∧ isBlank c = false) ∧ ∃ c, s.getLast? = some c ∧ isBlank c = false

/-- names and values that can be written: no commas, no `=` in a name, no blanks at the ends; the padding is blank -/
structure Item.Good (i : Item) : Prop where
  name : Solid i.name
  nameComma : 0x2c ∉ i.name
  nameEqual : 0x3d ∉ i.name
  value : Solid i.value ∨ i.value = [] ∧ i.right = []
  valueComma : 0x2c ∉ i.value
  before : ∀ c ∈ i.before, isBlank c = true
  left : ∀ c ∈ i.left, isBlank c = true
  right : ∀ c ∈ i.right, isBlank c = true
  after : ∀ c ∈ i.after, isBlank c = true

/-- the option without the blanks around it -/
def Item.core (i : Item) : Bytes := i.name ++ i.left ++ 0x3d :: (i.right ++ i.value)

theorem lstrip_skip (b s : Bytes) (hb : ∀ c ∈ b, isBlank c = true) (hs : ∀ c, s.head? = some c → isBlank c = false) : lstrip (b ++ s) = s :=
  EnvelopeAddress.dropWhile_stop hb hs

theorem rstrip_skip (s b : Bytes) (hb : ∀ c ∈ b, isBlank c = true) (hs : ∀ c, s.getLast? = some c → isBlank c = false) : rstrip (s ++ b) = s := by
  unfold rstrip
  rw [List.reverse_append, lstrip_skip _ _ (fun c hc => hb c (List.mem_reverse.mp hc)) (fun c hc => hs c (by rw [← List.head?_reverse]; exact hc)), List.reverse_reverse]

theorem core_head (i : Item) (h : i.Good) (c : UInt8) (hc : i.core.head? = some c) : isBlank c = false := by
  obtain ⟨⟨d, hd, hb⟩, _⟩ := h.name
  have : i.core.head? = some d := by
    unfold Item.core
    rw [List.append_assoc, List.head?_append, hd]
    rfl
  rw [this] at hc
  cases hc
  exact hb

theorem core_last (i : Item) (h : i.Good) (c : UInt8) (hc : i.core.getLast? = some c) : isBlank c = false := by
  rcases h.value with ⟨_, d, hd, hb⟩ | ⟨hv, hr⟩
  · have : i.core.getLast? = some d := by
      unfold Item.core
      rw [← List.cons_append, List.getLast?_append, List.getLast?_append, hd]
      rfl
    rw [this] at hc
    cases hc
    exact hb
  · have : i.core.getLast? = some 0x3d := by
      unfold Item.core
      rw [hv, hr, List.append_nil, List.getLast?_append]
      rfl
    rw [this] at hc
    cases hc
    decide

theorem blank_comma (b : Bytes) (hb : ∀ c ∈ b, isBlank c = true) : 0x2c ∉ b ∧ 0x3d ∉ b :=
  ⟨fun h => absurd (hb _ h) (by decide), fun h => absurd (hb _ h) (by decide)⟩

theorem text_comma (i : Item) (h : i.Good) : 0x2c ∉ i.text := by
  unfold Item.text
  simp only [List.mem_append, List.mem_cons, not_or]
  exact ⟨⟨(blank_comma _ h.before).1, ⟨⟨h.nameComma, (blank_comma _ h.left).1⟩, by decide, (blank_comma _ h.right).1, h.valueComma⟩⟩, (blank_comma _ h.after).1⟩

theorem text_core (i : Item) : i.text = i.before ++ i.core ++ i.after := rfl

theorem core_ne (i : Item) : i.core ≠ [] := by
  unfold Item.core
  simp

/-- the pieces between the commas lose the blanks around them -/
theorem trim_texts (first : Bool) (is : List Item) (hg : ∀ i ∈ is, i.Good) (hl : ∀ i, is.getLast? = some i → i.after = [])
    (hf : first = true → ∀ i, is.head? = some i → i.before = []) : trim first (is.map Item.text) = is.map Item.core := by
  have front : ∀ i ∈ is, ∀ r : Bytes, lstrip (i.before ++ (i.core ++ r)) = i.core ++ r := by
    intro i hi r
    refine lstrip_skip _ _ (hg i hi).before ?_
    intro c hc
    rw [List.head?_append] at hc
    cases hd : i.core.head? with
    | none => exact absurd (List.head?_eq_none_iff.mp hd) (core_ne i)
    | some d =>
      rw [hd] at hc
      cases hc
      exact core_head i (hg i hi) _ hd
  have both : ∀ i ∈ is, (first = true → i.before = []) → (if first then i.text else lstrip i.text) = i.core ++ i.after := by
    intro i hi hb
    rw [text_core, List.append_assoc, front i hi]
    cases first with
    | true => rw [hb rfl]; rfl
    | false => rfl
  induction is generalizing first with
  | nil => rfl
  | cons i is ih =>
    cases is with
    | nil =>
      rw [List.map_cons, List.map_nil, trim, both i (List.mem_cons_self ..) (fun h => hf h i rfl), hl i rfl, List.append_nil]
      rfl
    | cons j js =>
      have := ih false (fun k hk => hg k (List.mem_cons_of_mem _ hk)) (fun k hk => hl k (by rw [List.getLast?_cons_cons]; exact hk)) (fun h => nomatch h)
        (fun k hk => front k (List.mem_cons_of_mem _ hk)) (fun k hk _ => by
          rw [text_core, List.append_assoc, front k (List.mem_cons_of_mem _ hk)]
          rfl)
      rw [List.map_cons, List.map_cons, trim, both i (List.mem_cons_self ..) (fun h => hf h i rfl),
        rstrip_skip _ _ (hg i (List.mem_cons_self ..)).after (core_last i (hg i (List.mem_cons_self ..))), ← List.map_cons, this]
      rfl

theorem splitEqual_core (i : Item) (h : i.Good) : splitEqual i.core = (some i.name, some i.value) := by
  have hne : ∀ c ∈ i.name ++ i.left, (c != 0x3d) = true := by
    intro c hc
    rw [bne_iff_ne]
    rintro rfl
    rcases List.mem_append.mp hc with hc | hc
    · exact h.nameEqual hc
    · exact (blank_comma _ h.left).2 hc
  have hst : ∀ c, (0x3d :: (i.right ++ i.value) : Bytes).head? = some c → (c != 0x3d) = false := by
    intro c hc
    cases hc
    rfl
  unfold splitEqual
  rw [if_neg (core_ne i), if_pos (by unfold Item.core; simp)]
  unfold Item.core
  rw [EnvelopeAddress.takeWhile_stop hne hst, EnvelopeAddress.dropWhile_stop hne hst, List.drop_one, List.tail_cons,
    rstrip_skip _ _ h.left (fun c hc => by obtain ⟨_, d, hd, hb⟩ := h.name; rw [hd] at hc; cases hc; exact hb),
    lstrip_skip _ _ h.right (fun c hc => by
      rcases h.value with ⟨⟨d, hd, hb⟩, _⟩ | ⟨hv, _⟩
      · rw [hd] at hc; cases hc; exact hb
      · rw [hv] at hc; cases hc)]

/-- **C130, partial** options written as "NAME = VALUE , NAME = VALUE", with any blanks around `=` and commas, give exactly these names and values.  Missing: values with commas. -/
theorem C130_written_partial (is : List Item) (hg : ∀ i ∈ is, i.Good) (hf : ∀ i, is.head? = some i → i.before = []) (hl : ∀ i, is.getLast? = some i → i.after = []) :
    parse (joinWith [0x2c] (is.map Item.text)) = (is.map fun i => (some i.name, some i.value)).reverse := by
  by_cases he : is = []
  · subst he
    rfl
  unfold parse splitCommas
  rw [splitOn_join 0x2c _ (by simpa using he) (by
      intro a ha
      obtain ⟨i, hi, rfl⟩ := List.mem_map.mp ha
      exact text_comma i (hg i hi)), trim_texts true is hg hl (fun _ => hf)]
  have : (is.map Item.core).reverse.dropWhile (· == []) = (is.map Item.core).reverse := by
    rcases List.eq_nil_or_concat is with rfl | ⟨js, j, rfl⟩
    · rfl
    · rw [List.concat_eq_append, List.map_append, List.reverse_append]
      simp only [List.map_cons, List.map_nil, List.reverse_cons, List.reverse_nil, List.nil_append, List.cons_append]
      rw [List.dropWhile_cons]
      have : (j.core == []) = false := by simpa using core_ne j
      rw [this]
      rfl
  rw [this, List.reverse_reverse, List.map_map]
  congr 1
  apply List.map_congr_left
  intro i hi
  exact splitEqual_core i (hg i hi)

theorem get_found (ps : List (Bytes × Bytes)) (hn : (ps.map (·.1)).Nodup) (p : Bytes × Bytes) (hp : p ∈ ps) :
    get (ps.map fun p => (some p.1, some p.2)).reverse p.1 = some p.2 := by
  unfold PackageOptions.get
  have : ((ps.map fun p => ((some p.1 : Option Bytes), (some p.2 : Option Bytes))).reverse.find? fun q => q.1 == some p.1) = some (some p.1, some p.2) := by
    rw [← List.map_reverse, List.find?_map]
    have hr : (ps.reverse.map (·.1)).Nodup := by
      rw [List.map_reverse]
      exact List.nodup_iff_pairwise_ne.mpr (List.pairwise_reverse.mpr ((List.nodup_iff_pairwise_ne.mp hn).imp fun h e => h e.symm))
    have hp' := List.mem_reverse.mpr hp
    generalize ps.reverse = qs at hr hp'
    induction qs with
    | nil => cases hp'
    | cons q qs ih =>
      rw [List.map_cons, List.nodup_cons] at hr
      rcases List.mem_cons.mp hp' with rfl | h
      · simp
      · have hne : (some q.1 == some p.1) = false := by
          simp only [beq_eq_false_iff_ne, ne_eq, Option.some.injEq]
          intro e
          exact hr.1 (e ▸ List.mem_map.mpr ⟨p, h, rfl⟩)
        rw [List.find?_cons]
        simp only [Function.comp, hne]
        exact ih hr.2 h
  rw [this]

/-- **C130, partial** the options given to `package.options=` as a Hash are those `package.options` gives back, for names and values without commas and without blanks at their ends,
and names without `=` -/
theorem C130_hash_partial (ps : List (Bytes × Bytes)) (hn : (ps.map (·.1)).Nodup)
    (h : ∀ p ∈ ps, Solid p.1 ∧ (Solid p.2 ∨ p.2 = []) ∧ 0x2c ∉ p.1 ∧ 0x2c ∉ p.2 ∧ 0x3d ∉ p.1) :
    parse (encode ps) = (ps.map fun p => (some p.1, some p.2)).reverse ∧ ∀ p ∈ ps, get (parse (encode ps)) p.1 = some p.2 := by
  have : parse (encode ps) = (ps.map fun p => (some p.1, some p.2)).reverse := by
    have := C130_written_partial (ps.map fun p => { name := p.1, value := p.2 }) (by
      intro i hi
      obtain ⟨p, hp, rfl⟩ := List.mem_map.mp hi
      obtain ⟨h1, h2, h3, h4, h5⟩ := h p hp
      exact ⟨h1, h3, h5, h2.imp id fun h => ⟨h, rfl⟩, h4, by simp, by simp, by simp, by simp⟩) (by
      intro i hi
      obtain ⟨p, _, rfl⟩ := List.mem_map.mp (List.mem_of_head? hi)
      rfl) (by
      intro i hi
      obtain ⟨p, _, rfl⟩ := List.mem_map.mp (List.mem_of_getLast? hi)
      rfl)
    rw [List.map_map, List.map_map] at this
    rw [encode]
    rw [show (ps.map fun p => p.1 ++ 0x3d :: p.2) = ps.map (Item.text ∘ fun p => { name := p.1, value := p.2 }) from by
      apply List.map_congr_left
      intro p _
      simp [Item.text]]
    exact this
  exact ⟨this, fun p hp => by rw [this]; exact get_found ps hn p hp⟩

/-- **C130, violated** a value with a comma is cut there, and what follows becomes the name of another option -/
theorem C130_comma_violated (n x y : Bytes) (hn : Solid n) (hx : Solid x) (hy : Solid y) (h : 0x2c ∉ n ∧ 0x2c ∉ x ∧ 0x2c ∉ y) (he : 0x3d ∉ n ∧ 0x3d ∉ y) :
    parse (encode [(n, x ++ 0x2c :: y)]) = [(some y, none), (some n, some x)] ∧ get (parse (encode [(n, x ++ 0x2c :: y)])) n ≠ some (x ++ 0x2c :: y) := by
  let i : Item := { name := n, value := x }
  have hi : i.Good := ⟨hn, h.1, he.1, Or.inl hx, h.2.1, by simp [i], by simp [i], by simp [i], by simp [i]⟩
  have hyne : y ≠ [] := by
    rintro rfl
    obtain ⟨⟨c, hc, _⟩, _⟩ := hy
    cases hc
  have h1 : encode [(n, x ++ 0x2c :: y)] = i.core ++ 0x2c :: y := by simp [encode, joinWith, Item.core, i]
  have hc : 0x2c ∉ i.core := by
    have := text_comma i hi
    rw [text_core] at this
    simpa [i] using this
  have h2 : parse (encode [(n, x ++ 0x2c :: y)]) = [(some y, none), (some n, some x)] := by
    unfold parse splitCommas
    rw [h1, splitOn_append _ _ _ hc, splitOn_noSep _ _ h.2.2, trim, trim, if_pos rfl]
    have e1 : rstrip i.core = i.core := by
      have := rstrip_skip i.core [] (by simp) (core_last i hi)
      rwa [List.append_nil] at this
    have e2 : lstrip y = y := by
      have := lstrip_skip [] y (by simp) (fun c hc => by obtain ⟨⟨d, hd, hb⟩, _⟩ := hy; rw [hd] at hc; cases hc; exact hb)
      rwa [List.nil_append] at this
    rw [e1]
    simp only [Bool.false_eq_true, if_false, e2, List.reverse_cons, List.reverse_nil, List.nil_append, List.cons_append]
    rw [List.dropWhile_cons, show (y == []) = false from by simpa using hyne]
    simp only [Bool.false_eq_true, if_false, List.reverse_cons, List.reverse_nil, List.nil_append, List.cons_append, List.map_cons, List.map_nil, splitEqual_core i hi]
    rw [splitEqual, if_neg hyne, if_neg he.2]
  refine ⟨h2, ?_⟩
  rw [h2]
  unfold PackageOptions.get
  rw [List.find?_cons]
  have key : ∀ r : Bytes, r.length < (x ++ 0x2c :: y).length → (some r : Option Bytes) ≠ some (x ++ 0x2c :: y) := by
    intro r hr e
    rw [Option.some.inj e] at hr
    exact absurd hr (Nat.lt_irrefl _)
  by_cases hyn : y = n
  · simp [hyn]
  · rw [show (some y == some n) = false from by simpa using hyn]
    simp only [List.find?_cons, beq_self_eq_true]
    exact key x (by simp)

example : parse (ascii "prefix = /etc , DESTDIR = /tmp/local") = [(some (ascii "DESTDIR"), some (ascii "/tmp/local")), (some (ascii "prefix"), some (ascii "/etc"))] := by decide +kernel
example : get (parse (encode [(ascii "prefix", ascii "/a,b")])) (ascii "prefix") = some (ascii "/a") := by decide +kernel
example : parse (ascii ",a,,") = [(some (ascii "a"), none), (none, none)] := by decide +kernel
example : Item.Good { name := ascii "prefix", left := ascii " ", right := ascii " ", value := ascii "/etc", after := ascii " " } :=
  ⟨⟨⟨0x70, by decide, by decide⟩, ⟨0x78, by decide, by decide⟩⟩, by decide, by decide, Or.inl ⟨⟨0x2f, by decide, by decide⟩, ⟨0x63, by decide, by decide⟩⟩, by decide, by decide, by decide, by decide, by decide⟩

end Verif.Props.PackageOptions
