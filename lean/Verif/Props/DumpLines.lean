import Verif.Props.DumpText
/-
C127: the output as a whole is read as the settings, conditions and milters it was written for.
-/
namespace Verif.Props.Dump
open Verif Verif.Dump Verif.Spec.Dump
open Verif.Egg (Egg Condition)
open Verif.Connection (Net)

/-- these lines are these statements -/
def Means (ls : List Bytes) (ss : List Stmt) : Prop := statements ls = some ss ∧ ∀ l ∈ ls, Single l

theorem Means.nil : Means [] [] := ⟨rfl, by simp⟩

theorem statements_append (a b : List Bytes) (x y : List Stmt) (ha : statements a = some x) (hb : statements b = some y) :
    statements (a ++ b) = some (x ++ y) := by
  induction a generalizing x with
  | nil => cases ha; exact hb
  | cons l a ih =>
    rw [List.cons_append]
    unfold statements at ha ⊢
    cases hs : statements a with
    | none =>
      rw [hs] at ha
      cases hl : line l with
      | none => rw [hl] at ha; cases ha
      | some o => rw [hl] at ha; cases o <;> cases ha
    | some s =>
      rw [hs] at ha
      rw [ih s hs]
      cases hl : line l with
      | none => rw [hl] at ha; cases ha
      | some o =>
        rw [hl] at ha
        cases o with
        | none => cases ha; rfl
        | some o => cases ha; rfl

theorem Means.append {a b : List Bytes} {x y : List Stmt} (ha : Means a x) (hb : Means b y) : Means (a ++ b) (x ++ y) :=
  ⟨statements_append a b x y ha.1 hb.1, fun l hl => (List.mem_append.mp hl).elim (ha.2 l) (hb.2 l)⟩

theorem Means.one {l : Bytes} {s : Stmt} (h : line l = some (some s)) (hs : Single l) : Means [l] [s] :=
  ⟨by unfold statements; rw [h]; rfl, by simpa using hs⟩

theorem Means.comment {l : Bytes} (h : line l = some none) (hs : Single l) : Means [l] [] :=
  ⟨by unfold statements; rw [h]; rfl, by simpa using hs⟩

theorem Means.blank : Means [[]] [] := Means.comment rfl (by simp [Single])

theorem Means.flatMap {α : Type} (l : List α) (f : α → List Bytes) (g : α → List Stmt) (h : ∀ x ∈ l, Means (f x) (g x)) :
    Means (l.flatMap f) (l.flatMap g) := by
  induction l with
  | nil => exact Means.nil
  | cons x l ih =>
    rw [List.flatMap_cons, List.flatMap_cons]
    exact (h x List.mem_cons_self).append (ih fun y hy => h y (List.mem_cons_of_mem _ hy))

theorem single_append {a b : Bytes} (ha : Single a) (hb : Single b) : Single (a ++ b) := by
  unfold Single
  rw [List.mem_append, not_or]
  exact ⟨ha, hb⟩

theorem single_blanks (n : Nat) : Single (List.replicate n 0x20) := by
  intro h
  exact absurd (List.eq_of_mem_replicate h) (by decide)

theorem integer_single (i : Int) : Single (integer i) := by
  unfold integer
  split
  · intro h
    rcases List.mem_cons.mp h with h | h
    · cases h
    · exact digits_single (decimal_digits _) h
  · exact digits_single (decimal_digits _)

section
variable {p : Process} (hp : ∀ l ∈ p.conf.locations, (0x0a : UInt8) ∉ l.2.1)
include hp

theorem place_means (n : Nat) (key : Option Bytes) : Means [p.place (List.replicate n 0x20) key] [] := by
  unfold Process.place
  split
  · rename_i file l he
    obtain ⟨k, -, hf⟩ := Option.bind_eq_some_iff.mp he
    have hs := hp _ (List.mem_of_find?_eq_some hf)
    refine Means.comment ?_ ?_
    · rw [List.append_assoc, List.append_assoc, List.append_assoc, line_indent]
      rfl
    · refine single_append (single_append (single_append (single_append (single_blanks n) ?_) hs) ?_) (integer_single _)
      · show (0x0a : UInt8) ∉ ascii "# "; decide
      · show (0x0a : UInt8) ∉ [0x3a]; decide
  · refine Means.comment ?_ ?_
    · rw [line_indent]
      rfl
    · refine single_append (single_blanks n) ?_
      show (0x0a : UInt8) ∉ ascii "# default"; decide

theorem wordy_single {k : Bytes} (h : Wordy k) : Single k := fun hm => absurd (h.bytes _ hm) (by decide)

theorem item_means (n : Nat) (key t place : Bytes) (v : Lit) (hk : Wordy key) (hv : value t = some (v, [])) (ht : Single t) :
    Means (p.item (List.replicate n 0x20) key t place) [.set key v] := by
  unfold Process.item
  refine (place_means hp n (some place)).append (b := [_]) (Means.one ?_ ?_)
  · rw [List.append_assoc, List.append_assoc, line_indent, ← List.append_assoc]
    exact line_set key t v hk hv
  · refine single_append (single_append (single_append (single_blanks n) (wordy_single hp hk)) ?_) ht
    show (0x0a : UInt8) ∉ ascii " = "; decide

theorem item_print (n : Nat) (key place : Bytes) (v : Lit) (hk : Wordy key) :
    Means (p.item (List.replicate n 0x20) key v.print place) [.set key v] := by
  refine item_means hp n key _ place v hk ?_ (print_single v)
  have := value_print v [] (by intro c hc; cases hc)
  rwa [List.append_nil] at this

end

theorem key_wordy (k : Key) : Wordy k.name := ⟨by cases k <;> decide, by cases k <;> decide⟩

theorem value_text (p : Process) (k : Key) : value (p.text k) = some (p.value k, []) ∧ Single (p.text k) ∧ Ends (p.text k) := by
  have hp : ∀ v : Lit, value v.print = some (v, []) ∧ Single v.print ∧ Ends v.print := by
    intro v
    have := value_print v [] (by intro c hc; cases hc)
    rw [List.append_nil] at this
    exact ⟨this, print_single v, print_end v⟩
  have hm : ∀ n, value (0x30 :: octal n) = some (.num n, []) ∧ Single (0x30 :: octal n) ∧ Ends (0x30 :: octal n) := by
    intro n
    have hd : ∀ c ∈ 0x30 :: octal n, isDigit c = true := by
      intro c hc
      rcases List.mem_cons.mp hc with rfl | hc
      · decide
      · exact (octal_digits n c hc).1
    exact ⟨value_mode n, digits_single hd, digits_end hd (by simp)⟩
  unfold Process.text
  split
  · split
    · rename_i h
      have e : p.value .mode = .num 0 := congrArg Lit.num h
      rw [e]
      exact ⟨by decide +kernel, (show (0x0a : UInt8) ∉ [0x30] by decide), ⟨_, rfl, by decide⟩⟩
    · exact hm _
  · exact hm _
  · exact hp _

/-- the statements of a group of settings -/
def setting (p : Process) (k : Key) : Stmt := .set k.name (p.value k)

theorem group_means {p : Process} (hp : ∀ l ∈ p.conf.locations, (0x0a : UInt8) ∉ l.2.1) (ks : List Key) :
    Means (p.group ks) (ks.map (setting p)) := by
  have h1 : Means (ks.flatMap fun k => p.item [] k.name (p.text k) k.name) (ks.flatMap fun k => [setting p k]) :=
    Means.flatMap ks _ _ fun k _ => item_means hp 0 k.name (p.text k) k.name (p.value k) (key_wordy k) (value_text p k).1 (value_text p k).2.1
  have h2 : (ks.flatMap fun k => [setting p k]) = ks.map (setting p) := by
    induction ks with
    | nil => rfl
    | cons k ks ih =>
      rw [List.flatMap_cons, ih]
      · rfl
      · exact Means.flatMap ks _ _ fun k _ => item_means hp 0 k.name (p.text k) k.name (p.value k) (key_wordy k) (value_text p k).1 (value_text p k).2.1
  rw [h2] at h1
  have := h1.append Means.blank
  rwa [List.append_nil] at this

/-- the statements of a condition -/
def conditionStmts (c : Condition) : List Stmt :=
  [.begin_ (ascii "define_applicable_condition") (textLit c.name) (ascii "condition"),
   .set (ascii "condition.description") (textLit c.description), .fin]

theorem begin_means (f : Bytes) (v : Lit) (x : Bytes) (hf : Wordy f) (hx : ∀ c ∈ x, wordByte c = true) :
    Means [f ++ [0x28] ++ v.print ++ (ascii ") do |" ++ x ++ [0x7c])] [.begin_ f v x] := by
  refine Means.one (line_begin f v x hf hx) ?_
  refine single_append (single_append (single_append ?_ ?_) (print_single v)) (single_append (single_append ?_ ?_) ?_)
  · exact fun hm => absurd (hf.bytes _ hm) (by decide)
  · show (0x0a : UInt8) ∉ [0x28]; decide
  · show (0x0a : UInt8) ∉ ascii ") do |"; decide
  · exact fun hm => absurd (hx _ hm) (by decide)
  · show (0x0a : UInt8) ∉ [0x7c]; decide

theorem end_means : Means [ascii "end", []] [.fin] := by
  have := (Means.one line_end (show (0x0a : UInt8) ∉ ascii "end" by decide)).append Means.blank
  exact this

theorem condition_means {p : Process} (hp : ∀ l ∈ p.conf.locations, (0x0a : UInt8) ∉ l.2.1) (c : Condition) :
    Means (p.condition c) (conditionStmts c) := by
  unfold Process.condition conditionStmts
  have h1 := (place_means hp 0 (some (placeKey "applicable_condition" c.name []))).append
    (begin_means (ascii "define_applicable_condition") (textLit c.name) (ascii "condition") ⟨by decide, by decide⟩ (by decide))
  have h2 := item_print hp 2 (ascii "condition.description") (placeKey "applicable_condition" c.name (ascii ".description"))
    (textLit c.description) ⟨by decide, by decide⟩
  exact (h1.append h2).append end_means

/-- the statement of a setting of a milter -/
def eggSetting (e : Egg) (k : EggKey) : Stmt := .set (ascii "milter." ++ k.name) (eggValue e k)

/-- the statements of the conditions of a milter -/
def eggConditionStmts (e : Egg) : List Stmt :=
  if e.conditions = [] then [.emptyList (ascii "milter.applicable_conditions")]
  else
    [.openList (ascii "milter.applicable_conditions")] ++ (e.conditions.map fun c => Stmt.entry (.str (c.name.getD []))) ++ [.closeList]

/-- the statements of a milter -/
def eggStmts (e : Egg) : List Stmt :=
  [.begin_ (ascii "define_milter") (textLit e.name) (ascii "milter")] ++
  eggKeys₁.map (eggSetting e) ++ eggConditionStmts e ++ eggKeys₂.map (eggSetting e) ++ [.fin]

theorem eggKey_wordy (k : EggKey) : Wordy (ascii "milter." ++ k.name) := ⟨by cases k <;> decide, by cases k <;> decide⟩

theorem eggItems_means {p : Process} (hp : ∀ l ∈ p.conf.locations, (0x0a : UInt8) ∉ l.2.1) (e : Egg) (ks : List EggKey) :
    Means (ks.flatMap (p.eggItem e)) (ks.map (eggSetting e)) := by
  induction ks with
  | nil => exact Means.nil
  | cons k ks ih =>
    rw [List.flatMap_cons]
    exact (item_print hp 2 (ascii "milter." ++ k.name) _ (eggValue e k) (eggKey_wordy k)).append ih

theorem eggConditions_means {p : Process} (hp : ∀ l ∈ p.conf.locations, (0x0a : UInt8) ∉ l.2.1) (e : Egg)
    (hn : ∀ c ∈ e.conditions, c.name.isSome) : Means (p.eggConditions e) (eggConditionStmts e) := by
  unfold Process.eggConditions eggConditionStmts
  split
  · refine (place_means hp 2 none).append (b := [_]) (Means.one ?_ ?_)
    · decide +kernel
    · show (0x0a : UInt8) ∉ ascii "  milter.applicable_conditions = []"; decide
  · refine (Means.append (Means.one ?_ ?_) ?_).append (Means.one line_close ?_)
    · decide +kernel
    · show (0x0a : UInt8) ∉ ascii "  milter.applicable_conditions = ["; decide
    · have h : ∀ l : List Condition, (∀ c ∈ l, c.name.isSome) →
          Means (l.flatMap fun c =>
            [p.place [0x20, 0x20, 0x20, 0x20] (some (placeKey "milter" e.name (placeKey ".applicable_condition" c.name []))),
             [0x20, 0x20, 0x20, 0x20] ++ (textLit c.name).print ++ [0x2c]]) (l.map fun c => Stmt.entry (.str (c.name.getD []))) := by
        intro l
        induction l with
        | nil => exact fun _ => Means.nil
        | cons c l ih =>
          intro h
          rw [List.flatMap_cons]
          refine Means.append (x := [_]) ?_ (ih fun x hx => h x (List.mem_cons_of_mem _ hx))
          refine (place_means hp 4 _).append (b := [_]) (Means.one ?_ ?_)
          · obtain ⟨n, hn⟩ := Option.isSome_iff_exists.mp (h c List.mem_cons_self)
            rw [hn]
            have := line_indent 4 ((Lit.str n).print ++ [0x2c])
            rw [line_entry] at this
            rw [List.append_assoc]
            dsimp only
            rw [hn]
            exact this
          · refine single_append (single_append (single_blanks 4) (print_single _)) ?_
            show (0x0a : UInt8) ∉ [0x2c]; decide
      exact h _ hn
    · show (0x0a : UInt8) ∉ ascii "  ]"; decide

theorem egg_means {p : Process} (hp : ∀ l ∈ p.conf.locations, (0x0a : UInt8) ∉ l.2.1) (e : Egg)
    (hn : ∀ c ∈ e.conditions, c.name.isSome) : Means (p.egg e) (eggStmts e) := by
  unfold Process.egg eggStmts
  have h1 := (place_means hp 0 (some (placeKey "milter" e.name []))).append
    (begin_means (ascii "define_milter") (textLit e.name) (ascii "milter") ⟨by decide, by decide⟩ (by decide))
  exact (((Means.append h1 (eggItems_means hp e _)).append (eggConditions_means hp e hn)).append (eggItems_means hp e _)).append end_means

/-! ### the whole -/

/-- the statements of the whole output -/
def allStmts (p : Process) : List Stmt :=
  keys.map (setting p) ++ p.conf.conditions.flatMap conditionStmts ++ p.conf.eggs.flatMap eggStmts

theorem lines_means {p : Process} (hp : ∀ l ∈ p.conf.locations, (0x0a : UInt8) ∉ l.2.1)
    (hn : ∀ e ∈ p.conf.eggs, ∀ c ∈ e.conditions, c.name.isSome) : Means p.lines (allStmts p) := by
  unfold Process.lines allStmts
  refine (Means.append ?_ ?_).append ?_
  · have := Means.flatMap groups p.group (fun ks => ks.map (setting p)) fun ks _ => group_means hp ks
    have e : (groups.flatMap fun ks => ks.map (setting p)) = keys.map (setting p) := rfl
    rwa [e] at this
  · exact Means.flatMap _ _ _ fun c _ => condition_means hp c
  · exact Means.flatMap _ _ _ fun e he => egg_means hp e (hn e he)

/-- the last two lines: one that does not end with a blank, and an empty one -/
def EndsWell (ls : List Bytes) : Prop := ∃ init l, ls = init ++ [l, []] ∧ Ends l

theorem EndsWell.append {b : List Bytes} (h : EndsWell b) (a : List Bytes) : EndsWell (a ++ b) := by
  obtain ⟨i, l, rfl, hl⟩ := h
  exact ⟨a ++ i, l, by simp, hl⟩

theorem EndsWell.flatMap {α : Type} (l : List α) (f : α → List Bytes) (hl : l ≠ []) (h : ∀ x ∈ l, EndsWell (f x)) :
    EndsWell (l.flatMap f) := by
  obtain ⟨i, x, rfl⟩ : ∃ i x, l = i ++ [x] := by
    rcases List.eq_nil_or_concat l with rfl | ⟨i, x, rfl⟩
    · exact absurd rfl hl
    · exact ⟨i, x, by simp⟩
  rw [List.flatMap_append]
  refine EndsWell.append ?_ _
  simpa using h x (by simp)

theorem end_ends (a : List Bytes) : EndsWell (a ++ [ascii "end", []]) := ⟨a, ascii "end", rfl, ⟨_, rfl, by decide⟩⟩

theorem group_ends (p : Process) (ks : List Key) (h : ks ≠ []) : EndsWell (p.group ks) := by
  obtain ⟨i, k, rfl⟩ : ∃ i x, ks = i ++ [x] := by
    rcases List.eq_nil_or_concat ks with rfl | ⟨i, x, rfl⟩
    · exact absurd rfl h
    · exact ⟨i, x, by simp⟩
  refine ⟨(i.flatMap fun k => p.item [] k.name (p.text k) k.name) ++ [p.place [] (some k.name)], [] ++ k.name ++ ascii " = " ++ p.text k, ?_, ?_⟩
  · simp [Process.group, Process.item]
  · exact (value_text p k).2.2.append _

theorem lines_end (p : Process) : EndsWell p.lines := by
  unfold Process.lines
  have h0 : EndsWell (groups.flatMap p.group) :=
    EndsWell.flatMap groups p.group (by decide) fun ks hk => group_ends p ks (by
      have : ∀ ks ∈ groups, ks ≠ [] := by decide
      exact this ks hk)
  have h1 : EndsWell (groups.flatMap p.group ++ p.conf.conditions.flatMap p.condition) := by
    by_cases h : p.conf.conditions = []
    · rw [h]; simpa using h0
    · exact (EndsWell.flatMap _ _ h fun c _ => end_ends _).append _
  by_cases h : p.conf.eggs = []
  · rw [h]; simpa using h1
  · exact (EndsWell.flatMap _ _ h fun e _ => end_ends _).append _

theorem flatten_join (ls : List Bytes) (l : Bytes) :
    ((ls ++ [l]).map (· ++ [0x0a])).flatten = joinWith [0x0a] (ls ++ [l]) ++ [0x0a] := by
  induction ls with
  | nil => simp [joinWith]
  | cons a ls ih =>
    rw [List.cons_append, List.map_cons, List.flatten_cons, ih]
    cases hx : ls ++ [l] with
    | nil => simp at hx
    | cons b t => simp [joinWith]

theorem strip_lines (y : Bytes) (h0 : ∃ c, y.head? = some c ∧ Conditions.isBlank c = false) (h1 : Ends y) :
    Conditions.strip (y ++ [0x0a, 0x0a]) = y := by
  obtain ⟨c, hc, hb⟩ := h0
  obtain ⟨d, hd, he⟩ := h1
  have e1 : Conditions.lstrip (y ++ [0x0a, 0x0a]) = y ++ [0x0a, 0x0a] := by
    cases y with
    | nil => cases hc
    | cons x y =>
      have : x = c := by simpa using hc
      subst this
      simp [Conditions.lstrip, hb]
  unfold Conditions.strip
  rw [e1, List.reverse_append]
  have e2 : y.reverse.head? = some d := by rw [List.head?_reverse, hd]
  cases hy : y.reverse with
  | nil => rw [hy] at e2; cases e2
  | cons x z =>
    rw [hy] at e2
    have : x = d := by simpa using e2
    subst this
    have : Conditions.lstrip ([0x0a, 0x0a].reverse ++ x :: z) = x :: z := by
      have hn : Conditions.isBlank 0x0a = true := by decide
      simp [Conditions.lstrip, he, hn]
    rw [this, ← hy, List.reverse_reverse]

theorem joined_head (l : Bytes) (ls : List Bytes) (c : UInt8) (h : l.head? = some c) : (joinWith [0x0a] (l :: ls)).head? = some c := by
  cases l with
  | nil => cases h
  | cons d l =>
    cases ls with
    | nil => exact h
    | cons b t => simpa [joinWith] using h

theorem joined_end (ls : List Bytes) (l : Bytes) (h : Ends l) : Ends (joinWith [0x0a] (ls ++ [l])) := by
  induction ls with
  | nil => simpa [joinWith] using h
  | cons a ls ih =>
    cases hx : ls ++ [l] with
    | nil => simp at hx
    | cons b t =>
      rw [hx] at ih
      rw [List.cons_append, hx]
      exact ih.append (a ++ [0x0a])

theorem statements_blank (a : List Bytes) (ss : List Stmt) (h : statements (a ++ [[]]) = some ss) : statements a = some ss := by
  cases ha : statements a with
  | some x =>
    have := statements_append a [[]] x [] ha rfl
    rw [this] at h
    simpa using h
  | none =>
    exfalso
    have : ∀ (a b : List Bytes), statements a = none → statements (a ++ b) = none := by
      intro a b
      induction a with
      | nil => intro h; cases h
      | cons l a ih =>
        intro h
        rw [List.cons_append]
        unfold statements at h ⊢
        cases hl : line l with
        | none => rfl
        | some o =>
          rw [hl] at h
          cases hs : statements a with
          | none => rw [ih hs]; cases o <;> rfl
          | some s => rw [hs] at h; cases o <;> cases h
    rw [this a _ ha] at h
    cases h

theorem lines_head (p : Process) : ∃ l ls, p.lines = l :: ls ∧ l.head? = some 0x23 := by
  refine ⟨p.place [] (some (Key.name .platform)), _, rfl, ?_⟩
  unfold Process.place
  split <;> rfl

/-- the output, read as a configuration file -/
theorem read_dump {p : Process} (hp : ∀ l ∈ p.conf.locations, (0x0a : UInt8) ∉ l.2.1)
    (hn : ∀ e ∈ p.conf.eggs, ∀ c ∈ e.conditions, c.name.isSome) : statements (splitOn 0x0a p.dump) = some (allStmts p) := by
  obtain ⟨hm, hs⟩ := lines_means hp hn
  obtain ⟨init, l, he, hl⟩ := lines_end p
  have hd : p.dump = joinWith [0x0a] (init ++ [l]) := by
    unfold Process.dump
    rw [he]
    have : init ++ [l, []] = (init ++ [l]) ++ [[]] := by simp
    rw [this, List.map_append, List.flatten_append, flatten_join, List.append_assoc]
    refine strip_lines _ ?_ (joined_end init l hl)
    obtain ⟨l', ls, h1, h2⟩ := lines_head p
    rw [he, this] at h1
    cases hi : init ++ [l] with
    | nil => simp at hi
    | cons x t =>
      rw [hi] at h1
      have : x = l' := by simpa using congrArg List.head? h1
      subst this
      exact ⟨_, joined_head x t _ h2, by decide⟩
  rw [hd, splitOn_join]
  · refine statements_blank _ _ ?_
    rw [← hm, he]
    congr 1
    simp
  · simp
  · intro a ha
    refine hs a ?_
    rw [he]
    rcases List.mem_append.mp ha with h | h
    · exact List.mem_append_left _ h
    · exact List.mem_append_right _ (List.mem_cons.mpr (.inl (List.mem_singleton.mp h)))

end Verif.Props.Dump
