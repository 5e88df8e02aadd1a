import Mathlib.Data.List.Basic
import Mathlib.Data.List.Nodup
import Verif.Spec.Module
/-!
C154: loading a directory of modules.
-/
namespace Verif.Props.Module

open Verif.Manager.Module Verif.Spec.Module

/-! ### The order -/

theorem le_total : ∀ a b : Bytes, (strcmpLe a b || strcmpLe b a) = true
  | [], _ => by simp [strcmpLe]
  | _ :: _, [] => by simp [strcmpLe]
  | a :: s, b :: t => by
    have ih := le_total s t
    simp only [strcmpLe, Bool.or_eq_true, Bool.and_eq_true, decide_eq_true_eq, beq_iff_eq] at ih ⊢
    rcases Nat.lt_trichotomy a.toNat b.toNat with h | h | h
    · exact .inl (.inl (UInt8.lt_iff_toNat_lt.2 h))
    · cases UInt8.toNat_inj.1 h
      rcases ih with ih | ih
      · exact .inl (.inr ⟨rfl, ih⟩)
      · exact .inr (.inr ⟨rfl, ih⟩)
    · exact .inr (.inl (UInt8.lt_iff_toNat_lt.2 h))

theorem le_trans : ∀ a b c : Bytes, strcmpLe a b = true → strcmpLe b c = true → strcmpLe a c = true
  | [], _, _ => by intros; simp [strcmpLe]
  | _ :: _, [], _ => by intro h; simp [strcmpLe] at h
  | _ :: _, _ :: _, [] => by intro _ h; simp [strcmpLe] at h
  | a :: s, b :: t, c :: u => by
    have ih := le_trans s t u
    simp only [strcmpLe, Bool.or_eq_true, Bool.and_eq_true, decide_eq_true_eq, beq_iff_eq]
    rintro (h | ⟨rfl, h⟩) (k | ⟨rfl, k⟩)
    · exact .inl (UInt8.lt_trans h k)
    · exact .inl h
    · exact .inl k
    · exact .inr ⟨rfl, ih h k⟩

theorem le_antisymm : ∀ a b : Bytes, strcmpLe a b = true → strcmpLe b a = true → a = b
  | [], [] => fun _ _ => rfl
  | [], _ :: _ => by intro _ h; simp [strcmpLe] at h
  | _ :: _, [] => by intro h; simp [strcmpLe] at h
  | a :: s, b :: t => by
    have ih := le_antisymm s t
    simp only [strcmpLe, Bool.or_eq_true, Bool.and_eq_true, decide_eq_true_eq, beq_iff_eq]
    rintro (h | ⟨rfl, h⟩) (k | ⟨e, k⟩)
    · exact absurd k (UInt8.lt_asymm h)
    · subst e; exact absurd h (UInt8.lt_irrefl _)
    · exact absurd k (UInt8.lt_irrefl _)
    · rw [ih h k]

theorem insert_perm (e : Bytes) : ∀ l, (insertEntry e l).Perm (e :: l)
  | [] => .refl _
  | x :: xs => by
    unfold insertEntry
    by_cases h : strcmpLe e x = true
    · rw [if_pos h]
    · rw [if_neg h]
      exact ((insert_perm e xs).cons x).trans (.swap ..)

theorem sortEntries_perm : ∀ l, (sortEntries l).Perm l
  | [] => .refl _
  | e :: es => (insert_perm e _).trans ((sortEntries_perm es).cons e)

theorem insert_sorted (e : Bytes) (l : List Bytes)
    (h : l.Pairwise fun a b => strcmpLe a b = true) :
    (insertEntry e l).Pairwise fun a b => strcmpLe a b = true := by
  induction l with
  | nil => exact List.pairwise_singleton _ _
  | cons x xs ih =>
    have hx := List.pairwise_cons.1 h
    unfold insertEntry
    by_cases k : strcmpLe e x = true
    · rw [if_pos k]
      refine List.pairwise_cons.2 ⟨fun y hy => ?_, h⟩
      rcases List.mem_cons.1 hy with rfl | hy
      · exact k
      · exact le_trans _ _ _ k (hx.1 y hy)
    · rw [if_neg k]
      refine List.pairwise_cons.2 ⟨fun y hy => ?_, ih hx.2⟩
      rcases List.mem_cons.1 ((insert_perm e xs).mem_iff.1 hy) with rfl | hy
      · have := le_total y x
        rw [Bool.or_eq_true] at this
        exact this.resolve_left k
      · exact hx.1 y hy

theorem sortEntries_sorted : ∀ l, (sortEntries l).Pairwise fun a b => strcmpLe a b = true
  | [] => List.Pairwise.nil
  | e :: es => insert_sorted e _ (sortEntries_sorted es)

/-- There is one sorted list of the same names, whatever sorts them. -/
theorem sorted_unique {l l' : List Bytes} (h : l.Perm l')
    (hl : l.Pairwise fun a b => strcmpLe a b = true)
    (hl' : l'.Pairwise fun a b => strcmpLe a b = true) : l = l' :=
  List.Perm.eq_of_pairwise (fun a b _ _ => le_antisymm a b) hl hl' h

theorem sort_perm {l l' : List Bytes} (h : l.Perm l') : sortEntries l = sortEntries l' :=
  sorted_unique (((sortEntries_perm l).trans h).trans (sortEntries_perm l').symm)
    (sortEntries_sorted l) (sortEntries_sorted l')

/-! ### Finding -/

theorem find_none (ms : List Mod) (n : Bytes) : find ms n = none ↔ ¬ Has ms n := by
  induction ms with
  | nil => simp [find, Has]
  | cons m ms ih =>
    have hm : matchName m n = true ↔ m.file = fileOf n := by simp [matchName, fileOf, dotSuffix]
    unfold find
    by_cases h : matchName m n = true
    · rw [if_pos h]
      exact ⟨fun e => (nomatch e), fun e => absurd ⟨m, List.mem_cons_self, hm.1 h⟩ e⟩
    · rw [if_neg h, ih]
      constructor
      · rintro k ⟨x, hx, e⟩
        rcases List.mem_cons.1 hx with rfl | hx
        · exact h (hm.2 e)
        · exact k ⟨x, hx, e⟩
      · rintro k ⟨x, hx, e⟩
        exact k ⟨x, List.mem_cons_of_mem _ hx, e⟩

theorem find_some {ms : List Mod} {n : Bytes} {m : Mod} (h : find ms n = some m) :
    ∃ before after, ms = before ++ m :: after ∧ m.file = fileOf n ∧ ¬ Has before n := by
  induction ms with
  | nil => exact (nomatch h)
  | cons x ms ih =>
    have hm : matchName x n = true ↔ x.file = fileOf n := by simp [matchName, fileOf, dotSuffix]
    unfold find at h
    by_cases k : matchName x n = true
    · rw [if_pos k] at h
      cases h
      exact ⟨[], ms, rfl, hm.1 k, fun ⟨_, hx, _⟩ => (nomatch hx)⟩
    · rw [if_neg k] at h
      obtain ⟨b, a, e, f, g⟩ := ih h
      refine ⟨x :: b, a, by rw [e]; rfl, f, ?_⟩
      rintro ⟨y, hy, e'⟩
      rcases List.mem_cons.1 hy with rfl | hy
      · exact k (hm.2 e')
      · exact g ⟨y, hy, e'⟩

theorem find_append (as bs : List Mod) (n : Bytes) :
    find (as ++ bs) n = (find as n).or (find bs n) := by
  induction as with
  | nil => rfl
  | cons a as ih =>
    show (if matchName a n = true then some a else find (as ++ bs) n)
      = (if matchName a n = true then some a else find as n).or (find bs n)
    by_cases h : matchName a n = true
    · rw [if_pos h, if_pos h]; rfl
    · rw [if_neg h, if_neg h, ih]

/-! ### One entry -/

theorem suffix_fileOf (n : Bytes) : hasSuffix (fileOf n) suffix = true :=
  List.isSuffixOf_iff_suffix.2 ⟨n ++ [0x2e], by simp [fileOf, suffix]⟩

theorem dotSuffix_fileOf (n : Bytes) : hasSuffix (fileOf n) dotSuffix = true :=
  List.isSuffixOf_iff_suffix.2 ⟨n, rfl⟩

theorem exists_iff (d : Directory) (n : Bytes) : d.exists_ (fileOf n) = true ↔ Provides d n := by
  simp [Directory.exists_, Provides]

theorem load_file (d : Directory) (n : Bytes) :
    loadModule d (fileOf n)
      = if d.exists_ (fileOf n) = true then some ⟨d.path, fileOf n, n⟩ else none := by
  unfold loadModule
  rw [if_pos (suffix_fileOf n), if_pos (dotSuffix_fileOf n)]
  have : (fileOf n).take ((fileOf n).length - dotSuffix.length) = n := by
    simp [fileOf, dotSuffix]
  rw [this]

theorem load_other (d : Directory) {e : Bytes} (h : ∀ p, e ≠ p ++ [0x73, 0x6f])
    (k : fileOf e ∉ d.entries) : loadModule d e = none := by
  have hs : ¬ hasSuffix e suffix = true := by
    intro hc
    obtain ⟨t, ht⟩ := List.isSuffixOf_iff_suffix.1 hc
    exact h t ht.symm
  unfold loadModule
  rw [if_neg hs]
  have : ¬ d.exists_ (e ++ dotSuffix) = true := by
    intro hc
    exact k ((exists_iff d e).1 hc).1
  exact if_neg this

/-! ### All entries -/

/-- What an entry adds. -/
def fresh (d : Directory) (exist : List Mod) (e : Bytes) : Option Mod :=
  (loadModule d e).filter fun m => (find exist m.name).isNone

theorem loadEntries_eq (d : Directory) (exist : List Mod) (ms : List Mod) (es : List Bytes) :
    loadEntries d exist ms es = (es.filterMap (fresh d exist)).reverse ++ ms := by
  induction es generalizing ms with
  | nil => rfl
  | cons e es ih =>
    unfold loadEntries
    rw [List.filterMap_cons]
    cases h : loadModule d e with
    | none =>
      have : fresh d exist e = none := by simp [fresh, h]
      rw [this]; exact ih ms
    | some m =>
      cases k : find exist m.name with
      | some x =>
        have : fresh d exist e = none := by simp [fresh, h, k]
        rw [this]; dsimp only; rw [k]; exact ih ms
      | none =>
        have : fresh d exist e = some m := by simp [fresh, h, k]
        rw [this]; dsimp only; rw [k]; dsimp only; rw [ih]; simp

theorem fresh_iff {d : Directory} (h : Tidy d) (exist : List Mod) {e : Bytes} (he : e ∈ d.entries)
    (m : Mod) : fresh d exist e = some m ↔
      e = fileOf m.name ∧ m = ⟨d.path, fileOf m.name, m.name⟩ ∧ Provides d m.name
        ∧ ¬ Has exist m.name := by
  have inj : ∀ a b : Bytes, fileOf a = fileOf b → a = b := fun a b e => List.append_cancel_right e
  rcases h.2 e he with ⟨n, rfl⟩ | ⟨h1, h2⟩
  · unfold fresh
    rw [load_file]
    by_cases hp : Provides d n
    · rw [if_pos ((exists_iff d n).2 hp)]
      by_cases hh : Has exist n
      · have : find exist n ≠ none := fun hc => (find_none exist n).1 hc hh
        obtain ⟨x, hx⟩ := Option.ne_none_iff_exists'.1 this
        constructor
        · intro hc; simp [Option.filter, hx] at hc
        · rintro ⟨e1, _, _, e4⟩
          exact absurd (inj _ _ e1 ▸ hh) e4
      · have hf := (find_none exist n).2 hh
        constructor
        · intro hc
          simp only [Option.filter, hf, Option.isNone_none, if_true, Option.some.injEq] at hc
          subst hc
          exact ⟨rfl, rfl, hp, hh⟩
        · rintro ⟨e1, e2, _, _⟩
          rw [e2, ← inj _ _ e1]
          simp [Option.filter, hf]
    · rw [if_neg (fun hc => hp ((exists_iff d n).1 hc))]
      constructor
      · intro hc; exact (nomatch hc)
      · rintro ⟨e1, _, e3, _⟩
        exact absurd (inj _ _ e1 ▸ e3) hp
  · unfold fresh
    rw [load_other d h1 h2]
    constructor
    · intro hc; exact (nomatch hc)
    · rintro ⟨e1, _⟩
      exact absurd (by rw [e1]; simp [fileOf]) (h1 (m.name ++ [0x2e]))

theorem nodup_filterMap {α β : Type} (f : α → Option β) (l : List α) (h : l.Nodup)
    (inj : ∀ a ∈ l, ∀ b ∈ l, ∀ y, f a = some y → f b = some y → a = b) :
    (l.filterMap f).Nodup := by
  induction l with
  | nil => exact List.nodup_nil
  | cons a l ih =>
    rw [List.nodup_cons] at h
    have ih := ih h.2 (fun x hx y hy => inj x (List.mem_cons_of_mem _ hx) y (List.mem_cons_of_mem _ hy))
    rw [List.filterMap_cons]
    cases e : f a with
    | none => exact ih
    | some y =>
      refine List.nodup_cons.2 ⟨?_, ih⟩
      intro hc
      obtain ⟨b, hb, eb⟩ := List.mem_filterMap.1 hc
      exact h.1 (inj a List.mem_cons_self b (List.mem_cons_of_mem _ hb) y e eb ▸ hb)

theorem unique_eq (d : Directory) (ho : d.opens = true) (exist : List Mod) :
    loadModulesUnique d exist
      = ((sortEntries d.entries).filterMap (fresh d exist)).reverse ++ exist := by
  unfold loadModulesUnique
  rw [if_pos ho, loadEntries_eq, List.append_nil]

/-- C154, the part that does not depend on what the directory has in it: the order in which the
system lists the directory does not matter, what was loaded before stays, and finding a module
by its name gives the first one whose file has this name. -/
theorem C154_order :
    (∀ (d d' : Directory) (exist : List Mod), d.path = d'.path → d.opens = d'.opens →
      d.resolves = d'.resolves → d.entries.Perm d'.entries →
      loadModulesUnique d exist = loadModulesUnique d' exist) ∧
    (∀ (d : Directory) (exist : List Mod),
      ∃ new, loadModulesUnique d exist = new ++ exist ∧ (d.opens = false → new = [])) ∧
    (∀ (ms : List Mod) (n : Bytes), find ms n = none ↔ ¬ Has ms n) ∧
    (∀ (ms : List Mod) (n : Bytes) (m : Mod), find ms n = some m →
      ∃ before after, ms = before ++ m :: after ∧ m.file = fileOf n ∧ ¬ Has before n) := by
  refine ⟨?_, ?_, find_none, fun ms n m => find_some⟩
  · intro d d' exist hp ho hr he
    have hx : ∀ f, d.exists_ f = d'.exists_ f := by
      intro f
      have : d.entries.contains f = d'.entries.contains f := by
        rw [Bool.eq_iff_iff, List.contains_iff_mem, List.contains_iff_mem, he.mem_iff]
      simp only [Directory.exists_, this, hr]
    have hl : ∀ f, loadModule d f = loadModule d' f := by
      intro f
      simp only [loadModule, hx, hp]
    have hf : fresh d exist = fresh d' exist := by
      funext e; simp only [fresh, hl]
    cases h : d.opens with
    | true => rw [unique_eq d h, unique_eq d' (ho ▸ h), sort_perm he, hf]
    | false =>
      simp [loadModulesUnique, ← ho, h]
  · intro d exist
    cases h : d.opens with
    | true => exact ⟨_, unique_eq d h exist, fun e => (nomatch e)⟩
    | false => exact ⟨[], by simp [loadModulesUnique, h], fun _ => rfl⟩

/-- C154, for directories in which every name that ends in "so" ends in ".so", and in which
there is no file `n` beside `n.so`: each `n.so` gives one module `n`, unless one with this file
name was loaded before; nothing else is loaded; every module can be found by its name; and
loading the directory again changes nothing.  A module is loaded by its name with and without
the suffix. -/
theorem C154_partial (d : Directory) (h : Tidy d) (ho : d.opens = true) (exist : List Mod) :
    (∃ new, loadModulesUnique d exist = new ++ exist ∧ new.Nodup ∧
      ∀ m, m ∈ new ↔ m = ⟨d.path, fileOf m.name, m.name⟩ ∧ Provides d m.name
        ∧ ¬ Has exist m.name) ∧
    (∀ n, Has exist n → find (loadModulesUnique d exist) n = find exist n) ∧
    (∀ n, ¬ Has exist n → Provides d n →
      find (loadModulesUnique d exist) n = some ⟨d.path, fileOf n, n⟩) ∧
    (∀ n, ¬ Has exist n → ¬ Provides d n → find (loadModulesUnique d exist) n = none) ∧
    loadModulesUnique d (loadModulesUnique d exist) = loadModulesUnique d exist ∧
    (∀ n, loadModule d (fileOf n) = some ⟨d.path, fileOf n, n⟩ ↔ Provides d n) ∧
    (∀ n, (∀ p, n ≠ p ++ [0x73, 0x6f]) → loadModule d n = loadModule d (fileOf n)) := by
  have hs : ∀ e, e ∈ sortEntries d.entries ↔ e ∈ d.entries :=
    fun e => (sortEntries_perm d.entries).mem_iff
  have hmem : ∀ (ex : List Mod) (m : Mod),
      m ∈ ((sortEntries d.entries).filterMap (fresh d ex)).reverse ↔
        m = ⟨d.path, fileOf m.name, m.name⟩ ∧ Provides d m.name ∧ ¬ Has ex m.name := by
    intro ex m
    rw [List.mem_reverse, List.mem_filterMap]
    constructor
    · rintro ⟨e, he, k⟩
      exact ((fresh_iff h ex ((hs e).1 he) m).1 k).2
    · rintro ⟨k1, k2, k3⟩
      have he : fileOf m.name ∈ d.entries := k2.1
      exact ⟨fileOf m.name, (hs _).2 he, (fresh_iff h ex he m).2 ⟨rfl, k1, k2, k3⟩⟩
  have hu := unique_eq d ho
  have old : ∀ n, Has exist n → find (loadModulesUnique d exist) n = find exist n := by
    intro n hn
    rw [hu, find_append]
    have : find ((sortEntries d.entries).filterMap (fresh d exist)).reverse n = none := by
      rw [find_none]
      rintro ⟨m, hm, e⟩
      obtain ⟨k1, _, k3⟩ := (hmem exist m).1 hm
      have : m.name = n := List.append_cancel_right ((congrArg Mod.file k1).symm.trans e)
      exact k3 (this ▸ hn)
    rw [this]; rfl
  have new : ∀ n, ¬ Has exist n → Provides d n →
      find (loadModulesUnique d exist) n = some ⟨d.path, fileOf n, n⟩ := by
    intro n hn hp
    have hin : (⟨d.path, fileOf n, n⟩ : Mod)
        ∈ ((sortEntries d.entries).filterMap (fresh d exist)).reverse :=
      (hmem exist _).2 ⟨rfl, hp, hn⟩
    rw [hu, find_append]
    cases k : find ((sortEntries d.entries).filterMap (fresh d exist)).reverse n with
    | none => exact absurd ⟨_, hin, rfl⟩ ((find_none _ n).1 k)
    | some m =>
      obtain ⟨b, a, e, f, _⟩ := find_some k
      have hm : m ∈ ((sortEntries d.entries).filterMap (fresh d exist)).reverse := by
        rw [e]; simp
      obtain ⟨k1, _, _⟩ := (hmem exist m).1 hm
      have : m.name = n := List.append_cancel_right ((congrArg Mod.file k1).symm.trans f)
      rw [k1, this]; rfl
  refine ⟨⟨_, hu exist, ?_, hmem exist⟩, old, new, ?_, ?_, ?_, ?_⟩
  · rw [List.nodup_reverse]
    refine nodup_filterMap _ _ ((sortEntries_perm _).nodup_iff.2 h.1) ?_
    intro a ha b hb y ea eb
    rw [((fresh_iff h exist ((hs a).1 ha) y).1 ea).1, ((fresh_iff h exist ((hs b).1 hb) y).1 eb).1]
  · intro n hn hp
    rw [find_none]
    rintro ⟨m, hm, e⟩
    rw [hu, List.mem_append] at hm
    rcases hm with hm | hm
    · obtain ⟨k1, k2, _⟩ := (hmem exist m).1 hm
      have : m.name = n := List.append_cancel_right ((congrArg Mod.file k1).symm.trans e)
      exact hp (this ▸ k2)
    · exact hn ⟨m, hm, e⟩
  · rw [hu (loadModulesUnique d exist)]
    have : ((sortEntries d.entries).filterMap (fresh d (loadModulesUnique d exist))).reverse
        = [] := by
      apply List.eq_nil_iff_forall_not_mem.2
      intro m hm
      obtain ⟨_, k2, k3⟩ := (hmem _ m).1 hm
      by_cases hx : Has exist m.name
      · have := old _ hx
        exact (find_none exist m.name).1 (this ▸ (find_none _ _).2 k3) hx
      · have := new _ hx k2
        rw [(find_none _ _).2 k3] at this
        exact (nomatch this)
    rw [this]; rfl
  · intro n
    rw [load_file]
    by_cases hp : Provides d n
    · rw [if_pos ((exists_iff d n).2 hp)]; exact ⟨fun _ => hp, fun _ => rfl⟩
    · rw [if_neg (fun hc => hp ((exists_iff d n).1 hc))]
      exact ⟨fun e => (nomatch e), fun e => absurd e hp⟩
  · intro n hn
    rw [load_file]
    have hs : ¬ hasSuffix n suffix = true := by
      intro hc
      obtain ⟨t, ht⟩ := List.isSuffixOf_iff_suffix.1 hc
      exact hn t ht.symm
    have hd : ¬ hasSuffix n dotSuffix = true := by
      intro hc
      obtain ⟨t, ht⟩ := List.isSuffixOf_iff_suffix.1 hc
      exact hn (t ++ [0x2e]) (by rw [← ht]; simp [dotSuffix])
    unfold loadModule
    rw [if_neg hs, if_neg hd]
    rfl

/-- "a", "a.so", "also" and so on. -/
def file (s : String) : Bytes := s.toUTF8.toList

/-- A directory with these names. -/
def dir (es : List String) : Directory := ⟨file "/m", true, es.map file, fun _ => true⟩

/-- `Tidy` for a directory as a test. -/
theorem tidy_of {d : Directory} (hn : d.entries.Nodup)
    (h : ∀ e ∈ d.entries, hasSuffix e dotSuffix = true ∨
      (hasSuffix e suffix = false ∧ fileOf e ∉ d.entries)) : Tidy d := by
  refine ⟨hn, fun e he => ?_⟩
  rcases h e he with k | ⟨k1, k2⟩
  · obtain ⟨t, ht⟩ := List.isSuffixOf_iff_suffix.1 k
    exact .inl ⟨t, ht.symm⟩
  · refine .inr ⟨fun p e' => ?_, k2⟩
    have : hasSuffix e suffix = true := List.isSuffixOf_iff_suffix.2 ⟨p, e'.symm⟩
    rw [k1] at this
    exact (nomatch this)

/-- A directory with libtool's files, of whose two modules one was loaded before. -/
example :
    Tidy (dir ["b.so", "b.la", "a.so", "README"]) ∧
    loadModulesUnique (dir ["b.so", "b.la", "a.so", "README"]) [⟨file "/n", file "a.so", file "a"⟩]
      = [⟨file "/m", file "b.so", file "b"⟩, ⟨file "/n", file "a.so", file "a"⟩] ∧
    collectNames (loadModules (dir ["b.so", "b.la", "a.so", "README"])) = [file "a", file "b"] :=
  ⟨tidy_of (by decide +kernel) (by decide +kernel), by decide +kernel, by decide +kernel⟩

/-- C154 is violated: with a file `a` beside `a.so`, the module is loaded twice. -/
theorem C154_twice_violated :
    collectNames (loadModules (dir ["a", "a.so"])) = [file "a", file "a"] := by decide +kernel

/-- C154 is violated: a file whose name ends in "so" without a dot is loaded under its whole
name, under which it cannot be found, so that it is loaded again each time. -/
theorem C154_dot_violated :
    collectNames (loadModules (dir ["also"])) = [file "also"] ∧
    find (loadModules (dir ["also"])) (file "also") = none ∧
    collectNames (loadModulesUnique (dir ["also"]) (loadModules (dir ["also"])))
      = [file "also", file "also"] := by decide +kernel

/-- C154 is violated: a module whose name ends in "so" is not found by its name alone. -/
theorem C154_name_violated :
    loadModule (dir ["also.so"]) (file "also") = none ∧
    loadModule (dir ["also.so"]) (file "also.so")
      = some ⟨file "/m", file "also.so", file "also"⟩ := by decide +kernel

end Verif.Props.Module
