import Mathlib.Data.List.Basic
import Mathlib.Data.List.Nodup
import Mathlib.Data.List.TakeWhile
import Verif.Spec.Statistics
import Verif.Props.Testing
/-!
C157: milter-report-statistics reports the processes it was asked for.
-/
namespace Verif.Props.Statistics

open Verif Verif.Tool.Statistics Verif.Spec.Statistics
open Verif.Testing (lines chomp space)
open Verif.Props.Testing (lines_many chomp_line)

theorem takeWhile_stop (k r : Bytes) (h : 0x3a ∉ k) : (k ++ 0x3a :: r).takeWhile (· ≠ 0x3a) = k := by
  induction k with
  | nil => rfl
  | cons a k ih =>
    have ha : a ≠ 0x3a := fun e => h (e ▸ List.mem_cons_self)
    simp only [List.cons_append, List.takeWhile_cons, decide_eq_true ha, if_true]
    rw [ih (fun e => h (List.mem_cons_of_mem _ e))]

theorem dropWhile_stop (k r : Bytes) (h : 0x3a ∉ k) :
    (k ++ 0x3a :: r).dropWhile (· ≠ 0x3a) = 0x3a :: r := by
  induction k with
  | nil => rfl
  | cons a k ih =>
    have ha : a ≠ 0x3a := fun e => h (e ▸ List.mem_cons_self)
    simp only [List.cons_append, List.dropWhile_cons, decide_eq_true ha, if_true]
    exact ih (fun e => h (List.mem_cons_of_mem _ e))

theorem rstrip_none (k : Bytes) (h : ∀ b ∈ k, space b = false) :
    (k.reverse.dropWhile space).reverse = k := by
  cases e : k.reverse with
  | nil => rw [List.reverse_eq_nil_iff] at e; subst e; rfl
  | cons b l =>
    have hb : b ∈ k := by rw [← List.mem_reverse, e]; exact List.mem_cons_self
    rw [List.dropWhile_cons, h b hb]
    show (b :: l).reverse = k
    rw [← e, List.reverse_reverse]

theorem split_field (f : Bytes × Bytes) (hk : 0x3a ∉ f.1) (hs : ∀ b ∈ f.1, space b = false)
    (hl : f.2.getLast? ≠ some 0x0d) :
    splitField (f.1 ++ 0x3a :: f.2 ++ [0x0a]) = (some f.1, some (f.2.dropWhile space)) := by
  have hc : chomp (f.1 ++ 0x3a :: f.2 ++ [0x0a]) = f.1 ++ 0x3a :: f.2 := by
    apply chomp_line
    rw [List.getLast?_append]
    cases e : f.2 with
    | nil => simp
    | cons a l =>
      rw [e] at hl
      rw [List.getLast?_cons_cons]
      cases k : (a :: l).getLast? with
      | none => simp at k
      | some x => rw [k] at hl; exact hl
  unfold splitField
  simp only [hc]
  rw [if_neg (by simp), if_pos (by simp), takeWhile_stop _ _ hk, dropWhile_stop _ _ hk, rstrip_none _ hs]
  rfl

theorem lookup_reverse (fs : List (Bytes × Bytes)) (h : (fs.map (·.1)).Nodup) (k : Bytes) :
    ((fs.map fun f => (some f.1, some (f.2.dropWhile space))).reverse.lookup (some k)).join
      = (fs.lookup k).map (·.dropWhile space) := by
  induction fs with
  | nil => rfl
  | cons f fs ih =>
    rw [List.map_cons, List.nodup_cons] at h
    rw [List.map_cons, List.reverse_cons, List.lookup_append]
    have ih := ih h.2
    by_cases e : k = f.1
    · subst e
      have hn : ((fs.map fun f => (some f.1, some (f.2.dropWhile space))).reverse.lookup (some f.1)) = none := by
        rw [List.lookup_eq_none_iff]
        intro p hp
        rw [List.mem_reverse, List.mem_map] at hp
        obtain ⟨g, hg, rfl⟩ := hp
        rw [bne_iff_ne]
        intro eg
        exact h.1 (List.mem_map.2 ⟨g, hg, (Option.some.inj eg).symm⟩)
      rw [hn]
      simp [List.lookup]
    · have hb : (k == f.1) = false := beq_eq_false_iff_ne.2 e
      have hb' : ((some k : Option Bytes) == some f.1) = false := beq_eq_false_iff_ne.2 (fun x => e (Option.some.inj x))
      have hr : (f :: fs).lookup k = fs.lookup k := by rw [List.lookup_cons, hb]
      rw [hr, ← ih, List.lookup_cons, hb']
      show (Option.or _ none).join = _
      rw [Option.or_none]

theorem value_shown {p : Real} (h : p.Proper) (k : Bytes) :
    lookup (parseStatus (p.shown.status.getD [])) k = p.value k := by
  have hl : lines (p.fields.flatMap fun f => f.1 ++ 0x3a :: f.2 ++ [0x0a])
      = p.fields.map fun f => f.1 ++ 0x3a :: f.2 ++ [0x0a] := by
    have := lines_many (p.fields.map fun f => f.1 ++ 0x3a :: f.2) (by
      intro l hl
      obtain ⟨f, hf, rfl⟩ := List.mem_map.1 hl
      simp only [List.mem_append, List.mem_cons, not_or]
      refine ⟨fun hc => ?_, by decide, (h.values f hf).1⟩
      have := (h.keys f hf).2.2 _ hc
      exact absurd this (by decide)) []
    simpa [List.flatMap_map, lines, Function.comp_def] using this
  unfold lookup parseStatus
  show (((lines (p.fields.flatMap _)).map splitField).reverse.lookup (some k)).join = _
  rw [hl, List.map_map]
  have : p.fields.map (splitField ∘ fun f => f.1 ++ 0x3a :: f.2 ++ [0x0a])
      = p.fields.map fun f => (some f.1, some (f.2.dropWhile space)) := by
    apply List.map_congr_left
    intro f hf
    exact split_field f (h.keys f hf).2.1 (h.keys f hf).2.2 (h.values f hf).2
  rw [this]
  exact lookup_reverse p.fields h.once k

theorem pieces_arg (a : Bytes) (h : (0 : UInt8) ∉ a) (rest : Bytes) :
    pieces (a ++ 0 :: rest) = a :: pieces rest := by
  induction a with
  | nil => show (if (0 : UInt8) = 0 then _ else _) = _; rw [if_pos rfl]
  | cons b a ih =>
    have hb : b ≠ 0 := fun e => h (e ▸ List.mem_cons_self)
    rw [List.cons_append, pieces, if_neg hb, ih (fun e => h (List.mem_cons_of_mem _ e))]

theorem pieces_args (as : List Bytes) (h : ∀ a ∈ as, (0 : UInt8) ∉ a) :
    pieces (as.flatMap fun a => a ++ [0]) = as ++ [[]] := by
  induction as with
  | nil => rfl
  | cons a as ih =>
    rw [List.flatMap_cons, List.append_assoc]
    show pieces (a ++ 0 :: (as.flatMap fun a => a ++ [0])) = _
    rw [pieces_arg a (h a List.mem_cons_self), ih (fun x hx => h x (List.mem_cons_of_mem _ hx))]
    rfl

theorem commandLine_shown {p : Real} (h : p.Proper) : commandLine p.shown = p.args := by
  unfold commandLine
  show ((pieces (p.args.flatMap fun a => a ++ [0])).reverse.dropWhile (· = [])).reverse = _
  rw [pieces_args _ h.args, List.reverse_append]
  show ((p.args.reverse).dropWhile (· = [])).reverse = _
  have hl := h.last
  cases e : p.args.reverse with
  | nil => rw [List.reverse_eq_nil_iff] at e; rw [e]; rfl
  | cons b l =>
    have hb : b ≠ [] := by
      intro hb
      rw [← List.head?_reverse, e, hb] at hl
      exact hl rfl
    rw [List.dropWhile_cons, decide_eq_false hb]
    show (b :: l).reverse = _
    rw [← e, List.reverse_reverse]

theorem joined_words (as : List Bytes) : joined as = words as := by
  induction as with
  | nil => rfl
  | cons a as ih =>
    cases as with
    | nil => rfl
    | cons b bs =>
      show a ++ 0x20 :: joined (b :: bs) = a ++ [0x20] ++ words (b :: bs)
      rw [ih]; simp

theorem isTarget_iff (targets : List Bytes) (n : Bytes) :
    isTarget targets n = true ↔ n ≠ [] ∧ ∃ t ∈ targets, n = t ∨ n = [0x6c, 0x74, 0x2d] ++ t := by
  unfold isTarget
  by_cases h : n = []
  · rw [if_pos h]
    exact ⟨fun e => (nomatch e), fun e => absurd h e.1⟩
  · rw [if_neg h]
    have hs : ∀ t, ((if lt.isPrefixOf n then n.drop lt.length else n) = t ∨ n = t)
        ↔ (n = t ∨ n = [0x6c, 0x74, 0x2d] ++ t) := by
      intro t
      by_cases hp : lt.isPrefixOf n = true
      · rw [if_pos hp]
        obtain ⟨r, hr⟩ := List.isPrefixOf_iff_prefix.1 hp
        have hd : n.drop lt.length = r := by rw [← hr, List.drop_left]
        rw [hd]
        constructor
        · rintro (e | e)
          · right; rw [← e, ← hr]; rfl
          · exact .inl e
        · rintro (e | e)
          · exact .inr e
          · left
            rw [← hr] at e
            exact List.append_cancel_left e
      · rw [if_neg hp]
        constructor
        · rintro (e | e) <;> exact .inl e
        · rintro (e | e)
          · exact .inl e
          · exact absurd (List.isPrefixOf_iff_prefix.2 ⟨t, e.symm⟩) hp
    simp only [List.any_eq_true, Bool.or_eq_true, beq_iff_eq]
    constructor
    · rintro ⟨t, ht, e⟩
      exact ⟨h, t, ht, (hs t).1 e.symm⟩
    · rintro ⟨_, t, ht, e⟩
      exact ⟨t, ht, ((hs t).2 e).symm⟩

theorem wanted_iff {p : Real} (h : p.Proper) (own : Bytes) (targets : List Bytes)
    (filters : List (Bytes → Bool)) :
    wanted own targets filters p.shown = true ↔ Reported own targets filters p := by
  unfold wanted Reported
  rw [value_shown h, commandLine_shown h, joined_words]
  by_cases h1 : p.value [0x50, 0x69, 0x64] = some own
  · rw [if_pos h1]
    exact ⟨fun e => (nomatch e), fun e => absurd h1 e.1⟩
  · rw [if_neg h1]
    have ht := isTarget_iff targets (name p.shown)
    have hn : name p.shown = basename (p.args.head?.getD []) := by
      unfold name; rw [commandLine_shown h]
    have hx : (name p.shown ≠ [] ∧ ∃ t ∈ targets, name p.shown = t ∨ name p.shown = [0x6c, 0x74, 0x2d] ++ t) ↔
        (∃ program ∈ p.args.head?, basename program ≠ [] ∧
          ∃ t ∈ targets, basename program = t ∨ basename program = [0x6c, 0x74, 0x2d] ++ t) := by
      rw [hn]
      cases p.args.head? with
      | none =>
        constructor
        · intro e; exact absurd rfl e.1
        · rintro ⟨x, hx, _⟩; exact (nomatch hx)
      | some a =>
        constructor
        · intro e; exact ⟨a, rfl, e⟩
        · rintro ⟨x, hx, e⟩; cases hx; exact e
    by_cases h2 : isTarget targets (name p.shown) = true
    · rw [h2]
      simp only [Bool.not_true, Bool.false_eq_true, if_false, List.all_eq_true]
      exact ⟨fun e => ⟨h1, hx.1 (ht.1 h2), e⟩, fun e => e.2.2⟩
    · rw [Bool.not_eq_true] at h2
      rw [h2]
      simp only [Bool.not_false, if_true]
      refine ⟨fun e => (nomatch e), fun e => ?_⟩
      have := ht.2 (hx.2 e.2.1)
      rw [h2] at this
      exact (nomatch this)

theorem retrieve_nil (top : Top) (y : Bytes) : retrieve top [] (some y) = none := by
  show (if y ∈ ([] : List Bytes) then top y else none) = none
  rw [if_neg List.not_mem_nil]

open Classical in
/-- C157, without `--pid` on Linux: the report has one line for each process that is asked for, in the order of
/proc, and "not found" if there is none; each line has the id, the sizes and the command line of its process.
Missing: the columns of the processor time are empty, and there are two files too many; `--pid` (below).  -/
theorem C157_partial (top : Top) (own : Bytes) (targets : List Bytes) (filters : List (Bytes → Bool))
    (ps : List Real) (h : ∀ p ∈ ps, p.Proper) :
    report top own targets filters [] (ps.map Real.shown)
      = (if ps.filter (fun p => decide (Reported own targets filters p)) = [] then .notFound
        else .rows ((ps.filter fun p => decide (Reported own targets filters p)).map fun p =>
          ⟨p.value [0x50, 0x69, 0x64], p.value [0x56, 0x6d, 0x53, 0x69, 0x7a, 0x65],
            p.value [0x56, 0x6d, 0x52, 0x53, 0x53], none, none, p.fds.length + 2, words p.args⟩)) ∧
    (∀ d b : Bytes, b ≠ [] → 0x2f ∉ b → basename (d ++ 0x2f :: b) = b ∧ basename b = b) := by
  constructor
  · have hf : (ps.map Real.shown).filter (wanted own targets filters)
        = (ps.filter fun p => decide (Reported own targets filters p)).map Real.shown := by
      rw [List.filter_map]
      congr 1
      apply List.filter_congr
      intro p hp
      rw [Bool.eq_iff_iff, decide_eq_true_eq]
      exact wanted_iff (h p hp) own targets filters
    unfold report
    rw [if_pos rfl]
    dsimp only
    rw [hf]
    by_cases e : ps.filter (fun p => decide (Reported own targets filters p)) = []
    · rw [if_pos e, e]; rfl
    · rw [if_neg e, if_neg (by simpa using e), List.map_map]
      congr 1
      apply List.map_congr_left
      intro p hp
      have hp := h p (List.mem_filter.1 hp).1
      show row top _ p.shown = _
      unfold row
      simp only [value_shown hp, commandLine_shown hp, joined_words]
      have : ∀ x, retrieve top (topPids ((ps.filter fun p => decide (Reported own targets filters p)).map
          Real.shown)) x = none := by
        intro x
        cases x with
        | none => rfl
        | some y => exact retrieve_nil top y
      simp only [this]
      rfl
  · intro d b hb hs
    have h1 : ∀ r : Bytes, ((r ++ b).reverse.dropWhile (· = 0x2f)).reverse = r ++ b := by
      intro r
      rw [List.reverse_append]
      cases e : b.reverse with
      | nil => exact absurd (List.reverse_eq_nil_iff.1 e) hb
      | cons x l =>
        have hx : x ∈ b := by rw [← List.mem_reverse, e]; exact List.mem_cons_self
        have hne : x ≠ 0x2f := fun e' => hs (e' ▸ hx)
        rw [List.cons_append, List.dropWhile_cons, decide_eq_false hne]
        show (x :: (l ++ r.reverse)).reverse = _
        rw [← List.cons_append, ← e, List.reverse_append, List.reverse_reverse, List.reverse_reverse]
    have h2 : ∀ (l : Bytes) (r : Bytes), 0x2f ∉ l → (l ++ 0x2f :: r).takeWhile (· ≠ 0x2f) = l := by
      intro l r hl
      induction l with
      | nil => rfl
      | cons a l ih =>
        have ha : a ≠ 0x2f := fun e => hl (e ▸ List.mem_cons_self)
        simp only [List.cons_append, List.takeWhile_cons, decide_eq_true ha, if_true]
        rw [ih (fun e => hl (List.mem_cons_of_mem _ e))]
    have hr : 0x2f ∉ b.reverse := fun e => hs (List.mem_reverse.1 e)
    constructor
    · have h1 := h1 (d ++ [0x2f])
      rw [List.append_assoc] at h1
      change ((d ++ 0x2f :: b).reverse.dropWhile (· = 0x2f)).reverse = d ++ 0x2f :: b at h1
      unfold basename
      simp only [h1]
      rw [if_neg (by simp)]
      have : (d ++ 0x2f :: b).reverse = b.reverse ++ 0x2f :: d.reverse := by simp
      rw [this, h2 _ _ hr, List.reverse_reverse]
    · have h1 := h1 []
      rw [List.nil_append] at h1
      unfold basename
      simp only [h1]
      rw [if_neg hb]
      have : b.reverse.takeWhile (· ≠ 0x2f) = b.reverse := by
        exact List.takeWhile_eq_self_iff.2 (fun x hx => decide_eq_true (fun e => hr (e ▸ hx)))
      rw [this, List.reverse_reverse]

/-- C157 is violated: whatever `top` says, the columns of the processor time are empty. -/
theorem C157_cpu_violated (top : Top) (own : Bytes) (targets : List Bytes) (filters : List (Bytes → Bool))
    (ps : List Process) (rs : List Row) (h : report top own targets filters [] ps = .rows rs) :
    ∀ r ∈ rs, r.cpuPercent = none ∧ r.cpuTime = none := by
  unfold report at h
  rw [if_pos rfl] at h
  dsimp only at h
  split at h
  · exact (nomatch h)
  · cases h
    intro r hr
    obtain ⟨p, _, rfl⟩ := List.mem_map.1 hr
    have : ∀ x, retrieve top (topPids (ps.filter (wanted own targets filters))) x = none := by
      intro x
      cases x with
      | none => rfl
      | some y => exact retrieve_nil top y
    unfold row
    simp only [this]
    exact ⟨rfl, rfl⟩

/-- C157 is violated: with `--pid`, or `--pid-directory` with a file, it ends with an error. -/
theorem C157_pid_violated (top : Top) (own : Bytes) (targets : List Bytes) (filters : List (Bytes → Bool))
    (pid : Bytes) (pids : List Bytes) (ps : List Process) :
    report top own targets filters (pid :: pids) ps = .raised := rfl

/-- milter-manager, one open file, and a process that is not asked for; C157 is violated: the file is
counted as three. -/
theorem C157_fds_violated :
    let p : Real := ⟨[([0x50, 0x69, 0x64], [0x09, 0x37]), ([0x56, 0x6d, 0x53, 0x69, 0x7a, 0x65], [0x09, 0x20, 0x31, 0x20, 0x6b, 0x42])],
      [[0x2f, 0x61], [0x2d, 0x62]], [[0x30]]⟩
    let q : Real := ⟨[([0x50, 0x69, 0x64], [0x09, 0x38])], [[0x63]], []⟩
    p.Proper ∧ q.Proper ∧
    report (fun _ => none) [0x39] [[0x61]] [] [] [p.shown, q.shown]
      = .rows [⟨some [0x37], some [0x31, 0x20, 0x6b, 0x42], none, none, none, 3, [0x2f, 0x61, 0x20, 0x2d, 0x62]⟩] ∧
    p.fds.length = 1 := by
  intro p q
  exact ⟨⟨by decide, by decide, by decide, by decide, by decide⟩,
    ⟨by decide, by decide, by decide, by decide, by decide⟩, by decide +kernel, rfl⟩

end Verif.Props.Statistics
