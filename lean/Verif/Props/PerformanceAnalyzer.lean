import Mathlib.Data.List.Basic
import Verif.Tool.PerformanceAnalyzer
import Verif.Props.Testing
/-!
C162: milter-performance-analyzer reads the periodical report of milter-performance-check.
-/
namespace Verif.Props.PerformanceAnalyzer

open Verif Verif.Tool.PerformanceAnalyzer
open Verif.Testing (lines chomp space)
open Verif.Props.Testing (lines_many chomp_line)

/-- Items with spaces before them, one between them, as `%8s %5s …` makes them. -/
def columns : List (Nat × Bytes) → Bytes
  | [] => []
  | [(p, x)] => List.replicate p 0x20 ++ x
  | (p, x) :: y :: r => List.replicate p 0x20 ++ x ++ 0x20 :: columns (y :: r)

/-- Two digits. -/
def two (n : Nat) : Bytes := [UInt8.ofNat (0x30 + n / 10), UInt8.ofNat (0x30 + n % 10)]

/-- The time of day, `%H:%M:%S`; `t` is in seconds since the midnight before the first report. -/
def clockText (t : Nat) : Bytes := two (t / 3600 % 24) ++ 0x3a :: two (t / 60 % 60) ++ 0x3a :: two (t % 60)

/-- A line of the report: when, and what; the spaces before each item. -/
structure Entry where
  time : Nat
  sent : Bytes
  rate : Bytes
  max : Bytes
  min : Bytes
  avg : Bytes
  others : List Bytes
  pads : Nat → Nat

/-- A text without white space. -/
def Word (x : Bytes) : Prop := x ≠ [] ∧ ∀ b ∈ x, space b = false

def Entry.items (e : Entry) : List Bytes := clockText e.time :: e.sent :: e.rate :: e.max :: e.min :: e.avg :: e.others

def Entry.Proper (e : Entry) : Prop := (∀ x ∈ [e.sent, e.rate, e.max, e.min, e.avg], Word x) ∧
  (∀ x ∈ e.others, Word x) ∧ e.others.length = 3

def padded (pads : Nat → Nat) : List Bytes → List (Nat × Bytes)
  | [] => []
  | x :: xs => (pads xs.length, x) :: padded pads xs

/-- The names of the columns of the report (milter-performance-check:291-292): "Time", "Sent", "mails/s", "Max(s)",
"Min(s)", "Avg(s)", "4XX", "5XX", "Error". -/
def names : List Bytes := [[0x54, 0x69, 0x6d, 0x65], [0x53, 0x65, 0x6e, 0x74], [0x6d, 0x61, 0x69, 0x6c, 0x73, 0x2f, 0x73],
  [0x4d, 0x61, 0x78, 0x28, 0x73, 0x29], [0x4d, 0x69, 0x6e, 0x28, 0x73, 0x29], [0x41, 0x76, 0x67, 0x28, 0x73, 0x29],
  [0x34, 0x58, 0x58], [0x35, 0x58, 0x58], [0x45, 0x72, 0x72, 0x6f, 0x72]]

/-- The report: the names, the entries, and an empty line before anything else. -/
def reportText (pads : Nat → Nat) (es : List Entry) (rest : Bytes) : Bytes :=
  columns (padded pads names) ++ 0x0a :: (es.flatMap fun e => columns (padded e.pads e.items) ++ [0x0a]) ++ 0x0a :: rest

theorem cut_word (x rest : Bytes) (h : ∀ b ∈ x, space b = false) (c : UInt8) (hc : space c = true) :
    cut (x ++ c :: rest) = x :: cut rest := by
  induction x with
  | nil => rw [List.nil_append, cut, if_pos hc]
  | cons b l ih =>
    have hb := h b List.mem_cons_self
    rw [List.cons_append, cut, hb, ih (fun y hy => h y (List.mem_cons_of_mem _ hy))]
    rfl

theorem cut_end (x : Bytes) (h : ∀ b ∈ x, space b = false) : cut x = [x] := by
  induction x with
  | nil => rfl
  | cons b l ih =>
    rw [cut, h b List.mem_cons_self, ih (fun y hy => h y (List.mem_cons_of_mem _ hy))]
    rfl

theorem words_pad (p : Nat) (s : Bytes) : words (List.replicate p 0x20 ++ s) = words s := by
  induction p with
  | zero => rfl
  | succ p ih =>
    rw [List.replicate_succ, List.cons_append]
    have : words (0x20 :: (List.replicate p 0x20 ++ s)) = words (List.replicate p 0x20 ++ s) := by
      unfold words
      rw [cut, if_pos (by decide)]
      rfl
    rw [this, ih]

theorem words_end (x : Bytes) (h : Word x) (tail : Bytes) (ht : tail = [] ∨ tail = [0x0a]) : words (x ++ tail) = [x] := by
  rcases ht with rfl | rfl
  · rw [List.append_nil]
    unfold words
    rw [cut_end x h.2, List.filter_cons_of_pos (by simpa using h.1)]
    rfl
  · unfold words
    rw [cut_word x [] h.2 0x0a (by decide), List.filter_cons_of_pos (by simpa using h.1)]
    rfl

theorem words_columns (items : List (Nat × Bytes)) (h : ∀ i ∈ items, Word i.2) (tail : Bytes)
    (ht : tail = [] ∨ tail = [0x0a]) : words (columns items ++ tail) = items.map (·.2) := by
  induction items with
  | nil =>
    rcases ht with rfl | rfl
    · rfl
    · decide
  | cons i r ih =>
    obtain ⟨p, x⟩ := i
    have hx : Word x := h (p, x) List.mem_cons_self
    have ih := ih (fun j hj => h j (List.mem_cons_of_mem _ hj))
    cases r with
    | nil =>
      show words (List.replicate p 0x20 ++ x ++ tail) = [x]
      rw [List.append_assoc, words_pad]
      exact words_end x hx tail ht
    | cons y r =>
      show words (List.replicate p 0x20 ++ x ++ 0x20 :: columns (y :: r) ++ tail) = x :: (y :: r).map (·.2)
      rw [← ih, List.append_assoc, List.append_assoc, words_pad]
      show words (x ++ 0x20 :: (columns (y :: r) ++ tail)) = _
      unfold words
      rw [cut_word x _ hx.2 0x20 (by decide), List.filter_cons_of_pos (by simpa using hx.1)]

theorem padded_items (pads : Nat → Nat) (xs : List Bytes) : (padded pads xs).map (·.2) = xs := by
  induction xs with
  | nil => rfl
  | cons x xs ih => rw [padded, List.map_cons, ih]

theorem padded_word (pads : Nat → Nat) (xs : List Bytes) (h : ∀ x ∈ xs, Word x) : ∀ i ∈ padded pads xs, Word i.2 := by
  intro i hi
  have : i.2 ∈ (padded pads xs).map (·.2) := List.mem_map_of_mem hi
  rw [padded_items] at this
  exact h _ this

theorem ofNat_toNat (n : Nat) (h : n < 256) : (UInt8.ofNat n).toNat = n := by
  rw [UInt8.toNat_ofNat']
  exact Nat.mod_eq_of_lt h

theorem digit (d : Nat) (h : d < 10) : ∀ b, b = UInt8.ofNat (0x30 + d) →
    ((0x30 : UInt8) ≤ b && b ≤ 0x39) = true ∧ b.toNat - 0x30 = d ∧ b ≠ 0x3a ∧ space b = false ∧ b ≠ 0x0a := by
  intro b hb
  have hn : b.toNat = 0x30 + d := by rw [hb]; exact ofNat_toNat _ (by omega)
  have ne : ∀ c : UInt8, c.toNat < 0x30 ∨ 0x39 < c.toNat → b ≠ c := by
    intro c hc e
    rw [e] at hn; omega
  refine ⟨?_, by omega, ne _ (by decide), ?_, ne _ (by decide)⟩
  · rw [Bool.and_eq_true, decide_eq_true_eq, decide_eq_true_eq, UInt8.le_iff_toNat_le, UInt8.le_iff_toNat_le, hn]
    have h1 : (0x30 : UInt8).toNat = 0x30 := rfl
    have h2 : (0x39 : UInt8).toNat = 0x39 := rfl
    omega
  · unfold space
    rw [Bool.or_eq_false_iff]
    refine ⟨beq_eq_false_iff_ne.2 (ne _ (by decide)), ?_⟩
    rw [Bool.and_eq_false_iff]
    right
    rw [decide_eq_false_iff_not, UInt8.le_iff_toNat_le, hn]
    have h1 : (0x0d : UInt8).toNat = 0x0d := rfl
    omega

theorem toI_two (n : Nat) (h : n < 100) : toI (two n) = n := by
  have a := digit (n / 10) (by omega) _ rfl
  have b := digit (n % 10) (by omega) _ rfl
  unfold toI two
  rw [List.takeWhile_cons, if_pos a.1, List.takeWhile_cons, if_pos b.1]
  show 10 * (10 * 0 + _) + _ = n
  rw [a.2.1, b.2.1]
  omega

theorem two_all (n : Nat) (h : n < 100) : ∀ b ∈ two n, b ≠ 0x3a ∧ space b = false ∧ b ≠ 0x0a := by
  intro b hb
  unfold two at hb
  rw [List.mem_cons, List.mem_singleton] at hb
  rcases hb with e | e
  · exact (digit (n / 10) (by omega) b e).2.2
  · exact (digit (n % 10) (by omega) b e).2.2

theorem colons_piece (x rest : Bytes) (h : ∀ b ∈ x, b ≠ 0x3a) : colons (x ++ 0x3a :: rest) = x :: colons rest := by
  induction x with
  | nil => rw [List.nil_append, colons, if_pos rfl]
  | cons b l ih =>
    rw [List.cons_append, colons, if_neg (h b List.mem_cons_self), ih (fun y hy => h y (List.mem_cons_of_mem _ hy))]

theorem colons_end (x : Bytes) (h : ∀ b ∈ x, b ≠ 0x3a) : colons x = [x] := by
  induction x with
  | nil => rfl
  | cons b l ih =>
    rw [colons, if_neg (h b List.mem_cons_self), ih (fun y hy => h y (List.mem_cons_of_mem _ hy))]

theorem clock_text (t : Nat) : clock (clockText t) = t % 86400 := by
  have h1 : t / 3600 % 24 < 100 := by omega
  have h2 : t / 60 % 60 < 100 := by omega
  have h3 : t % 60 < 100 := by omega
  have e : colons (clockText t) = [two (t / 3600 % 24), two (t / 60 % 60), two (t % 60)] := by
    unfold clockText
    rw [List.append_assoc]
    show colons (two (t / 3600 % 24) ++ 0x3a :: (two (t / 60 % 60) ++ 0x3a :: two (t % 60))) = _
    rw [colons_piece _ _ (fun b hb => (two_all _ h1 b hb).1), colons_piece _ _ (fun b hb => (two_all _ h2 b hb).1),
      colons_end _ (fun b hb => (two_all _ h3 b hb).1)]
  unfold clock
  rw [e]
  show toI _ * 3600 + toI _ * 60 + toI _ = _
  rw [toI_two _ h1, toI_two _ h2, toI_two _ h3]
  omega

theorem clockText_word (t : Nat) : Word (clockText t) := by
  refine ⟨by simp [clockText, two], fun b hb => ?_⟩
  unfold clockText at hb
  simp only [List.mem_append, List.mem_cons] at hb
  rcases hb with (hb | rfl | hb) | rfl | hb
  · exact (two_all _ (by omega) b hb).2.1
  · decide
  · exact (two_all _ (by omega) b hb).2.1
  · decide
  · exact (two_all _ (by omega) b hb).2.1

theorem Entry.Proper.words {e : Entry} (h : e.Proper) : ∀ x ∈ e.items, Word x := by
  intro x hx
  unfold Entry.items at hx
  rw [List.mem_cons] at hx
  rcases hx with rfl | hx
  · exact clockText_word _
  · simp only [List.mem_cons] at hx
    rcases hx with rfl | rfl | rfl | rfl | rfl | hx
    · exact h.1 _ (by simp)
    · exact h.1 _ (by simp)
    · exact h.1 _ (by simp)
    · exact h.1 _ (by simp)
    · exact h.1 _ (by simp)
    · exact h.2.1 x hx

theorem columns_no_lf (items : List (Nat × Bytes)) (h : ∀ i ∈ items, Word i.2) :
    ∀ b ∈ columns items, b = 0x20 ∨ space b = false := by
  induction items with
  | nil => intro b hb; exact (nomatch hb)
  | cons i r ih =>
    obtain ⟨p, x⟩ := i
    have hx : Word x := h (p, x) List.mem_cons_self
    have ih := ih (fun j hj => h j (List.mem_cons_of_mem _ hj))
    intro b hb
    cases r with
    | nil =>
      rcases List.mem_append.1 (show b ∈ List.replicate p 0x20 ++ x from hb) with hb | hb
      · exact .inl (List.eq_of_mem_replicate hb)
      · exact .inr (hx.2 b hb)
    | cons y r =>
      rcases List.mem_append.1 (show b ∈ List.replicate p 0x20 ++ x ++ 0x20 :: columns (y :: r) from hb) with hb | hb
      · rcases List.mem_append.1 hb with hb | hb
        · exact .inl (List.eq_of_mem_replicate hb)
        · exact .inr (hx.2 b hb)
      · rw [List.mem_cons] at hb
        rcases hb with rfl | hb
        · exact .inl rfl
        · exact ih b hb

theorem no_lf (items : List (Nat × Bytes)) (h : ∀ i ∈ items, Word i.2) (c : UInt8) (hc : c ≠ 0x20)
    (hs : space c = true) : c ∉ columns items := by
  intro hm
  rcases columns_no_lf items h c hm with e | e
  · exact hc e
  · rw [hs] at e; exact (nomatch e)

/-- What is drawn for an entry: the time since the first, and the numbers. -/
def Entry.row (first : Nat) (e : Entry) : List (Option Value) :=
  [some (.seconds ((e.time % 86400 : Nat) - (first % 86400 : Nat))), some (.text e.sent), some (.text e.max),
    some (.text e.min), some (.text e.avg)]

theorem entry_row (e : Entry) (h : e.Proper) (base : Option Nat) (first : Nat)
    (hb : base.getD (e.time % 86400) = first % 86400) :
    ([timeName, sentName, maxName, minName, avgName].map (column (items names base e.items).1) = e.row first) ∧
      (items names base e.items).2 = some (first % 86400) := by
  obtain ⟨time, sent, rate, max, min, avg, others, pads⟩ := e
  have ho : others.length = 3 := h.2.2
  match others, ho with
  | [a, b, c], _ =>
    have e1 : items names base (Entry.items ⟨time, sent, rate, max, min, avg, [a, b, c], pads⟩)
        = ([(some timeName, .seconds ((clock (clockText time) : Int) - (base.getD (clock (clockText time)) : Nat))),
            (some sentName, .text sent), (some [0x6d, 0x61, 0x69, 0x6c, 0x73, 0x2f, 0x73], .text rate),
            (some maxName, .text max), (some minName, .text min), (some avgName, .text avg),
            (some [0x34, 0x58, 0x58], .text a), (some [0x35, 0x58, 0x58], .text b),
            (some [0x45, 0x72, 0x72, 0x6f, 0x72], .text c)], some (base.getD (clock (clockText time)))) := rfl
    rw [e1, clock_text]
    dsimp only at hb
    rw [hb]
    exact ⟨rfl, rfl⟩

theorem rows_entries (es : List Entry) (h : ∀ e ∈ es, e.Proper) (base : Option Nat) (first : Nat)
    (hb : ∀ e ∈ es.head?, base.getD (e.time % 86400) = first % 86400) (ls : List Bytes) (hl : ls.head? = some [0x0a]) :
    (rows names base ((es.map fun e => columns (padded e.pads e.items) ++ [0x0a]) ++ ls)).map
        (fun row => [timeName, sentName, maxName, minName, avgName].map (column row))
      = es.map (Entry.row first) := by
  induction es generalizing base with
  | nil =>
    match ls, hl with
    | l :: ls, hl =>
      cases hl
      rfl
  | cons e es ih =>
    have he := h e List.mem_cons_self
    have hw := padded_word e.pads e.items he.words
    have hc : chomp (columns (padded e.pads e.items) ++ [0x0a]) = columns (padded e.pads e.items) := by
      apply chomp_line
      intro hx
      have := List.mem_of_getLast? hx
      exact no_lf _ hw 0x0d (by decide) (by decide) this
    have hword : words (columns (padded e.pads e.items)) = e.items := by
      have := words_columns _ hw [] (.inl rfl)
      rw [List.append_nil, padded_items] at this
      exact this
    have hne : columns (padded e.pads e.items) ≠ [] := by
      intro hx
      rw [hx] at hword
      exact (nomatch hword)
    obtain ⟨r1, r2⟩ := entry_row e he base first (hb e rfl)
    show (if chomp (columns (padded e.pads e.items) ++ [0x0a]) = [] then [] else
      (items names base (words (chomp (columns (padded e.pads e.items) ++ [0x0a])))).1 ::
        rows names (items names base (words (chomp (columns (padded e.pads e.items) ++ [0x0a])))).2 _).map _ = _
    rw [hc, if_neg hne, hword, List.map_cons, r1, r2]
    exact congrArg (Entry.row first e :: ·)
      (ih (fun x hx => h x (List.mem_cons_of_mem _ hx)) (some (first % 86400)) (fun _ _ => rfl))

/-- C162: from a periodical report, whatever the widths of its columns and whatever follows after the empty line, one row for
each entry, in their order: the seconds since the first entry, the number of mails, the greatest, the least and the
average time; if all entries are of one day.  Missing: reports over midnight (below). -/
theorem C162_partial (pads : Nat → Nat) (es : List Entry) (h : ∀ e ∈ es, e.Proper) (rest : Bytes)
    (hd : ∀ e ∈ es, e.time < 86400) :
    analyze (reportText pads es rest) = es.map fun e =>
      [some (.seconds ((e.time : Int) - ((es.head?.map Entry.time).getD 0 : Nat))), some (.text e.sent),
        some (.text e.max), some (.text e.min), some (.text e.avg)] := by
  have hn : ∀ x ∈ names, Word x := by
    intro x hx
    have : ∀ x ∈ names, x ≠ [] ∧ ∀ b ∈ x, space b = false := by decide
    exact this x hx
  have hw := padded_word pads names hn
  have hl : lines (reportText pads es rest) = (columns (padded pads names) ++ [0x0a]) ::
      ((es.map fun e => columns (padded e.pads e.items) ++ [0x0a]) ++ [0x0a] :: lines rest) := by
    have := lines_many (columns (padded pads names) :: (es.map fun e => columns (padded e.pads e.items)) ++ [[]]) (by
      intro l hl
      simp only [List.cons_append, List.mem_cons, List.mem_append, List.mem_map, List.not_mem_nil, or_false] at hl
      rcases hl with rfl | ⟨e, he, rfl⟩ | rfl
      · exact no_lf _ hw _ (by decide) (by decide)
      · exact no_lf _ (padded_word _ _ (h e he).words) _ (by decide) (by decide)
      · exact List.not_mem_nil) rest
    simpa [reportText, List.flatMap_append, List.flatMap_map, Function.comp_def] using this
  have hh : words (columns (padded pads names) ++ [0x0a]) = names := by
    rw [words_columns _ hw _ (.inr rfl), padded_items]
  unfold analyze
  rw [hl]
  dsimp only
  rw [hh, rows_entries es h none ((es.head?.map Entry.time).getD 0) (by
    intro e he
    rw [Option.mem_def] at he
    rw [he]; rfl) _ rfl]
  apply List.map_congr_left
  intro e he
  unfold Entry.row
  have h0 : (es.head?.map Entry.time).getD 0 < 86400 := by
    cases es with
    | nil => exact (nomatch he)
    | cons a l => exact hd a List.mem_cons_self
  rw [Nat.mod_eq_of_lt (hd e he), Nat.mod_eq_of_lt h0]

/-- A line with numbers of one digit. -/
def sample (t : Nat) : Entry := ⟨t, [0x31], [0x32], [0x33], [0x34], [0x35], [[0x36], [0x37], [0x38]], fun _ => 4⟩

theorem sample_proper (t : Nat) : (sample t).Proper := by
  have : (∀ x ∈ [([0x31] : Bytes), [0x32], [0x33], [0x34], [0x35]], x ≠ [] ∧ ∀ b ∈ x, space b = false) ∧
      (∀ x ∈ [([0x36] : Bytes), [0x37], [0x38]], x ≠ [] ∧ ∀ b ∈ x, space b = false) := by decide
  exact ⟨this.1, this.2, rfl⟩

/-- C162 is violated: the entry one second after 23:59:59 is drawn a day before it. -/
theorem C162_midnight_violated :
    (sample 86399).Proper ∧ (sample 86400).Proper ∧
    (analyze (reportText (fun _ => 1) [sample 86399, sample 86400] [])).map (·.head?)
      = [some (some (.seconds 0)), some (some (.seconds (-86399)))] :=
  ⟨sample_proper _, sample_proper _, by decide +kernel⟩

/-- Two entries, and what follows. -/
example :
    (∀ e ∈ [sample 3599, sample 3600], e.Proper ∧ e.time < 86400) ∧
    analyze (reportText (fun _ => 2) [sample 3599, sample 3600] [0x54, 0x6f])
      = [[some (.seconds 0), some (.text [0x31]), some (.text [0x33]), some (.text [0x34]), some (.text [0x35])],
        [some (.seconds 1), some (.text [0x31]), some (.text [0x33]), some (.text [0x34]), some (.text [0x35])]] := by
  refine ⟨?_, by decide +kernel⟩
  intro e he
  simp only [List.mem_cons, List.not_mem_nil, or_false] at he
  rcases he with rfl | rfl
  · exact ⟨sample_proper _, by decide⟩
  · exact ⟨sample_proper _, by decide⟩

end Verif.Props.PerformanceAnalyzer
