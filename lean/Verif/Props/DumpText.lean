import Verif.Spec.Dump
/-
C127: the lines of the output are read as the statements they were written for.
-/
namespace Verif.Props.Dump
open Verif Verif.Dump Verif.Spec.Dump

/-! ### texts -/

theorem hexDigit_hex : ∀ n < 16, hexDigit (hex n) = some n := by decide

theorem escape_head (c : UInt8) (next : Option UInt8) : (escape c next).head? = some c ∨ (escape c next).head? = some 0x5c := by
  unfold escape
  repeat' split
  all_goals first | exact .inr rfl | exact .inl rfl

theorem escapeAll_head (s r : Bytes) (c : UInt8) (h : (escapeAll s ++ 0x22 :: r).head? = some c) (h1 : c ≠ 0x22) (h2 : c ≠ 0x5c) :
    s.head? = some c := by
  cases s with
  | nil => simp [escapeAll] at h; exact absurd h.symm h1
  | cons d s =>
    rw [escapeAll] at h
    have he := escape_head d s.head?
    cases hx : escape d s.head? with
    | nil => rw [hx] at he; rcases he with he | he <;> cases he
    | cons x xs =>
      rw [hx] at h he
      simp at h he
      rcases he with he | he
      · rw [← he, h]; rfl
      · exact absurd (h.symm.trans he) h2

theorem unescaped (d c : UInt8) (t : Bytes) (hd : d ≠ 0x78) (h : unescape d = c) : text (0x5c :: d :: t) = (text t).map fun r => (c :: r.1, r.2) := by
  conv => lhs; unfold text
  rw [if_neg (by decide), if_pos rfl]
  dsimp only
  rw [if_neg hd, h]

theorem text_escape (s r : Bytes) : text (escapeAll s ++ 0x22 :: r) = some (s, r) := by
  induction s with
  | nil =>
    show text (0x22 :: r) = _
    unfold text
    rw [if_pos rfl]
  | cons c s ih =>
    rw [escapeAll, List.append_assoc]
    unfold escape
    have go : ∀ d, d ≠ 0x78 → unescape d = c → text ([0x5c, d] ++ (escapeAll s ++ 0x22 :: r)) = some (c :: s, r) := by
      intro d h1 h2
      show text (0x5c :: d :: (escapeAll s ++ 0x22 :: r)) = _
      rw [unescaped d c _ h1 h2, ih]
      rfl
    by_cases h1 : c = 0x22 ∨ c = 0x5c
    · rw [if_pos h1]
      rcases h1 with rfl | rfl
      · exact go _ (by decide) (by decide)
      · exact go _ (by decide) (by decide)
    · rw [if_neg h1]
      obtain ⟨hq, hb⟩ := not_or.mp h1
      by_cases h2 : c = 0x23 ∧ (s.head? = some 0x7b ∨ s.head? = some 0x24 ∨ s.head? = some 0x40)
      · rw [if_pos h2]
        obtain ⟨rfl, -⟩ := h2
        exact go _ (by decide) (by decide)
      · rw [if_neg h2]
        by_cases h : c = 0x0a
        · rw [if_pos h]; subst h; exact go _ (by decide) (by decide)
        rw [if_neg h]; clear h
        by_cases h : c = 0x0d
        · rw [if_pos h]; subst h; exact go _ (by decide) (by decide)
        rw [if_neg h]; clear h
        by_cases h : c = 0x09
        · rw [if_pos h]; subst h; exact go _ (by decide) (by decide)
        rw [if_neg h]; clear h
        by_cases h : c = 0x0c
        · rw [if_pos h]; subst h; exact go _ (by decide) (by decide)
        rw [if_neg h]; clear h
        by_cases h : c = 0x0b
        · rw [if_pos h]; subst h; exact go _ (by decide) (by decide)
        rw [if_neg h]; clear h
        by_cases h : c = 0x08
        · rw [if_pos h]; subst h; exact go _ (by decide) (by decide)
        rw [if_neg h]; clear h
        by_cases h : c = 0x07
        · rw [if_pos h]; subst h; exact go _ (by decide) (by decide)
        rw [if_neg h]; clear h
        by_cases h : c = 0x1b
        · rw [if_pos h]; subst h; exact go _ (by decide) (by decide)
        rw [if_neg h]; clear h
        by_cases h : c < 0x20 ∨ c = 0x7f
        · rw [if_pos h]
          have hc := c.toNat_lt
          show text (0x5c :: 0x78 :: hex (c.toNat / 16) :: hex (c.toNat % 16) :: (escapeAll s ++ 0x22 :: r)) = _
          conv => lhs; unfold text
          rw [if_neg (by decide), if_pos rfl]
          dsimp only
          rw [if_pos rfl]
          rw [hexDigit_hex _ (by omega), hexDigit_hex _ (by omega)]
          dsimp only
          rw [ih]
          have : 16 * (c.toNat / 16) + c.toNat % 16 = c.toNat := by omega
          rw [this]
          simp
        · rw [if_neg h]
          show text (c :: (escapeAll s ++ 0x22 :: r)) = _
          conv => lhs; unfold text
          rw [if_neg hq, if_neg hb, if_neg, ih]
          · rfl
          · rintro ⟨e, h⟩
            refine h2 ⟨e, ?_⟩
            rcases h with h | h | h
            · exact .inl (escapeAll_head s r _ h (by decide) (by decide))
            · exact .inr (.inl (escapeAll_head s r _ h (by decide) (by decide)))
            · exact .inr (.inr (escapeAll_head s r _ h (by decide) (by decide)))

theorem escape_line (c : UInt8) (next : Option UInt8) : (0x0a : UInt8) ∉ escape c next := by
  have hx : ∀ n < 16, hex n ≠ 0x0a := by decide
  have hc := c.toNat_lt
  unfold escape
  split
  · rename_i h; rcases h with rfl | rfl <;> decide
  split
  · rename_i h; obtain ⟨rfl, -⟩ := h; decide
  split; decide
  rename_i h
  split; decide
  split; decide
  split; decide
  split; decide
  split; decide
  split; decide
  split; decide
  split
  · simp only [List.mem_cons, List.not_mem_nil, or_false, not_or]
    exact ⟨by decide, by decide, (hx _ (by omega)).symm, (hx _ (by omega)).symm⟩
  · simpa using fun e => h e.symm

theorem escapeAll_line (s : Bytes) : (0x0a : UInt8) ∉ escapeAll s := by
  induction s with
  | nil => simp [escapeAll]
  | cons c s ih =>
    rw [escapeAll, List.mem_append, not_or]
    exact ⟨escape_line _ _, ih⟩

/-! ### words -/

theorem word_append (w r : Bytes) (hw : ∀ c ∈ w, wordByte c = true) (hr : ∀ c, r.head? = some c → wordByte c = false) :
    word (w ++ r) = (w, r) := by
  unfold word
  have h1 : (w ++ r).takeWhile wordByte = w ∧ (w ++ r).dropWhile wordByte = r := by
    induction w with
    | nil =>
      cases r with
      | nil => exact ⟨rfl, rfl⟩
      | cons c r =>
        have := hr c rfl
        simp [this]
    | cons c w ih =>
      have := ih fun d hd => hw d (List.mem_cons_of_mem _ hd)
      simp [hw c List.mem_cons_self, this.1, this.2]
  rw [h1.1, h1.2]

theorem digit_word {c : UInt8} (h : isDigit c = true) : wordByte c = true := by
  unfold wordByte; rw [h]; simp

/-! ### numbers -/

theorem number_append (b : Nat) (x : Bytes) (c : UInt8) : number b (x ++ [c]) = b * number b x + (c.toNat - 48) := by
  simp [number, List.foldl_append]

theorem digit_val (n : Nat) (h : n < 10) : (UInt8.ofNat (48 + n)).toNat - 48 = n := by
  rw [UInt8.toNat_ofNat']
  omega

theorem number_decimal (n : Nat) : number 10 (decimal n) = n := by
  fun_induction decimal n with
  | case1 n h =>
    show 10 * 0 + _ = n
    rw [digit_val n h]; omega
  | case2 n h ih =>
    rw [number_append, ih, digit_val _ (by omega)]
    omega

theorem decimal_ne (n : Nat) : decimal n ≠ [] := by
  unfold decimal
  split <;> simp

theorem decimal_head (n : Nat) (h : n ≠ 0) : (decimal n).head? ≠ some 0x30 := by
  fun_induction decimal n with
  | case1 n h' =>
    intro e
    have e : UInt8.ofNat (48 + n) = 0x30 := by injection e
    have := congrArg UInt8.toNat e
    rw [UInt8.toNat_ofNat'] at this
    have e2 : (0x30 : UInt8).toNat = 48 := rfl
    omega
  | case2 n h' ih =>
    have := ih (by omega)
    cases hx : decimal (n / 10) with
    | nil => exact absurd hx (decimal_ne _)
    | cons c x => rw [hx] at this; simpa using this

theorem number_octal (n : Nat) : number 8 (octal n) = n := by
  fun_induction octal n with
  | case1 n h =>
    show 8 * 0 + _ = n
    rw [digit_val n (by omega)]; omega
  | case2 n h ih =>
    rw [number_append, ih, digit_val _ (by omega)]
    omega

theorem octal_digits (n : Nat) : ∀ c ∈ octal n, isDigit c = true ∧ c ≤ 0x37 := by
  have hd : ∀ n < 8, isDigit (UInt8.ofNat (48 + n)) = true ∧ UInt8.ofNat (48 + n) ≤ 0x37 := by decide
  fun_induction octal n with
  | case1 n h =>
    intro c hc
    cases List.mem_singleton.mp hc
    exact hd n h
  | case2 n h ih =>
    intro c hc
    rcases List.mem_append.mp hc with hc | hc
    · exact ih c hc
    · cases List.mem_singleton.mp hc
      exact hd _ (by omega)

theorem digits_ne {w : Bytes} (h : w.all isDigit = true) : w ≠ ascii "nil" ∧ w ≠ ascii "true" ∧ w ≠ ascii "false" := by
  refine ⟨?_, ?_, ?_⟩ <;> rintro rfl <;> revert h <;> decide

theorem wordValue_decimal (n : Nat) : wordValue (decimal n) = some (.num n) := by
  have ha : (decimal n).all isDigit = true := List.all_eq_true.mpr (decimal_digits n)
  obtain ⟨h1, h2, h3⟩ := digits_ne ha
  unfold wordValue
  rw [if_neg h1, if_neg h2, if_neg h3, if_pos ⟨decimal_ne n, ha⟩]
  by_cases hn : n = 0
  · subst hn
    decide +kernel
  · rw [if_neg (decimal_head n hn), number_decimal]

theorem wordValue_octal (n : Nat) : wordValue (0x30 :: octal n) = some (.num n) := by
  have ha : (0x30 :: octal n).all isDigit = true := by
    rw [List.all_cons]
    simpa [show isDigit 0x30 = true from rfl] using fun c hc => (octal_digits n c hc).1
  obtain ⟨h1, h2, h3⟩ := digits_ne ha
  unfold wordValue
  rw [if_neg h1, if_neg h2, if_neg h3, if_pos ⟨by simp, ha⟩,
    if_pos (show (0x30 :: octal n).head? = some 0x30 from rfl), if_pos]
  · have : number 8 (0x30 :: octal n) = number 8 (octal n) := rfl
    rw [this, number_octal]
  · rw [List.all_cons]
    simpa using fun c hc => (octal_digits n c hc).2

theorem takeWhile_digits (w r : Bytes) (hw : ∀ c ∈ w, isDigit c = true) (hr : ∀ c, r.head? = some c → isDigit c = false) :
    (w ++ r).takeWhile isDigit = w := by
  induction w with
  | nil =>
    cases r with
    | nil => rfl
    | cons c r => simp [hr c rfl]
  | cons c w ih => simp [hw c List.mem_cons_self, ih fun d hd => hw d (List.mem_cons_of_mem _ hd)]

theorem wordValue_seconds (n : Nat) : wordValue (decimal n ++ ascii ".0") = some (.seconds n) := by
  have hn : ¬ (decimal n ++ ascii ".0").all isDigit = true := by
    rw [List.all_append]
    simp [show (ascii ".0").all isDigit = false from by decide]
  have hd : ∀ k : Bytes, (0x2e : UInt8) ∉ k → decimal n ++ ascii ".0" ≠ k := by
    rintro k hk rfl
    exact hk (List.mem_append_right _ (by decide))
  unfold wordValue
  rw [if_neg (hd _ (by decide)), if_neg (hd _ (by decide)), if_neg (hd _ (by decide)), if_neg (fun h => hn h.2)]
  dsimp only
  rw [takeWhile_digits _ _ (decimal_digits n) (by intro c hc; cases hc; decide)]
  rw [if_pos ⟨decimal_ne n, by simp⟩, number_decimal]

/-! ### values -/

theorem value_word (w r : Bytes) (v : Lit) (h : wordValue w = some v) (hw : ∀ c ∈ w, wordByte c = true)
    (hr : ∀ c, r.head? = some c → wordByte c = false) : value (w ++ r) = some (v, r) := by
  unfold value
  rw [if_neg, word_append w r hw hr]
  · simp [h]
  · intro hq
    cases w with
    | nil =>
      rw [show wordValue [] = none from by decide +kernel] at h
      cases h
    | cons c w =>
      have : c = 0x22 := by simpa using hq
      subst this
      exact absurd (hw _ List.mem_cons_self) (by decide)

theorem value_print (v : Lit) (r : Bytes) (hr : ∀ c, r.head? = some c → wordByte c = false) : value (v.print ++ r) = some (v, r) := by
  cases v with
  | nil => exact value_word _ _ _ (by decide) (by decide) hr
  | bool b => cases b <;> exact value_word _ _ _ (by decide) (by decide) hr
  | num n => exact value_word _ _ _ (wordValue_decimal n) (fun c hc => digit_word (decimal_digits n c hc)) hr
  | seconds n =>
    refine value_word _ _ _ (wordValue_seconds n) ?_ hr
    intro c hc
    rcases List.mem_append.mp hc with hc | hc
    · exact digit_word (decimal_digits n c hc)
    · have : ∀ c ∈ ascii ".0", wordByte c = true := by decide
      exact this c hc
  | str s =>
    unfold value Lit.print inspect
    rw [if_pos (by simp)]
    have : (([0x22] ++ escapeAll s ++ [0x22]) ++ r).tail = escapeAll s ++ 0x22 :: r := by simp
    rw [this, text_escape]
    rfl

theorem value_mode (n : Nat) : value (0x30 :: octal n) = some (.num n, []) := by
  have := value_word (0x30 :: octal n) [] (.num n) (wordValue_octal n) (by
    intro c hc
    rcases List.mem_cons.mp hc with rfl | hc
    · decide
    · exact digit_word (octal_digits n c hc).1) (by intro c hc; cases hc)
  rwa [List.append_nil] at this

/-! ### lines -/

/-- no line break in it -/
def Single (s : Bytes) : Prop := (0x0a : UInt8) ∉ s

/-- the last character is not a blank -/
def Ends (s : Bytes) : Prop := ∃ c, s.getLast? = some c ∧ Conditions.isBlank c = false

theorem digits_single {s : Bytes} (h : ∀ c ∈ s, isDigit c = true) : Single s := fun hm => absurd (h _ hm) (by decide)

theorem print_single (v : Lit) : Single v.print := by
  cases v with
  | nil => show (0x0a : UInt8) ∉ ascii "nil"; decide
  | bool b => cases b <;> (show (0x0a : UInt8) ∉ ascii _; decide)
  | num n => exact digits_single (decimal_digits n)
  | seconds n =>
    show (0x0a : UInt8) ∉ decimal n ++ ascii ".0"
    rw [List.mem_append, not_or]
    exact ⟨digits_single (decimal_digits n), by decide⟩
  | str s =>
    show (0x0a : UInt8) ∉ [0x22] ++ escapeAll s ++ [0x22]
    simpa using escapeAll_line s

theorem digits_end {s : Bytes} (h : ∀ c ∈ s, isDigit c = true) (hn : s ≠ []) : Ends s := by
  obtain ⟨c, hc⟩ : ∃ c, s.getLast? = some c := ⟨_, List.getLast?_eq_some_getLast hn⟩
  refine ⟨c, hc, ?_⟩
  have := h c (List.mem_of_getLast? hc)
  unfold isDigit at this
  unfold Conditions.isBlank
  simp only [Bool.and_eq_true, decide_eq_true_eq, UInt8.le_iff_toNat_le] at this
  have e1 : (0x30 : UInt8).toNat = 48 := rfl
  have e2 : (0x0d : UInt8).toNat = 13 := rfl
  have n1 : ¬ c = 0x20 := by rintro rfl; exact absurd this.1 (by decide)
  have n2 : ¬ c ≤ 0x0d := by rw [UInt8.le_iff_toNat_le]; omega
  simp [n1, n2]

theorem Ends.append {s : Bytes} (h : Ends s) (x : Bytes) : Ends (x ++ s) := by
  obtain ⟨c, hc, hb⟩ := h
  exact ⟨c, by rw [List.getLast?_append, hc]; rfl, hb⟩

theorem print_end (v : Lit) : Ends v.print := by
  cases v with
  | nil => exact ⟨_, rfl, by decide⟩
  | bool b => cases b <;> exact ⟨_, rfl, by decide⟩
  | num n => exact digits_end (decimal_digits n) (decimal_ne n)
  | seconds n => exact Ends.append ⟨_, rfl, by decide⟩ _
  | str s => exact Ends.append (s := [0x22]) ⟨_, rfl, by decide⟩ _

theorem after_append (a r : Bytes) : after a (a ++ r) = some r := by
  unfold after
  rw [if_pos (List.prefix_append _ _)]
  simp

/-- the indentation does not matter -/
theorem line_indent (n : Nat) (s : Bytes) : line (List.replicate n 0x20 ++ s) = line s := by
  induction n with
  | zero => rfl
  | succ n ih =>
    rw [← ih]
    rfl

theorem line_comment (s : Bytes) : line (0x23 :: s) = some none := rfl

/-- a word: what settings are called -/
structure Wordy (k : Bytes) : Prop where
  bytes : ∀ c ∈ k, wordByte c = true
  ne : k ≠ []

theorem Wordy.start {k : Bytes} (h : Wordy k) (r : Bytes) : (k ++ r).dropWhile (· == 0x20) = k ++ r ∧ (k ++ r) ≠ [] ∧
    (k ++ r).head? ≠ some 0x23 ∧ k ++ r ≠ ascii "]" := by
  cases k with
  | nil => exact absurd rfl h.ne
  | cons c k =>
    have hc := h.bytes c List.mem_cons_self
    have h1 : c ≠ 0x20 := by rintro rfl; exact absurd hc (by decide)
    have h2 : c ≠ 0x23 := by rintro rfl; exact absurd hc (by decide)
    have h3 : c ≠ 0x5d := by rintro rfl; exact absurd hc (by decide)
    refine ⟨by simp [h1], by simp, by simpa using h2, ?_⟩
    intro e
    have : (c :: k ++ r).head? = some 0x5d := by rw [e]; rfl
    exact h3 (by simpa using this)

theorem not_end (k r : Bytes) (x : UInt8) (hx : x ∈ r) (hx' : x ∉ ascii "end") : k ++ r ≠ ascii "end" := by
  intro e
  exact hx' (e ▸ List.mem_append_right _ hx)

theorem line_set (k t : Bytes) (v : Lit) (hk : Wordy k) (ht : value t = some (v, [])) : line (k ++ ascii " = " ++ t) = some (some (.set k v)) := by
  have hw : word (k ++ (ascii " = " ++ t)) = (k, ascii " = " ++ t) :=
    word_append _ _ hk.bytes (by intro c hc; cases hc; decide)
  obtain ⟨h1, h2, h3, h4⟩ := hk.start (ascii " = " ++ t)
  have n1 : t ≠ ascii "[]" := by rintro rfl; rw [show value (ascii "[]") = none from by decide +kernel] at ht; cases ht
  have n2 : t ≠ ascii "[" := by rintro rfl; rw [show value (ascii "[") = none from by decide +kernel] at ht; cases ht
  unfold line
  rw [List.append_assoc, h1]
  dsimp only
  rw [if_neg (not_or.mpr ⟨h2, h3⟩), if_neg h4,
    if_neg (not_end k _ 0x3d (List.mem_append_left _ (by decide)) (by decide)), hw]
  dsimp only
  rw [after_append]
  dsimp only
  rw [if_neg n1, if_neg n2, ht]

theorem line_item (k : Bytes) (v : Lit) (hk : Wordy k) : line (k ++ ascii " = " ++ v.print) = some (some (.set k v)) := by
  refine line_set k _ v hk ?_
  have := value_print v [] (by intro c hc; cases hc)
  rwa [List.append_nil] at this

theorem line_begin (f : Bytes) (v : Lit) (x : Bytes) (hf : Wordy f) (hx : ∀ c ∈ x, wordByte c = true) :
    line (f ++ [0x28] ++ v.print ++ (ascii ") do |" ++ x ++ [0x7c])) = some (some (.begin_ f v x)) := by
  obtain ⟨r, hr⟩ : ∃ r, r = v.print ++ (ascii ") do |" ++ x ++ [0x7c]) := ⟨_, rfl⟩
  have e : f ++ [0x28] ++ v.print ++ (ascii ") do |" ++ x ++ [0x7c]) = f ++ ([0x28] ++ r) := by rw [hr]; simp only [List.append_assoc]
  have hw : word (f ++ ([0x28] ++ r)) = (f, [0x28] ++ r) :=
    word_append _ _ hf.bytes (by intro c hc; cases hc; decide)
  obtain ⟨h1, h2, h3, h4⟩ := hf.start ([0x28] ++ r)
  have ha : after (ascii " = ") ([0x28] ++ r) = none := by
    unfold after
    rw [if_neg]
    rintro ⟨t, ht⟩
    cases ht
  rw [e]
  unfold line
  rw [h1]
  dsimp only
  rw [if_neg (not_or.mpr ⟨h2, h3⟩), if_neg h4,
    if_neg (not_end f _ 0x28 (List.mem_append_left _ (by decide)) (by decide)), hw]
  dsimp only
  rw [ha]
  dsimp only
  rw [after_append]
  dsimp only
  rw [hr, value_print v _ (by intro c hc; cases hc; decide)]
  dsimp only
  rw [List.append_assoc (ascii ") do |"), after_append]
  dsimp only
  rw [word_append x [0x7c] hx (by intro c hc; cases hc; decide)]
  rfl

theorem line_entry (s : Bytes) : line ((Lit.str s).print ++ [0x2c]) = some (some (.entry (.str s))) := by
  obtain ⟨r, hr⟩ : ∃ r, r = escapeAll s ++ [0x22] ++ [0x2c] := ⟨_, rfl⟩
  have e : (Lit.str s).print ++ [0x2c] = 0x22 :: r := by rw [hr]; rfl
  have hv : value (0x22 :: r) = some (.str s, [0x2c]) := by
    rw [← e]
    exact value_print _ _ (by intro c hc; cases hc; decide)
  have ha : ∀ a : Bytes, a ≠ [] → a.head? ≠ some 0x22 → after a (0x22 :: r) = none := by
    intro a h0 h1
    unfold after
    rw [if_neg]
    rintro ⟨t, ht⟩
    cases a with
    | nil => exact h0 rfl
    | cons c a =>
      have : c = 0x22 := by
        have := congrArg List.head? ht
        simpa using this
      exact h1 (by rw [this]; rfl)
  have n1 : (0x22 :: r) ≠ ascii "]" := by
    intro h; have := congrArg List.head? h; exact absurd this (by simp; decide)
  have n2 : (0x22 :: r) ≠ ascii "end" := by
    intro h; have := congrArg List.head? h; exact absurd this (by simp; decide)
  rw [e]
  unfold line
  rw [show (0x22 :: r).dropWhile (· == 0x20) = 0x22 :: r from rfl]
  dsimp only
  rw [if_neg (by simp), if_neg n1, if_neg n2]
  have hw : word (0x22 :: r) = ([], 0x22 :: r) := word_append [] _ (by simp) (by intro c hc; cases hc; decide)
  rw [hw]
  dsimp only
  rw [ha _ (by decide) (by decide), ha _ (by decide) (by decide)]
  dsimp only
  rw [hv]
  rfl

theorem line_end : line (ascii "end") = some (some .fin) := rfl
theorem line_close : line (ascii "  ]") = some (some .closeList) := rfl

end Verif.Props.Dump
