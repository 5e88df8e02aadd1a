import Verif.Spec.Detector
/-
C123: the detection reads files of assignments as the shell does.
-/
namespace Verif.Props.Detector
open Verif Verif.Detector Verif.Spec.Detector

theorem word_iff (c : UInt8) : Conditions.isWordByte c = true ↔ Word c := by
  unfold Conditions.isWordByte isDigit Word
  simp only [Bool.or_eq_true, Bool.and_eq_true, decide_eq_true_eq, beq_iff_eq]
  constructor
  · rintro (((h | h) | h) | h)
    · exact .inl h
    · exact .inr (.inl h)
    · exact .inr (.inr (.inl h))
    · exact .inr (.inr (.inr h))
  · rintro (h | h | h | h)
    · exact .inl (.inl (.inl h))
    · exact .inl (.inl (.inr h))
    · exact .inl (.inr h)
    · exact .inr h

theorem blank_iff (c : UInt8) : Conditions.isBlank c = true ↔ Blank c := by
  unfold Conditions.isBlank Blank
  simp only [Bool.or_eq_true, Bool.and_eq_true, decide_eq_true_eq, beq_iff_eq]

theorem nameByte_word {lower : Bool} {c : UInt8} (h : nameByte lower c = true) : Word c := by
  unfold nameByte isDigit at h
  simp only [Bool.or_eq_true, Bool.and_eq_true, decide_eq_true_eq, beq_iff_eq] at h
  unfold Word
  rcases h with ((h | h) | h) | h
  · exact .inl h
  · exact .inr (.inl h)
  · exact .inr (.inr (.inr h))
  · exact .inr (.inr (.inl h.2))

theorem word_nameByte {lower : Bool} {c : UInt8} (h : Word c) (hl : lower = false → ¬Small c) : nameByte lower c = true := by
  unfold nameByte isDigit
  simp only [Bool.or_eq_true, Bool.and_eq_true, decide_eq_true_eq, beq_iff_eq]
  rcases h with h | h | h | h
  · exact .inl (.inl (.inl h))
  · exact .inl (.inl (.inr h))
  · cases lower
    · exact absurd h (hl rfl)
    · exact .inr ⟨rfl, h⟩
  · exact .inl (.inr h)

theorem blank_word {c : UInt8} (h : Blank c) (hw : Word c) : False := by
  have e : ∀ a b : UInt8, a = b ↔ a.toNat = b.toNat := fun a b => ⟨fun h => h ▸ rfl, UInt8.toNat_inj.mp⟩
  unfold Blank at h
  unfold Word at hw
  simp only [UInt8.le_iff_toNat_le, e] at h hw
  have h1 : (0x20 : UInt8).toNat = 32 := rfl
  have h2 : (0x09 : UInt8).toNat = 9 := rfl
  have h3 : (0x0d : UInt8).toNat = 13 := rfl
  have h4 : (0x30 : UInt8).toNat = 48 := rfl
  have h5 : (0x41 : UInt8).toNat = 65 := rfl
  have h6 : (0x61 : UInt8).toNat = 97 := rfl
  have h7 : (0x5f : UInt8).toNat = 95 := rfl
  omega

/-! ## Lines -/

theorem eachLine_cons (l : Bytes) (h : 0x0a ∉ l) (rest : Bytes) :
    eachLine (l ++ [0x0a] ++ rest) = (l ++ [0x0a]) :: eachLine rest := by
  induction l with
  | nil => simp [eachLine]
  | cons c l ih =>
    have hc : c ≠ 0x0a := fun e => h (e ▸ List.mem_cons_self ..)
    have ih := ih fun hm => h (List.mem_cons_of_mem _ hm)
    simp only [List.cons_append, eachLine, if_neg hc]
    rw [ih]

theorem takeWhile_stop {p : UInt8 → Bool} (a : Bytes) (ha : ∀ c ∈ a, p c = true) (x : UInt8) (hx : p x = false) (b : Bytes) :
    (a ++ x :: b).takeWhile p = a ∧ (a ++ x :: b).dropWhile p = x :: b := by
  induction a with
  | nil => simp [hx]
  | cons c a ih =>
    have := ih fun c' h => ha c' (List.mem_cons_of_mem _ h)
    simp [ha c (List.mem_cons_self ..), this.1, this.2]

theorem takeWhile_all' {p : UInt8 → Bool} (a : Bytes) (ha : ∀ c ∈ a, p c = true) :
    a.takeWhile p = a ∧ a.dropWhile p = [] := by
  induction a with
  | nil => simp
  | cons c a ih =>
    have := ih fun c' h => ha c' (List.mem_cons_of_mem _ h)
    simp [ha c (List.mem_cons_self ..), this.1, this.2]

/-- without a comment -/
theorem uncomment_none (a : Bytes) (h : 0x23 ∉ a) : uncomment a = a := by
  have := takeWhile_all' (p := (· ≠ 0x23)) a (by
    intro c hc; simp only [ne_eq, decide_eq_true_eq]; exact fun e => h (e ▸ hc))
  unfold uncomment
  rw [this.1, this.2]; simp

/-- with one -/
theorem uncomment_some (a t : Bytes) (h : 0x23 ∉ a) (ht : 0x0a ∉ t) : uncomment (a ++ 0x23 :: t ++ [0x0a]) = a ++ [0x0a] := by
  have e : a ++ 0x23 :: t ++ [0x0a] = a ++ 0x23 :: (t ++ [0x0a]) := by simp
  have h1 := takeWhile_stop (p := (· ≠ 0x23)) a (by
    intro c hc; simp only [ne_eq, decide_eq_true_eq]; exact fun e => h (e ▸ hc)) 0x23 (by simp) (t ++ [0x0a])
  have h2 := takeWhile_stop (p := (· ≠ 0x0a)) (0x23 :: t) (by
    intro c hc
    simp only [ne_eq, decide_eq_true_eq]
    rcases List.mem_cons.mp hc with rfl | hc
    · decide
    · exact fun e => ht (e ▸ hc)) 0x0a (by simp) []
  unfold uncomment
  rw [e, h1.1, h1.2]
  congr 1
  exact h2.2

/-! ## Assignments -/

/-- nothing is defined before a name -/
theorem definition_skip (lower : Bool) (s : Bytes) : ∀ (pre : Bytes) (word : Bool), 0x3d ∉ pre →
    (∀ c, pre.getLast? = some c → ¬Word c) → pre ≠ [] →
    definition lower word (pre ++ s) = definition lower false s := by
  intro pre
  induction pre with
  | nil => intro _ _ _ h; exact absurd rfl h
  | cons c pre ih =>
    intro word h0 hlast _
    have hno : ¬(word = false ∧ ((c :: pre) ++ s).takeWhile (nameByte lower) ≠ [] ∧
        (((c :: pre) ++ s).drop (((c :: pre) ++ s).takeWhile (nameByte lower)).length).head? = some 0x3d) := by
      rintro ⟨-, -, hh⟩
      -- the name ends within what comes before
      have key : ∀ q : Bytes, q ≠ [] → 0x3d ∉ q → (∀ x, q.getLast? = some x → ¬Word x) →
          ((q ++ s).drop ((q ++ s).takeWhile (nameByte lower)).length).head? ≠ some 0x3d := by
        intro q
        induction q with
        | nil => intro h; exact absurd rfl h
        | cons d q ihq =>
          intro _ hq hl
          by_cases hd : nameByte lower d = true
          · cases q with
            | nil => exact absurd (nameByte_word hd) (hl d rfl)
            | cons d' q' =>
              have := ihq (by simp) (fun hm => hq (List.mem_cons_of_mem _ hm)) (by
                intro x hx; exact hl x (by rw [List.getLast?_cons_cons]; exact hx))
              simp only [List.cons_append, List.takeWhile_cons, hd, if_true, List.length_cons, List.drop_succ_cons] at this ⊢
              exact this
          · simp only [Bool.not_eq_true] at hd
            simp only [List.cons_append, List.takeWhile_cons, hd, Bool.false_eq_true, if_false, List.length_nil, List.drop_zero,
              List.head?_cons]
            intro e
            exact hq (by cases e; exact List.mem_cons_self ..)
      exact key (c :: pre) (by simp) h0 hlast hh
    simp only [List.cons_append] at hno ⊢
    rw [definition, if_neg hno]
    cases pre with
    | nil =>
      have : Conditions.isWordByte c = false := by
        have := hlast c rfl
        rw [← word_iff] at this
        simpa using this
      rw [this]; rfl
    | cons d pre =>
      exact ih _ (fun hm => h0 (List.mem_cons_of_mem _ hm)) (by
        intro x hx; exact hlast x (by rw [List.getLast?_cons_cons]; exact hx)) (by simp)

/-- the name -/
theorem definition_name (lower : Bool) (n s : Bytes) (h0 : n ≠ []) (hn : ∀ c ∈ n, nameByte lower c = true) :
    definition lower false (n ++ 0x3d :: s) = some (n, value s) := by
  have h1 := (takeWhile_stop n hn 0x3d (by cases lower <;> decide) s).1
  cases n with
  | nil => exact absurd rfl h0
  | cons c n =>
    simp only [List.cons_append] at h1 ⊢
    rw [definition]
    simp only [h1]
    have hd : (n ++ 0x3d :: s).drop (n.length + 1) = s := by
      rw [show n ++ 0x3d :: s = (n ++ [0x3d]) ++ s by simp, List.drop_left' (by simp)]
    rw [if_pos ⟨trivial, by simp, by simp⟩]
    simp only [List.length_cons, List.drop_succ_cons, hd]

/-- nothing is defined in a line without a sign of equality -/
theorem definition_none (lower : Bool) : ∀ (s : Bytes) (word : Bool), 0x3d ∉ s → definition lower word s = none := by
  intro s
  induction s with
  | nil => intros; rfl
  | cons c s ih =>
    intro word h
    rw [definition, if_neg]
    · exact ih _ fun hm => h (List.mem_cons_of_mem _ hm)
    · rintro ⟨-, -, hh⟩
      have : (0x3d : UInt8) ∈ (c :: s).drop ((c :: s).takeWhile (nameByte lower)).length := List.mem_of_mem_head? hh
      exact h (List.mem_of_mem_drop this)

/-! ## Values -/

theorem not_blank_stop {c : UInt8} (h : ¬Blank c) : (!Conditions.isBlank c) = true := by
  rw [← blank_iff] at h; simpa using h

theorem value_plain (b r : Bytes) (hb : ∀ c ∈ b, ¬Blank c) (hq : ∀ c, b.head? = some c → c ≠ 0x22 ∧ c ≠ 0x27)
    (x : UInt8) (hx : Blank x) : value (b ++ x :: r) = b := by
  have h1 := (takeWhile_stop (p := fun c => !Conditions.isBlank c) b (fun c hc => not_blank_stop (hb c hc)) x
    (by have := (blank_iff x).mpr hx; simp [this]) r).1
  have hx' : x ≠ 0x22 ∧ x ≠ 0x27 := by
    constructor <;> (intro e; subst e; revert hx; decide)
  unfold value
  cases b with
  | nil =>
    simp only [List.nil_append, List.head?_cons] at h1 ⊢
    rw [if_neg (by rintro (h | h); exact hx'.1 h; exact hx'.2 h)]
    exact h1
  | cons c b =>
    have := hq c rfl
    simp only [List.cons_append, List.head?_cons] at h1 ⊢
    rw [if_neg (by rintro (h | h); exact this.1 h; exact this.2 h)]
    exact h1

theorem value_quoted (q : UInt8) (hq : q = 0x22 ∨ q = 0x27) (t r : Bytes) (ht : ∀ c ∈ t, c ≠ q ∧ c ≠ 0x0a) :
    value ([q] ++ t ++ [q] ++ r) = [q] ++ t ++ [q] := by
  have e : [q] ++ t ++ [q] ++ r = q :: (t ++ q :: r) := by simp
  have h1 := (takeWhile_stop (p := fun c => decide (c ≠ q ∧ c ≠ 0x0a)) t (by
    intro c hc; simpa using ht c hc) q (by simp) r).1
  unfold value
  rw [e]
  simp only [List.head?_cons, if_pos hq, List.tail_cons]
  have : closing q (t ++ q :: r) = some t := by
    unfold closing
    simp only [h1]
    rw [if_pos (by simp)]
  rw [this]
  simp

theorem unquote_quoted (q : UInt8) (hq : q = 0x22 ∨ q = 0x27) (t : Bytes) (ht : 0x0a ∉ t) : unquote ([q] ++ t ++ [q]) = t := by
  have e : [q] ++ t ++ [q] = q :: (t ++ [q]) := by simp
  rw [e]
  unfold unquote
  dsimp only
  rw [if_pos ⟨hq, by simp, by simpa using ht⟩]
  simp

theorem unquote_plain (b : Bytes) (hq : ∀ c, b.head? = some c → c ≠ 0x22 ∧ c ≠ 0x27) : unquote b = b := by
  unfold unquote
  cases b with
  | nil => rfl
  | cons c b =>
    have := hq c rfl
    dsimp only
    rw [if_neg]
    rintro ⟨h | h, -⟩
    · exact this.1 h
    · exact this.2 h

/-! ## Variables -/

theorem expand_skip (l : Bytes → Option Bytes) (a s : Bytes) : expand l a.length (a ++ s) = expand l 0 s := by
  induction a with
  | nil => rfl
  | cons c a ih => exact ih

theorem expand_text (l : Bytes → Option Bytes) (b s : Bytes) (hb : 0x24 ∉ b) : expand l 0 (b ++ s) = b ++ expand l 0 s := by
  induction b with
  | nil => rfl
  | cons c b ih =>
    have hc : c ≠ 0x24 := fun e => hb (e ▸ List.mem_cons_self ..)
    simp only [List.cons_append, expand, if_neg hc]
    rw [ih fun h => hb (List.mem_cons_of_mem _ h)]

theorem takeWhile_name (n s : Bytes) (hn : ∀ c ∈ n, Word c) (hs : ∀ c, s.head? = some c → ¬Word c) :
    (n ++ s).takeWhile Conditions.isWordByte = n := by
  cases s with
  | nil => rw [List.append_nil]; exact (takeWhile_all' n fun c hc => (word_iff c).mpr (hn c hc)).1
  | cons x s =>
    refine (takeWhile_stop n (fun c hc => (word_iff c).mpr (hn c hc)) x ?_ s).1
    have := hs x rfl
    rw [← word_iff] at this
    simpa using this

theorem expand_var (l : Bytes → Option Bytes) (n s v : Bytes) (braces : Bool) (h0 : n ≠ []) (hn : ∀ c ∈ n, Word c)
    (hl : l n = some v) (hs : braces = false → ∀ c, s.head? = some c → ¬Word c ∧ c ≠ 0x7d) :
    expand l 0 ((Piece.var n braces).print ++ s) = v ++ expand l 0 s := by
  cases braces with
  | true =>
    have e : (Piece.var n true).print ++ s = 0x24 :: (0x7b :: n ++ [0x7d] ++ s) := by simp [Piece.print]
    have ht : (n ++ ([0x7d] ++ s)).takeWhile Conditions.isWordByte = n := takeWhile_name n _ hn (by
      intro c hc; cases hc; decide)
    have hr : reference l (0x7b :: n ++ [0x7d] ++ s) = some (v, (0x7b :: n ++ [0x7d]).length) := by
      have e2 : 0x7b :: n ++ [0x7d] ++ s = 0x7b :: (n ++ ([0x7d] ++ s)) := by simp
      rw [e2]
      unfold reference
      simp only [List.head?_cons, if_true, List.tail_cons, ht]
      rw [if_neg h0]
      simp [hl, List.drop_append]
      omega
    rw [e, expand, if_pos rfl, hr]
    dsimp only
    rw [expand_skip]
  | false =>
    have hs := hs rfl
    have e : (Piece.var n false).print ++ s = 0x24 :: (n ++ s) := by simp [Piece.print]
    have ht : (n ++ s).takeWhile Conditions.isWordByte = n := takeWhile_name n _ hn fun c hc => (hs c hc).1
    have hh : (n ++ s).head? ≠ some 0x7b := by
      cases n with
      | nil => exact absurd rfl h0
      | cons c n =>
        intro e
        have : c = 0x7b := by simpa using e
        have hw := hn c (List.mem_cons_self ..)
        rw [this] at hw
        revert hw; decide
    have hr : reference l (n ++ s) = some (v, n.length) := by
      unfold reference
      have h7 : ¬(s.head? = some 0x7d) := fun e => (hs _ e).2 rfl
      simp only [hh, if_false, ht]
      rw [if_neg h0]
      simp [hl, h7]
    rw [e, expand, if_pos rfl, hr]
    dsimp only
    rw [expand_skip]

theorem expand_parts (self : Option Bytes) (env : Env) (text : Bytes → Prop) (htext : ∀ b, text b → 0x24 ∉ b) :
    ∀ (ps : List Piece), Parts text env ps → expand (lookup self env) 0 (printAll ps) = valueAll env ps := by
  intro ps
  induction ps with
  | nil => intro _; rfl
  | cons p ps ih =>
    intro h
    cases p with
    | text b =>
      have e : printAll (.text b :: ps) = b ++ printAll ps := rfl
      have e2 : valueAll env (.text b :: ps) = b ++ valueAll env ps := rfl
      rw [e, e2, expand_text _ _ _ (htext b h.1), ih h.2]
    | var n braces =>
      obtain ⟨hn, h1, h2, h3, h4⟩ := h
      obtain ⟨v, hv⟩ := Option.ne_none_iff_exists'.mp h2
      have e : printAll (.var n braces :: ps) = (Piece.var n braces).print ++ printAll ps := rfl
      have e2 : valueAll env (.var n braces :: ps) = v ++ valueAll env ps := by
        simp [valueAll, Piece.value, hv]
      rw [e, e2, expand_var (lookup self env) n (printAll ps) v braces hn.1 hn.2.1 (by unfold lookup; rw [if_neg h1, hv]) h3, ih h4]

theorem name_no {n : Bytes} (hn : Name n) (c : UInt8) (hc : ¬Word c) : c ∉ n := fun h => hc (hn.2.1 c h)

/-- what is printed of parts has only bytes of texts, names and the marks of variables -/
theorem printAll_mem {text : Bytes → Prop} {env : Env} {c : UInt8} : ∀ {ps : List Piece}, Parts text env ps →
    c ∈ printAll ps → (∃ b, text b ∧ c ∈ b) ∨ Word c ∨ c = 0x24 ∨ c = 0x7b ∨ c = 0x7d := by
  intro ps
  induction ps with
  | nil => intro _ h; cases h
  | cons p ps ih =>
    intro h hc
    cases p with
    | text b =>
      have e : printAll (.text b :: ps) = b ++ printAll ps := rfl
      rw [e, List.mem_append] at hc
      rcases hc with hc | hc
      · exact .inl ⟨b, h.1, hc⟩
      · exact ih h.2 hc
    | var n braces =>
      have e : printAll (.var n braces :: ps) = (Piece.var n braces).print ++ printAll ps := rfl
      rw [e, List.mem_append] at hc
      rcases hc with hc | hc
      · right
        cases braces with
        | true =>
          simp only [Piece.print, List.mem_append, List.mem_cons, List.not_mem_nil, or_false] at hc
          rcases hc with (hc | hc) | hc
          · exact .inr (hc.imp_right .inl)
          · exact .inl (h.1.2.1 c hc)
          · exact .inr (.inr (.inr hc))
        | false =>
          simp only [Piece.print, List.mem_append, List.mem_cons, List.not_mem_nil, or_false] at hc
          rcases hc with hc | hc
          · exact .inr (.inl hc)
          · exact .inl (h.1.2.1 c hc)
      · exact ih h.2.2.2.2 hc

/-- parts do not begin with a dollar and a digit -/
theorem not_positional {text : Bytes → Prop} {env : Env} (htext : ∀ b, text b → 0x24 ∉ b) :
    ∀ {ps : List Piece}, Parts text env ps → positional (printAll ps) = false := by
  intro ps
  induction ps with
  | nil => intro _; rfl
  | cons p ps ih =>
    intro h
    cases p with
    | text b =>
      cases b with
      | nil => exact ih h.2
      | cons c b =>
        have hc : c ≠ 0x24 := fun e => htext _ h.1 (e ▸ List.mem_cons_self ..)
        show positional (c :: (b ++ printAll ps)) = false
        simp [positional, hc]
    | var n braces =>
      have hd : ∀ c, isDigit c = true → 0x30 ≤ c ∧ c ≤ 0x39 := by
        intro c hc; simpa [isDigit] using hc
      cases braces with
      | true =>
        show positional (0x24 :: 0x7b :: _) = false
        simp only [positional, List.all_cons]
        have : isDigit 0x7b = false := by decide
        simp [this]
      | false =>
        cases n with
        | nil => exact absurd rfl h.1.1
        | cons c n =>
          show positional (0x24 :: c :: _) = false
          simp only [positional, List.all_cons]
          have : isDigit c = false := by
            cases hx : isDigit c with
            | false => rfl
            | true => exact absurd (hd c hx) (h.1.2.2 c rfl)
          simp [this]

/-! ## A line -/

/-- what is before the name of an assignment -/
theorem lead_skip (lower : Bool) (i : Bytes) (hi : Blanks i) (e : Bool) (s : Bytes) :
    definition lower false (i ++ (if e then ascii "export " else []) ++ s) = definition lower false s := by
  have hb : ∀ c ∈ i, ¬Word c ∧ c ≠ 0x3d := by
    intro c hc
    have := (hi c hc).1
    constructor
    · intro hw
      exact blank_word this hw
    · intro e; subst e; revert this; decide
  by_cases h : i ++ (if e then ascii "export " else []) = []
  · rw [h]; rfl
  · refine definition_skip lower s _ false ?_ ?_ h
    · intro hm
      rcases List.mem_append.mp hm with hm | hm
      · exact (hb _ hm).2 rfl
      · cases e
        · cases hm
        · revert hm; decide
    · intro c hc
      cases e with
      | true =>
        have : (i ++ ascii "export ").getLast? = some 0x20 := by
          rw [List.getLast?_append]; rfl
        rw [if_pos rfl, this] at hc
        cases hc; decide
      | false =>
        simp only [Bool.false_eq_true, if_false, List.append_nil] at hc
        exact (hb c (List.mem_of_getLast? hc)).1

theorem double_fine {b : Bytes} (h : DoubleText b) : 0x24 ∉ b := fun hm => h _ hm (by decide)

theorem plain_fine {b : Bytes} (h : PlainText b) : 0x24 ∉ b := fun hm => (h _ hm).2 (by decide)

theorem plain_bytes {env : Env} {ps : List Piece} (h : Parts PlainText env ps) (c : UInt8) (hc : c ∈ printAll ps) :
    ¬Blank c ∧ c ≠ 0x22 ∧ c ≠ 0x27 ∧ c ≠ 0x23 := by
  rcases printAll_mem h hc with ⟨b, hb, hm⟩ | hw | rfl | rfl | rfl
  · refine ⟨(hb c hm).1, ?_, ?_, ?_⟩ <;> (intro e; subst e; exact (hb _ hm).2 (by decide))
  · refine ⟨?_, ?_, ?_, ?_⟩
    · intro hb
      exact blank_word hb hw
    all_goals (intro e; subst e; revert hw; decide)
  all_goals decide

theorem double_bytes {env : Env} {ps : List Piece} (h : Parts DoubleText env ps) (c : UInt8) (hc : c ∈ printAll ps) :
    c ≠ 0x22 ∧ c ≠ 0x0a ∧ c ≠ 0x23 := by
  rcases printAll_mem h hc with ⟨b, hb, hm⟩ | hw | rfl | rfl | rfl
  · refine ⟨?_, ?_, ?_⟩ <;> (intro e; subst e; exact hb _ hm (by decide))
  · refine ⟨?_, ?_, ?_⟩
    all_goals (intro e; subst e; revert hw; decide)
  all_goals decide

/-- the value of a line: found, and worth what it is worth to the shell -/
theorem value_fine (self : Option Bytes) (env : Env) (v : Value) (hv : v.Fine env) (r : Bytes) (hr : Blanks r) :
    value (v.print ++ r ++ [0x0a]) = v.print ∧ normalize self env v.print = some (v.value env) := by
  cases v with
  | plain ps =>
    have hp : Parts PlainText env ps := hv
    have hq : ∀ c, (printAll ps).head? = some c → c ≠ 0x22 ∧ c ≠ 0x27 := by
      intro c hc
      have := plain_bytes hp c (List.mem_of_mem_head? hc)
      exact ⟨this.2.1, this.2.2.1⟩
    constructor
    · show value (printAll ps ++ r ++ [0x0a]) = printAll ps
      have hb : ∀ c ∈ printAll ps, ¬Blank c := fun c hc => (plain_bytes hp c hc).1
      cases r with
      | nil =>
        rw [List.append_nil]
        exact value_plain _ [] hb hq 0x0a (by decide)
      | cons x r =>
        rw [List.append_assoc]
        exact value_plain _ (r ++ [0x0a]) hb hq x (hr x (List.mem_cons_self ..)).1
    · show normalize self env (printAll ps) = some (valueAll env ps)
      unfold normalize
      rw [unquote_plain _ hq]
      dsimp only
      rw [not_positional (fun _ => plain_fine) hp, expand_parts self env PlainText (fun _ => plain_fine) ps hp]
      rfl
  | double ps =>
    have hp : Parts DoubleText env ps := hv
    constructor
    · show value ([0x22] ++ printAll ps ++ [0x22] ++ r ++ [0x0a]) = [0x22] ++ printAll ps ++ [0x22]
      rw [List.append_assoc _ r]
      exact value_quoted 0x22 (.inl rfl) _ _ fun c hc => ⟨(double_bytes hp c hc).1, (double_bytes hp c hc).2.1⟩
    · show normalize self env ([0x22] ++ printAll ps ++ [0x22]) = some (valueAll env ps)
      unfold normalize
      rw [unquote_quoted 0x22 (.inl rfl) _ fun h => (double_bytes hp _ h).2.1 rfl]
      dsimp only
      rw [not_positional (fun _ => double_fine) hp, expand_parts self env DoubleText (fun _ => double_fine) ps hp]
      rfl
  | single b =>
    have hb : SingleText b := hv
    have h0 : ∀ c ∈ b, c ≠ 0x27 ∧ c ≠ 0x0a ∧ c ≠ 0x24 := by
      intro c hc
      refine ⟨?_, ?_, ?_⟩ <;> (intro e; subst e; exact hb _ hc (by decide))
    constructor
    · show value ([0x27] ++ b ++ [0x27] ++ r ++ [0x0a]) = [0x27] ++ b ++ [0x27]
      rw [List.append_assoc _ r]
      exact value_quoted 0x27 (.inr rfl) _ _ fun c hc => ⟨(h0 c hc).1, (h0 c hc).2.1⟩
    · show normalize self env ([0x27] ++ b ++ [0x27]) = some b
      have hd : 0x24 ∉ b := fun h => (h0 _ h).2.2 rfl
      unfold normalize
      rw [unquote_quoted 0x27 (.inr rfl) _ fun h => (h0 _ h).2.1 rfl]
      dsimp only
      have hp : positional b = false := by
        cases b with
        | nil => rfl
        | cons c b =>
          have : c ≠ 0x24 := fun e => hd (e ▸ List.mem_cons_self ..)
          simp [positional, this]
      have he := expand_text (lookup self env) b [] hd
      rw [List.append_nil] at he
      rw [hp, he]
      simp [expand]

theorem blanks_no {i : Bytes} (h : Blanks i) (c : UInt8) (hc : ¬Blank c) : c ∉ i := fun hm => hc (h c hm).1

theorem name_bytes {n : Bytes} (h : Name n) (c : UInt8) (hc : ¬Word c) : c ∉ n := fun hm => hc (h.2.1 c hm)

theorem value_no {env : Env} {v : Value} (hv : v.Fine env) : 0x23 ∉ v.print ∧ 0x0a ∉ v.print := by
  cases v with
  | plain ps =>
    have hp : Parts PlainText env ps := hv
    exact ⟨fun h => (plain_bytes hp _ h).2.2.2 rfl, fun h => (plain_bytes hp _ h).1 (by decide)⟩
  | double ps =>
    have hp : Parts DoubleText env ps := hv
    constructor <;>
      (intro h
       simp only [Value.print, List.mem_append, List.mem_cons, List.not_mem_nil, or_false] at h
       rcases h with (h | h) | h)
    · revert h; decide
    · exact (double_bytes hp _ h).2.2 rfl
    · revert h; decide
    · revert h; decide
    · exact (double_bytes hp _ h).2.1 rfl
    · revert h; decide
  | single b =>
    have hb : SingleText b := hv
    constructor <;>
      (intro h
       simp only [Value.print, List.mem_append, List.mem_cons, List.not_mem_nil, or_false] at h
       rcases h with (h | h) | h)
    · revert h; decide
    · exact hb _ h (by decide)
    · revert h; decide
    · revert h; decide
    · exact hb _ h (by decide)
    · revert h; decide

/-- the line without its line feed -/
theorem line_end (lower : Bool) (env : Env) (l : Line) (h : l.Fine lower env) :
    ∃ b, l.print = b ++ [0x0a] ∧ 0x0a ∉ b := by
  have hbl : ∀ {i : Bytes}, Blanks i → 0x0a ∉ i := fun hi hm => (hi _ hm).2 rfl
  cases l with
  | blank i => exact ⟨i, rfl, hbl h⟩
  | comment i t =>
    refine ⟨i ++ [0x23] ++ t, rfl, ?_⟩
    simp only [List.mem_append, List.mem_cons, List.not_mem_nil, or_false]
    rintro ((hm | hm) | hm)
    · exact hbl h.1 hm
    · revert hm; decide
    · exact h.2 hm
  | assign e i n v r c =>
    obtain ⟨h1, h2, -, h4, h5, h6⟩ := h
    refine ⟨_, rfl, ?_⟩
    simp only [List.mem_append, List.mem_cons, List.not_mem_nil, or_false]
    rintro ((((((hm | hm) | hm) | hm) | hm) | hm) | hm)
    · exact hbl h1 hm
    · cases e
      · cases hm
      · revert hm; decide
    · exact name_bytes h2 _ (by decide) hm
    · revert hm; decide
    · exact (value_no h4).2 hm
    · exact hbl h5 hm
    · cases c with
      | none => cases hm
      | some t =>
        simp only [List.mem_append, List.mem_cons, List.not_mem_nil, or_false] at hm
        rcases hm with hm | hm
        · revert hm; decide
        · exact (h6 t rfl).1 hm

theorem line_fine (lower : Bool) (self : Option Bytes) (env : Env) (l : Line) (h : l.Fine lower env) :
    extractLine lower self env l.print = l.run env := by
  cases l with
  | blank i =>
    have hi : Blanks i := h
    unfold extractLine
    have : uncomment (Line.blank i).print = i ++ [0x0a] := uncomment_none _ (by
      simp only [Line.print, List.mem_append, List.mem_cons, List.not_mem_nil, or_false]
      rintro (hm | hm)
      · exact blanks_no hi _ (by decide) hm
      · revert hm; decide)
    rw [this, definition_none]
    · rfl
    · simp only [List.mem_append, List.mem_cons, List.not_mem_nil, or_false]
      rintro (hm | hm)
      · exact blanks_no hi _ (by decide) hm
      · revert hm; decide
  | comment i t =>
    obtain ⟨hi, ht⟩ := h
    unfold extractLine
    have : uncomment (Line.comment i t).print = i ++ [0x0a] := by
      have := uncomment_some i t (blanks_no hi _ (by decide)) ht
      simpa [Line.print] using this
    rw [this, definition_none]
    · rfl
    · simp only [List.mem_append, List.mem_cons, List.not_mem_nil, or_false]
      rintro (hm | hm)
      · exact blanks_no hi _ (by decide) hm
      · revert hm; decide
  | assign e i n v r c =>
    obtain ⟨h1, h2, h3, h4, h5, h6⟩ := h
    have hno : 0x23 ∉ i ++ (if e then ascii "export " else []) ++ n ++ [0x3d] ++ v.print ++ r := by
      simp only [List.mem_append, List.mem_cons, List.not_mem_nil, or_false]
      rintro (((((hm | hm) | hm) | hm) | hm) | hm)
      · exact blanks_no h1 _ (by decide) hm
      · cases e
        · cases hm
        · revert hm; decide
      · exact name_bytes h2 _ (by decide) hm
      · revert hm; decide
      · exact (value_no h4).1 hm
      · exact blanks_no h5 _ (by decide) hm
    have hu : uncomment (Line.assign e i n v r c).print =
        i ++ (if e then ascii "export " else []) ++ (n ++ 0x3d :: (v.print ++ r ++ [0x0a])) := by
      cases c with
      | none =>
        have : (Line.assign e i n v r none).print = i ++ (if e then ascii "export " else []) ++ n ++ [0x3d] ++ v.print ++ r ++ [0x0a] := by
          simp [Line.print]
        rw [this, uncomment_none]
        · simp
        · intro hm
          rcases List.mem_append.mp hm with hm | hm
          · exact hno hm
          · revert hm; decide
      | some t =>
        have := uncomment_some _ t hno (h6 t rfl).1
        have e2 : (Line.assign e i n v r (some t)).print =
            i ++ (if e then ascii "export " else []) ++ n ++ [0x3d] ++ v.print ++ r ++ 0x23 :: t ++ [0x0a] := by
          simp [Line.print]
        rw [e2, this]
        simp
    obtain ⟨g1, g2⟩ := value_fine self env v h4 r h5
    unfold extractLine
    rw [hu, lead_skip lower i h1, definition_name lower n _ h2.1 fun c hc => word_nameByte (h2.2.1 c hc) fun hl => h3 hl c hc, g1]
    dsimp only
    rw [g2]
    rfl

/-- **C123** (partial).  Whatever is set already: a file of assignments, blank lines and comments is
read as the shell reads it. -/
theorem C123_partial (lower : Bool) (self : Option Bytes) : ∀ (ls : List Line) (env : Env), FineFile lower env ls →
    extract lower self (printFile ls) env = shell env ls := by
  intro ls
  induction ls with
  | nil => intro env _; rfl
  | cons l ls ih =>
    intro env h
    obtain ⟨b, hb, h0⟩ := line_end lower env l h.1
    have e : printFile (l :: ls) = l.print ++ printFile ls := rfl
    unfold extract
    rw [e, hb, eachLine_cons b h0, ← hb, List.foldl_cons, line_fine lower self env l h.1]
    exact ih _ h.2

end Verif.Props.Detector
