import Verif.Props.DetectorFiles
/-
C125: what the manager reads in the configuration of milter-greylist.
-/
namespace Verif.Props.Detector
open Verif Verif.Detector Verif.Spec.Detector

/-! ## Lines -/

def isComment (l : Bytes) : Bool := (l.dropWhile Conditions.isBlank).head? = some 0x23

theorem normalize_plain : ∀ (ls acc : List Bytes), (∀ l ∈ ls, l.getLast? = some 0x0a) →
    normalizeLines false acc ls = acc ++ ls.filter (!isComment ·) := by
  intro ls
  induction ls with
  | nil => intro acc _; simp [normalizeLines]
  | cons l ls ih =>
    intro acc h
    have h1 := h l (List.mem_cons_self ..)
    have h2 := fun l' hl' => h l' (List.mem_cons_of_mem _ hl')
    unfold normalizeLines
    by_cases hc : (l.dropWhile Conditions.isBlank).head? = some 0x23
    · rw [if_pos hc, ih acc h2]
      have : isComment l = true := by simpa [isComment] using hc
      simp [this]
    · rw [if_neg hc]
      have : isComment l = false := by simpa [isComment] using hc
      simp only [Bool.false_eq_true, if_false, h1]
      rw [show decide ((some 0x0a : Option UInt8) = some 0x5c) = false from by decide, ih _ h2]
      simp [this]

theorem chomp_line (b : Bytes) (h : b.getLast? ≠ some 0x0d) : chomp (b ++ [0x0a]) = b := by
  unfold chomp
  simp [h]

theorem chomp_blank (i : Bytes) (h : Blanks i) : ∀ c ∈ chomp (i ++ [0x0a]), Conditions.isBlank c = true := by
  intro c hc
  unfold chomp at hc
  simp only [List.getLast?_append, List.getLast?_singleton, Option.some_or, if_true, List.dropLast_concat] at hc
  split at hc
  · exact blanks_all h c ((List.dropLast_sublist _).subset hc)
  · exact blanks_all h c hc

/-! ## Lists -/

theorem acl_plain (letter : UInt8) (hl : letter ≠ 0x61) (i s t : Bytes) (l : Option UInt8) (hi : Blanks i) (hs : Blanks s) (hs0 : s ≠ [])
    (ht : Begins t) (hll : ∀ c, l = some c → c = letter ∧ ¬Blank c) :
    acl letter (i ++ (l.toList ++ (ascii "acl" ++ (s ++ t)))) = some t := by
  have h1 : (s ++ t).dropWhile Conditions.isBlank = t := indent_drop s hs t ht
  have h2 : (s ++ t).head?.any Conditions.isBlank = true := by
    cases s with
    | nil => exact absurd rfl hs0
    | cons y s => simp [blanks_all hs y (List.mem_cons_self ..)]
  have h3 : (ascii "acl" ++ (s ++ t)).head? ≠ some letter := by
    show some (0x61 : UInt8) ≠ some letter
    intro e; exact hl (by cases e; rfl)
  have hp : (ascii "acl").isPrefixOf (ascii "acl" ++ (s ++ t)) = true := List.isPrefixOf_iff_prefix.mpr (List.prefix_append ..)
  have hd : (ascii "acl" ++ (s ++ t)).drop 3 = s ++ t := by
    have : (3 : Nat) = (ascii "acl").length := rfl
    rw [this, List.drop_left]
  unfold acl
  cases l with
  | none =>
    rw [indent_drop i hi _ (by intro c hc; cases hc; decide)]
    simp only [Option.toList_none, List.nil_append, h3, if_false, hp, if_true, hd, h1, h2]
  | some c =>
    obtain ⟨rfl, hb⟩ := hll c rfl
    rw [indent_drop i hi _ (by intro x hx; cases hx; exact hb)]
    simp only [Option.toList_some, List.cons_append, List.nil_append, List.head?_cons, if_true, List.tail_cons, hp, hd, h1, h2]

/-- a list for data is not one for recipients -/
theorem acl_data (i s t : Bytes) (hi : Blanks i) : acl 0x72 (i ++ ((some (0x64 : UInt8)).toList ++ (ascii "acl" ++ (s ++ t)))) = none := by
  unfold acl
  rw [indent_drop i hi _ (by intro x hx; cases hx; decide)]
  rfl

/-- nothing that is no list -/
theorem acl_none (letter : UInt8) (hw : Word letter) (k rest : Bytes) (y : UInt8) (hk : ∀ c ∈ k, Word c) (hy : Blank y) (i : Bytes) (hi : Blanks i)
    (h0 : k ≠ []) (h1 : k ≠ ascii "acl") (h2 : k ≠ letter :: ascii "acl") : acl letter (i ++ (k ++ y :: rest)) = none := by
  have key : ∀ (lit tail : Bytes) (z : UInt8), (∀ c ∈ lit, Word c) → Blank z → k ++ y :: rest = lit ++ z :: tail → k = lit := by
    intro lit tail z hlit hz e
    have a := takeWhile_name k (y :: rest) hk (by intro c hc hw; cases hc; exact blank_word hy hw)
    have b := takeWhile_name lit (z :: tail) hlit (by intro c hc hw; cases hc; exact blank_word hz hw)
    rw [e, b] at a
    exact a.symm
  have hacl : ∀ r : Bytes, (if (ascii "acl").isPrefixOf r then
      (if (r.drop 3).head?.any Conditions.isBlank then some ((r.drop 3).dropWhile Conditions.isBlank) else none) else none) ≠ (none : Option Bytes) →
      ∃ z tail, r = ascii "acl" ++ z :: tail ∧ Blank z := by
    intro r h
    by_cases hp : (ascii "acl").isPrefixOf r = true
    · rw [if_pos hp] at h
      obtain ⟨t, rfl⟩ := List.isPrefixOf_iff_prefix.mp hp
      have hd : (ascii "acl" ++ t).drop 3 = t := by
        have : (3 : Nat) = (ascii "acl").length := rfl
        rw [this, List.drop_left]
      rw [hd] at h
      cases t with
      | nil => simp at h
      | cons z t =>
        by_cases hz : Conditions.isBlank z = true
        · exact ⟨z, t, rfl, (blank_iff z).mp hz⟩
        · simp [hz] at h
    · rw [if_neg hp] at h; exact absurd rfl h
  unfold acl
  rw [indent_drop i hi _ (by
    intro c hc hb
    cases k with
    | nil => exact h0 rfl
    | cons d k => cases hc; exact blank_word hb (hk _ (List.mem_cons_self ..)))]
  apply Classical.byContradiction
  intro h
  dsimp only at h
  by_cases hh : (k ++ y :: rest).head? = some letter
  · rw [if_pos hh] at h
    obtain ⟨z, tail, e, hz⟩ := hacl _ h
    cases k with
    | nil => exact h0 rfl
    | cons d k =>
      have hd : d = letter := by simpa using hh
      subst hd
      have e' : d :: k ++ y :: rest = (d :: ascii "acl") ++ z :: tail := by
        simp only [List.cons_append, List.tail_cons] at e ⊢
        rw [e]
      exact h2 (key _ tail z (by
        intro c hc
        rcases List.mem_cons.mp hc with rfl | hc
        · exact hw
        · have : ∀ c ∈ ascii "acl", Word c := by decide
          exact this c hc) hz e')
  · rw [if_neg hh] at h
    obtain ⟨z, tail, e, hz⟩ := hacl _ h
    exact h1 (key _ tail z (by decide) hz e)

/-! ## Waiting -/

theorem noTarpit_tail {c : UInt8} {t : Bytes} (h : NoTarpit (c :: t)) : NoTarpit t := by
  intro a b e
  exact h (c :: a) b (by rw [e]; rfl)

theorem here_none (s : Bytes) (h : ¬(ascii "tarpit" <+: s)) : tarpitHere s = none := by
  unfold tarpitHere
  rw [if_neg]
  intro e
  exact h (List.isPrefixOf_iff_prefix.mp e)

theorem tarpit_none : ∀ (t : Bytes) (word : Bool), NoTarpit t → tarpit word t = none := by
  intro t
  induction t with
  | nil => intros; rfl
  | cons c t ih =>
    intro word h
    have : tarpitHere (c :: t) = none := here_none _ (by
      rintro ⟨b, hb⟩
      exact h [] b (by rw [← hb]; rfl))
    rw [tarpit, this]
    simp only [ite_self]
    exact ih _ (noTarpit_tail h)

theorem tarpit_skip (s : Bytes) : ∀ (b : Bytes) (word : Bool), NoTarpit b → (∀ c, b.getLast? = some c → Blank c) →
    tarpit word (b ++ s) = tarpit (if b = [] then word else false) s := by
  intro b
  induction b with
  | nil => intros; rfl
  | cons c b ih =>
    intro word h hl
    have : tarpitHere (c :: b ++ s) = none := here_none _ (by
      intro hp
      rcases List.prefix_or_prefix_of_prefix hp (List.prefix_append (c :: b) s) with hq | hq
      · obtain ⟨r, hr⟩ := hq
        exact h [] r (by rw [← hr]; rfl)
      · -- the last byte would be both a blank and a letter of the word
        obtain ⟨x, hx⟩ : ∃ x, (c :: b).getLast? = some x := ⟨_, List.getLast?_eq_some_getLast (by simp)⟩
        have hm : x ∈ ascii "tarpit" := hq.subset (List.mem_of_getLast? hx)
        have hb := hl x hx
        have : ∀ x ∈ ascii "tarpit", ¬Blank x := by decide
        exact this x hm hb)
    have e : tarpit word (c :: b ++ s) = tarpit (Conditions.isWordByte c) (b ++ s) := by
      simp only [List.cons_append] at this ⊢
      rw [tarpit, this]
      simp only [ite_self]
    rw [e, if_neg (by simp)]
    cases b with
    | nil =>
      have hb := hl c rfl
      have : Conditions.isWordByte c = false := by
        cases hw : Conditions.isWordByte c with
        | false => rfl
        | true => exact (blank_word hb ((word_iff c).mp hw)).elim
      rw [this]; rfl
    | cons d b =>
      rw [ih _ (noTarpit_tail h) (by intro x hx; exact hl x (by rw [List.getLast?_cons_cons]; exact hx))]
      rw [if_neg (by simp)]

theorem digit_iff (c : UInt8) : isDigit c = true ↔ Digit c := by
  unfold isDigit Digit
  simp only [Bool.and_eq_true, decide_eq_true_eq]

theorem digit_word {c : UInt8} (h : Digit c) : Word c := .inl h

theorem toI_number {ds : Bytes} (h : ∀ c ∈ ds, Digit c) : Conditions.toI ds = number ds := by
  unfold Conditions.toI number
  rw [(takeWhile_all' ds fun c hc => (digit_iff c).mpr (h c hc)).1]

theorem digits_end (ds r : Bytes) (h : ∀ c ∈ ds, Digit c) (hr : ∀ c, r.head? = some c → ¬Digit c) :
    (ds ++ r).takeWhile isDigit = ds := by
  cases r with
  | nil => rw [List.append_nil]; exact (takeWhile_all' ds fun c hc => (digit_iff c).mpr (h c hc)).1
  | cons x r =>
    refine (takeWhile_stop ds (fun c hc => (digit_iff c).mpr (h c hc)) x ?_ r).1
    have := hr x rfl
    rw [← digit_iff] at this
    simpa using this

theorem tarpit_here (bl ds a : Bytes) (u : Option UInt8) (hb : Blanks bl) (hb0 : bl ≠ []) (hd0 : ds ≠ []) (hd : ∀ c ∈ ds, Digit c)
    (hu : ∀ c, u = some c → c ∈ ascii "smhdw") (ha : ∀ c, a.head? = some c → ¬Word c) :
    tarpitHere (ascii "tarpit" ++ (bl ++ (ds ++ (u.toList ++ a)))) = some (number ds * seconds u) := by
  have hp : (ascii "tarpit").isPrefixOf (ascii "tarpit" ++ (bl ++ (ds ++ (u.toList ++ a)))) = true :=
    List.isPrefixOf_iff_prefix.mpr (List.prefix_append ..)
  have h6 : (ascii "tarpit" ++ (bl ++ (ds ++ (u.toList ++ a)))).drop 6 = bl ++ (ds ++ (u.toList ++ a)) := by
    have : (6 : Nat) = (ascii "tarpit").length := rfl
    rw [this, List.drop_left]
  have h1 : (bl ++ (ds ++ (u.toList ++ a))).head?.any Conditions.isBlank = true := by
    cases bl with
    | nil => exact absurd rfl hb0
    | cons y s => simp [blanks_all hb y (List.mem_cons_self ..)]
  have h2 : (bl ++ (ds ++ (u.toList ++ a))).dropWhile Conditions.isBlank = ds ++ (u.toList ++ a) := indent_drop bl hb _ (by
    intro c hc hbl
    cases ds with
    | nil => exact hd0 rfl
    | cons d ds => cases hc; exact blank_word hbl (digit_word (hd _ (List.mem_cons_self ..))))
  have h3 : (ds ++ (u.toList ++ a)).takeWhile isDigit = ds := digits_end ds _ hd (by
    intro c hc hdg
    cases u with
    | none => exact ha c hc (digit_word hdg)
    | some x =>
      have : c = x := by simpa using hc.symm
      subst this
      have hm := hu c rfl
      have : ∀ x ∈ ascii "smhdw", ¬Digit x := by decide
      exact this c hm hdg)
  have haw : a.head?.any Conditions.isWordByte = false := by
    cases a with
    | nil => rfl
    | cons x a =>
      have := ha x rfl
      rw [← word_iff] at this
      simpa using this
  unfold tarpitHere
  rw [if_pos hp]
  simp only [h6, h1, if_true, h2, h3, List.drop_left, if_neg hd0]
  cases u with
  | none =>
    simp only [Option.toList_none, List.nil_append]
    cases a with
    | nil => simp [resolveTime, toI_number hd, seconds]
    | cons x a =>
      have hx : Conditions.isWordByte x = false := by simpa using haw
      have hux : unitByte x = false := by
        cases h : unitByte x with
        | false => rfl
        | true =>
          have : ∀ x, unitByte x = true → Conditions.isWordByte x = true := by
            intro x hx
            rw [word_iff]
            unfold unitByte at hx
            simp only [Bool.or_eq_true, beq_iff_eq] at hx
            rcases hx with (((rfl | rfl) | rfl) | rfl) | rfl <;> decide
          rw [this x h] at hx; cases hx
      dsimp only
      rw [if_neg (by simp [hux]), if_neg (by simp [hx])]
      simp [resolveTime, toI_number hd, seconds]
  | some x =>
    have hm := hu x rfl
    have hux : unitByte x = true := by
      have : ∀ x ∈ ascii "smhdw", unitByte x = true := by decide
      exact this x hm
    simp only [Option.toList_some, List.cons_append, List.nil_append, hux, if_true, haw, Bool.false_eq_true, if_false, toI_number hd]
    have hm' : x = 0x73 ∨ x = 0x6d ∨ x = 0x68 ∨ x = 0x64 ∨ x = 0x77 := by
      have : ∀ x ∈ ascii "smhdw", x = 0x73 ∨ x = 0x6d ∨ x = 0x68 ∨ x = 0x64 ∨ x = 0x77 := by decide
      exact this x hm
    congr 1
    rcases hm' with rfl | rfl | rfl | rfl | rfl <;> simp [resolveTime, seconds] <;> omega

/-! ## Settings -/

theorem quoted_none (mode : Bool) : ∀ (r taken : Bytes), 0x22 ∉ r → quotedValue mode taken r = none := by
  intro r
  induction r with
  | nil => intros; rfl
  | cons c r ih =>
    intro taken h
    unfold quotedValue
    dsimp only
    have hc : c ≠ 0x22 := fun e => h (e ▸ List.mem_cons_self ..)
    rw [if_neg (fun e => hc e.1)]
    split
    · rfl
    · exact ih _ fun hm => h (List.mem_cons_of_mem _ hm)

theorem quoted_value (mode : Bool) (r : Bytes) : ∀ (v taken : Bytes), 0x22 ∉ v → 0x0a ∉ v → taken ++ v ≠ [] →
    quotedValue mode taken (v ++ 0x22 :: r) =
      if (if mode then r.dropWhile Conditions.isBlank ≠ [] ∧ (r.dropWhile Conditions.isBlank).all isDigit = true
          else r.dropWhile Conditions.isBlank = []) then some (taken ++ v) else quotedValue mode (taken ++ v ++ [0x22]) r := by
  intro v
  induction v with
  | nil =>
    intro taken _ _ h
    rw [List.append_nil] at h
    simp only [List.nil_append, List.append_nil]
    conv => lhs; unfold quotedValue
    dsimp only
    by_cases hc : (if mode = true then r.dropWhile Conditions.isBlank ≠ [] ∧ (r.dropWhile Conditions.isBlank).all isDigit = true
          else r.dropWhile Conditions.isBlank = [])
    · rw [if_pos ⟨rfl, h, hc⟩, if_pos hc]
    · rw [if_neg (fun e => hc e.2.2), if_neg hc, if_neg (by decide)]
  | cons c v ih =>
    intro taken h1 h2 _
    have hc : c ≠ 0x22 := fun e => h1 (e ▸ List.mem_cons_self ..)
    have hn : c ≠ 0x0a := fun e => h2 (e ▸ List.mem_cons_self ..)
    simp only [List.cons_append]
    conv => lhs; unfold quotedValue
    dsimp only
    rw [if_neg (fun e => hc e.1), if_neg hn, ih _ (fun h => h1 (List.mem_cons_of_mem _ h)) (fun h => h2 (List.mem_cons_of_mem _ h)) (by simp)]
    simp

/-! ## A file -/

theorem greyLine_end (l : GreyLine) (h : l.Fine) : ∃ b, l.print = b ++ [0x0a] ∧ 0x0a ∉ b := by
  have hbl : ∀ {i : Bytes}, Blanks i → 0x0a ∉ i := fun hi hm => (hi _ hm).2 rfl
  have hw : ∀ {k : Bytes}, (∀ c ∈ k, Word c) → 0x0a ∉ k := by
    intro k hk hm
    have := hk _ hm
    revert this; decide
  cases l with
  | blank i => exact ⟨i, rfl, hbl h⟩
  | comment i t =>
    refine ⟨_, rfl, ?_⟩
    simp only [List.mem_append, List.mem_cons, List.not_mem_nil, or_false]
    rintro ((hm | hm) | hm)
    · exact hbl h.1 hm
    · revert hm; decide
    · exact h.2 hm
  | quiet i l s t =>
    obtain ⟨h1, h2, h3, -, h5, -⟩ := h
    refine ⟨_, rfl, ?_⟩
    simp only [List.mem_append]
    rintro ((((hm | hm) | hm) | hm) | hm)
    · exact hbl h1 hm
    · cases l with
      | none => cases hm
      | some c =>
        simp only [Option.toList_some, List.mem_singleton] at hm
        rcases h2 c rfl with rfl | rfl <;> cases hm
    · revert hm; decide
    · exact hbl h3 hm
    · exact h5 hm
  | tarpit i r s b bl ds u a =>
    obtain ⟨h1, h2, -, h4, -, -, -, h8, -, -, h11, h12, h13, -⟩ := h
    refine ⟨_, rfl, ?_⟩
    simp only [List.mem_append]
    rintro (((((((((hm | hm) | hm) | hm) | hm) | hm) | hm) | hm) | hm) | hm)
    · exact hbl h1 hm
    · cases r
      · cases hm
      · revert hm; decide
    · revert hm; decide
    · exact hbl h2 hm
    · exact h4 hm
    · revert hm; decide
    · exact hbl h8 hm
    · exact hw (fun c hc => digit_word (h11 c hc)) hm
    · cases u with
      | none => cases hm
      | some c =>
        simp only [Option.toList_some, List.mem_singleton] at hm
        have := h12 c rfl
        rw [← hm] at this
        revert this; decide
    · exact h13 hm
  | quoted i k s v r =>
    obtain ⟨h1, h2, -, h4, -, -, -, h8, h9⟩ := h
    refine ⟨_, rfl, ?_⟩
    simp only [List.mem_append]
    rintro ((((((hm | hm) | hm) | hm) | hm) | hm) | hm)
    · exact hbl h1 hm
    · exact hw h2.2 hm
    · exact hbl h4 hm
    · revert hm; decide
    · exact h8 hm
    · revert hm; decide
    · rcases h9 with h9 | ⟨bl, ds, rfl, ha, -, hc⟩
      · exact hbl h9.1 hm
      · rcases List.mem_append.mp hm with hm | hm
        · exact hbl ha hm
        · exact hw (fun c hc' => digit_word (hc c hc')) hm

/-- what a line adds -/
def greyStep (g : Greylist) : GreyLine → Greylist
  | .tarpit _ _ _ _ _ ds u _ => { g with maxTarpit := some (max (g.maxTarpit.getD 0) (number ds * seconds u)) }
  | .quoted _ k _ v _ => { g with variables := fun n => if n = k then some v else g.variables n }
  | _ => g

theorem last_append_ne {a b : Bytes} (hb : b ≠ []) : (a ++ b).getLast? = b.getLast? := by
  rw [List.getLast?_append]
  obtain ⟨x, hx⟩ : ∃ x, b.getLast? = some x := ⟨_, List.getLast?_eq_some_getLast hb⟩
  rw [hx]; rfl

theorem grey_line (g : Greylist) (l : GreyLine) (h : l.Fine) (hc : isComment l.print = false) : g.line l.print = greyStep g l := by
  cases l with
  | blank i =>
    have hb := chomp_blank i h
    have hd := (takeWhile_all' _ hb).2
    unfold Greylist.line
    rw [show (GreyLine.blank i).print = i ++ [0x0a] from rfl]
    have h1 : ∀ letter, acl letter (chomp (i ++ [0x0a])) = none := by
      intro letter
      unfold acl
      rw [hd]; rfl
    have h2 : greylistVariable (chomp (i ++ [0x0a])) = none := by
      unfold greylistVariable
      rw [hd]; rfl
    simp only [h1, h2]
    rfl
  | comment i t =>
    exfalso
    have e : (GreyLine.comment i t).print = i ++ ([0x23] ++ (t ++ [0x0a])) := by simp [GreyLine.print]
    unfold isComment at hc
    rw [e, indent_drop i h.1 _ (by intro c hc; cases hc; decide)] at hc
    simp at hc
  | quiet i l s t =>
    obtain ⟨h1, h2, h3, h4, h5, h6, h7, h8, h9⟩ := h
    have e : (GreyLine.quiet i l s t).print = i ++ (l.toList ++ (ascii "acl" ++ (s ++ t))) ++ [0x0a] := by simp [GreyLine.print]
    have hch : chomp (GreyLine.quiet i l s t).print = i ++ (l.toList ++ (ascii "acl" ++ (s ++ t))) := by
      rw [e]
      refine chomp_line _ ?_
      have : i ++ (l.toList ++ (ascii "acl" ++ (s ++ t))) = (i ++ l.toList ++ ascii "acl" ++ s) ++ t := by simp
      rw [this, last_append_ne h9]
      exact h6
    unfold Greylist.line
    simp only [hch]
    by_cases hl : l = some 0x64
    · subst hl
      rw [acl_data i s t h1, acl_plain 0x64 (by decide) i s t (some 0x64) h1 h3 h4 h7 (by intro c hc; cases hc; decide)]
      rfl
    · rw [acl_plain 0x72 (by decide) i s t l h1 h3 h4 h7 (by
        intro c hc
        rcases h2 c hc with e | e
        · rw [e]; decide
        · exact absurd (e ▸ hc) hl)]
      dsimp only
      rw [tarpit_none t false (h8.resolve_right hl)]
      rfl
  | tarpit i r s b bl ds u a =>
    obtain ⟨h1, h2, h3, h4, h5, h6, h7, h8, h9, h10, h11, h12, h13, h14, h15⟩ := h
    let t := b ++ (ascii "tarpit" ++ (bl ++ (ds ++ (u.toList ++ a))))
    let l : Option UInt8 := if r then some 0x72 else none
    have e : (GreyLine.tarpit i r s b bl ds u a).print = i ++ (l.toList ++ (ascii "acl" ++ (s ++ t))) ++ [0x0a] := by
      cases r <;> simp [GreyLine.print, t, l]
    have hch : chomp (GreyLine.tarpit i r s b bl ds u a).print = i ++ (l.toList ++ (ascii "acl" ++ (s ++ t))) := by
      rw [e]
      refine chomp_line _ ?_
      have : i ++ (l.toList ++ (ascii "acl" ++ (s ++ t))) = (i ++ l.toList ++ ascii "acl" ++ s ++ b ++ ascii "tarpit" ++ bl) ++ (ds ++ (u.toList ++ a)) := by
        simp [t]
      rw [this, last_append_ne (by simp [h10])]
      by_cases ha : a = []
      · subst ha
        rw [List.append_nil]
        cases u with
        | none =>
          rw [Option.toList_none, List.append_nil]
          intro hl
          have := h11 _ (List.mem_of_getLast? hl)
          revert this; decide
        | some x =>
          rw [Option.toList_some, List.getLast?_concat]
          intro hl
          have := h12 x rfl
          cases hl
          revert this; decide
      · rw [← List.append_assoc, last_append_ne ha]
        exact h14
    have ht : Begins t := by
      intro c hc
      cases b with
      | nil => cases hc; decide
      | cons x b => cases hc; exact h5 _ rfl
    have htp : tarpit false t = some (number ds * seconds u) := by
      show tarpit false (b ++ (ascii "tarpit" ++ (bl ++ (ds ++ (u.toList ++ a))))) = _
      rw [tarpit_skip _ b false h6 h7, ite_self]
      have := tarpit_here bl ds a u h8 h9 h10 h11 h12 h15
      show tarpit false (0x74 :: _) = _
      rw [tarpit]
      simp only [Bool.false_eq_true, if_false]
      show (match tarpitHere (ascii "tarpit" ++ (bl ++ (ds ++ (u.toList ++ a)))) with | some n => some n | none => _) = _
      rw [this]
    unfold Greylist.line
    simp only [hch]
    rw [acl_plain 0x72 (by decide) i s t l h1 h2 h3 ht (by
      intro c hc
      cases r
      · exact absurd hc (by simp [l])
      · have : c = 0x72 := by simpa [l] using hc.symm
        rw [this]; decide)]
    dsimp only
    rw [htp]
    rfl
  | quoted i k s v r =>
    obtain ⟨h1, h2, h3, h4, h5, h6, h7, h8, h9⟩ := h
    obtain ⟨y, s', rfl⟩ : ∃ y s', s = y :: s' := by
      cases s with
      | nil => exact absurd rfl h5
      | cons y s' => exact ⟨y, s', rfl⟩
    let rest := s' ++ (0x22 :: (v ++ (0x22 :: r)))
    have e : (GreyLine.quoted i k (y :: s') v r).print = i ++ (k ++ y :: rest) ++ [0x0a] := by simp [GreyLine.print, rest]
    have hch : chomp (GreyLine.quoted i k (y :: s') v r).print = i ++ (k ++ y :: rest) := by
      rw [e]
      refine chomp_line _ ?_
      have : i ++ (k ++ y :: rest) = (i ++ k ++ (y :: s') ++ [0x22] ++ v) ++ (0x22 :: r) := by simp [rest]
      rw [this, last_append_ne (by simp)]
      cases r with
      | nil => decide
      | cons z r =>
        rw [List.getLast?_cons_cons]
        rcases h9 with h9 | ⟨bl, ds, e2, -, hd0, hd⟩
        · exact h9.2
        · rw [e2, last_append_ne hd0]
          intro hl
          have := hd _ (List.mem_of_getLast? hl)
          revert this; decide
    have hy : Blank y := (h4 y (List.mem_cons_self ..)).1
    have hr : acl 0x72 (i ++ (k ++ y :: rest)) = none := acl_none 0x72 (by decide) k rest y h2.2 hy i h1 h2.1
      (fun e => h3 (by rw [e]; decide)) (fun e => h3 (by rw [e]; decide))
    have hd : acl 0x64 (i ++ (k ++ y :: rest)) = none := acl_none 0x64 (by decide) k rest y h2.2 hy i h1 h2.1
      (fun e => h3 (by rw [e]; decide)) (fun e => h3 (by rw [e]; decide))
    have hv : greylistVariable (i ++ (k ++ y :: rest)) = some (k, v) := by
      have hi := indent_drop i h1 (k ++ y :: rest) (key_head h2 _)
      have hk := takeWhile_name k (y :: rest) h2.2 (by intro c hc hw; cases hc; exact blank_word hy hw)
      have hs : (y :: rest).dropWhile Conditions.isBlank = 0x22 :: (v ++ (0x22 :: r)) := by
        have := indent_drop (y :: s') h4 (0x22 :: (v ++ (0x22 :: r))) (by intro c hc; cases hc; decide)
        exact this
      have hyb : Conditions.isBlank y = true := (blank_iff y).mpr hy
      unfold greylistVariable
      simp only [hi, hk, List.drop_left, hs]
      rw [if_neg (by
        rintro (e | e)
        · exact h2.1 e
        · simp [hyb] at e)]
      simp only [List.head?_cons, if_true, List.tail_cons]
      have q1 := quoted_value false r v [] h7 h8 (by simpa using h6)
      have q2 := quoted_value true r v [] h7 h8 (by simpa using h6)
      rcases h9 with h9 | ⟨bl, ds, rfl, hbl, hd0, hdd⟩
      · have hr0 : r.dropWhile Conditions.isBlank = [] := (takeWhile_all' r (blanks_all h9.1)).2
        rw [q1]
        simp [hr0]
      · have hr1 : (bl ++ ds).dropWhile Conditions.isBlank = ds := indent_drop bl hbl ds (by
          intro c hc hb
          exact blank_word hb (digit_word (hdd c (List.mem_of_mem_head? hc))))
        have hno : 0x22 ∉ bl ++ ds := by
          intro hm
          rcases List.mem_append.mp hm with hm | hm
          · exact blanks_no hbl _ (by decide) hm
          · have := hdd _ hm
            revert this; decide
        rw [q1, q2]
        simp only [hr1]
        have hall : ds.all isDigit = true := List.all_eq_true.mpr fun c hc => (digit_iff c).mpr (hdd c hc)
        rw [if_neg (by simp [hd0]), quoted_none false (bl ++ ds) _ hno, if_pos (by simp only [if_true]; exact ⟨hd0, hall⟩)]
        rfl
    unfold Greylist.line
    simp only [hch, hr, hd, hv]
    rfl

theorem comment_is {l : GreyLine} (h : l.Fine) (hc : isComment l.print = true) : greyStep g l = g := by
  cases l with
  | blank i => rfl
  | comment i t => rfl
  | quiet i l s t => rfl
  | tarpit i r s b bl ds u a =>
    exfalso
    obtain ⟨h1, -⟩ := h
    unfold isComment at hc
    cases r with
    | true =>
      have e : (GreyLine.tarpit i true s b bl ds u a).print = i ++ (0x72 :: (ascii "acl" ++ s ++ b ++ ascii "tarpit" ++ bl ++ ds ++ u.toList ++ a ++ [0x0a])) := by
        simp [GreyLine.print]
      rw [e, indent_drop i h1 _ (by intro c hc; cases hc; decide)] at hc
      simp at hc
    | false =>
      have e : (GreyLine.tarpit i false s b bl ds u a).print = i ++ (0x61 :: (ascii "cl" ++ s ++ b ++ ascii "tarpit" ++ bl ++ ds ++ u.toList ++ a ++ [0x0a])) := by
        simp [GreyLine.print, ascii]
      rw [e, indent_drop i h1 _ (by intro c hc; cases hc; decide)] at hc
      simp at hc
  | quoted i k s v r =>
    exfalso
    obtain ⟨h1, h2, -⟩ := h
    unfold isComment at hc
    have e : (GreyLine.quoted i k s v r).print = i ++ (k ++ (s ++ [0x22] ++ v ++ [0x22] ++ r ++ [0x0a])) := by simp [GreyLine.print]
    rw [e, indent_drop i h1 _ (key_head h2 _)] at hc
    obtain ⟨hk0, hk⟩ := h2
    cases k with
    | nil => exact hk0 rfl
    | cons d k =>
      have : d = 0x23 := by simpa using hc
      have hw := hk d (List.mem_cons_self ..)
      rw [this] at hw
      revert hw; decide

theorem grey_fold (ls : List GreyLine) (h : ∀ l ∈ ls, l.Fine) : ∀ g : Greylist,
    ((ls.map GreyLine.print).filter (!isComment ·)).foldl Greylist.line g = ls.foldl greyStep g := by
  induction ls with
  | nil => intro g; rfl
  | cons l ls ih =>
    intro g
    have hl := h l (List.mem_cons_self ..)
    have ih := ih fun l' hl' => h l' (List.mem_cons_of_mem _ hl')
    rw [List.map_cons, List.filter_cons, List.foldl_cons]
    cases hc : isComment l.print with
    | true =>
      simp only [Bool.not_true, Bool.false_eq_true, if_false]
      rw [ih, comment_is hl hc]
    | false =>
      simp only [Bool.not_false, if_true, List.foldl_cons]
      rw [ih, grey_line g l hl hc]

theorem grey_parse (ls : List GreyLine) (h : ∀ l ∈ ls, l.Fine) :
    parseGreylist ((ls.map GreyLine.print).flatten) = ls.foldl greyStep {} := by
  unfold parseGreylist
  rw [eachLine_print GreyLine.print GreyLine.Fine greyLine_end ls h, normalize_plain, List.nil_append, grey_fold ls h]
  intro l hl
  obtain ⟨x, hx, rfl⟩ := List.mem_map.mp hl
  obtain ⟨b, hb, -⟩ := greyLine_end x (h x hx)
  rw [hb, List.getLast?_concat]

/-- **C125** (partial).  The time the manager waits for milter-greylist is the configured time and
the longest time for which milter-greylist keeps a recipient waiting. -/
theorem C125_partial (ls : List GreyLine) (h : ∀ l ∈ ls, l.Fine) (timeout : Nat) :
    (parseGreylist ((ls.map GreyLine.print).flatten)).extend timeout = timeout + longest ls := by
  rw [grey_parse ls h]
  unfold Greylist.extend
  congr 1
  have : ∀ (ls : List GreyLine) (g : Greylist), (ls.foldl greyStep g).maxTarpit.getD 0 = max (g.maxTarpit.getD 0) (longest ls) := by
    intro ls
    induction ls with
    | nil => intro g; simp [longest]
    | cons l ls ih =>
      intro g
      rw [List.foldl_cons, ih]
      unfold longest
      cases l <;> simp [greyStep, waits, Nat.max_assoc]
  rw [this ls {}]
  simp

/-- **C124** (milter-greylist; partial).  The socket is the one that the last line says. -/
theorem C124_greylist_partial (ls : List GreyLine) (h : ∀ l ∈ ls, l.Fine) :
    (parseGreylist ((ls.map GreyLine.print).flatten)).socket = greySaid (ascii "socket") ls := by
  rw [grey_parse ls h]
  unfold Greylist.socket
  have : ∀ (ls : List GreyLine) (g : Greylist), (ls.foldl greyStep g).variables (ascii "socket") =
      (greySaid (ascii "socket") ls).or (g.variables (ascii "socket")) := by
    intro ls
    induction ls with
    | nil => intro g; simp [greySaid]
    | cons l ls ih =>
      intro g
      rw [List.foldl_cons, ih]
      conv => rhs; unfold greySaid
      cases hs : greySaid (ascii "socket") ls with
      | some v => rfl
      | none =>
        cases l with
        | quoted i k s v r =>
          simp only [greyStep, Option.none_or]
          by_cases hk : ascii "socket" = k
          · rw [if_pos hk, if_pos hk.symm]; rfl
          · rw [if_neg hk, if_neg (Ne.symm hk)]; rfl
        | blank i => simp [greyStep]
        | comment i t => simp [greyStep]
        | quiet i l s t => simp [greyStep]
        | tarpit i r s b bl ds u a => simp [greyStep]
  rw [this ls {}]
  simp

end Verif.Props.Detector
