import Verif.Spec.InitInfo
import Verif.Props.Systemd
/-
C141: the comments at the head of an init script.
-/
namespace Verif.Props.InitInfo
open Verif Verif.Detector Verif.Spec.Detector Verif.Spec.InitInfo Verif.Props.Detector

/-! ## Lines -/

def joinLines : List Bytes → Bytes
  | [] => []
  | [l] => l
  | l :: m :: ls => l ++ 0x0a :: joinLines (m :: ls)

theorem text_dropLast (ls : List Bytes) : (text ls).dropLast = joinLines ls := by
  induction ls with
  | nil => rfl
  | cons l ls ih =>
    cases ls with
    | nil => simp [text, joinLines]
    | cons m ls =>
      rw [show text (l :: m :: ls) = (l ++ [0x0a]) ++ text (m :: ls) by simp [text]]
      rw [List.dropLast_append_of_ne_nil (by simp [text]), ih]
      simp [joinLines]

theorem eachLine_text (ls : List Bytes) (h : ∀ l ∈ ls, 0x0a ∉ l) (rest : Bytes) :
    eachLine (text ls ++ rest) = ls.map (· ++ [0x0a]) ++ eachLine rest := by
  induction ls with
  | nil => rfl
  | cons l ls ih =>
    rw [show text (l :: ls) ++ rest = l ++ [0x0a] ++ (text ls ++ rest) by simp [text],
      eachLine_cons l (h l List.mem_cons_self), ih fun m hm => h m (List.mem_cons_of_mem _ hm)]
    rfl

theorem eachLine_last (l : Bytes) (h : 0x0a ∉ l) (hne : l ≠ []) : eachLine l = [l] := by
  induction l with
  | nil => exact absurd rfl hne
  | cons c l ih =>
    have hc : c ≠ 0x0a := fun e => h (e ▸ List.mem_cons_self)
    unfold eachLine
    rw [if_neg hc]
    cases l with
    | nil => rfl
    | cons d l => rw [ih (fun hm => h (List.mem_cons_of_mem _ hm)) (by simp)]

theorem eachLine_head (s : Bytes) : ∀ l ∈ (eachLine s).head?, l.head? = s.head? := by
  cases s with
  | nil => simp [eachLine]
  | cons c s =>
    unfold eachLine
    split
    · simp
    · split <;> simp

theorem flatten_eachLine (s : Bytes) : (eachLine s).flatten = s := by
  induction s with
  | nil => rfl
  | cons c s ih =>
    unfold eachLine
    split
    · simp [ih]
    · split
      · rename_i h; rw [h] at ih; simp at ih; simp [← ih]
      · rename_i h; rw [h] at ih; simp at ih ⊢; exact ih

/-- the block of comments ends where the first other line begins -/
theorem first_block (ls : List Bytes) (h : ∀ l ∈ ls, Comment l) (rest : Bytes) (hr : rest.head? ≠ some 0x23) :
    firstBlock (text ls ++ rest) = text ls := by
  unfold firstBlock
  rw [eachLine_text ls fun l hl => (h l hl).2, List.takeWhile_append_of_pos]
  · have : (eachLine rest).takeWhile (fun l => decide (l.head? = some 0x23)) = [] := by
      have := eachLine_head rest
      cases he : eachLine rest with
      | nil => rfl
      | cons l ls =>
        rw [he] at this
        have := this l rfl
        rw [List.takeWhile_cons_of_neg]
        simpa [this] using hr
    rw [this]
    simp [text]
  · intro l hl
    obtain ⟨m, hm, rfl⟩ := List.mem_map.mp hl
    have := (h m hm).1
    cases m with
    | nil => cases this
    | cons c m => simpa using this

theorem line_inj {a b : Bytes} : a ++ [0x0a] = b ++ [0x0a] ↔ a = b := by simp

/-- the block is found -/
theorem meta_blocks (before body after : List Bytes) (h : ∀ l ∈ before ++ body ++ after, 0x0a ∉ l) (hb : ascii "### BEGIN INIT INFO" ∉ before)
    (ha : ascii "### END INIT INFO" ∉ after) (hne : body ≠ []) :
    metaBlocks (text (before ++ ascii "### BEGIN INIT INFO" :: body ++ ascii "### END INIT INFO" :: after)) =
      (text before, some (joinLines body), 0x0a :: text after) := by
  have eb : beginLine = ascii "### BEGIN INIT INFO" ++ [0x0a] := by decide
  have ee : endMark = ascii "### END INIT INFO" := rfl
  have hl := eachLine_text (before ++ ascii "### BEGIN INIT INFO" :: body ++ ascii "### END INIT INFO" :: after) (by
    intro l hl
    simp only [List.mem_append, List.mem_cons] at hl
    rcases hl with (hl | hl | hl) | hl | hl
    · exact h l (by simp [hl])
    · subst hl; decide
    · exact h l (by simp [hl])
    · subst hl; decide
    · exact h l (by simp [hl])) []
  rw [List.append_nil] at hl
  have e0 : eachLine [] = [] := rfl
  rw [e0, List.append_nil] at hl
  unfold metaBlocks
  dsimp only
  rw [hl]
  have hsplit : (before ++ ascii "### BEGIN INIT INFO" :: body ++ ascii "### END INIT INFO" :: after).map (· ++ [0x0a]) =
      before.map (· ++ [0x0a]) ++ beginLine :: (body.map (· ++ [0x0a]) ++ (endMark ++ [0x0a]) :: after.map (· ++ [0x0a])) := by
    rw [eb, ee]; simp
  rw [hsplit]
  have ht : (before.map (· ++ [0x0a]) ++ beginLine :: (body.map (· ++ [0x0a]) ++ (endMark ++ [0x0a]) :: after.map (· ++ [0x0a]))).takeWhile
      (fun x => decide (x ≠ beginLine)) = before.map (· ++ [0x0a]) := by
    rw [List.takeWhile_append_of_pos]
    · rw [List.takeWhile_cons_of_neg (by simp)]; simp
    · intro l hl
      obtain ⟨m, hm, rfl⟩ := List.mem_map.mp hl
      rw [eb]
      simp only [ne_eq, line_inj, decide_not, Bool.not_eq_true', decide_eq_false_iff_not]
      intro e
      exact hb (e ▸ hm)
  rw [ht, List.drop_left]
  dsimp only
  have hr : (body.map (· ++ [0x0a]) ++ (endMark ++ [0x0a]) :: after.map (· ++ [0x0a])).reverse =
      (after.map (· ++ [0x0a])).reverse ++ (endMark ++ [0x0a]) :: (body.map (· ++ [0x0a])).reverse := by simp
  have hnot : ∀ l ∈ (after.map (· ++ [0x0a])).reverse, (!isEnd l) = true := by
    intro l hl
    rw [List.mem_reverse] at hl
    obtain ⟨m, hm, rfl⟩ := List.mem_map.mp hl
    unfold isEnd
    have h1 : m ≠ endMark := fun e => ha (by rw [← ee, ← e]; exact hm)
    have h2 : m ++ [0x0a] ≠ endMark := by
      intro e
      have : (0x0a : UInt8) ∈ endMark := by rw [← e]; simp
      revert this
      decide
    simp [h1, h2]
  have hend : (!isEnd (endMark ++ [0x0a])) = false := by decide
  rw [hr, List.takeWhile_append_of_pos hnot, List.dropWhile_append_of_pos hnot, List.takeWhile_cons_of_neg (by rw [hend]; simp),
    List.dropWhile_cons_of_neg (by rw [hend]; simp)]
  dsimp only
  rw [if_neg (by simpa using hne)]
  simp only [List.reverse_reverse, List.append_nil, List.drop_left]
  rw [show (body.map (· ++ [0x0a])).flatten = text body from rfl, text_dropLast]
  rfl

/-- the marks of the comment are removed -/
theorem without_marks (ls : List Bytes) (h : ∀ l ∈ ls, 0x0a ∉ l) : withoutMarks (joinLines (ls.map (ascii "# " ++ ·))) = joinLines ls := by
  induction ls with
  | nil => rfl
  | cons l ls ih =>
    have hl : 0x0a ∉ ascii "# " ++ l := by
      simp only [List.mem_append, not_or]
      exact ⟨by decide, h l List.mem_cons_self⟩
    have hp : ∀ x, (ascii "# ").isPrefixOf (ascii "# " ++ x) = true := by
      intro x
      rw [List.isPrefixOf_iff_prefix]
      exact List.prefix_append _ _
    have hd : ∀ x, (ascii "# " ++ x).drop 2 = x := fun x => rfl
    cases ls with
    | nil =>
      unfold withoutMarks
      show ((eachLine (ascii "# " ++ l)).map _).flatten = l
      rw [eachLine_last _ hl (by simp [ascii])]
      simp only [List.map_cons, List.map_nil, hp, if_true, hd]
      simp
    | cons m ls =>
      have ih := ih fun x hx => h x (List.mem_cons_of_mem _ hx)
      unfold withoutMarks at ih ⊢
      rw [show joinLines ((l :: m :: ls).map (ascii "# " ++ ·)) =
        (ascii "# " ++ l) ++ [0x0a] ++ joinLines ((m :: ls).map (ascii "# " ++ ·)) by simp [joinLines], eachLine_cons _ hl]
      rw [List.map_cons, List.flatten_cons, ih]
      rw [show (ascii "# " ++ l) ++ [0x0a] = ascii "# " ++ (l ++ [0x0a]) by simp, if_pos (hp _), hd]
      simp [joinLines]

/-! ## Keywords -/

theorem letter_iff (c : UInt8) : isKeyByte c = true ↔ letter c := by
  unfold isKeyByte letter
  simp only [Bool.or_eq_true, Bool.and_eq_true, decide_eq_true_eq, beq_iff_eq, or_assoc]

/-- no colon after a letter -/
def quiet : Bool → Bytes → Bool
  | _, [] => true
  | p, c :: s => !(p && c == 0x3a) && quiet (isKeyByte c) s

theorem quiet_false {p : Bool} {s : Bytes} (h : quiet p s = true) : quiet false s = true := by
  cases s with
  | nil => rfl
  | cons c s => simp [quiet] at h ⊢; exact h.2

theorem quiet_head {s : Bytes} (h : quiet true s = true) : s.head? ≠ some 0x3a := by
  cases s with
  | nil => simp
  | cons c s => simp [quiet] at h ⊢; exact h.1

theorem quiet_line {a b : Bytes} : ∀ {p}, quiet p a = true → quiet false b = true → quiet p (a ++ 0x0a :: b) = true := by
  induction a with
  | nil =>
    intro p _ hb
    show (!(p && (0x0a : UInt8) == 0x3a) && quiet (isKeyByte 0x0a) b) = true
    rw [show isKeyByte 0x0a = false by decide, show ((0x0a : UInt8) == 0x3a) = false by decide]
    simpa using hb
  | cons c a ih =>
    intro p ha hb
    simp only [List.cons_append, quiet, Bool.and_eq_true] at ha ⊢
    exact ⟨ha.1, ih ha.2 hb⟩

theorem blank_plain {c : UInt8} (h : Blank c) : isKeyByte c = false ∧ c ≠ 0x3a := by
  constructor
  · cases hk : isKeyByte c with
    | false => rfl
    | true =>
      rw [letter_iff] at hk
      unfold letter at hk
      unfold Blank at h
      simp only [UInt8.le_iff_toNat_le, ← UInt8.toNat_inj] at h hk
      have e1 : (0x20 : UInt8).toNat = 32 := rfl
      have e2 : (0x09 : UInt8).toNat = 9 := rfl
      have e3 : (0x0d : UInt8).toNat = 13 := rfl
      have e4 : (0x41 : UInt8).toNat = 65 := rfl
      have e5 : (0x5a : UInt8).toNat = 90 := rfl
      have e6 : (0x61 : UInt8).toNat = 97 := rfl
      have e7 : (0x7a : UInt8).toNat = 122 := rfl
      have e8 : (0x2d : UInt8).toNat = 45 := rfl
      omega
  · rintro rfl
    revert h
    decide

theorem letter_not_blank {c : UInt8} (h : letter c) : ¬Blank c := fun hb => by
  have := (blank_plain hb).1
  rw [(letter_iff c).mpr h] at this
  cases this

theorem quiet_blanks {i t : Bytes} (hi : Blanks i) (ht : quiet false t = true) : quiet false (i ++ t) = true := by
  induction i with
  | nil => exact ht
  | cons c i ih =>
    have := blank_plain (hi c List.mem_cons_self).1
    simp only [List.cons_append, quiet, Bool.false_and, Bool.not_false, Bool.true_and, this.1]
    exact ih fun d hd => hi d (List.mem_cons_of_mem _ hd)

theorem quiet_of {v : Bytes} (h : NoWordColon v) : quiet false v = true := by
  have key : ∀ (v : Bytes) (c : UInt8), NoWordColon (c :: v) → quiet (isKeyByte c) v = true := by
    intro v
    induction v with
    | nil => intro c _; rfl
    | cons d v ih =>
      intro c h
      have h2 : NoWordColon (d :: v) := fun a x b e => h (c :: a) x b (by rw [e]; rfl)
      simp only [quiet, Bool.and_eq_true]
      refine ⟨?_, ih d h2⟩
      cases hd : d == 0x3a with
      | false => simp
      | true =>
        have hd : d = 0x3a := by simpa using hd
        have := h [] c v (by rw [hd]; rfl)
        cases hk : isKeyByte c with
        | false => rfl
        | true => exact absurd ((letter_iff c).mp hk) this
  cases v with
  | nil => rfl
  | cons c v => simpa [quiet] using key v c h

/-- no keyword begins here -/
theorem keyHere_quiet (w R : Bytes) : ∀ {p}, quiet p w = true → w ≠ [] → (∀ c, w.getLast? = some c → isKeyByte c = false) →
    keyHere (w ++ R) = none := by
  suffices hs : ∀ w : Bytes, ∀ p, quiet p w = true → w ≠ [] → (∀ c, w.getLast? = some c → isKeyByte c = false) →
      (w ++ R).takeWhile isKeyByte = [] ∨ ((w ++ R).drop ((w ++ R).takeWhile isKeyByte).length).head? ≠ some 0x3a by
    intro p h1 h2 h3
    unfold keyHere
    rw [if_neg]
    rintro ⟨ha, hb⟩
    rcases hs w p h1 h2 h3 with h | h
    · exact ha h
    · exact h hb
  intro w
  induction w with
  | nil => intro p _ h; exact absurd rfl h
  | cons c w ih =>
    intro p h _ hl
    simp only [quiet, Bool.and_eq_true] at h
    cases hk : isKeyByte c with
    | false => left; simp [hk]
    | true =>
      right
      rw [hk] at h
      have hne : w ≠ [] := by
        rintro rfl
        have := hl c rfl
        rw [hk] at this
        cases this
      have hl' : ∀ d, w.getLast? = some d → isKeyByte d = false := fun d hd => hl d (by
        cases w with
        | nil => cases hd
        | cons e w => simpa using hd)
      rw [List.cons_append, List.takeWhile_cons_of_pos hk]
      simp only [List.length_cons, List.drop_succ_cons]
      rcases ih _ h.2 hne hl' with h' | h'
      · rw [h']
        simp only [List.length_nil, List.drop_zero]
        cases w with
        | nil => exact absurd rfl hne
        | cons d w => have := quiet_head h.2; simpa using this
      · exact h'

theorem keyHere_none {w : Bytes} : ∀ {p}, quiet p w = true → keyHere w = none := by
  suffices hs : ∀ w : Bytes, ∀ p, quiet p w = true → w.takeWhile isKeyByte = [] ∨ (w.drop (w.takeWhile isKeyByte).length).head? ≠ some 0x3a by
    intro p h
    unfold keyHere
    rw [if_neg]
    rintro ⟨ha, hb⟩
    rcases hs w p h with h | h
    · exact ha h
    · exact h hb
  intro w
  induction w with
  | nil => intro p _; left; rfl
  | cons c w ih =>
    intro p h
    simp only [quiet, Bool.and_eq_true] at h
    cases hk : isKeyByte c with
    | false => left; simp [hk]
    | true =>
      right
      rw [hk] at h
      rw [List.takeWhile_cons_of_pos hk]
      simp only [List.length_cons, List.drop_succ_cons]
      rcases ih _ h.2 with h' | h'
      · rw [h']; exact quiet_head h.2
      · exact h'

theorem nextKey_none {w : Bytes} : ∀ {p}, quiet p w = true → nextKey w = none := by
  induction w with
  | nil => intro p _; rfl
  | cons c w ih =>
    intro p h
    unfold nextKey
    rw [keyHere_none h]
    simp only [quiet, Bool.and_eq_true] at h
    rw [ih h.2]
    rfl

theorem nextKey_skip (w R : Bytes) {a k r : Bytes} (hR : nextKey R = some (a, k, r)) : ∀ {p}, quiet p w = true →
    (∀ c, w.getLast? = some c → isKeyByte c = false) → nextKey (w ++ R) = some (w ++ a, k, r) := by
  induction w with
  | nil => intro p _ _; exact hR
  | cons c w ih =>
    intro p h hl
    have h1 := keyHere_quiet (c :: w) R h (by simp) hl
    rw [List.cons_append] at h1 ⊢
    unfold nextKey
    rw [h1]
    simp only [quiet, Bool.and_eq_true] at h
    rw [ih h.2 fun d hd => hl d (by
      cases w with
      | nil => cases hd
      | cons e w => simpa using hd)]
    rfl

theorem nextKey_here {k : Bytes} (r : Bytes) (hk : k ≠ [] ∧ ∀ c ∈ k, letter c) :
    nextKey (k ++ 0x3a :: r) = some ([], k, r.dropWhile Conditions.isBlank) := by
  have ht := takeWhile_stop (p := isKeyByte) k (fun c hc => (letter_iff c).mpr (hk.2 c hc)) 0x3a (by decide) r
  have hh : keyHere (k ++ 0x3a :: r) = some (k, r.dropWhile Conditions.isBlank) := by
    unfold keyHere
    dsimp only
    rw [ht.1, List.drop_left, if_pos ⟨hk.1, rfl⟩, List.drop_append, List.drop_of_length_le (by omega)]
    simp
  obtain ⟨c, k', rfl⟩ : ∃ c k', k = c :: k' := by
    cases k with
    | nil => exact absurd rfl hk.1
    | cons c k' => exact ⟨c, k', rfl⟩
  rw [List.cons_append] at hh ⊢
  unfold nextKey
  rw [hh]

/-! ## Values -/

theorem unfold_text {x r : Bytes} : ∀ {b : Bytes}, 0x0a ∉ b → 0x0a ∉ x → x ≠ [] → (∀ c, x.getLast? = some c → ¬Blank c) →
    unfoldLines b (x ++ r) = b ++ x ++ unfoldLines [] r := by
  induction x with
  | nil => intro b _ _ h; exact absurd rfl h
  | cons c x ih =>
    intro b hb hx _ hl
    have hx' : 0x0a ∉ x := fun h => hx (List.mem_cons_of_mem _ h)
    have hl' : ∀ d, x.getLast? = some d → ¬Blank d := fun d hd => hl d (by
      cases x with
      | nil => cases hd
      | cons e x => simpa using hd)
    rw [List.cons_append, unfoldLines]
    cases hc : Conditions.isBlank c with
    | true =>
      have hne : x ≠ [] := by
        rintro rfl
        exact hl c rfl ((blank_iff c).mp hc)
      rw [if_pos rfl, ih (by simp only [List.mem_append, List.mem_singleton, not_or]; exact ⟨hb, fun e => hx (e ▸ List.mem_cons_self)⟩) hx' hne hl']
      simp
    | false =>
      rw [if_neg (by simp), if_neg hb]
      by_cases hne : x = []
      · subst hne; simp
      · rw [ih (by simp) hx' hne hl']
        simp

theorem unfold_blanks {i : Bytes} (hi : ∀ c ∈ i, Blank c) (r : Bytes) : ∀ {b : Bytes}, unfoldLines b (i ++ r) = unfoldLines (b ++ i) r := by
  induction i with
  | nil => intro b; simp
  | cons c i ih =>
    intro b
    rw [List.cons_append]
    show unfoldLines b (c :: (i ++ r)) = _
    rw [unfoldLines, if_pos ((blank_iff c).mpr (hi c List.mem_cons_self)), ih fun d hd => hi d (List.mem_cons_of_mem _ hd)]
    simp

/-- the lines of a value -/
def raw (f : Field) : Bytes := f.first ++ (f.more.map fun x => 0x0a :: (x.1 ++ x.2)).flatten

theorem unfold_more (more : List (Bytes × Bytes)) (h : ∀ x ∈ more, Blanks x.1 ∧ Text x.2 ∧ NoWordColon x.2) (e : Bytes)
    (he : e = [] ∨ e = [0x0a]) :
    unfoldLines [] ((more.map fun x => 0x0a :: (x.1 ++ x.2)).flatten ++ e) =
      (more.map fun x => 0x20 :: x.2).flatten ++ (if e = [] then [] else [0x20]) := by
  induction more with
  | nil => rcases he with rfl | rfl <;> decide
  | cons x more ih =>
    obtain ⟨h1, h2, _⟩ := h x List.mem_cons_self
    have ih := ih fun y hy => h y (List.mem_cons_of_mem _ hy)
    obtain ⟨c, y, hy⟩ : ∃ c y, x.2 = c :: y := by
      cases hx : x.2 with
      | nil => exact absurd hx h2.nonempty
      | cons c y => exact ⟨c, y, rfl⟩
    have hc : ¬Blank c := h2.first c (by rw [hy]; rfl)
    have hc' : Conditions.isBlank c = false := by
      cases hb : Conditions.isBlank c with
      | false => rfl
      | true => exact absurd ((blank_iff c).mp hb) hc
    have e1 : ((x :: more).map fun x => 0x0a :: (x.1 ++ x.2)).flatten ++ e =
        (0x0a :: x.1) ++ (x.2 ++ ((more.map fun x => 0x0a :: (x.1 ++ x.2)).flatten ++ e)) := by simp
    rw [e1, unfold_blanks (by
      intro d hd
      rcases List.mem_cons.mp hd with rfl | hd
      · decide
      · exact (h1 d hd).1)]
    have e2 : ∀ r, unfoldLines ([] ++ 0x0a :: x.1) (x.2 ++ r) = 0x20 :: unfoldLines [] (x.2 ++ r) := by
      intro r
      rw [hy, List.cons_append]
      simp [unfoldLines, hc']
    rw [e2, unfold_text (by simp) h2.line h2.nonempty h2.last, ih]
    simp

theorem value_ends (f : Field) (h : f.Good) : Stripped f.value := by
  rcases h.first with ⟨h1, h2⟩ | ⟨h1, _⟩
  · unfold Field.value
    rw [h1, h2]
    exact ⟨fun c hc => (nomatch hc), fun c hc => (nomatch hc)⟩
  · refine ⟨fun c hc => h1.first c ?_, ?_⟩
    · have : f.first ≠ [] := h1.nonempty
      cases hf : f.first with
      | nil => exact absurd hf this
      | cons d x => unfold Field.value at hc; rw [hf] at hc; simpa using hc
    · have key : ∀ (more : List (Bytes × Bytes)) (x : Bytes), (∀ y ∈ more, Text y.2) → (∀ c, x.getLast? = some c → ¬Blank c) →
          ∀ c, (x ++ (more.map fun y => 0x20 :: y.2).flatten).getLast? = some c → ¬Blank c := by
        intro more
        induction more with
        | nil => intro x _ hx c hc; exact hx c (by simpa using hc)
        | cons y more ih =>
          intro x hm hx c hc
          have hy := hm y List.mem_cons_self
          refine ih (x ++ 0x20 :: y.2) (fun z hz => hm z (List.mem_cons_of_mem _ hz)) ?_ c (by simpa using hc)
          intro d hd
          refine hy.last d ?_
          rw [← hd, List.getLast?_append]
          cases hyy : y.2 with
          | nil => exact absurd hyy hy.nonempty
          | cons e z => simp [List.getLast?_cons]
      exact key f.more f.first (fun y hy => (h.more y hy).2.1) h1.last

theorem value_read (f : Field) (h : f.Good) (e : Bytes) (he : e = [] ∨ e = [0x0a]) :
    Conditions.strip (unfoldLines [] (raw f ++ e)) = f.value := by
  have hs := value_ends f h
  have hpad : ∀ t : Bytes, (∀ c ∈ t, Blank c) → Conditions.strip (f.value ++ t) = f.value := fun t ht =>
    strip_pad (i := []) (fun c hc => (nomatch hc)) hs ht
  rcases h.first with ⟨h1, h2⟩ | ⟨h1, _⟩
  · have hv : f.value = [] := by unfold Field.value; rw [h1, h2]; rfl
    unfold raw
    rw [h1, h2, hv]
    rcases he with rfl | rfl <;> decide
  · unfold raw
    rw [List.append_assoc, unfold_text (by simp) h1.line h1.nonempty h1.last, unfold_more f.more h.more e he]
    rw [← List.append_assoc, show [] ++ f.first ++ (f.more.map fun x => 0x20 :: x.2).flatten = f.value by simp [Field.value]]
    refine hpad _ ?_
    split
    · intro c hc; cases hc
    · intro c hc
      rw [List.mem_singleton.mp hc]
      decide

/-! ## Entries -/

def joined : List Field → Bytes
  | [] => []
  | [f] => f.key ++ 0x3a :: (f.gap ++ raw f)
  | f :: g :: fs => f.key ++ 0x3a :: (f.gap ++ raw f ++ 0x0a :: joined (g :: fs))

theorem raw_quiet (f : Field) (h : f.Good) : quiet false (raw f) = true := by
  have key : ∀ (more : List (Bytes × Bytes)) (x : Bytes), (∀ y ∈ more, Blanks y.1 ∧ Text y.2 ∧ NoWordColon y.2) → quiet false x = true →
      quiet false (x ++ (more.map fun y => 0x0a :: (y.1 ++ y.2)).flatten) = true := by
    intro more
    induction more with
    | nil => intro x _ hx; simpa using hx
    | cons y more ih =>
      intro x hm hx
      obtain ⟨h1, _, h3⟩ := hm y List.mem_cons_self
      have := ih (x ++ 0x0a :: (y.1 ++ y.2)) (fun z hz => hm z (List.mem_cons_of_mem _ hz)) (quiet_line hx (quiet_blanks h1 (quiet_of h3)))
      simpa using this
  refine key f.more f.first h.more ?_
  rcases h.first with ⟨h1, _⟩ | ⟨_, h2⟩
  · rw [h1]; rfl
  · exact quiet_of h2

theorem joined_head (f : Field) (fs : List Field) : ∃ r, joined (f :: fs) = f.key ++ 0x3a :: r := by
  cases fs with
  | nil => exact ⟨_, rfl⟩
  | cons g fs => exact ⟨_, rfl⟩

theorem drop_gap {i x : Bytes} (hi : ∀ c ∈ i, Blank c) (hx : ∀ c, x.head? = some c → ¬Blank c) :
    (i ++ x).dropWhile Conditions.isBlank = x := by
  have := lstrip_blanks hi x
  rw [lstrip_id hx] at this
  exact this

theorem joined_first (g : Field) (fs : List Field) (h : g.Good) : ∀ c, (joined (g :: fs)).head? = some c → ¬Blank c := by
  intro c hc
  obtain ⟨r, hr⟩ := joined_head g fs
  rw [hr] at hc
  obtain ⟨d, k, hk⟩ : ∃ d k, g.key = d :: k := by
    cases hk : g.key with
    | nil => exact absurd hk h.key.1
    | cons d k => exact ⟨d, k, rfl⟩
  rw [hk] at hc
  have : d = c := by simpa using hc
  subst this
  exact letter_not_blank (h.key.2 d (by rw [hk]; exact List.mem_cons_self))

/-- the rest after a keyword -/
theorem fields_after (fs : List Field) : ∀ (f : Field) (n : Nat) (s : Bytes), (∀ g ∈ f :: fs, g.Good) →
    joined (f :: fs) = f.key ++ 0x3a :: s → fs.length < n →
    (fieldsAfter n f.key (s.dropWhile Conditions.isBlank)).map (fun kv => (kv.1, Conditions.strip (unfoldLines [] kv.2))) =
      (f :: fs).map fun g => (g.key, g.value) := by
  induction fs with
  | nil =>
    intro f n s hg hs hn
    have hf := hg f List.mem_cons_self
    obtain ⟨n, rfl⟩ : ∃ k, n = k + 1 := ⟨n - 1, by omega⟩
    have es : s = f.gap ++ raw f := by simpa [joined] using hs.symm
    have er : s.dropWhile Conditions.isBlank = raw f := by
      rw [es]
      refine drop_gap (fun c hc => (hf.gap c hc).1) ?_
      rcases hf.first with ⟨h1, h2⟩ | ⟨h1, _⟩
      · unfold raw; rw [h1, h2]; intro c hc; cases hc
      · intro c hc
        refine h1.first c ?_
        cases hff : f.first with
        | nil => exact absurd hff h1.nonempty
        | cons d x => unfold raw at hc; rw [hff] at hc; simpa using hc
    rw [er]
    unfold fieldsAfter
    rw [nextKey_none (raw_quiet f hf)]
    simp only [List.map_cons, List.map_nil]
    have := value_read f hf [] (.inl rfl)
    rw [List.append_nil] at this
    rw [this]
  | cons g fs ih =>
    intro f n s hg hs hn
    have hf := hg f List.mem_cons_self
    have hgg := hg g (by simp)
    obtain ⟨n, rfl⟩ : ∃ k, n = k + 1 := ⟨n - 1, by omega⟩
    have es : s = f.gap ++ raw f ++ 0x0a :: joined (g :: fs) := by simpa [joined] using hs.symm
    obtain ⟨r, hr⟩ := joined_head g fs
    have hk := nextKey_here r hgg.key
    rw [← hr] at hk
    have hrec := ih g n r (fun x hx => hg x (List.mem_cons_of_mem _ hx)) hr (by simp at hn; omega)
    rcases hf.first with ⟨h1, h2⟩ | ⟨h1, h2⟩
    · have e0 : raw f = [] := by unfold raw; rw [h1, h2]; rfl
      have er : s.dropWhile Conditions.isBlank = joined (g :: fs) := by
        rw [es, e0, List.append_nil, show f.gap ++ 0x0a :: joined (g :: fs) = (f.gap ++ [0x0a]) ++ joined (g :: fs) by simp]
        refine drop_gap (fun c hc => ?_) (joined_first g fs hgg)
        rcases List.mem_append.mp hc with hc | hc
        · exact (hf.gap c hc).1
        · rw [List.mem_singleton.mp hc]; decide
      rw [er]
      unfold fieldsAfter
      rw [hk]
      simp only [List.map_cons]
      rw [hrec]
      have hv := value_read f hf [] (.inl rfl)
      rw [e0, List.append_nil] at hv
      rw [hv]
      rfl
    · have er : s.dropWhile Conditions.isBlank = (raw f ++ [0x0a]) ++ joined (g :: fs) := by
        rw [es, show f.gap ++ raw f ++ 0x0a :: joined (g :: fs) = f.gap ++ (raw f ++ [0x0a] ++ joined (g :: fs)) by simp]
        refine drop_gap (fun c hc => (hf.gap c hc).1) ?_
        intro c hc
        refine h1.first c ?_
        cases hff : f.first with
        | nil => exact absurd hff h1.nonempty
        | cons d x => unfold raw at hc; rw [hff] at hc; simpa using hc
      rw [er]
      unfold fieldsAfter
      rw [nextKey_skip (raw f ++ [0x0a]) _ hk (p := false) (quiet_line (raw_quiet f hf) rfl) (by
        intro c hc
        have : c = 0x0a := by simpa using hc.symm
        rw [this]; decide)]
      simp only [List.map_cons, List.append_nil]
      rw [hrec, value_read f hf [0x0a] (.inr rfl)]
      rfl

/-- a line of the block without its mark -/
def plainLines (f : Field) : List Bytes := (f.key ++ 0x3a :: (f.gap ++ f.first)) :: f.more.map fun x => x.1 ++ x.2

theorem lines_plain (f : Field) : f.lines = (plainLines f).map (ascii "# " ++ ·) := by
  simp [Field.lines, plainLines]

theorem joinLines_cons (l : Bytes) (ls : List Bytes) : joinLines (l :: ls) = l ++ (ls.map (0x0a :: ·)).flatten := by
  induction ls generalizing l with
  | nil => simp [joinLines]
  | cons m ls ih => simp [joinLines, ih]

theorem joined_eq (fs : List Field) : joinLines (fs.map plainLines).flatten = joined fs := by
  induction fs with
  | nil => rfl
  | cons f fs ih =>
    have e1 : ((f :: fs).map plainLines).flatten = (f.key ++ 0x3a :: (f.gap ++ f.first)) :: ((f.more.map fun x => x.1 ++ x.2) ++ (fs.map plainLines).flatten) := by
      simp [plainLines]
    rw [e1, joinLines_cons]
    cases fs with
    | nil => simp [joined, raw, Function.comp_def]
    | cons g fs =>
      have e2 : ((g :: fs).map plainLines).flatten = (g.key ++ 0x3a :: (g.gap ++ g.first)) :: ((g.more.map fun x => x.1 ++ x.2) ++ (fs.map plainLines).flatten) := by
        simp [plainLines]
      rw [e2, joinLines_cons] at ih
      rw [joined, ← ih, e2]
      simp [raw, Function.comp_def]

theorem plain_line {f : Field} (h : f.Good) : ∀ l ∈ plainLines f, 0x0a ∉ l := by
  intro l hl
  unfold plainLines at hl
  rcases List.mem_cons.mp hl with rfl | hl
  · simp only [List.mem_append, List.mem_cons, not_or]
    refine ⟨fun hm => ?_, by decide, fun hm => (h.gap _ hm).2 rfl, ?_⟩
    · have := h.key.2 _ hm
      exact absurd this (by unfold letter; decide)
    · rcases h.first with ⟨h1, _⟩ | ⟨h1, _⟩
      · rw [h1]; simp
      · exact h1.line
  · obtain ⟨x, hx, rfl⟩ := List.mem_map.mp hl
    have := h.more x hx
    simp only [List.mem_append, not_or]
    exact ⟨fun hm => (this.1 _ hm).2 rfl, this.2.1.line⟩

/-- the block is read as it is written -/
theorem info_read (fs : List Field) (hne : fs ≠ []) (h : ∀ f ∈ fs, f.Good) :
    initInfo (joinLines (fs.map Field.lines).flatten) = some (fs.map fun f => (f.key, f.value)) := by
  have e1 : (fs.map Field.lines).flatten = (fs.map plainLines).flatten.map (ascii "# " ++ ·) := by
    rw [List.map_flatten, List.map_map]
    congr 1
    exact List.map_congr_left fun f _ => lines_plain f
  have e2 : withoutMarks (joinLines (fs.map Field.lines).flatten) = joined fs := by
    rw [e1, without_marks, joined_eq]
    intro l hl
    obtain ⟨ls, hls, hl⟩ := List.mem_flatten.mp hl
    obtain ⟨f, hf, rfl⟩ := List.mem_map.mp hls
    exact plain_line (h f hf) l hl
  cases fs with
  | nil => exact absurd rfl hne
  | cons f fs =>
    have hf := h f List.mem_cons_self
    obtain ⟨r, hr⟩ := joined_head f fs
    have hk := nextKey_here r hf.key
    unfold initInfo
    rw [e2, if_neg (by rw [hr]; simp), hr]
    unfold fields
    rw [hk]
    dsimp only
    have hlen : ∀ (fs : List Field) (f : Field), (∀ g ∈ f :: fs, g.Good) → ∀ s, joined (f :: fs) = f.key ++ 0x3a :: s →
        fs.length ≤ (s.dropWhile Conditions.isBlank).length := by
      intro fs
      induction fs with
      | nil => intro f _ s _; simp
      | cons g fs ih =>
        intro f hg s hs
        have hgg := hg g (by simp)
        obtain ⟨r', hr'⟩ := joined_head g fs
        have := ih g (fun x hx => hg x (List.mem_cons_of_mem _ hx)) r' hr'
        have es : s = (f.gap ++ raw f ++ [0x0a]) ++ joined (g :: fs) := by simpa [joined] using hs.symm
        have hsub : (joined (g :: fs)).length ≤ (s.dropWhile Conditions.isBlank).length := by
          rw [es]
          have key : ∀ a b : Bytes, (∀ c, b.head? = some c → ¬Blank c) → b.length ≤ ((a ++ b).dropWhile Conditions.isBlank).length := by
            intro a b hb
            induction a with
            | nil =>
              have := lstrip_id hb
              unfold Conditions.lstrip at this
              rw [List.nil_append, this]
              omega
            | cons c a ih =>
              rw [List.cons_append, List.dropWhile_cons]
              split
              · exact ih
              · simp; omega
          exact key _ _ (joined_first g fs hgg)
        have h1 : (r'.dropWhile Conditions.isBlank).length ≤ r'.length := (List.dropWhile_sublist _).length_le
        rw [hr'] at hsub
        simp only [List.length_append, List.length_cons] at hsub ⊢
        omega
    have hl := hlen fs f h r hr
    rw [fields_after fs f _ r h hr (by omega)]

/-! ## Tags -/

def unmark (l : Bytes) : Bytes := if (ascii "# ").isPrefixOf l then l.drop 2 else l

theorem unmark_line (l : Bytes) (h : 0x0a ∉ l) : (if (ascii "# ").isPrefixOf (l ++ [0x0a]) then (l ++ [0x0a]).drop 2 else l ++ [0x0a]) =
    unmark l ++ [0x0a] := by
  unfold unmark
  match l, h with
  | [], _ => rfl
  | [a], h =>
    have : (ascii "# ").isPrefixOf ([a] ++ [0x0a]) = false := by simp [ascii, List.isPrefixOf]
    rw [this]
    have : (ascii "# ").isPrefixOf [a] = false := by simp [ascii, List.isPrefixOf]
    rw [this]
    rfl
  | a :: b :: l, _ =>
    have : (ascii "# ").isPrefixOf (a :: b :: l ++ [0x0a]) = (ascii "# ").isPrefixOf (a :: b :: l) := by
      simp [ascii, List.isPrefixOf]
    rw [this]
    split <;> rfl

theorem unmark_sub (l : Bytes) : ∀ c ∈ unmark l, c ∈ l := by
  intro c hc
  unfold unmark at hc
  split at hc
  · exact List.mem_of_mem_drop hc
  · exact hc

theorem marks_text (ls : List Bytes) (h : ∀ l ∈ ls, 0x0a ∉ l) : withoutMarks (text ls) = text (ls.map unmark) := by
  unfold withoutMarks
  have := eachLine_text ls h []
  rw [List.append_nil] at this
  rw [this]
  unfold text
  simp only [eachLine, List.append_nil, List.map_map]
  congr 1
  exact List.map_congr_left fun l hl => unmark_line l (h l hl)

theorem tagBlock_fold (info : Info) (ls : List Bytes) (h : ∀ l ∈ ls, 0x0a ∉ l) :
    tagBlock info (text ls) = ((ls.map fun l => unmark l ++ [0x0a]).foldl tagLine (false, info)).2 := by
  unfold tagBlock
  have h' : ∀ l ∈ ls.map unmark, 0x0a ∉ l := by
    intro l hl
    obtain ⟨m, hm, rfl⟩ := List.mem_map.mp hl
    exact fun hc => h m hm (unmark_sub m _ hc)
  have := eachLine_text (ls.map unmark) h' []
  rw [List.append_nil] at this
  rw [marks_text ls h, this]
  simp [eachLine, Function.comp_def]

theorem strip_sub (v : Bytes) : ∀ c ∈ Conditions.strip v, c ∈ v := by
  intro c hc
  unfold Conditions.strip Conditions.lstrip at hc
  rw [List.mem_reverse] at hc
  have := (List.dropWhile_sublist _).subset hc
  rw [List.mem_reverse] at this
  exact (List.dropWhile_sublist _).subset this

theorem not_continues {v : Bytes} (h : 0x5c ∉ v) : continues v = false := by
  unfold continues
  simp only [decide_eq_false_iff_not]
  intro e
  exact h (List.mem_of_getLast? e)

theorem afterTag_some {t l v : Bytes} (h : afterTag t l = some v) (ht : 0x3a ∉ t) : l.takeWhile (· ≠ 0x3a) = t := by
  unfold afterTag at h
  split at h
  · rename_i hp
    rw [List.isPrefixOf_iff_prefix] at hp
    obtain ⟨r, rfl⟩ := hp
    have := (takeWhile_stop (p := fun c => decide (c ≠ 0x3a)) t (by
      intro c hc
      simp only [ne_eq, decide_not, Bool.not_eq_true', decide_eq_false_iff_not]
      rintro rfl
      exact ht hc) 0x3a (by simp) r).1
    simpa using this
  · cases h

theorem afterTag_sub {t l v : Bytes} (h : afterTag t l = some v) : ∀ c ∈ v, c ∈ l := by
  unfold afterTag at h
  split at h
  · simp only [Option.some.injEq] at h
    subst h
    intro c hc
    exact List.mem_of_mem_drop ((List.dropWhile_sublist _).subset hc)
  · cases h

theorem findSome_only {α β : Type} {f : α → Option β} {k : α} {x : β} (hx : f k = some x) : ∀ {l : List α}, k ∈ l →
    (∀ t ∈ l, f t ≠ none → t = k) → l.findSome? f = some x := by
  intro l
  induction l with
  | nil => intro h; cases h
  | cons t l ih =>
    intro hk hall
    rw [List.findSome?_cons]
    cases hf : f t with
    | some y =>
      have := hall t List.mem_cons_self (by rw [hf]; simp)
      subst this
      rw [hx] at hf
      exact hf.symm
    | none =>
      dsimp only
      rcases List.mem_cons.mp hk with rfl | hk
      · rw [hx] at hf; cases hf
      · exact ih hk fun t ht => hall t (List.mem_cons_of_mem _ ht)

theorem tags_plain : ∀ t ∈ tags, 0x3a ∉ t ∧ t ≠ ascii "description" := by decide

theorem pair_of {x : Bool × Info} (h : x.1 = false) : ∃ i, x = (false, i) := ⟨x.2, Prod.ext h rfl⟩

/-- a line without a backslash: the tag it sets -/
theorem tagLine_eq (info : Info) (l : Bytes) (hb : 0x5c ∉ l) :
    (tagLine (false, info) l).1 = false ∧
    (∀ t ∈ tags, (tagLine (false, info) l).2 t = ((afterTag t l).map Conditions.strip).or (info t)) ∧
    ∀ k, k ∉ tags → k ≠ ascii "description" → (tagLine (false, info) l).2 k = info k := by
  unfold tagLine
  simp only [Bool.false_eq_true, if_false]
  cases hf : tags.findSome? fun t => (afterTag t l).map fun v => (t, v) with
  | some x =>
    obtain ⟨t, ht, hv⟩ := List.exists_of_findSome?_eq_some hf
    cases ha : afterTag t l with
    | none => rw [ha] at hv; cases hv
    | some v =>
      rw [ha] at hv
      simp only [Option.map_some, Option.some.injEq] at hv
      subst hv
      dsimp only
      refine ⟨rfl, fun k hk => ?_, fun k hk _ => ?_⟩
      · unfold Info.set
        by_cases e : k = t
        · subst e; rw [if_pos rfl, ha]; rfl
        · rw [if_neg e]
          cases hk' : afterTag k l with
          | none => rfl
          | some w =>
            have e1 := afterTag_some ha (tags_plain t ht).1
            have e2 := afterTag_some hk' (tags_plain k hk).1
            exact absurd (e2.symm.trans e1) e
      · unfold Info.set
        rw [if_neg]
        rintro rfl
        exact hk ht
  | none =>
    have hnone : ∀ t ∈ tags, afterTag t l = none := by
      intro t ht
      cases ha : afterTag t l with
      | none => rfl
      | some v =>
        have := List.findSome?_eq_none_iff.mp hf t ht
        rw [ha] at this
        cases this
    dsimp only
    cases hd : afterTag (ascii "description") l with
    | none =>
      dsimp only
      exact ⟨rfl, fun t ht => by rw [hnone t ht]; rfl, fun _ _ _ => rfl⟩
    | some v =>
      dsimp only
      refine ⟨not_continues fun h => hb (afterTag_sub hd _ (strip_sub _ _ h)), fun t ht => ?_, fun k _ hk => ?_⟩
      · unfold Info.set
        rw [if_neg (tags_plain t ht).2, hnone t ht]
        rfl
      · unfold Info.set
        rw [if_neg hk]

theorem fold_tags (ls : List Bytes) (hb : ∀ l ∈ ls, 0x5c ∉ l) : ∀ info : Info,
    (ls.foldl tagLine (false, info)).1 = false ∧
    (∀ t ∈ tags, (∀ l ∈ ls, afterTag t l = none) → (ls.foldl tagLine (false, info)).2 t = info t) ∧
    ∀ k, k ∉ tags → k ≠ ascii "description" → (ls.foldl tagLine (false, info)).2 k = info k := by
  induction ls with
  | nil => intro info; exact ⟨rfl, fun _ _ _ => rfl, fun _ _ _ => rfl⟩
  | cons l ls ih =>
    intro info
    obtain ⟨h1, h2, h3⟩ := tagLine_eq info l (hb l List.mem_cons_self)
    obtain ⟨i, hi⟩ : ∃ i, tagLine (false, info) l = (false, i) := pair_of h1
    rw [hi] at h2 h3
    dsimp only at h2 h3
    obtain ⟨j1, j2, j3⟩ := ih (fun m hm => hb m (List.mem_cons_of_mem _ hm)) i
    rw [List.foldl_cons, hi]
    refine ⟨j1, fun t ht hn => ?_, fun k hk hd => (j3 k hk hd).trans (h3 k hk hd)⟩
    rw [j2 t ht fun m hm => hn m (List.mem_cons_of_mem _ hm), h2 t ht, hn l List.mem_cons_self]
    rfl

theorem nobackslash {ls : List Bytes} (hb : ∀ l ∈ ls, 0x5c ∉ l) : ∀ l ∈ ls.map (fun l => unmark l ++ [0x0a]), 0x5c ∉ l := by
  intro l hl
  obtain ⟨m, hm, rfl⟩ := List.mem_map.mp hl
  simp only [List.mem_append, List.mem_singleton, not_or]
  exact ⟨fun h => hb m hm (unmark_sub m _ h), by decide⟩

theorem tag_none {t l : Bytes} (ht : t ∈ tags) (hl : l.head? = some 0x23) (h : ¬ (ascii "# " ++ t ++ [0x3a]) <+: l) :
    afterTag t (unmark l ++ [0x0a]) = none := by
  unfold afterTag
  rw [if_neg]
  intro hp
  rw [List.isPrefixOf_iff_prefix] at hp
  unfold unmark at hp
  split at hp
  · rename_i hm
    rw [List.isPrefixOf_iff_prefix] at hm
    obtain ⟨r, rfl⟩ := hm
    apply h
    rw [show (ascii "# " ++ r).drop 2 = r from rfl] at hp
    have : (t ++ [0x3a]) <+: r := by
      rcases List.prefix_concat_iff.mp hp with e | e
      · exfalso
        have := congrArg List.getLast? e
        simp at this
      · exact e
    rw [List.append_assoc]
    exact (List.prefix_append_right_inj _).mpr this
  · have : (t ++ [0x3a]).head? = some 0x23 := by
      obtain ⟨r, hr⟩ := hp
      cases l with
      | nil => cases hl
      | cons c l =>
        cases t with
        | nil => exact absurd ht (by decide)
        | cons d t =>
          simp at hr hl ⊢
          rw [hr.1, hl]
    have hn : ∀ t ∈ tags, (t ++ [0x3a]).head? ≠ some 0x23 := by decide
    exact hn t ht this

/-- a block of comments with the line that sets a tag -/
theorem tagBlock_set (info : Info) (b1 b2 : List Bytes) (t gap v : Bytes) (ht : t ∈ tags) (h : ∀ l ∈ b1 ++ b2, l = [] ∨ Comment l)
    (hb : ∀ l ∈ b1 ++ b2, 0x5c ∉ l) (hg : Blanks gap) (hv : Text v) (hvb : 0x5c ∉ v)
    (h2 : ∀ l ∈ b2, ¬ (ascii "# " ++ t ++ [0x3a]) <+: l) :
    tagBlock info (text (b1 ++ (ascii "# " ++ t ++ [0x3a] ++ gap ++ v) :: b2)) t = some v := by
  have hnl : ∀ l ∈ b1 ++ b2, 0x0a ∉ l := fun l hl => by
    rcases h l hl with rfl | h
    · simp
    · exact h.2
  have htn : 0x0a ∉ t ∧ 0x5c ∉ t := by
    have : ∀ t ∈ tags, 0x0a ∉ t ∧ 0x5c ∉ t := by decide
    exact this t ht
  have hline : 0x0a ∉ ascii "# " ++ t ++ [0x3a] ++ gap ++ v := by
    simp only [List.mem_append, not_or]
    exact ⟨⟨⟨⟨by decide, htn.1⟩, by decide⟩, fun hm => (hg _ hm).2 rfl⟩, hv.line⟩
  have hlb : 0x5c ∉ unmark (ascii "# " ++ t ++ [0x3a] ++ gap ++ v) ++ [0x0a] := by
    intro hm
    rcases List.mem_append.mp hm with hm | hm
    · have := unmark_sub _ _ hm
      simp only [List.mem_append] at this
      rcases this with (((hm | hm) | hm) | hm) | hm
      · revert hm; decide
      · exact htn.2 hm
      · revert hm; decide
      · have := (hg _ hm).1
        revert this; decide
      · exact hvb hm
    · revert hm; decide
  rw [tagBlock_fold _ _ (by
    intro l hl
    simp only [List.mem_append, List.mem_cons] at hl
    rcases hl with hl | rfl | hl
    · exact hnl l (by simp [hl])
    · exact hline
    · exact hnl l (by simp [hl])), List.map_append, List.foldl_append, List.map_cons, List.foldl_cons]
  obtain ⟨f1, -, -⟩ := fold_tags (b1.map fun l => unmark l ++ [0x0a]) (nobackslash fun l hl => hb l (by simp [hl])) info
  obtain ⟨i, hi⟩ : ∃ i, (b1.map fun l => unmark l ++ [0x0a]).foldl tagLine (false, info) = (false, i) := pair_of f1
  rw [hi]
  obtain ⟨g1, g2, -⟩ := tagLine_eq i _ hlb
  obtain ⟨j, hj⟩ : ∃ j, tagLine (false, i) (unmark (ascii "# " ++ t ++ [0x3a] ++ gap ++ v) ++ [0x0a]) = (false, j) := pair_of g1
  rw [hj] at g2 ⊢
  dsimp only at g2
  obtain ⟨-, k2, -⟩ := fold_tags (b2.map fun l => unmark l ++ [0x0a]) (nobackslash fun l hl => hb l (by simp [hl])) j
  rw [k2 t ht (by
    intro l hl
    obtain ⟨m, hm, rfl⟩ := List.mem_map.mp hl
    rcases h m (by simp [hm]) with rfl | hc
    · have : ∀ t ∈ tags, afterTag t (unmark [] ++ [0x0a]) = none := by decide
      exact this t ht
    · exact tag_none ht hc.1 (h2 m hm)), g2 t ht]
  have e1 : unmark (ascii "# " ++ t ++ [0x3a] ++ gap ++ v) = t ++ [0x3a] ++ (gap ++ v) := by
    unfold unmark
    rw [if_pos (by
      rw [List.isPrefixOf_iff_prefix]
      exact ⟨t ++ [0x3a] ++ gap ++ v, by simp⟩)]
    simp [ascii]
  have e2 : afterTag t (t ++ [0x3a] ++ (gap ++ v) ++ [0x0a]) = some (v ++ [0x0a]) := by
    unfold afterTag
    rw [if_pos (by
      rw [List.isPrefixOf_iff_prefix]
      exact ⟨gap ++ v ++ [0x0a], by simp⟩)]
    have : (t ++ [0x3a] ++ (gap ++ v) ++ [0x0a]).drop (t.length + 1) = gap ++ (v ++ [0x0a]) := by
      rw [show t ++ [0x3a] ++ (gap ++ v) ++ [0x0a] = (t ++ [0x3a]) ++ (gap ++ (v ++ [0x0a])) by simp,
        show t.length + 1 = (t ++ [0x3a]).length by simp, List.drop_left]
    rw [this, drop_gap (fun c hc => (hg c hc).1)]
    intro c hc
    refine hv.first c ?_
    cases v with
    | nil => exact absurd rfl hv.nonempty
    | cons d v => simpa using hc
  rw [e1, e2]
  have := strip_pad (i := []) (x := v) (t := [0x0a]) (fun c hc => (nomatch hc)) ⟨hv.first, hv.last⟩ (by
    intro c hc; rw [List.mem_singleton.mp hc]; decide)
  rw [List.nil_append] at this
  simp [this]

/-! ## The script -/

theorem setAll_get (fs : List Field) (info : Info) (k : Bytes) :
    info.setAll (fs.map fun f => (f.key, f.value)) k = (lookup fs k).or (info k) := by
  induction fs generalizing info with
  | nil => rfl
  | cons f fs ih =>
    show (info.set f.key f.value).setAll (fs.map fun f => (f.key, f.value)) k = _
    rw [ih]
    unfold Spec.InitInfo.lookup Info.set
    rw [List.reverse_cons, List.find?_append]
    cases hx : fs.reverse.find? fun f => decide (f.key = k) with
    | some g => rfl
    | none =>
      simp only [Option.map_none, Option.none_or, List.find?_cons, List.find?_nil]
      by_cases e : k = f.key
      · subst e; simp
      · rw [if_neg e]
        have : decide (f.key = k) = false := by simpa using fun h => e h.symm
        rw [this]
        rfl

theorem lines_comment {fs : List Field} (h : ∀ f ∈ fs, f.Good) : ∀ l ∈ (fs.map Field.lines).flatten, Comment l := by
  intro l hl
  obtain ⟨ls, hls, hl⟩ := List.mem_flatten.mp hl
  obtain ⟨f, hf, rfl⟩ := List.mem_map.mp hls
  rw [lines_plain] at hl
  obtain ⟨m, hm, rfl⟩ := List.mem_map.mp hl
  refine ⟨rfl, ?_⟩
  simp only [List.mem_append, not_or]
  exact ⟨by decide, plain_line (h f hf) m hm⟩

theorem head_comment {before after : List Bytes} {fs : List Field} (hb : ∀ l ∈ before, Comment l) (ha : ∀ l ∈ after, Comment l)
    (h : ∀ f ∈ fs, f.Good) : ∀ l ∈ head before fs after, Comment l := by
  intro l hl
  unfold head at hl
  simp only [List.mem_append, List.mem_cons] at hl
  rcases hl with (hl | rfl | hl) | rfl | hl
  · exact hb l hl
  · exact ⟨rfl, by decide⟩
  · exact lines_comment h l hl
  · exact ⟨rfl, by decide⟩
  · exact ha l hl

theorem head_blocks {before after : List Bytes} {fs : List Field} (hb : ∀ l ∈ before, Comment l) (ha : ∀ l ∈ after, Comment l)
    (hne : fs ≠ []) (h : ∀ f ∈ fs, f.Good) (hbegin : ascii "### BEGIN INIT INFO" ∉ before) (hend : ascii "### END INIT INFO" ∉ after)
    {rest : Bytes} (hr : rest.head? ≠ some 0x23) :
    metaBlocks (firstBlock (text (head before fs after) ++ rest)) =
      (text before, some (joinLines (fs.map Field.lines).flatten), text ([] :: after)) := by
  rw [first_block _ (head_comment hb ha h) _ hr]
  unfold head
  rw [meta_blocks before _ after (by
    intro l hl
    simp only [List.mem_append] at hl
    rcases hl with (hl | hl) | hl
    · exact (hb l hl).2
    · exact (lines_comment h l hl).2
    · exact (ha l hl).2) hbegin hend (by
      cases fs with
      | nil => exact absurd rfl hne
      | cons f fs => simp [Field.lines])]
  rfl

end Verif.Props.InitInfo

namespace Verif.Props
open Verif Verif.Detector Verif.Spec.Detector Verif.Spec.InitInfo

/-- **C141** (Debian; partial).  What is said in the block of comments at the head of an init script of Debian is what the
detection goes by: for each keyword the last value given for it, the lines of a value joined by a space.  Missing: scripts whose
first line has options for the shell, values in which a colon comes after a letter or hyphen, and values that go on after a tab
(see below). -/
theorem C141_debian_partial (m : Machine) (script gap : Bytes) (before after : List Bytes) (fs : List Field) (rest : Bytes)
    (custom : Option (Option Bytes → Option Bytes)) (hgap : Blanks gap)
    (hb : ∀ l ∈ before, Comment l) (ha : ∀ l ∈ after, Comment l) (hne : fs ≠ []) (h : ∀ f ∈ fs, f.Good)
    (hbegin : ascii "### BEGIN INIT INFO" ∉ before) (hend : ascii "### END INIT INFO" ∉ after) (hr : rest.head? ≠ some 0x23)
    (hfile : m.file (ascii "/etc/init.d/" ++ script) =
      some (ascii "#!" ++ gap ++ ascii "/bin/sh\n" ++ text (head before fs after) ++ rest)) :
    debianRead m script custom = some (debian m script (lookup fs) custom) := by
  have hw : withoutShebang (ascii "#!" ++ gap ++ ascii "/bin/sh\n" ++ text (head before fs after) ++ rest) =
      text (head before fs after) ++ rest := by
    unfold withoutShebang
    have e1 : ascii "#!" ++ gap ++ ascii "/bin/sh\n" ++ text (head before fs after) ++ rest =
        ascii "#!" ++ (gap ++ (ascii "/bin/sh\n" ++ (text (head before fs after) ++ rest))) := by simp
    rw [e1, if_pos (by rw [List.isPrefixOf_iff_prefix]; exact List.prefix_append _ _)]
    rw [show (ascii "#!" ++ (gap ++ (ascii "/bin/sh\n" ++ (text (head before fs after) ++ rest)))).drop 2 =
      gap ++ (ascii "/bin/sh\n" ++ (text (head before fs after) ++ rest)) from rfl,
      InitInfo.drop_gap (fun c hc => (hgap c hc).1) (by
        intro c hc
        have : c = 0x2f := by simpa [ascii] using hc.symm
        rw [this]; decide)]
    dsimp only
    rw [if_pos (by rw [List.isPrefixOf_iff_prefix]; exact ⟨0x0a :: (text (head before fs after) ++ rest), rfl⟩)]
    rw [show (ascii "/bin/sh\n" ++ (text (head before fs after) ++ rest)).drop 7 = [0x0a] ++ (text (head before fs after) ++ rest) from rfl,
      InitInfo.drop_gap (by intro c hc; rw [List.mem_singleton.mp hc]; decide)]
    intro c hc
    have hx : ∃ l ls, head before fs after = l :: ls := by
      unfold head
      cases before with
      | nil => exact ⟨_, _, rfl⟩
      | cons l ls => exact ⟨_, _, rfl⟩
    obtain ⟨l, ls, hx⟩ := hx
    have hl := (InitInfo.head_comment hb ha h l (by rw [hx]; exact List.mem_cons_self)).1
    rw [hx] at hc
    cases l with
    | nil => cases hl
    | cons d l =>
      have e1 : d = c := by simpa [text] using hc
      have e2 : d = 0x23 := by simpa using hl
      rw [← e1, e2]
      decide
  unfold debianRead
  rw [hfile]
  dsimp only
  unfold debianInfo
  rw [hw, InitInfo.head_blocks hb ha hne h hbegin hend hr]
  dsimp only
  unfold Info.read
  dsimp only
  rw [InitInfo.info_read fs hne h]
  have : (Info.setAll (fun _ => none) (fs.map fun f => (f.key, f.value))) = lookup fs := by
    funext k
    rw [InitInfo.setAll_get]
    simp
  simp [this]

/-- **C141** (Red Hat; partial).  So it is on Red Hat for every keyword that is not a tag. -/
theorem C141_redhat_partial (before after : List Bytes) (fs : List Field) (rest : Bytes)
    (hb : ∀ l ∈ before, Comment l) (ha : ∀ l ∈ after, Comment l) (hne : fs ≠ []) (h : ∀ f ∈ fs, f.Good)
    (hbegin : ascii "### BEGIN INIT INFO" ∉ before) (hend : ascii "### END INIT INFO" ∉ after) (hr : rest.head? ≠ some 0x23)
    (hslash : ∀ l ∈ before ++ after, 0x5c ∉ l) (key : Bytes) (hkey : key ∉ tags) (hdesc : key ≠ ascii "description") :
    ∃ info, redhatInfo (text (head before fs after) ++ rest) = some info ∧ info key = lookup fs key := by
  unfold redhatInfo
  rw [InitInfo.head_blocks hb ha hne h hbegin hend hr]
  dsimp only
  unfold Info.read
  dsimp only
  rw [InitInfo.info_read fs hne h]
  refine ⟨_, rfl, ?_⟩
  dsimp only
  rw [InitInfo.tagBlock_fold _ ([] :: after) (by
    intro l hl
    rcases List.mem_cons.mp hl with rfl | hl
    · simp
    · exact (ha l hl).2)]
  rw [(InitInfo.fold_tags _ (InitInfo.nobackslash (by
    intro l hl
    rcases List.mem_cons.mp hl with rfl | hl
    · simp
    · exact hslash l (by simp [hl]))) _).2.2 key hkey hdesc, InitInfo.setAll_get]
  rw [InitInfo.tagBlock_fold _ before fun l hl => (hb l hl).2]
  rw [(InitInfo.fold_tags _ (InitInfo.nobackslash fun l hl => hslash l (by simp [hl])) _).2.2 key hkey hdesc]
  simp

/-- **C141** (tags).  The file that the tag `config` names in an init script of Red Hat without such a block is the one the detection
goes by; the last one counts. -/
theorem C141_config (m : Machine) (script : Bytes) (b1 b2 : List Bytes) (gap path rest : Bytes) (custom : Option (Option Bytes → Option Bytes))
    (h : ∀ l ∈ b1 ++ b2, Comment l) (hslash : ∀ l ∈ b1 ++ b2, 0x5c ∉ l) (hbegin : ascii "### BEGIN INIT INFO" ∉ b1 ++ b2) (hgap : Blanks gap)
    (hpath : Text path) (hp : 0x5c ∉ path) (hlast : ∀ l ∈ b2, ¬ ascii "# config:" <+: l) (hr : rest.head? ≠ some 0x23)
    (hfile : m.file (ascii "/etc/init.d/" ++ script) = some (text (b1 ++ (ascii "# config:" ++ gap ++ path) :: b2) ++ rest)) :
    redhatRead m script custom = some (redhat m script (some path) custom) := by
  have ec : ascii "# config:" = ascii "# " ++ ascii "config" ++ [0x3a] := by decide
  have hline : Comment (ascii "# config:" ++ gap ++ path) := by
    refine ⟨rfl, ?_⟩
    simp only [List.mem_append, not_or]
    exact ⟨⟨by decide, fun hm => (hgap _ hm).2 rfl⟩, hpath.line⟩
  have hall : ∀ l ∈ b1 ++ (ascii "# config:" ++ gap ++ path) :: b2, Comment l := by
    intro l hl
    simp only [List.mem_append, List.mem_cons] at hl
    rcases hl with hl | rfl | hl
    · exact h l (by simp [hl])
    · simpa using hline
    · exact h l (by simp [hl])
  unfold redhatRead
  rw [hfile]
  dsimp only
  unfold redhatInfo
  rw [InitInfo.first_block _ hall _ hr]
  have hno : metaBlocks (text (b1 ++ (ascii "# config:" ++ gap ++ path) :: b2)) = (text (b1 ++ (ascii "# config:" ++ gap ++ path) :: b2), none, []) := by
    have hl := InitInfo.eachLine_text _ (fun l hl => (hall l hl).2) []
    rw [List.append_nil] at hl
    unfold metaBlocks
    dsimp only
    rw [hl]
    have e0 : eachLine [] = [] := rfl
    rw [e0, List.append_nil]
    have ht : ((b1 ++ (ascii "# config:" ++ gap ++ path) :: b2).map (· ++ [0x0a])).takeWhile (fun x => decide (x ≠ beginLine)) =
        (b1 ++ (ascii "# config:" ++ gap ++ path) :: b2).map (· ++ [0x0a]) := by
      have := List.takeWhile_append_of_pos (p := fun x => decide (x ≠ beginLine))
        (l₁ := (b1 ++ (ascii "# config:" ++ gap ++ path) :: b2).map (· ++ [0x0a])) (l₂ := []) (by
        intro l hl
        obtain ⟨x, hx, rfl⟩ := List.mem_map.mp hl
        rw [show beginLine = ascii "### BEGIN INIT INFO" ++ [0x0a] by decide]
        simp only [ne_eq, InitInfo.line_inj, decide_not, Bool.not_eq_true', decide_eq_false_iff_not]
        rintro rfl
        simp only [List.mem_append, List.mem_cons] at hx
        rcases hx with hx | hx | hx
        · exact hbegin (by simp [hx])
        · simp [ascii] at hx
        · exact hbegin (by simp [hx]))
      simpa using this
    rw [ht, List.drop_length]
  rw [hno]
  dsimp only
  unfold Info.read
  simp only [Option.map_some]
  have e1 : ∀ info : Info, tagBlock info [] = info := fun _ => rfl
  rw [e1, ec]
  have := InitInfo.tagBlock_set (fun _ => none) b1 b2 (ascii "config") gap path (by decide) (fun l hl => .inr (h l hl)) hslash hgap hpath hp
    (by rw [← ec]; exact hlast)
  rw [this]

/-- **C141** is violated by values with a colon after a letter: the word before it counts as a keyword, and the value ends there. -/
theorem C141_value_violated :
    ∃ info, debianInfo (ascii "#!/bin/sh\n" ++ text [ascii "### BEGIN INIT INFO", ascii "# Provides: foo",
        ascii "# Description: see http://x.org", ascii "### END INIT INFO"] ++ [0x0a]) = some info ∧
      info (ascii "Description") = some (ascii "see") ∧ info (ascii "http") = some (ascii "//x.org") :=
  ⟨_, rfl, by decide +kernel⟩

/-- **C141** is violated by scripts of Debian that give the shell an option: nothing in their comments is read. -/
theorem C141_shebang_violated :
    ∃ info, debianInfo (ascii "#!/bin/sh -e\n" ++ text [ascii "### BEGIN INIT INFO", ascii "# Provides: foo",
        ascii "# Description: a filter", ascii "### END INIT INFO"] ++ [0x0a]) = some info ∧ info (ascii "Description") = none :=
  ⟨_, rfl, by decide +kernel⟩

/-- **C141** is violated by values that go on after a tab, which the Linux Standard Base allows: the mark of the comment becomes a
part of the value. -/
theorem C141_tab_violated :
    ∃ info, debianInfo (ascii "#!/bin/sh\n" ++ text [ascii "### BEGIN INIT INFO", ascii "# Provides: foo",
        ascii "# Description: a filter", ascii "#\tfor mail", ascii "### END INIT INFO"] ++ [0x0a]) = some info ∧
      info (ascii "Description") = some (ascii "a filter #\tfor mail") :=
  ⟨_, rfl, by decide +kernel⟩

/-- **C141** is violated by a block with nothing in it but a mark of a comment and a space: it raises an exception instead of
saying nothing. -/
theorem C141_empty_violated :
    debianInfo (ascii "#!/bin/sh\n" ++ text [ascii "### BEGIN INIT INFO", ascii "# ", ascii "### END INIT INFO"] ++ [0x0a]) = none := by
  decide +kernel

/-! ## Cases -/

namespace InitInfo

def provides : Field := ⟨ascii "Provides", ascii "          ", ascii "foo-milter", []⟩
def described : Field := ⟨ascii "Description", ascii " ", ascii "A filter", [(ascii "  ", ascii "for spam; at 10:30")]⟩

instance (c : UInt8) : Decidable (letter c) := by unfold letter; infer_instance
instance (b : Bytes) : Decidable (Blanks b) := by unfold Blanks; infer_instance
instance (l : Bytes) : Decidable (Comment l) := by unfold Comment; infer_instance

theorem no_colon (v : Bytes) (h : ∀ i < v.length, v[i + 1]? = some 0x3a → ∀ c ∈ v[i]?, ¬letter c) : NoWordColon v := by
  rintro a c b rfl
  exact h a.length (by simp) (by simp) c (by simp)

theorem texts (v : Bytes) (h : 0x0a ∉ v ∧ v ≠ [] ∧ (∀ c ∈ v.head?, ¬Blank c) ∧ ∀ c ∈ v.getLast?, ¬Blank c) : Text v :=
  ⟨h.1, h.2.1, h.2.2.1, h.2.2.2⟩

theorem provides_good : provides.Good :=
  ⟨⟨by decide, by decide⟩, by decide, .inr ⟨texts _ (by decide), no_colon _ (by decide)⟩, by intro x hx; cases hx⟩

theorem described_good : described.Good :=
  ⟨⟨by decide, by decide⟩, by decide, .inr ⟨texts _ (by decide), no_colon _ (by decide)⟩, by
    intro x hx
    obtain rfl := List.mem_singleton.mp hx
    exact ⟨by decide, texts _ (by decide), no_colon _ (by decide)⟩⟩

theorem goods : ∀ f ∈ [provides, described], f.Good := by
  intro f hf
  rcases List.mem_cons.mp hf with rfl | hf
  · exact provides_good
  · obtain rfl := List.mem_singleton.mp hf
    exact described_good

/-- a machine with one init script, for a milter whose socket is in its settings -/
def machine (name : String) (init : Bytes) (conf : String) (settings : String) : Machine :=
  { file := fun p => if p = ascii ("/etc/init.d/" ++ name) then some init else if p = ascii conf then some (ascii settings) else none
    words := fun _ => [] }

def script : Bytes :=
  ascii "#!" ++ ascii " " ++ ascii "/bin/sh\n" ++ text (head [ascii "# foo"] [provides, described] [ascii "# Author"]) ++ ascii "\nNAME=foo\n"

end InitInfo

/-- an init script of Debian: the description is that of the block, which goes on in a second line -/
example : ∃ d, debianRead (InitInfo.machine "foo" InitInfo.script "/etc/default/foo" "SOCKET=/run/foo.sock\n") (ascii "foo") none = some (some d) ∧
    d.description = some (ascii "A filter for spam; at 10:30") ∧ d.spec = some (ascii "unix:/run/foo.sock") ∧ d.enabled = true := by
  rw [C141_debian_partial _ (ascii "foo") (ascii " ") [ascii "# foo"] [ascii "# Author"] [InitInfo.provides, InitInfo.described]
    (ascii "\nNAME=foo\n") none (by decide) (by decide) (by decide) (by decide) InitInfo.goods (by decide) (by decide) (by decide) (by decide +kernel)]
  exact ⟨_, rfl, by decide +kernel⟩

/-- an init script of Red Hat with a block -/
example : ∃ info, redhatInfo (text (head [ascii "#!/bin/sh", ascii "# chkconfig: - 80 20"] [InitInfo.provides, InitInfo.described] []) ++ [0x0a]) =
      some info ∧ info (ascii "Description") = some (ascii "A filter for spam; at 10:30") := by
  obtain ⟨info, h, e⟩ := C141_redhat_partial [ascii "#!/bin/sh", ascii "# chkconfig: - 80 20"] [] [InitInfo.provides, InitInfo.described] [0x0a]
    (by decide) (by decide) (by decide) InitInfo.goods (by decide) (by decide) (by decide) (by decide) (ascii "Description") (by decide) (by decide)
  exact ⟨info, h, by rw [e]; decide +kernel⟩

/-- an init script of milter-greylist on Red Hat, whose socket is in the file it names -/
example : redhatRead (InitInfo.machine "milter-greylist" (text ([ascii "#!/bin/sh", ascii "# chkconfig: - 80 20", ascii "# config: /etc/old"] ++
      (ascii "# config:" ++ [0x20] ++ ascii "/etc/g.conf") :: [ascii "# pidfile: /run/g.pid"]) ++ [0x0a]) "/etc/g.conf" "socket \"/run/g.sock\"\n")
    (ascii "milter-greylist") none = some (some (ascii "unix:/run/g.sock")) := by
  rw [C141_config _ (ascii "milter-greylist") [ascii "#!/bin/sh", ascii "# chkconfig: - 80 20", ascii "# config: /etc/old"] [ascii "# pidfile: /run/g.pid"]
    [0x20] (ascii "/etc/g.conf") [0x0a] none (by decide) (by decide) (by decide) (by decide) (InitInfo.texts _ (by decide)) (by decide) (by decide)
    (by decide) (by decide +kernel)]
  decide +kernel

end Verif.Props
