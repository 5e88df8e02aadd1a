import Verif.Core.Esmtp
import Verif.Spec.Esmtp
/-
C19: ESMTP arguments.
-/
namespace Verif.Props
open Verif Verif.Esmtp Verif.Spec.Esmtp

/-! character classes -/

theorem forall_byte (P : UInt8 → Prop) (h : ∀ n < 256, P (UInt8.ofNat n)) (c : UInt8) : P c := by
  have := h c.toNat c.toNat_lt
  rwa [UInt8.ofNat_toNat] at this

theorem isAlnum_iff (c : UInt8) : isAlnum c = true ↔ Alnum c := by
  simp [isAlnum, Alnum, or_assoc]

set_option maxRecDepth 100000 in
theorem isAtomText_iff : ∀ c : UInt8, isAtomText c = true ↔ AtomText c := by
  apply forall_byte
  simp only [AtomText, Alnum]
  decide

theorem isText_iff (c : UInt8) : isText c = true ↔ Text c := by
  simp [isText, Text, or_assoc]

theorem isDomainChar_iff (c : UInt8) : isDomainChar c = true ↔ Alnum c ∨ c = 0x2d ∨ c = 0x2e := by
  simp [isDomainChar, isAlnum_iff, or_assoc]

theorem isKeyChar_iff (c : UInt8) : isKeyChar c = true ↔ Alnum c ∨ c = 0x2d := by
  simp [isKeyChar, isAlnum_iff]

theorem isValueChar_iff (c : UInt8) : isValueChar c = true ↔ 0x21 ≤ c ∧ c ≤ 0x7e ∧ c ≠ 0x3d := by
  simp [isValueChar, isGraph, and_assoc]

set_option maxRecDepth 100000 in
theorem plain_class : ∀ c : UInt8, (c ≠ 0x5c ∧ isSpace c = false ∧ (isCntrl c || isGraph c) = true) ↔
    (c < 0x80 ∧ c ∉ [9, 10, 12, 13, 32, 0x5c]) := by
  apply forall_byte
  decide

/-! text inside quotes and brackets -/

section lit
variable (delim : List UInt8) (stop : UInt8 → Bool) (hst : ∀ c, stop c = true ↔ c ∈ delim)
  (hb : 0x5c ∉ delim)

include hst hb in
theorem litLoop_complete (s r : Bytes) (t : UInt8) (h : Inside delim s) (ht : t ∈ delim) :
    litLoop stop (s ++ t :: r) = .ok (t :: r) := by
  induction h with
  | nil => rw [List.nil_append, litLoop.eq_def]; simp only [(hst t).2 ht, if_true]
  | plain c s hp _ ih =>
    obtain ⟨h1, h2, h3⟩ := hp
    obtain ⟨g1, g2, g3⟩ := (plain_class c).2 ⟨h1, h2⟩
    have : stop c = false := by rw [Bool.eq_false_iff]; exact fun h => h3 ((hst c).1 h)
    rw [List.cons_append, litLoop.eq_def]
    simp only [this, Bool.false_eq_true, if_false, g1, g2, g3, if_true]
    exact ih
  | escaped c s hc _ ih =>
    have : stop 0x5c = false := by rw [Bool.eq_false_iff]; exact fun h => hb ((hst _).1 h)
    rw [List.cons_append, List.cons_append, litLoop.eq_def]
    simp only [this, Bool.false_eq_true, if_false, if_true, (isText_iff c).2 hc]
    exact ih

include hst in
theorem litLoop_sound (x r : Bytes) (h : litLoop stop x = .ok r) :
    ∃ s, Inside delim s ∧ x = s ++ r ∧ r ≠ [] := by
  fun_induction litLoop stop x with
  | case1 => cases h
  | case2 c s hs => simp only [HRes.ok.injEq] at h; exact ⟨[], .nil, by simp [h], by simp [← h]⟩
  | case3 hs => cases h
  | case4 d s' hd hs ih =>
    obtain ⟨t, h1, h2, h3⟩ := ih h
    exact ⟨0x5c :: d :: t, .escaped d t ((isText_iff d).1 hd) h1, by simp [h2], h3⟩
  | case5 hs d s' hd => cases h
  | case6 c s hs hc hsp => simp only [HRes.ok.injEq] at h; exact ⟨[], .nil, by simp [h], by simp [← h]⟩
  | case7 c s hs hc hsp hg ih =>
    obtain ⟨t, h1, h2, h3⟩ := ih h
    have hsp' : isSpace c = false := by simpa using hsp
    obtain ⟨g1, g2⟩ := (plain_class c).1 ⟨hc, hsp', hg⟩
    exact ⟨c :: t, .plain c t ⟨g1, g2, fun hm => hs ((hst c).2 hm)⟩ h1, by simp [h2], h3⟩
  | case8 c s hs hc hsp hg => simp only [HRes.ok.injEq] at h; exact ⟨[], .nil, by simp [h], by simp [← h]⟩

include hst in
theorem litLoop_ub (x : Bytes) (h : litLoop stop x = .ub) :
    Inside delim x ∨ ∃ y, x = y ++ [0x5c] := by
  fun_induction litLoop stop x with
  | case1 => exact .inl .nil
  | case2 => cases h
  | case3 hs => exact .inr ⟨[], rfl⟩
  | case4 d s' hd hs ih =>
    rcases ih h with h1 | ⟨y, rfl⟩
    · exact .inl (.escaped d _ ((isText_iff d).1 hd) h1)
    · exact .inr ⟨0x5c :: d :: y, rfl⟩
  | case5 => cases h
  | case6 => cases h
  | case7 c s hs hc hsp hg ih =>
    have hsp' : isSpace c = false := by simpa using hsp
    obtain ⟨g1, g2⟩ := (plain_class c).1 ⟨hc, hsp', hg⟩
    rcases ih h with h1 | ⟨y, rfl⟩
    · exact .inl (.plain c _ ⟨g1, g2, fun hm => hs ((hst c).2 hm)⟩ h1)
    · exact .inr ⟨c :: y, rfl⟩
  | case8 => cases h

/-- conversely: text that runs on makes the loop run past the NUL -/
theorem litLoop_runs (s : Bytes) (h : Inside delim s) (hst : ∀ c, stop c = true ↔ c ∈ delim)
    (hb : 0x5c ∉ delim) (h0 : 0 ∉ delim) : litLoop stop (s ++ [0]) = .ub := by
  induction h with
  | nil =>
    have : stop 0 = false := by rw [Bool.eq_false_iff]; exact fun h => h0 ((hst _).1 h)
    rw [List.nil_append, litLoop.eq_def]
    simp [this, isSpace, isCntrl, litLoop]
  | plain c s hp _ ih =>
    obtain ⟨h1, h2, h3⟩ := hp
    obtain ⟨g1, g2, g3⟩ := (plain_class c).2 ⟨h1, h2⟩
    have : stop c = false := by rw [Bool.eq_false_iff]; exact fun h => h3 ((hst c).1 h)
    rw [List.cons_append, litLoop.eq_def]
    simp only [this, Bool.false_eq_true, if_false, g1, g2, g3, if_true]
    exact ih
  | escaped c s hc _ ih =>
    have : stop 0x5c = false := by rw [Bool.eq_false_iff]; exact fun h => hb ((hst _).1 h)
    rw [List.cons_append, List.cons_append, litLoop.eq_def]
    simp only [this, Bool.false_eq_true, if_false, if_true, (isText_iff c).2 hc]
    exact ih

theorem inside_prefix (x p : Bytes) (h : Inside delim x) (e : x = p ++ [0]) : Inside delim p := by
  induction h generalizing p with
  | nil => simp at e
  | plain c s hp _ ih =>
    cases p with
    | nil => exact .nil
    | cons d p =>
      simp at e
      obtain ⟨rfl, e⟩ := e
      exact .plain c p hp (ih p e)
  | escaped c s hc hs ih =>
    cases p with
    | nil => simp at e
    | cons d p =>
      simp at e
      obtain ⟨rfl, e⟩ := e
      cases p with
      | nil => simp at e; obtain ⟨rfl, -⟩ := e; unfold Text at hc; exact absurd hc (by decide)
      | cons f p =>
        simp at e
        obtain ⟨rfl, e⟩ := e
        exact .escaped c p hc (ih p e)

end lit

def stopB : UInt8 → Bool := fun x => x == 0x5b || x == 0x5d
def stopQ : UInt8 → Bool := fun x => x == 0x22

theorem stopB_iff (c : UInt8) : stopB c = true ↔ c ∈ [(0x5b : UInt8), 0x5d] := by simp [stopB]
theorem stopQ_iff (c : UInt8) : stopQ c = true ↔ c ∈ [(0x22 : UInt8)] := by simp [stopQ]

theorem expect_ok (t : UInt8) (x r : Bytes) : expect t x = .ok r ↔ x = t :: r := by
  cases x with
  | nil => simp [expect]
  | cons c x =>
    rw [expect]
    by_cases h : c = t
    · simp [h]
    · simp [h]

theorem dropWhile_run (p : UInt8 → Bool) (s t : Bytes) (hs : ∀ c ∈ s, p c = true)
    (ht : ∀ c r, t = c :: r → p c = false) :
    (s ++ t).dropWhile p = t ∧ (s ++ t).takeWhile p = s := by
  induction s with
  | nil =>
    cases t with
    | nil => exact ⟨rfl, rfl⟩
    | cons c r => simp [ht c r rfl]
  | cons c s ih =>
    have := ih (fun x hx => hs x (List.mem_cons_of_mem _ hx))
    simp [hs c List.mem_cons_self, this]

theorem dropWhile_split (p : UInt8 → Bool) (s : Bytes) :
    s = s.takeWhile p ++ s.dropWhile p ∧ ∀ c ∈ s.takeWhile p, p c = true := by
  refine ⟨List.takeWhile_append_dropWhile.symm, fun c hc => ?_⟩
  exact List.all_eq_true.1 List.all_takeWhile c hc

/-! the parsers against the grammar.  `Clean r`: the byte after a domain does not continue it -/

def Stops (p : UInt8 → Bool) (r : Bytes) : Prop := ∀ c r', r = c :: r' → p c = false

theorem parseDomain_complete (d r : Bytes) (h : Domain d) (hr : Stops isDomainChar r) :
    parseDomain (d ++ r) = .ok r := by
  cases h with
  | literal s hs =>
    have := litLoop_complete [0x5b, 0x5d] stopB stopB_iff (by decide) s r 0x5d hs (by decide)
    simp only [List.append_assoc, List.singleton_append, List.cons_append, List.nil_append, parseDomain, if_true]
    show (match litLoop stopB _ with | .ok r => _ | .fail => _ | .ub => _) = _
    rw [this]
    exact (expect_ok _ _ _).2 rfl
  | name c s hc hs =>
    have h1 : c ≠ 0x5b := by rintro rfl; unfold Alnum at hc; exact absurd hc (by decide)
    rw [List.cons_append, parseDomain, if_neg h1, if_pos ((isAlnum_iff c).2 hc)]
    congr 1
    exact (dropWhile_run isDomainChar s r (fun x hx => (isDomainChar_iff x).2 (hs x hx)) hr).1

theorem parseDomain_sound (x r : Bytes) (h : parseDomain x = .ok r) :
    ∃ d, Domain d ∧ x = d ++ r := by
  cases x with
  | nil => cases h
  | cons c x =>
    rw [parseDomain] at h
    split at h
    · rename_i hc
      subst hc
      split at h
      · rename_i r' hl
        obtain ⟨s, h1, h2, -⟩ := litLoop_sound [0x5b, 0x5d] stopB stopB_iff x r' hl
        rw [expect_ok] at h
        subst h
        exact ⟨[0x5b] ++ s ++ [0x5d], .literal s h1, by simp [h2]⟩
      · cases h
      · cases h
    · split at h
      · rename_i hc
        simp only [HRes.ok.injEq] at h
        obtain ⟨e1, e2⟩ := dropWhile_split isDomainChar x
        refine ⟨c :: x.takeWhile isDomainChar, .name c _ ((isAlnum_iff c).1 hc)
          (fun y hy => (isDomainChar_iff y).1 (e2 y hy)), ?_⟩
        rw [← h, List.cons_append]
        exact congrArg _ e1
      · cases h

theorem parseDomain_ub (p : Bytes) (h : parseDomain (p ++ [0]) = .ub) :
    ∃ post, p = 0x5b :: post ∧ Inside [0x5b, 0x5d] post := by
  cases p with
  | nil => exact absurd h (by decide)
  | cons c p =>
    rw [List.cons_append, parseDomain] at h
    split at h
    · rename_i hc
      subst hc
      split at h
      · rename_i r' hl
        obtain ⟨s, h1, h2, h3⟩ := litLoop_sound [0x5b, 0x5d] stopB stopB_iff _ r' hl
        cases r' with
        | nil => exact absurd rfl h3
        | cons y r' => rw [expect] at h; split at h <;> cases h
      · cases h
      · rename_i hl
        rcases litLoop_ub [0x5b, 0x5d] stopB stopB_iff _ hl with h1 | ⟨y, h1⟩
        · exact ⟨p, rfl, inside_prefix _ _ p h1 rfl⟩
        · have := congrArg List.getLast? h1
          simp at this
    · split at h <;> cases h

theorem last_nonzero_domain (d : Bytes) (h : Domain d) : ∃ y c, d = y ++ [c] ∧ c ≠ 0 := by
  cases h with
  | literal s _ => exact ⟨[0x5b] ++ s, 0x5d, rfl, by decide⟩
  | name c s hc hs =>
    rcases List.eq_nil_or_concat s with rfl | ⟨t, x, rfl⟩
    · exact ⟨[], c, rfl, by rintro rfl; unfold Alnum at hc; exact absurd hc (by decide)⟩
    · refine ⟨c :: t, x, by simp, ?_⟩
      have := hs x (by simp)
      rintro rfl
      unfold Alnum at this
      exact absurd this (by decide)

/-- what is left after a part that does not end in NUL still ends in the NUL -/
theorem rest_ends (d r p y : Bytes) (c : UInt8) (h : p ++ [0] = d ++ r) (hd : d = y ++ [c]) (hc : c ≠ 0) :
    ∃ r', r = r' ++ [0] ∧ p = d ++ r' := by
  rcases List.eq_nil_or_concat r with rfl | ⟨r', x, rfl⟩
  · subst hd
    rw [List.append_nil] at h
    have := List.append_inj_right' h (by simp)
    simp at this
    exact absurd this.symm hc
  · rw [List.concat_eq_append, ← List.append_assoc] at h
    have e1 := List.append_inj_right' h (by simp)
    have e2 := List.append_inj_left' h (by simp)
    simp at e1
    subst e1
    exact ⟨r', by simp, e2⟩

/-! source routes -/

theorem routeLoop_complete (x r : Bytes) (h : Route x) (n : Nat) (hn : x.length < n)
    (hr : ∃ c t, r = c :: t ∧ isDomainChar c = false ∧ c ≠ 0x2c ∧ c ≠ 0x40) :
    routeLoop n (x ++ r) = .ok r := by
  obtain ⟨c, t, rfl, h1, h2, h3⟩ := hr
  have comma : isDomainChar 0x2c = false := by decide
  have hstop : Stops isDomainChar (c :: t) := by rintro a b e; simp at e; rw [← e.1]; exact h1
  induction h generalizing n with
  | one d hd =>
    obtain ⟨n, rfl⟩ : ∃ m, n = m + 1 := ⟨n - 1, by omega⟩
    rw [List.append_assoc, List.singleton_append, routeLoop, if_neg (by simp),
      parseDomain_complete d _ hd hstop]
    simp [h2]
  | comma d hd =>
    simp at hn
    obtain ⟨n, rfl⟩ : ∃ m, n = m + 2 := ⟨n - 2, by omega⟩
    rw [List.append_assoc, List.append_assoc, List.singleton_append, routeLoop, if_neg (by simp),
      parseDomain_complete d _ hd (by rintro a b e; simp at e; rw [← e.1]; exact comma)]
    simp only [List.singleton_append, if_true]
    rw [routeLoop.eq_def]
    simp [h3]
  | cons d r' hd _ ih =>
    simp at hn
    obtain ⟨n, rfl⟩ : ∃ m, n = m + 1 := ⟨n - 1, by omega⟩
    simp only [List.append_assoc, List.cons_append, List.nil_append]
    rw [routeLoop, if_neg (by simp),
      parseDomain_complete d _ hd (by rintro a b e; simp at e; rw [← e.1]; exact comma)]
    simp only [if_true]
    exact ih n (by omega)

theorem routeLoop_sound (n : Nat) (x r : Bytes) (h : routeLoop n x = .ok r) :
    (x = r ∧ x.head? ≠ some 0x40) ∨ ∃ s, Route s ∧ x = s ++ r := by
  induction n generalizing x with
  | zero => cases h
  | succ n ih =>
    cases x with
    | nil => cases h
    | cons c x =>
      rw [routeLoop] at h
      split at h
      · rename_i hc
        simp only [HRes.ok.injEq] at h
        exact .inl ⟨h, by simpa using hc⟩
      · rename_i hc
        have hc : c = 0x40 := by simpa using hc
        subst hc
        split at h
        · cases h
        · cases h
        · cases h
        · rename_i e r' hd
          obtain ⟨d, h1, h2⟩ := parseDomain_sound _ _ hd
          split at h
          · rename_i he
            subst he
            rcases ih r' h with ⟨rfl, -⟩ | ⟨s, h3, h4⟩
            · exact .inr ⟨[0x40] ++ d ++ [0x2c], .comma d h1, by simp [h2]⟩
            · exact .inr ⟨[0x40] ++ d ++ [0x2c] ++ s, .cons d s h1 h3, by simp [h2, h4]⟩
          · simp only [HRes.ok.injEq] at h
            exact .inr ⟨[0x40] ++ d, .one d h1, by simp [h2, h]⟩

theorem route_at (s : Bytes) (h : Route s) : ∃ t, s = 0x40 :: t ∧ t ≠ [] := by
  cases h with
  | one d hd => obtain ⟨y, c, rfl, -⟩ := last_nonzero_domain d hd; exact ⟨_, rfl, by simp⟩
  | comma d hd => exact ⟨d ++ [0x2c], rfl, by simp⟩
  | cons d r _ _ => exact ⟨d ++ [0x2c] ++ r, rfl, by simp⟩

theorem last_nonzero_route (s : Bytes) (h : Route s) : ∃ y c, s = y ++ [c] ∧ c ≠ 0 := by
  induction h with
  | one d hd =>
    obtain ⟨y, c, rfl, hc⟩ := last_nonzero_domain d hd
    exact ⟨[0x40] ++ y, c, by simp, hc⟩
  | comma d hd => exact ⟨[0x40] ++ d, 0x2c, by simp, by decide⟩
  | cons d r _ _ ih =>
    obtain ⟨y, c, rfl, hc⟩ := ih
    exact ⟨[0x40] ++ d ++ [0x2c] ++ y, c, by simp, hc⟩

theorem routeLoop_ub (n : Nat) (p : Bytes) (hn : p.length + 1 < n) (h : routeLoop n (p ++ [0]) = .ub) :
    Unterminated p := by
  induction n generalizing p with
  | zero => omega
  | succ n ih =>
    cases p with
    | nil => rw [List.nil_append, routeLoop, if_pos (by decide)] at h; cases h
    | cons c p =>
      rw [List.cons_append, routeLoop] at h
      split at h
      · cases h
      · split at h
        · cases h
        · rename_i hd
          obtain ⟨post, rfl, h2⟩ := parseDomain_ub p hd
          exact ⟨[c], 0x5b, post, rfl, .inl ⟨rfl, h2⟩⟩
        · rename_i hd
          obtain ⟨d, h1, h2⟩ := parseDomain_sound _ _ hd
          obtain ⟨y, z, hy, hz⟩ := last_nonzero_domain d h1
          obtain ⟨r', e, -⟩ := rest_ends d [] p y z h2 hy hz
          simp at e
        · rename_i e r' hd
          obtain ⟨d, h1, h2⟩ := parseDomain_sound _ _ hd
          obtain ⟨y, z, hy, hz⟩ := last_nonzero_domain d h1
          obtain ⟨r'', e1, e2⟩ := rest_ends d _ p y z h2 hy hz
          split at h
          · rename_i he
            subst he
            cases r'' with
            | nil => simp at e1
            | cons w r'' =>
              simp at e1
              obtain ⟨rfl, rfl⟩ := e1
              obtain ⟨pre, q, post, g1, g2⟩ := ih r'' (by subst hy; simp [e2] at hn; omega) h
              exact ⟨c :: d ++ 0x2c :: pre, q, post, by simp [e2, g1], g2⟩
          · cases h

/-! mailboxes -/

def localStop : UInt8 → Bool := fun x => isAtomText x || x == 0x2e

theorem parseLocal_complete (l r : Bytes) (h : LocalPart l) (hr : ∃ t, r = 0x40 :: t) :
    parseLocal (l ++ r) = .ok r := by
  obtain ⟨t, rfl⟩ := hr
  cases h with
  | quoted s hs =>
    have := litLoop_complete [0x22] stopQ stopQ_iff (by decide) s (0x40 :: t) 0x22 hs (by decide)
    simp only [List.append_assoc, List.singleton_append, List.cons_append, List.nil_append, parseLocal, if_true]
    show (match litLoop stopQ _ with | .ok r => _ | .fail => _ | .ub => _) = _
    rw [this]
    exact (expect_ok _ _ _).2 rfl
  | dotted _ hs =>
    have hrun := (dropWhile_run localStop l (0x40 :: t) (fun x hx => by
      have := hs x hx
      simp only [localStop, Bool.or_eq_true, beq_iff_eq, isAtomText_iff]
      exact this) (by rintro a b e; simp at e; rw [← e.1]; decide)).1
    cases l with
    | nil => rfl
    | cons c l =>
      have hc : c ≠ 0x22 := by
        rintro rfl
        have := hs 0x22 List.mem_cons_self
        rw [← isAtomText_iff] at this
        exact absurd this (by decide)
      rw [List.cons_append, parseLocal, if_neg hc]
      congr 1

theorem parseLocal_sound (x r : Bytes) (h : parseLocal x = .ok r) :
    ∃ l, LocalPart l ∧ x = l ++ r := by
  cases x with
  | nil => cases h
  | cons c x =>
    rw [parseLocal] at h
    split at h
    · rename_i hc
      subst hc
      split at h
      · rename_i r' hl
        obtain ⟨s, h1, h2, -⟩ := litLoop_sound [0x22] stopQ stopQ_iff x r' hl
        rw [expect_ok] at h
        subst h
        exact ⟨[0x22] ++ s ++ [0x22], .quoted s h1, by simp [h2]⟩
      · cases h
      · cases h
    · simp only [HRes.ok.injEq] at h
      obtain ⟨e1, e2⟩ := dropWhile_split localStop (c :: x)
      refine ⟨(c :: x).takeWhile localStop, .dotted _ (fun y hy => ?_), ?_⟩
      · have := e2 y hy
        simp only [localStop, Bool.or_eq_true, beq_iff_eq, isAtomText_iff] at this
        exact this
      · rw [← h]; exact e1

theorem parseLocal_ub (p : Bytes) (h : parseLocal (p ++ [0]) = .ub) :
    ∃ post, p = 0x22 :: post ∧ Inside [0x22] post := by
  cases p with
  | nil => exact absurd h (by decide)
  | cons c p =>
    rw [List.cons_append, parseLocal] at h
    split at h
    · rename_i hc
      subst hc
      split at h
      · rename_i r' hl
        obtain ⟨s, h1, h2, h3⟩ := litLoop_sound [0x22] stopQ stopQ_iff _ r' hl
        cases r' with
        | nil => exact absurd rfl h3
        | cons y r' => rw [expect] at h; split at h <;> cases h
      · cases h
      · rename_i hl
        rcases litLoop_ub [0x22] stopQ stopQ_iff _ hl with h1 | ⟨y, h1⟩
        · exact ⟨p, rfl, inside_prefix _ _ p h1 rfl⟩
        · have := congrArg List.getLast? h1
          simp at this
    · cases h

theorem domain_two (d r : Bytes) (hd : Domain d) (hd0 : 0 ∉ d) (hr : ∃ t, r = 0x3e :: t) :
    ∃ c e t, d ++ r = c :: e :: t ∧ c ≠ 0 ∧ e ≠ 0 := by
  obtain ⟨y, x, rfl, -⟩ := last_nonzero_domain d hd
  obtain ⟨t, rfl⟩ := hr
  match y with
  | [] => exact ⟨x, 0x3e, t, rfl, fun e => hd0 (by simp [e]), by decide⟩
  | [a] => exact ⟨a, x, 0x3e :: t, rfl, fun e => hd0 (by simp [e]), fun e => hd0 (by simp [e])⟩
  | a :: b :: y => exact ⟨a, b, y ++ [x] ++ 0x3e :: t, by simp, fun e => hd0 (by simp [e]), fun e => hd0 (by simp [e])⟩

theorem parseMailbox_complete (m t : Bytes) (h : Mailbox m) (h0 : 0 ∉ m) :
    parseMailbox (m ++ 0x3e :: t) = .ok (0x3e :: t) := by
  obtain ⟨l, d, hl, hd⟩ := h
  have hloc := parseLocal_complete l (0x40 :: (d ++ 0x3e :: t)) hl ⟨_, rfl⟩
  have hdom := parseDomain_complete d (0x3e :: t) hd (by rintro a b e; simp at e; rw [← e.1]; decide)
  obtain ⟨c, e, s, h1, h2, h3⟩ := domain_two d (0x3e :: t) hd (fun h => h0 (by simp [h])) ⟨t, rfl⟩
  have e : l ++ [0x40] ++ d ++ 0x3e :: t = l ++ 0x40 :: (d ++ 0x3e :: t) := by simp
  rw [e]
  unfold parseMailbox
  rw [hloc]
  simp only [expect, if_true, h1]
  rw [h1] at hdom
  simp only [h2, h3, if_false]
  exact hdom

theorem parseMailbox_sound (x r : Bytes) (h : parseMailbox x = .ok r) :
    ∃ m, Mailbox m ∧ x = m ++ r := by
  unfold parseMailbox at h
  split at h
  · cases h
  · cases h
  · rename_i r1 hl
    obtain ⟨l, l1, l2⟩ := parseLocal_sound _ _ hl
    split at h
    · cases h
    · cases h
    · cases h
    · rename_i c d he
      rw [expect_ok] at he
      split at h
      · cases h
      · split at h
        · cases h
        · split at h
          · cases h
          · obtain ⟨d', d1, d2⟩ := parseDomain_sound _ _ h
            exact ⟨l ++ [0x40] ++ d', .mk l d' l1 d1, by simp [l2, he, d2]⟩

theorem last_nonzero_mailbox (m : Bytes) (h : Mailbox m) : ∃ y c, m = y ++ [c] ∧ c ≠ 0 := by
  obtain ⟨l, d, _, hd⟩ := h
  obtain ⟨y, c, rfl, hc⟩ := last_nonzero_domain d hd
  exact ⟨l ++ [0x40] ++ y, c, by simp, hc⟩

theorem parseMailbox_ub (p : Bytes) (h : parseMailbox (p ++ [0]) = .ub) : Unterminated p := by
  unfold parseMailbox at h
  split at h
  · cases h
  · rename_i hl
    obtain ⟨post, rfl, h2⟩ := parseLocal_ub p hl
    exact ⟨[], 0x22, post, rfl, .inr ⟨rfl, h2⟩⟩
  · rename_i r1 hl
    obtain ⟨l, l1, l2⟩ := parseLocal_sound _ _ hl
    split at h
    · cases h
    · -- expect found nothing
      rename_i he
      cases r1 with
      | nil =>
        -- the local part would end in NUL
        exfalso
        rw [List.append_nil] at l2
        subst l2
        generalize hx : p ++ [0] = x at l1
        cases l1 with
        | quoted s _ =>
          have := congrArg List.getLast? hx
          rw [List.getLast?_concat, List.getLast?_concat] at this
          exact absurd this (by decide)
        | dotted _ hs =>
          have := hs 0 (by rw [← hx]; simp)
          rw [← isAtomText_iff] at this
          exact absurd this (by decide)
      | cons c r1 => rw [expect] at he; split at he <;> cases he
    · rename_i he
      rw [expect_ok] at he
      subst he
      have := congrArg List.getLast? l2
      simp at this
    · rename_i c d he
      rw [expect_ok] at he
      subst he
      have l2' : p ++ [0] = (l ++ [0x40]) ++ (c :: d) := by simp [l2]
      obtain ⟨r', e1, e2⟩ := rest_ends (l ++ [0x40]) (c :: d) p l 0x40 l2' rfl (by decide)
      split at h
      · cases h
      · rename_i hc
        split at h
        · cases r' with
          | nil => simp at e1; exact absurd e1 hc
          | cons w r' => simp at e1
        · split at h
          · cases h
          · rw [e1] at h
            obtain ⟨post, rfl, g2⟩ := parseDomain_ub r' h
            exact ⟨l ++ [0x40], 0x5b, post, e2, .inl ⟨rfl, g2⟩⟩

/-! paths -/

theorem mailbox_noroute (m t : Bytes) (hm : Mailbox m) (h : m.head? ≠ some 0x40) (n : Nat) (hn : 0 < n) :
    routeLoop n (m ++ t) = .ok (m ++ t) := by
  obtain ⟨y, c, rfl, -⟩ := last_nonzero_mailbox m hm
  obtain ⟨n, rfl⟩ : ∃ k, n = k + 1 := ⟨n - 1, by omega⟩
  cases y with
  | nil => simp at h; simp [routeLoop, h]
  | cons a y => simp at h; simp [routeLoop, h]

theorem parsePathBody_complete (b t : Bytes) (h0 : 0 ∉ b)
    (h : (∃ m, Mailbox m ∧ m.head? ≠ some 0x40 ∧ b = m) ∨
      ∃ r m, Route r ∧ Mailbox m ∧ b = r ++ [0x3a] ++ m) :
    parsePathBody (b ++ 0x3e :: t) = .ok t := by
  unfold parsePathBody
  rcases h with ⟨m, hm, hh, rfl⟩ | ⟨r, m, hr, hm, rfl⟩
  · rw [mailbox_noroute b _ hm hh _ (by omega)]
    simp only [if_true]
    rw [parseMailbox_complete b t hm h0]
    simp [expect]
  · have e : r ++ [0x3a] ++ m ++ 0x3e :: t = r ++ (0x3a :: (m ++ 0x3e :: t)) := by simp
    rw [e, routeLoop_complete r (0x3a :: (m ++ 0x3e :: t)) hr _ (by simp; omega)
      ⟨0x3a, _, rfl, by decide, by decide, by decide⟩]
    obtain ⟨x, hx, -⟩ := route_at r hr
    have hne : ¬ (0x3a :: (m ++ 0x3e :: t)).length = (r ++ (0x3a :: (m ++ 0x3e :: t))).length := by
      rw [hx]; simp; omega
    simp only [hne, if_false]
    simp only [expect, if_true]
    rw [parseMailbox_complete m t hm (fun h => h0 (by simp [h]))]
    simp

theorem parsePathBody_sound (x t : Bytes) (h : parsePathBody x = .ok t) :
    ∃ b, x = b ++ 0x3e :: t ∧ ((∃ m, Mailbox m ∧ m.head? ≠ some 0x40 ∧ b = m) ∨
      ∃ r m, Route r ∧ Mailbox m ∧ b = r ++ [0x3a] ++ m) := by
  unfold parsePathBody at h
  split at h
  · cases h
  · cases h
  · rename_i r hr
    have hs := routeLoop_sound _ _ _ hr
    split at h
    · rename_i hlen
      rcases hs with ⟨rfl, hh⟩ | ⟨s, h1, h2⟩
      · split at h
        · cases h
        · cases h
        · rename_i m hm
          obtain ⟨m', m1, m2⟩ := parseMailbox_sound _ _ hm
          rw [expect_ok] at h
          subst h
          refine ⟨m', m2, .inl ⟨m', m1, ?_, rfl⟩⟩
          obtain ⟨y, c, rfl, -⟩ := last_nonzero_mailbox m' m1
          rw [m2] at hh
          cases y with
          | nil => simpa using hh
          | cons a y => simpa using hh
      · exfalso
        obtain ⟨t', rfl, -⟩ := route_at s h1
        rw [h2] at hlen
        simp at hlen
        omega
    · rename_i hlen
      rcases hs with ⟨rfl, -⟩ | ⟨s, h1, h2⟩
      · exact absurd rfl hlen
      · split at h
        · cases h
        · cases h
        · rename_i r' he
          rw [expect_ok] at he
          subst he
          split at h
          · cases h
          · cases h
          · rename_i m hm
            obtain ⟨m', m1, m2⟩ := parseMailbox_sound _ _ hm
            rw [expect_ok] at h
            subst h
            exact ⟨s ++ [0x3a] ++ m', by simp [h2, m2], .inr ⟨s, m', h1, m1, rfl⟩⟩

theorem unterminated_append (a p : Bytes) (h : Unterminated p) : Unterminated (a ++ p) := by
  obtain ⟨pre, q, post, e, hq⟩ := h
  exact ⟨a ++ pre, q, post, by simp [e], hq⟩

theorem parsePathBody_ub (p : Bytes) (h : parsePathBody (p ++ [0]) = .ub) : Unterminated p := by
  have expect_ub : ∀ t x, expect t x = .ub → x = [] := by
    intro t x h
    cases x with
    | nil => rfl
    | cons c x => rw [expect] at h; split at h <;> cases h
  have tail : ∀ (q : Bytes), (match parseMailbox (q ++ [0]) with
      | .fail => .fail
      | .ub => .ub
      | .ok m => expect 0x3e m) = HRes.ub → Unterminated q := by
    intro q h
    split at h
    · cases h
    · rename_i hm; exact parseMailbox_ub q hm
    · rename_i m hm
      have := expect_ub _ _ h
      subst this
      obtain ⟨m', m1, m2⟩ := parseMailbox_sound _ _ hm
      obtain ⟨y, z, hy, hz⟩ := last_nonzero_mailbox m' m1
      obtain ⟨r', e, -⟩ := rest_ends m' [] q y z m2 hy hz
      simp at e
  unfold parsePathBody at h
  split at h
  · cases h
  · rename_i hr
    exact routeLoop_ub _ p (by simp) hr
  · rename_i r hr
    have hs := routeLoop_sound _ _ _ hr
    split at h
    · rename_i hlen
      rcases hs with ⟨rfl, -⟩ | ⟨s, h1, h2⟩
      · exact tail p h
      · exfalso
        obtain ⟨t', rfl, -⟩ := route_at s h1
        rw [h2] at hlen
        simp at hlen
        omega
    · rename_i hlen
      rcases hs with ⟨rfl, -⟩ | ⟨s, h1, h2⟩
      · exact absurd rfl hlen
      · obtain ⟨y, z, hy, hz⟩ := last_nonzero_route s h1
        obtain ⟨r', e1, e2⟩ := rest_ends s r p y z h2 hy hz
        split at h
        · cases h
        · rename_i he
          have := expect_ub _ _ he
          subst this
          simp at e1
        · rename_i r'' he
          rw [expect_ok] at he
          subst he
          cases r' with
          | nil => simp at e1
          | cons w r' =>
            simp at e1
            obtain ⟨rfl, rfl⟩ := e1
            have := tail r' h
            rw [e2]
            exact unterminated_append _ _ (unterminated_append [0x3a] _ this)

theorem postmaster_text : "<Postmaster>".toList.map (fun x => x.toNat.toUInt8) = postmaster := by decide

theorem parsePath_complete (b : Bool) (p t : Bytes) (path : Option Bytes) (h : Path b p path) (h0 : 0 ∉ p) :
    parsePath b (p ++ t) = .ok (path, t) := by
  have body : ∀ x : Bytes, 0 ∉ x → ((∃ m, Mailbox m ∧ m.head? ≠ some 0x40 ∧ x = m) ∨
      ∃ r m, Route r ∧ Mailbox m ∧ x = r ++ [0x3a] ++ m) →
      parsePath b ([0x3c] ++ x ++ [0x3e] ++ t) = .ok (some ([0x3c] ++ x ++ [0x3e]), t) := by
    intro x hx0 hx
    have hb := parsePathBody_complete x t hx0 hx
    -- first byte of the body
    have hhd : ∃ c y, x = c :: y ∧ c ≠ 0x3e := by
      rcases hx with ⟨m, ⟨l, d, hl, hd⟩, hh, rfl⟩ | ⟨r, m, hr, hm, rfl⟩
      · cases hl with
        | quoted s _ => exact ⟨0x22, _, rfl, by decide⟩
        | dotted _ hs =>
          cases l with
          | nil => exact ⟨0x40, d, rfl, by decide⟩
          | cons c l =>
            refine ⟨c, l ++ [0x40] ++ d, by simp, ?_⟩
            rintro rfl
            have := hs 0x3e List.mem_cons_self
            rw [← isAtomText_iff] at this
            exact absurd this (by decide)
      · obtain ⟨y, rfl, -⟩ := route_at r hr
        exact ⟨0x40, y ++ [0x3a] ++ m, by simp, by decide⟩
    obtain ⟨c, y, rfl, hc⟩ := hhd
    have hnp : (b && postmaster.isPrefixOf ([0x3c] ++ (c :: y) ++ [0x3e] ++ t)) = false := by
      rw [Bool.eq_false_iff]
      intro hp
      simp only [Bool.and_eq_true] at hp
      have hp := List.isPrefixOf_iff_prefix.1 hp.2
      obtain ⟨z, hz⟩ := hp
      -- the body would be "Postmaster" up to its first '>'
      have e : (c :: y) ++ 0x3e :: t = [0x50, 0x6f, 0x73, 0x74, 0x6d, 0x61, 0x73, 0x74, 0x65, 0x72, 0x3e] ++ z := by
        have := hz.symm
        simp [postmaster] at this
        simpa using this
      have hpm : parsePathBody ((c :: y) ++ 0x3e :: t) ≠ .ok t := by
        rw [e]
        have : ∀ n z, routeLoop (n + 1) ([0x50, 0x6f, 0x73, 0x74, 0x6d, 0x61, 0x73, 0x74, 0x65, 0x72, 0x3e] ++ z) =
            .ok ([0x50, 0x6f, 0x73, 0x74, 0x6d, 0x61, 0x73, 0x74, 0x65, 0x72, 0x3e] ++ z) := by
          intro n z; rfl
        unfold parsePathBody
        rw [this]
        simp only [if_true]
        have : parseMailbox ([0x50, 0x6f, 0x73, 0x74, 0x6d, 0x61, 0x73, 0x74, 0x65, 0x72, 0x3e] ++ z) = .fail := by
          rfl
        rw [this]
        simp
      exact hpm hb
    have hlen : ([0x3c] ++ (c :: y) ++ [0x3e] ++ t).length - t.length = ([0x3c] ++ (c :: y) ++ [0x3e]).length := by
      simp
      omega
    unfold parsePath
    have e1 : [0x3c] ++ (c :: y) ++ [0x3e] ++ t = 0x3c :: c :: (y ++ [0x3e] ++ t) := by simp
    have e2 : c :: (y ++ [0x3e] ++ t) = (c :: y) ++ 0x3e :: t := by simp
    have hbt : parsePathBody (c :: (y ++ [0x3e] ++ t)) = .ok t := by rw [e2]; exact hb
    rw [e1] at hnp hlen ⊢
    simp only [hc, if_false, hnp, Bool.false_eq_true, hbt, hlen]
    congr 2
    have : (0x3c :: c :: (y ++ [0x3e] ++ t)) = ([0x3c] ++ (c :: y) ++ [0x3e]) ++ t := by simp
    rw [this, List.take_left']
    rfl
  cases h with
  | null => rfl
  | postmaster hb =>
    subst hb
    rw [postmaster_text]
    have : postmaster ++ t = 0x3c :: 0x50 :: ([0x6f, 0x73, 0x74, 0x6d, 0x61, 0x73, 0x74, 0x65, 0x72, 0x3e] ++ t) := rfl
    unfold parsePath
    simp only [this]
    rw [← this]
    simp [postmaster]
  | plain m hm hh =>
    exact body m (fun h => h0 (by simp [h])) (.inl ⟨m, hm, hh, rfl⟩)
  | routed r m hr hm =>
    have := body (r ++ [0x3a] ++ m) (fun h => h0 (by simp at h ⊢; exact h))
      (.inr ⟨r, m, hr, hm, rfl⟩)
    simpa [List.append_assoc] using this

theorem parsePath_sound (b : Bool) (x t : Bytes) (path : Option Bytes)
    (h : parsePath b (0x3c :: x) = .ok (path, t)) : ∃ p, Path b p path ∧ 0x3c :: x = p ++ t := by
  unfold parsePath at h
  cases x with
  | nil => cases h
  | cons c x =>
    simp only at h
    split at h
    · rename_i hc
      subst hc
      simp only [HRes.ok.injEq, Prod.mk.injEq] at h
      obtain ⟨rfl, rfl⟩ := h
      exact ⟨[0x3c, 0x3e], .null, rfl⟩
    · split at h
      · rename_i hp
        simp only [HRes.ok.injEq, Prod.mk.injEq] at h
        obtain ⟨rfl, rfl⟩ := h
        simp only [Bool.and_eq_true] at hp
        obtain ⟨z, hz⟩ := List.isPrefixOf_iff_prefix.1 hp.2
        have := Path.postmaster (postmaster := b) hp.1
        rw [postmaster_text] at this
        refine ⟨postmaster, this, ?_⟩
        rw [← hz]
        simp
      · split at h
        · cases h
        · cases h
        · rename_i r hr
          simp only [HRes.ok.injEq, Prod.mk.injEq] at h
          obtain ⟨rfl, rfl⟩ := h
          obtain ⟨y, e, hy⟩ := parsePathBody_sound _ _ hr
          have hx : (0x3c :: c :: x) = ([0x3c] ++ y ++ [0x3e]) ++ r := by simp [e]
          have hpath : List.take ((0x3c :: c :: x).length - r.length) (0x3c :: c :: x) = [0x3c] ++ y ++ [0x3e] := by
            rw [hx, List.take_left']
            simp
            omega
          rw [hpath]
          refine ⟨[0x3c] ++ y ++ [0x3e], ?_, hx⟩
          rcases hy with ⟨m, hm, hh, rfl⟩ | ⟨s, m, hs, hm, rfl⟩
          · exact .plain y hm hh
          · have := Path.routed (postmaster := b) s m hs hm
            simpa [List.append_assoc] using this

theorem path_last (b : Bool) (p : Bytes) (path : Option Bytes) (h : Path b p path) :
    ∃ y, p = y ++ [0x3e] := by
  cases h with
  | null => exact ⟨[0x3c], rfl⟩
  | postmaster _ => rw [postmaster_text]; exact ⟨postmaster.take 11, rfl⟩
  | plain m _ _ => exact ⟨_, rfl⟩
  | routed r m _ _ => exact ⟨_, rfl⟩

theorem parsePath_ub (b : Bool) (p : Bytes) (h : parsePath b (0x3c :: (p ++ [0])) = .ub) :
    Unterminated p := by
  unfold parsePath at h
  cases p with
  | nil =>
    exfalso
    simp only [List.nil_append] at h
    split at h
    · cases h
    · split at h
      · cases h
      · split at h
        · cases h
        · rename_i hb
          exact absurd hb (by decide)
        · cases h
  | cons c p =>
    simp only [List.cons_append] at h
    split at h
    · cases h
    · split at h
      · cases h
      · split at h
        · cases h
        · rename_i hb
          exact parsePathBody_ub (c :: p) hb
        · cases h

/-! parameters -/

theorem paramText_head (l : List (Bytes × Option Bytes)) (t : Bytes) :
    (∃ s, paramText l ++ 0 :: t = 0x20 :: s) ∨ (l = [] ∧ paramText l ++ 0 :: t = 0 :: t) := by
  cases l with
  | nil => exact .inr ⟨rfl, rfl⟩
  | cons p l =>
    obtain ⟨k, v⟩ := p
    cases v with
    | none => exact .inl ⟨k ++ (paramText l ++ 0 :: t), by simp [paramText]⟩
    | some v => exact .inl ⟨k ++ ([0x3d] ++ v ++ (paramText l ++ 0 :: t)), by simp [paramText]⟩

theorem parseParameters_complete (l : List (Bytes × Option Bytes)) (h : Params l) (n : Nat)
    (hn : (paramText l).length < n) :
    parseParameters n (paramText l ++ [0]) = .ok (l, [0]) := by
  induction l generalizing n with
  | nil =>
    obtain ⟨n, rfl⟩ : ∃ k, n = k + 1 := ⟨n - 1, by omega⟩
    simp [paramText, parseParameters]
  | cons p l ih =>
    obtain ⟨k, v⟩ := p
    obtain ⟨⟨c, s, hk, hc, hs⟩, hv⟩ := h _ List.mem_cons_self
    simp only at hk hv
    subst hk
    have hl : Params l := fun q hq => h q (List.mem_cons_of_mem _ hq)
    have hkey : ∀ x ∈ s, isKeyChar x = true := fun x hx => (isKeyChar_iff x).2 (hs x hx)
    have hhead : ∀ (f : UInt8 → Bool), f 0x20 = false → f 0 = false → Stops f (paramText l ++ [0]) := by
      intro f h1 h2 a b e
      rcases paramText_head l [] with ⟨z, hz⟩ | ⟨-, hz⟩
      · rw [hz] at e; simp at e; rw [← e.1]; exact h1
      · rw [hz] at e; simp at e; rw [← e.1]; exact h2
    obtain ⟨n, rfl⟩ : ∃ m, n = m + 1 := ⟨n - 1, by omega⟩
    cases v with
    | none =>
      have hn' : (paramText l).length < n := by simp [paramText] at hn; omega
      simp only [paramText, List.append_assoc, List.cons_append, List.nil_append]
      rw [parseParameters, if_neg (by simp)]
      simp only [parseParameter.eq_def, (isAlnum_iff c).2 hc]
      obtain ⟨r1, r2⟩ := dropWhile_run isKeyChar s (paramText l ++ [0]) hkey
        (hhead isKeyChar (by decide) (by decide))
      simp only [Bool.not_true, Bool.false_eq_true, if_false]
      rw [r1, r2]
      rcases paramText_head l [] with ⟨z, hz⟩ | ⟨-, hz⟩
      · simp only [hz]
        simp only [show ¬ (0x20 : UInt8) = 0x3d by decide, if_false]
        rw [← hz, ih hl n hn']
      · simp only [hz]
        simp only [show ¬ (0 : UInt8) = 0x3d by decide, if_false]
        rw [← hz, ih hl n hn', hz]
    | some v =>
      have hn' : (paramText l).length < n := by simp [paramText] at hn; omega
      have hval : ∀ x ∈ v, isValueChar x = true := fun x hx => (isValueChar_iff x).2 (hv v rfl x hx)
      simp only [paramText, List.append_assoc, List.cons_append, List.nil_append]
      rw [parseParameters, if_neg (by simp)]
      simp only [parseParameter.eq_def, (isAlnum_iff c).2 hc]
      obtain ⟨r1, r2⟩ := dropWhile_run isKeyChar s (0x3d :: (v ++ (paramText l ++ [0]))) hkey
        (by rintro a b e; simp at e; rw [← e.1]; decide)
      obtain ⟨v1, v2⟩ := dropWhile_run isValueChar v (paramText l ++ [0]) hval
        (hhead isValueChar (by decide) (by decide))
      simp only [Bool.not_true, Bool.false_eq_true, if_false]
      rw [r1, r2]
      simp only [if_true]
      rw [v1, v2, ih hl n hn']

theorem parseParameter_sound (x r : Bytes) (p : Bytes × Option Bytes)
    (h : parseParameter x = .ok (p, r)) :
    Keyword p.1 ∧ (∀ v, p.2 = some v → Value v) ∧ r.length < x.length ∧
      0x20 :: x = paramText [p] ++ r := by
  cases x with
  | nil => cases h
  | cons c s =>
    rw [parseParameter] at h
    split at h
    · cases h
    · rename_i hc
      have hc : isAlnum c = true := by simpa using hc
      obtain ⟨e1, e2⟩ := dropWhile_split isKeyChar s
      have hkw : Keyword (c :: s.takeWhile isKeyChar) :=
        ⟨c, _, rfl, (isAlnum_iff c).1 hc, fun y hy => (isKeyChar_iff y).1 (e2 y hy)⟩
      split at h
      · cases h
      · rename_i d r' hd
        have hlen : r'.length + 1 ≤ s.length := by
          have := congrArg List.length e1
          rw [hd] at this
          simp at this
          omega
        split at h
        · rename_i hde
          subst hde
          simp only [HRes.ok.injEq, Prod.mk.injEq] at h
          obtain ⟨rfl, rfl⟩ := h
          obtain ⟨g1, g2⟩ := dropWhile_split isValueChar r'
          refine ⟨hkw, ?_, ?_, ?_⟩
          · rintro v hv
            simp only [Option.some.injEq] at hv
            subst hv
            exact fun y hy => (isValueChar_iff y).1 (g2 y hy)
          · have := congrArg List.length g1
            rw [List.length_append] at this
            simp only [List.length_cons]
            omega
          · simp only [paramText, List.append_nil, List.append_assoc, List.nil_append, List.cons_append]
            rw [← g1, ← hd, ← e1]
        · simp only [HRes.ok.injEq, Prod.mk.injEq] at h
          obtain ⟨rfl, rfl⟩ := h
          refine ⟨hkw, by simp, by simp; omega, ?_⟩
          simp only [paramText, List.append_nil, List.nil_append, List.cons_append]
          rw [← hd, ← e1]

theorem paramText_cons (p : Bytes × Option Bytes) (l : List (Bytes × Option Bytes)) :
    paramText (p :: l) = paramText [p] ++ paramText l := by
  obtain ⟨k, v⟩ := p
  cases v <;> simp [paramText]

theorem parseParameters_sound (n : Nat) (x r : Bytes) (l : List (Bytes × Option Bytes))
    (h : parseParameters n x = .ok (l, r)) : Params l ∧ x = paramText l ++ r := by
  induction n generalizing x l with
  | zero => cases h
  | succ n ih =>
    cases x with
    | nil => cases h
    | cons c s =>
      rw [parseParameters] at h
      split at h
      · simp only [HRes.ok.injEq, Prod.mk.injEq] at h
        obtain ⟨rfl, rfl⟩ := h
        exact ⟨by simp [Params], rfl⟩
      · rename_i hc
        have hc : c = 0x20 := by simpa using hc
        subst hc
        split at h
        · cases h
        · cases h
        · rename_i p r' hp
          obtain ⟨h1, h2, -, h3⟩ := parseParameter_sound _ _ _ hp
          split at h
          · cases h
          · cases h
          · rename_i ps r'' hps
            simp only [HRes.ok.injEq, Prod.mk.injEq] at h
            obtain ⟨rfl, rfl⟩ := h
            obtain ⟨g1, g2⟩ := ih _ _ hps
            refine ⟨?_, ?_⟩
            · intro q hq
              rw [List.mem_cons] at hq
              rcases hq with rfl | hq
              · exact ⟨h1, h2⟩
              · exact g1 q hq
            · rw [paramText_cons, List.append_assoc, ← g2, h3]

theorem parseParameters_no_ub (n : Nat) (p : Bytes) (hn : p.length + 1 < n) :
    parseParameters n (p ++ [0]) ≠ .ub := by
  induction n generalizing p with
  | zero => omega
  | succ n ih =>
    intro h
    cases p with
    | nil => rw [List.nil_append, parseParameters, if_pos (by decide)] at h; cases h
    | cons c p =>
      rw [List.cons_append, parseParameters] at h
      split at h
      · cases h
      · split at h
        · cases h
        · rename_i hp
          -- a parameter never reads past the NUL
          cases p with
          | nil => exact absurd hp (by decide)
          | cons d p =>
            rw [List.cons_append, parseParameter] at hp
            split at hp
            · cases hp
            · split at hp
              · rename_i hd
                have := (dropWhile_split isKeyChar (p ++ [0]))
                rw [hd, List.append_nil] at this
                have h0 := this.2 0 (by rw [← this.1]; simp)
                exact absurd h0 (by decide)
              · split at hp <;> cases hp
        · rename_i q r hp
          obtain ⟨-, -, hlen, h3⟩ := parseParameter_sound _ _ _ hp
          -- the rest still ends in the NUL
          have hne : ∃ r', r = r' ++ [0] := by
            rcases List.eq_nil_or_concat r with rfl | ⟨r', x, rfl⟩
            · exfalso
              obtain ⟨hk, hv, -, -⟩ := parseParameter_sound _ _ _ hp
              obtain ⟨k, v⟩ := q
              obtain ⟨c', s', hk1, hk2, hk3⟩ := hk
              have hmem : (0 : UInt8) ∈ paramText [(k, v)] := by
                have : (0 : UInt8) ∈ 0x20 :: (p ++ [0]) := by simp
                rw [h3, List.append_nil] at this
                exact this
              simp only at hk1 hv
              subst hk1
              have hck : ∀ x ∈ c' :: s', x ≠ 0 := by
                intro x hx
                rw [List.mem_cons] at hx
                rcases hx with rfl | hx
                · rintro rfl; unfold Alnum at hk2; exact absurd hk2 (by decide)
                · rintro rfl
                  have := hk3 0 hx
                  unfold Alnum at this
                  exact absurd this (by decide)
              cases v with
              | none =>
                simp only [paramText, List.append_nil, List.mem_append, List.mem_singleton] at hmem
                rcases hmem with h | h
                · exact absurd h (by decide)
                · exact hck 0 h rfl
              | some v =>
                simp only [paramText, List.append_nil, List.mem_append, List.mem_singleton] at hmem
                rcases hmem with ((h | h) | h) | h
                · exact absurd h (by decide)
                · exact hck 0 h rfl
                · exact absurd h (by decide)
                · have := hv v rfl 0 h
                  exact absurd this.1 (by decide)
            · refine ⟨r', ?_⟩
              rw [List.concat_eq_append, ← List.append_assoc] at h3
              have := List.append_inj_right' (s₁ := 0x20 :: p) (t₁ := [0]) h3 (by simp)
              simp at this
              simp [this]
          obtain ⟨r', rfl⟩ := hne
          split at h
          · cases h
          · rename_i hq
            refine ih r' ?_ hq
            simp at hlen hn
            omega
          · cases h

/-- **C19**: an argument is accepted exactly if it is in the grammar, and then the reported
path is the text between and including the angle brackets (none for `<>`), and the reported
parameters are those written, in order. -/
theorem C19_grammar (b : Bool) (arg : Bytes) (h0 : 0 ∉ arg) (path : Option Bytes)
    (params : List (Bytes × Option Bytes)) :
    parse b false arg = .ok (path, params) ↔ Argument b arg path params := by
  constructor
  · intro h
    unfold parse at h
    split at h
    · cases h
    · rename_i hh
      simp only [ne_eq, Decidable.not_not] at hh
      cases arg with
      | nil => simp at hh
      | cons c arg =>
        simp at hh
        subst hh
        split at h
        · cases h
        · cases h
        · rename_i pa r hp
          obtain ⟨p, p1, p2⟩ := parsePath_sound b _ _ _ hp
          split at h
          · cases h
          · cases h
          · cases h
          · rename_i ps e r' hps
            split at h
            · cases h
            · rename_i he
              have he : e = 0 := by simpa using he
              subst he
              simp only [Bool.false_and, Bool.false_eq_true, if_false, HRes.ok.injEq, Prod.mk.injEq] at h
              obtain ⟨rfl, rfl⟩ := h
              obtain ⟨q1, q2⟩ := parseParameters_sound _ _ _ _ hps
              have e : (0x3c :: arg) ++ [0] = (p ++ paramText ps) ++ 0 :: r' := by
                have : (0x3c :: arg) ++ [0] = 0x3c :: (arg ++ [0]) := rfl
                rw [this, show 0x3c :: (arg ++ [0]) = p ++ r from p2, q2]
                simp
              -- the first NUL is the terminator
              have hr' : r' = [] := by
                rcases List.eq_nil_or_concat r' with rfl | ⟨z, y, rfl⟩
                · rfl
                · exfalso
                  rw [List.concat_eq_append] at e
                  have e' : (0x3c :: arg) ++ [0] = ((p ++ paramText ps) ++ 0 :: z) ++ [y] := by
                    rw [e]; simp
                  have := List.append_inj_left' e' (by simp)
                  exact h0 (by rw [this]; simp)
              subst hr'
              exact ⟨p, p1, q1, List.append_inj_left' e (by simp)⟩
  · rintro ⟨p, hp, hps, rfl⟩
    have hp0 : 0 ∉ p := fun h => h0 (by simp [h])
    have h1 := parsePath_complete b p (paramText params ++ [0]) path hp hp0
    have hhead : (p ++ paramText params).head? = some 0x3c := by
      cases hp with
      | null => rfl
      | postmaster _ => rw [postmaster_text]; rfl
      | plain m _ _ => rfl
      | routed r m _ _ => rfl
    unfold parse
    rw [if_neg (by simp [hhead]), List.append_assoc, h1]
    simp only
    rw [parseParameters_complete params hps _ (by simp; omega)]
    simp

/-- **C19** (memory safety, for every argument without an unterminated quote or bracket, when
the caller passes no earlier parameter table): nothing past the argument is read. -/
theorem C19_safe_partial (b : Bool) (arg : Bytes) (h : ¬ Unterminated arg) :
    parse b false arg ≠ .ub := by
  intro hu
  unfold parse at hu
  split at hu
  · cases hu
  · rename_i hh
    simp only [ne_eq, Decidable.not_not] at hh
    cases arg with
    | nil => simp at hh
    | cons c arg =>
      simp at hh
      subst hh
      split at hu
      · cases hu
      · rename_i hp
        exact h (unterminated_append [0x3c] arg (parsePath_ub b arg hp))
      · rename_i pa r hp
        obtain ⟨p, p1, p2⟩ := parsePath_sound b _ _ _ hp
        obtain ⟨y, hy⟩ := path_last b p pa p1
        obtain ⟨r', e1, e2⟩ := rest_ends p r (0x3c :: arg) y 0x3e p2 hy (by decide)
        subst e1
        split at hu
        · cases hu
        · rename_i hq
          exact parseParameters_no_ub _ r' (by simp) hq
        · rename_i l hq
          obtain ⟨q1, q2⟩ := parseParameters_sound _ _ _ _ hq
          -- the parameter text would contain the NUL
          have : parseParameters ((r' ++ [0]).length + 1) (r' ++ [0]) ≠ .ok (l, []) := by
            clear hq
            intro _
            rw [List.append_nil] at q2
            have hm : (0 : UInt8) ∈ paramText l := by rw [← q2]; simp
            clear q2 hu
            rename_i hx
            clear hx
            induction l with
            | nil => simp [paramText] at hm
            | cons q l ih =>
              rw [paramText_cons, List.mem_append] at hm
              rcases hm with hm | hm
              · obtain ⟨k, v⟩ := q
                obtain ⟨⟨c', s', hk1, hk2, hk3⟩, hv⟩ := q1 _ List.mem_cons_self
                simp only at hk1 hv
                subst hk1
                have hck : ∀ x ∈ c' :: s', x ≠ 0 := by
                  intro x hx
                  rw [List.mem_cons] at hx
                  rcases hx with rfl | hx
                  · rintro rfl; unfold Alnum at hk2; exact absurd hk2 (by decide)
                  · rintro rfl
                    have := hk3 0 hx
                    unfold Alnum at this
                    exact absurd this (by decide)
                cases v with
                | none =>
                  simp only [paramText, List.append_nil, List.mem_append, List.mem_singleton] at hm
                  rcases hm with h | h
                  · exact absurd h (by decide)
                  · exact hck 0 h rfl
                | some v =>
                  simp only [paramText, List.append_nil, List.mem_append, List.mem_singleton] at hm
                  rcases hm with ((h | h) | h) | h
                  · exact absurd h (by decide)
                  · exact hck 0 h rfl
                  · exact absurd h (by decide)
                  · have := hv v rfl 0 h
                    exact absurd this.1 (by decide)
              · exact ih (fun x hx => q1 x (List.mem_cons_of_mem _ hx)) hm
          exact this hq
        · split at hu
          · cases hu
          · simp at hu

/-- **C19** is violated for an unterminated domain literal: "<a@[1" makes the parser read
past the end of the argument. -/
theorem C19_violated : parse false false [0x3c, 0x61, 0x40, 0x5b, 0x31] = .ub := by
  decide

/-- **C19** is violated for an unterminated quoted local part: `<"a`. -/
theorem C19_quote_violated : parse false false [0x3c, 0x22, 0x61] = .ub := by
  decide

/-- **C19** is violated when the caller passes a table that already exists: "<a@b> X=1"
leaves freed strings in it. -/
theorem C19_merge_violated :
    parse false true [0x3c, 0x61, 0x40, 0x62, 0x3e, 0x20, 0x58, 0x3d, 0x31] = .ub := by
  decide

/-- "<a@b> X=1" is accepted; "<a@b>X" and "<a b@c>" are not -/
example : parse false false [0x3c, 0x61, 0x40, 0x62, 0x3e, 0x20, 0x58, 0x3d, 0x31] =
    .ok (some [0x3c, 0x61, 0x40, 0x62, 0x3e], [([0x58], some [0x31])]) ∧
    parse false false [0x3c, 0x61, 0x40, 0x62, 0x3e, 0x58] = .fail ∧
    parse false false [0x3c, 0x61, 0x20, 0x62, 0x40, 0x63, 0x3e] = .fail :=
  ⟨rfl, rfl, rfl⟩

/-- "<@x,@y:a@b>" with a source route, and "<Postmaster>" as a recipient -/
example : parse true false [0x3c, 0x40, 0x78, 0x2c, 0x40, 0x79, 0x3a, 0x61, 0x40, 0x62, 0x3e] =
    .ok (some [0x3c, 0x40, 0x78, 0x2c, 0x40, 0x79, 0x3a, 0x61, 0x40, 0x62, 0x3e], []) ∧
    parse true false postmaster = .ok (some postmaster, []) ∧
    parse false false postmaster = .fail :=
  ⟨rfl, rfl, rfl⟩

example : ¬ Unterminated [0x3c, 0x61, 0x40, 0x62, 0x3e] := by
  rintro ⟨pre, q, post, e, h⟩
  have hm : q ∈ ([0x3c, 0x61, 0x40, 0x62, 0x3e] : Bytes) := by rw [e]; simp
  rcases h with ⟨rfl, -⟩ | ⟨rfl, -⟩ <;> exact absurd hm (by decide)

end Verif.Props
