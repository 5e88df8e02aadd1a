import Verif.Client.EnvelopeAddress
/-
C129: the address and the domain of an envelope address.
-/
namespace Verif.Props.EnvelopeAddress
open Verif Verif.EnvelopeAddress
open Verif.Conditions (downcase isBlank)

theorem takeWhile_stop {p : UInt8 → Bool} {a r : Bytes} (ha : ∀ c ∈ a, p c = true) (hr : ∀ c, r.head? = some c → p c = false) : (a ++ r).takeWhile p = a := by
  induction a with
  | nil =>
    cases r with
    | nil => rfl
    | cons c r => rw [List.nil_append, List.takeWhile_cons, hr c rfl]; rfl
  | cons c a ih =>
    rw [List.cons_append, List.takeWhile_cons, ha c (List.mem_cons_self ..), if_pos rfl, ih fun d hd => ha d (List.mem_cons_of_mem _ hd)]

theorem dropWhile_stop {p : UInt8 → Bool} {a r : Bytes} (ha : ∀ c ∈ a, p c = true) (hr : ∀ c, r.head? = some c → p c = false) : (a ++ r).dropWhile p = r := by
  induction a with
  | nil =>
    cases r with
    | nil => rfl
    | cons c r => rw [List.nil_append, List.dropWhile_cons, hr c rfl]; rfl
  | cons c a ih =>
    rw [List.cons_append, List.dropWhile_cons, ha c (List.mem_cons_self ..), if_pos rfl, ih fun d hd => ha d (List.mem_cons_of_mem _ hd)]

/-- the first `<` begins what is taken if no other angle bracket comes before the next `>` -/
theorem angle_first (before inner after : Bytes) (hb : 0x3c ∉ before) (hi : ∀ c ∈ inner, c ≠ 0x3c ∧ c ≠ 0x3e) :
    angle (before ++ 0x3c :: (inner ++ 0x3e :: after)) = some inner := by
  have hn : ∀ c ∈ inner, notAngle c = true := fun c hc => by simp [notAngle, hi c hc]
  have hs : ∀ c, (0x3e :: after : Bytes).head? = some c → notAngle c = false := by
    intro c hc
    cases hc
    rfl
  induction before with
  | nil =>
    rw [List.nil_append, angle, dropWhile_stop hn hs, if_pos ⟨rfl, rfl⟩, takeWhile_stop hn hs]
  | cons c before ih =>
    rw [List.cons_append, angle, if_neg (fun h => hb (by rw [h.1]; exact List.mem_cons_self ..)), ih fun h => hb (List.mem_cons_of_mem _ h)]

theorem angle_none (s : Bytes) (h : 0x3c ∉ s) : angle s = none := by
  induction s with
  | nil => rfl
  | cons c s ih => rw [angle, if_neg (fun e => h (by rw [e.1]; exact List.mem_cons_self ..)), ih fun e => h (List.mem_cons_of_mem _ e)]

theorem inner_at (local_ dom : Bytes) (hl : local_ ≠ []) (hd : dom ≠ []) : 0x40 ∈ ((local_ ++ 0x40 :: dom).drop 1).dropLast := by
  obtain ⟨c, l, rfl⟩ := List.exists_cons_of_ne_nil hl
  rcases List.eq_nil_or_concat dom with rfl | ⟨d, x, rfl⟩
  · exact absurd rfl hd
  · have : ((c :: l ++ 0x40 :: (d ++ [x])).drop 1).dropLast = l ++ 0x40 :: d := by
      rw [List.cons_append, List.drop_one, List.tail_cons, ← List.cons_append, ← List.append_assoc, List.dropLast_concat]
    rw [List.concat_eq_append, this]
    simp

/-- without angle brackets, the first word is taken if it is an address -/
theorem extract_word (before w after : Bytes) (hb : ∀ c ∈ before, isBlank c = true) (hw : ∀ c ∈ w, inWord c = true)
    (ha : ∀ c, after.head? = some c → inWord c = false) (hn : 0x3c ∉ after) (hat : 0x40 ∈ (w.drop 1).dropLast) :
    extract (before ++ (w ++ after)) = w := by
  have blank : ∀ c : UInt8, isBlank c = true → c ≠ 0x3c ∧ inWord c = false := by
    intro c hc
    refine ⟨?_, by simp [inWord, hc]⟩
    rintro rfl
    revert hc
    decide
  have word_ : ∀ c : UInt8, inWord c = true → c ≠ 0x3c := by
    rintro c hc rfl
    revert hc
    decide
  have h1 : angle (before ++ (w ++ after)) = none := by
    apply angle_none
    intro h
    rcases List.mem_append.mp h with h | h
    · exact (blank _ (hb _ h)).1 rfl
    · rcases List.mem_append.mp h with h | h
      · exact word_ _ (hw _ h) rfl
      · exact hn h
  have h2 : mailbox (before ++ (w ++ after)) = some w := by
    induction before with
    | nil =>
      obtain ⟨c, v, rfl⟩ : ∃ c v, w = c :: v := by
        cases w with
        | nil => simp at hat
        | cons c v => exact ⟨c, v, rfl⟩
      rw [List.nil_append, List.cons_append, mailbox]
      rw [← List.cons_append, takeWhile_stop hw ha, if_pos hat]
    | cons c before ih =>
      rw [List.cons_append, mailbox]
      rw [List.takeWhile_cons, (blank c (hb c (List.mem_cons_self ..))).2]
      simp only [Bool.false_eq_true, if_false, List.drop_nil, List.dropLast_nil, List.not_mem_nil]
      exact ih (fun d hd => hb d (List.mem_cons_of_mem _ hd)) (by
        apply angle_none
        intro h
        rcases List.mem_append.mp h with h | h
        · exact (blank _ (hb _ (List.mem_cons_of_mem _ h))).1 rfl
        · rcases List.mem_append.mp h with h | h
          · exact word_ _ (hw _ h) rfl
          · exact hn h)
  unfold extract
  rw [h1, h2]
  rfl

theorem afterAt_none (s : Bytes) (h : 0x40 ∉ s) : afterAt s = none := by
  induction s with
  | nil => rfl
  | cons c s ih => rw [afterAt, ih fun e => h (List.mem_cons_of_mem _ e)]; simp only; rw [if_neg (fun e => h (by rw [e.1]; exact List.mem_cons_self ..))]

theorem afterAt_last (l dom : Bytes) (hd : dom ≠ []) (hn : 0x40 ∉ dom) : afterAt (l ++ 0x40 :: dom) = some dom := by
  induction l with
  | nil =>
    rw [List.nil_append, afterAt, afterAt_none dom hn]
    simp only
    rw [if_pos ⟨trivial, hd⟩]
  | cons c l ih => rw [List.cons_append, afterAt, ih]

theorem lower_iff (c d : UInt8) (hd : ¬ (0x61 ≤ d ∧ d ≤ 0x7a)) (hd' : ¬ (0x41 ≤ d ∧ d ≤ 0x5a)) : Headers.lower c = d ↔ c = d := by
  have h0 : ∀ c : UInt8, 0x41 ≤ c → c ≤ 0x5a → 0x61 ≤ c + 32 ∧ c + 32 ≤ 0x7a := by
    intro c h1 h2
    rw [UInt8.le_iff_toNat_le] at *
    simp only [UInt8.le_iff_toNat_le, UInt8.toNat_add] at *
    have e1 : (0x41 : UInt8).toNat = 65 := rfl
    have e2 : (0x5a : UInt8).toNat = 90 := rfl
    have e3 : (0x61 : UInt8).toNat = 97 := rfl
    have e4 : (0x7a : UInt8).toNat = 122 := rfl
    have e5 : (32 : UInt8).toNat = 32 := rfl
    omega
  unfold Headers.lower
  constructor
  · split
    · rename_i h
      rintro rfl
      exact absurd (h0 c h.1 h.2) hd
    · exact id
  · rintro rfl
    rw [if_neg hd']

theorem mem_downcase (s : Bytes) (d : UInt8) (hd : ¬ (0x61 ≤ d ∧ d ≤ 0x7a)) (hd' : ¬ (0x41 ≤ d ∧ d ≤ 0x5a)) : d ∈ downcase s ↔ d ∈ s := by
  unfold downcase
  rw [List.mem_map]
  constructor
  · rintro ⟨c, hc, h⟩
    rw [(lower_iff c d hd hd').mp h] at hc
    exact hc
  · intro h
    exact ⟨d, h, (lower_iff d d hd hd').mpr rfl⟩

theorem domain_of (l dom : Bytes) (hl : l ≠ []) (hd : dom ≠ []) (hn : 0x40 ∉ dom) (hf : 0x0a ∉ l ++ dom) :
    slice (downcase (l ++ 0x40 :: dom)) = some (downcase dom) := by
  have hlf : ¬ (0x61 ≤ (0x0a : UInt8) ∧ (0x0a : UInt8) ≤ 0x7a) ∧ ¬ (0x41 ≤ (0x0a : UInt8) ∧ (0x0a : UInt8) ≤ 0x5a) := by decide
  have hat : ¬ (0x61 ≤ (0x40 : UInt8) ∧ (0x40 : UInt8) ≤ 0x7a) ∧ ¬ (0x41 ≤ (0x40 : UInt8) ∧ (0x40 : UInt8) ≤ 0x5a) := by decide
  unfold slice
  rw [if_neg (by
    rw [mem_downcase _ _ hlf.1 hlf.2]
    intro h
    rcases List.mem_append.mp h with h | h
    · exact hf (List.mem_append_left _ h)
    · rcases List.mem_cons.mp h with h | h
      · exact absurd h (by decide)
      · exact hf (List.mem_append_right _ h))]
  obtain ⟨c, l, rfl⟩ := List.exists_cons_of_ne_nil hl
  have : (downcase (c :: l ++ 0x40 :: dom)).drop 1 = downcase l ++ 0x40 :: downcase dom := by
    simp [downcase, show Headers.lower 0x40 = 0x40 from by decide]
  rw [this]
  refine afterAt_last _ _ (by simpa [downcase] using hd) ?_
  rw [mem_downcase _ _ hat.1 hat.2]
  exact hn

/-- **C129, partial** for an address `local@domain` without angle brackets and line feeds in it, given in angle brackets with anything behind them and anything
without `<` before them, or given - without blanks in it - as the first word, `address_spec` is the address and `domain` the part behind the last `@`, both in lower case.
Missing: quoted local parts with angle brackets, source routes. -/
theorem C129_partial (l dom : Bytes) (hl : l ≠ []) (hd : dom ≠ []) (hn : 0x40 ∉ dom) (hf : 0x0a ∉ l ++ dom)
    (ha : ∀ c ∈ l ++ dom, c ≠ 0x3c ∧ c ≠ 0x3e) :
    (∀ before after : Bytes, 0x3c ∉ before →
      let given := some (before ++ 0x3c :: ((l ++ 0x40 :: dom) ++ 0x3e :: after))
      addressSpec given = some (downcase (l ++ 0x40 :: dom)) ∧ EnvelopeAddress.domain given = some (downcase dom)) ∧
    (∀ before after : Bytes, (∀ c ∈ before, isBlank c = true) → (∀ c ∈ l ++ dom, isBlank c = false) →
      (∀ c, after.head? = some c → isBlank c = true) → 0x3c ∉ after →
      let given := some (before ++ ((l ++ 0x40 :: dom) ++ after))
      addressSpec given = some (downcase (l ++ 0x40 :: dom)) ∧ EnvelopeAddress.domain given = some (downcase dom)) := by
  have hall : ∀ P : UInt8 → Prop, P 0x40 → (∀ c ∈ l ++ dom, P c) → ∀ c ∈ l ++ 0x40 :: dom, P c := by
    intro P h1 h2 c hc
    rcases List.mem_append.mp hc with hc | hc
    · exact h2 c (List.mem_append_left _ hc)
    · rcases List.mem_cons.mp hc with rfl | hc
      · exact h1
      · exact h2 c (List.mem_append_right _ hc)
  constructor
  · intro before after hb
    have : extract (before ++ 0x3c :: ((l ++ 0x40 :: dom) ++ 0x3e :: after)) = l ++ 0x40 :: dom := by
      unfold extract
      rw [angle_first before _ after hb (hall (fun c => c ≠ 0x3c ∧ c ≠ 0x3e) (by decide) ha)]
      rfl
    simp only [addressSpec, EnvelopeAddress.domain, Option.map_some, Option.bind_some, this]
    exact ⟨trivial, domain_of l dom hl hd hn hf⟩
  · intro before after hb hw h1 h2
    have : extract (before ++ ((l ++ 0x40 :: dom) ++ after)) = l ++ 0x40 :: dom := by
      refine extract_word before _ after hb (hall (fun c => inWord c = true) (by decide) ?_) ?_ h2 (inner_at l dom hl hd)
      · intro c hc
        simp [inWord, notAngle, hw c hc, ha c hc]
      · intro c hc
        simp [inWord, h1 c hc]
    simp only [addressSpec, EnvelopeAddress.domain, Option.map_some, Option.bind_some, this]
    exact ⟨trivial, domain_of l dom hl hd hn hf⟩

/-- the empty reverse-path has the empty address and no domain -/
theorem C129_null (before after : Bytes) (hb : 0x3c ∉ before) :
    addressSpec (some (before ++ 0x3c :: 0x3e :: after)) = some [] ∧ EnvelopeAddress.domain (some (before ++ 0x3c :: 0x3e :: after)) = none := by
  have : extract (before ++ 0x3c :: 0x3e :: after) = [] := by
    unfold extract
    have := angle_first before [] after hb (by simp)
    rw [List.nil_append] at this
    rw [this]
    rfl
  simp only [addressSpec, EnvelopeAddress.domain, Option.map_some, Option.bind_some, this]
  exact ⟨rfl, rfl⟩

/-- no address, no answer -/
theorem C129_nil : addressSpec none = none ∧ EnvelopeAddress.domain none = none := ⟨rfl, rfl⟩

/-- **C129, violated** an address whose (quoted) local part has a `>` in it is cut there: the address is what stands before it, and if that has no `@` in it there is no domain -/
theorem C129_quoted_violated (l l' dom after : Bytes) (hl : ∀ c ∈ l, c ≠ 0x3c ∧ c ≠ 0x3e) (hat : 0x40 ∉ l) :
    let given := some (0x3c :: (l ++ 0x3e :: (l' ++ 0x40 :: dom ++ 0x3e :: after)))
    addressSpec given = some (downcase l) ∧ EnvelopeAddress.domain given = none := by
  have : extract (0x3c :: (l ++ 0x3e :: (l' ++ 0x40 :: dom ++ 0x3e :: after))) = l := by
    unfold extract
    have := angle_first [] l (l' ++ 0x40 :: dom ++ 0x3e :: after) (by simp) hl
    rw [List.nil_append] at this
    rw [this]
    rfl
  simp only [addressSpec, EnvelopeAddress.domain, Option.map_some, Option.bind_some, this]
  refine ⟨trivial, ?_⟩
  unfold slice
  split
  · rfl
  · apply afterAt_none
    intro h
    exact hat ((mem_downcase l 0x40 (by decide) (by decide)).mp (List.mem_of_mem_drop h))

/-- **C129, violated** a source route, which is to be ignored, is kept as part of the address -/
theorem C129_route_violated (route l dom : Bytes) (h : ∀ c ∈ route ++ l ++ dom, c ≠ 0x3c ∧ c ≠ 0x3e) :
    addressSpec (some (0x3c :: ((route ++ 0x3a :: (l ++ 0x40 :: dom)) ++ [0x3e]))) = some (downcase (route ++ 0x3a :: (l ++ 0x40 :: dom))) := by
  have : extract (0x3c :: ((route ++ 0x3a :: (l ++ 0x40 :: dom)) ++ [0x3e])) = route ++ 0x3a :: (l ++ 0x40 :: dom) := by
    unfold extract
    have := angle_first [] (route ++ 0x3a :: (l ++ 0x40 :: dom)) [] (by simp) (by
      intro c hc
      simp only [List.mem_append, List.mem_cons] at hc h
      rcases hc with hc | rfl | hc | rfl | hc
      · exact h c (Or.inl (Or.inl hc))
      · decide
      · exact h c (Or.inl (Or.inr hc))
      · decide
      · exact h c (Or.inr hc))
    rw [List.nil_append] at this
    rw [this]
    rfl
  simp only [addressSpec, Option.map_some, this]

example : addressSpec (some (ascii "Foo Bar <FOO@Example.NET> SIZE=3")) = some (ascii "foo@example.net") := by decide +kernel
example : EnvelopeAddress.domain (some (ascii "Foo Bar <\"a@b\"@Example.NET> SIZE=3")) = some (ascii "example.net") := by decide +kernel
example : addressSpec (some (ascii "<foo")) = some (ascii "foo") := by decide +kernel
example : addressSpec (some (ascii "foo>")) = some (ascii "foo") := by decide +kernel
example : EnvelopeAddress.domain (some (ascii "  foo@example.com  x@y")) = some (ascii "example.com") := by decide +kernel
example : addressSpec (some (ascii "<\"a>b\"@x.example>")) = some (ascii "\"a") := by decide +kernel
example : addressSpec (some (ascii "<@relay:a@x.example>")) = some (ascii "@relay:a@x.example") := by decide +kernel

end Verif.Props.EnvelopeAddress
