import Verif.Props.Detector
/-
C124-C126: configuration files of milters, and what the manager makes of them.
-/
namespace Verif.Props.Detector
open Verif Verif.Detector Verif.Spec.Detector

/-! ## Where the code departs from C123 -/

/-- a file that is read as the shell reads it -/
example : FineFile true (fun _ => none)
    [.comment [] (ascii " defaults"), .assign false [] (ascii "RUN") (.plain [.text (ascii "/var/run")]) [] none, .blank [0x20],
      .assign true [] (ascii "SOCKET") (.double [.var (ascii "RUN") true, .text (ascii "/a b.sock")]) [0x20] (some (ascii " here"))] := by
  have hrun : Name (ascii "RUN") := ⟨by decide, by decide, by intro c hc; cases hc; decide⟩
  have hsocket : Name (ascii "SOCKET") := ⟨by decide, by decide, by intro c hc; cases hc; decide⟩
  have h0 : Blanks [] := fun _ h => by cases h
  have h1 : Blanks [0x20] := by unfold Blanks; decide
  simp only [FineFile, Line.Fine, Value.Fine, Parts]
  refine ⟨⟨h0, by decide⟩, ⟨h0, hrun, fun h => (by cases h), ⟨?_, trivial⟩, h0, fun _ h => by cases h⟩, h1,
    ⟨h0, hsocket, fun h => (by cases h), ⟨hrun, by decide, ?_, fun h => (by cases h), ?_, trivial⟩, h1, ?_⟩, trivial⟩
  · unfold PlainText; decide +kernel
  · simp [Line.run]
  · unfold DoubleText; decide +kernel
  · intro t ht; cases ht; decide

/-- A variable that is not set is nothing to the shell; the detection leaves its name in the text. -/
theorem C123_unset_violated : ∃ ls : List Line,
    extract true none (printFile ls) (fun _ => none) (ascii "SOCKET") = some (ascii "$DIR/x") ∧
    shell (fun _ => none) ls (ascii "SOCKET") = some (ascii "/x") :=
  ⟨[.assign false [] (ascii "SOCKET") (.plain [.var (ascii "DIR") false, .text (ascii "/x")]) [] none], by decide +kernel, by decide +kernel⟩

/-- In single quotes nothing is a variable to the shell. -/
theorem C123_single_violated : ∃ ls : List Line,
    extract true none (printFile ls) (fun _ => none) (ascii "B") = some (ascii "1") ∧
    shell (fun _ => none) ls (ascii "B") = some (ascii "$A") :=
  ⟨[.assign false [] (ascii "A") (.plain [.text (ascii "1")]) [] none, .assign false [] (ascii "B") (.single (ascii "$A")) [] none],
    by decide +kernel, by decide +kernel⟩

/-- In quotes there are no comments to the shell. -/
theorem C123_hash_violated : ∃ ls : List Line,
    extract true none (printFile ls) (fun _ => none) (ascii "A") = some (ascii "\"a") ∧
    shell (fun _ => none) ls (ascii "A") = some (ascii "a#b") :=
  ⟨[.assign false [] (ascii "A") (.double [.text (ascii "a#b")]) [] none], by decide +kernel, by decide +kernel⟩

/-- The variable `name` is never the file's own. -/
theorem C123_name_violated : ∃ ls : List Line,
    extract true none (printFile ls) (fun _ => none) (ascii "SOCKET") = some (ascii "/run/$name") ∧
    shell (fun _ => none) ls (ascii "SOCKET") = some (ascii "/run/a") :=
  ⟨[.assign false [] (ascii "name") (.plain [.text (ascii "a")]) [] none,
    .assign false [] (ascii "SOCKET") (.plain [.text (ascii "/run/"), .var (ascii "name") false]) [] none], by decide +kernel, by decide +kernel⟩

/-! ## Keywords -/

theorem blanks_all {i : Bytes} (h : Blanks i) (c : UInt8) (hc : c ∈ i) : Conditions.isBlank c = true := (blank_iff c).mpr (h c hc).1

theorem word_not_blank {c : UInt8} (h : Word c) : Conditions.isBlank c = false := by
  cases hb : Conditions.isBlank c with
  | false => rfl
  | true => exact (blank_word ((blank_iff c).mp hb) h).elim

/-- the indentation is passed -/
theorem indent_drop (i : Bytes) (hi : Blanks i) (s : Bytes) (hs : ∀ c, s.head? = some c → ¬Blank c) :
    (i ++ s).dropWhile Conditions.isBlank = s := by
  cases s with
  | nil => rw [List.append_nil]; exact (takeWhile_all' i (blanks_all hi)).2
  | cons x s =>
    refine (takeWhile_stop i (blanks_all hi) x ?_ s).2
    have := hs x rfl
    rw [← blank_iff] at this
    simpa using this

theorem no_newline {v : Bytes} (h : 0x0a ∉ v) (r : Bytes) : (v ++ 0x0a :: r).takeWhile (· ≠ (0x0a : UInt8)) = v :=
  (takeWhile_stop (p := (· ≠ (0x0a : UInt8))) v (by
    intro c hc; simp only [ne_eq, decide_eq_true_eq]; exact fun e => h (e ▸ hc)) 0x0a (by simp) r).1

theorem key_head {k : Bytes} (hk : Key k) (s : Bytes) : ∀ c, (k ++ s).head? = some c → ¬Blank c := by
  cases k with
  | nil => exact absurd rfl hk.1
  | cons d k =>
    intro c hc hb
    cases hc
    exact blank_word hb (hk.2 d (List.mem_cons_self ..))

theorem keyword_set (i k s v : Bytes) (h : (KeyLine.set i k s v).Fine) : keyword (KeyLine.set i k s v).print = some (k, some v) := by
  obtain ⟨hi, hk, hs, hs0, hv1, c, hv2, hv3⟩ := h
  have e : (KeyLine.set i k s v).print = i ++ (k ++ (s ++ (v ++ [0x0a]))) := by simp [KeyLine.print]
  have h1 := indent_drop i hi (k ++ (s ++ (v ++ [0x0a]))) (key_head hk _)
  have h2 : (k ++ (s ++ (v ++ [0x0a]))).takeWhile Conditions.isWordByte = k := takeWhile_name k _ hk.2 (by
    intro x hx hw
    cases s with
    | nil => exact hs0 rfl
    | cons y s =>
      cases hx
      exact blank_word (hs _ (List.mem_cons_self ..)).1 hw)
  have h3 : (s ++ (v ++ [0x0a])).dropWhile Conditions.isBlank = v ++ [0x0a] := indent_drop s hs _ (by
    intro x hx
    cases v with
    | nil => cases hv2
    | cons y v => cases hx; cases hv2; exact hv3)
  unfold keyword
  rw [e, h1]
  simp only [h2, List.drop_left, h3]
  rw [if_neg hk.1, if_neg (by simp), no_newline hv1, if_pos]
  cases s with
  | nil => exact absurd rfl hs0
  | cons y s => simp [blanks_all hs y (List.mem_cons_self ..)]

theorem keyword_alone (i k : Bytes) (h : (KeyLine.alone i k).Fine) : keyword (KeyLine.alone i k).print = some (k, none) := by
  obtain ⟨hi, hk⟩ := h
  have e : (KeyLine.alone i k).print = i ++ (k ++ [0x0a]) := by simp [KeyLine.print]
  have h1 := indent_drop i hi (k ++ [0x0a]) (key_head hk _)
  have h2 : (k ++ [0x0a]).takeWhile Conditions.isWordByte = k := takeWhile_name k _ hk.2 (by
    intro x hx; cases hx; decide)
  unfold keyword
  rw [e, h1]
  simp only [h2, List.drop_left]
  rw [if_neg hk.1, if_pos (by decide)]
  simp

theorem keyword_other (i t : Bytes) (hi : Blanks i) : keyword (i ++ [0x23] ++ t) = none ∧ keyword (i ++ [0x0a]) = none := by
  constructor
  · have h1 := indent_drop i hi ([0x23] ++ t) (by intro c hc; cases hc; decide)
    unfold keyword
    rw [List.append_assoc, h1]
    have : (([0x23] : Bytes) ++ t).takeWhile Conditions.isWordByte = [] := by
      have : Conditions.isWordByte 0x23 = false := by decide
      simp [this]
    simp only [this, if_true]
  · have : (i ++ [0x0a]).dropWhile Conditions.isBlank = [] := (takeWhile_all' (i ++ [0x0a]) (by
      intro c hc
      rcases List.mem_append.mp hc with hc | hc
      · exact blanks_all hi c hc
      · rcases List.mem_cons.mp hc with rfl | hc
        · decide
        · cases hc)).2
    unfold keyword
    rw [this]
    rfl

def keyStep (m : Settings) (line : Bytes) : Settings :=
  match keyword line with
  | none => m
  | some (k, v) => fun n => if n = k then some v else m n

theorem keyLine_end (l : KeyLine) (h : l.Fine) : ∃ b, l.print = b ++ [0x0a] ∧ 0x0a ∉ b := by
  have hbl : ∀ {i : Bytes}, Blanks i → 0x0a ∉ i := fun hi hm => (hi _ hm).2 rfl
  have hkl : ∀ {k : Bytes}, Key k → 0x0a ∉ k := by
    intro k hk hm
    have := hk.2 _ hm
    revert this; decide
  cases l with
  | blank i => exact ⟨i, rfl, hbl h⟩
  | comment i t =>
    refine ⟨_, rfl, ?_⟩
    simp only [List.mem_append, List.mem_cons, List.not_mem_nil, or_false]
    rintro ((hm | hm) | hm)
    · exact hbl h.1 hm
    · revert hm; decide
    · exact h.2 hm
  | set i k s v =>
    refine ⟨_, rfl, ?_⟩
    simp only [List.mem_append]
    rintro (((hm | hm) | hm) | hm)
    · exact hbl h.1 hm
    · exact hkl h.2.1 hm
    · exact hbl h.2.2.1 hm
    · exact h.2.2.2.2.1 hm
  | alone i k =>
    refine ⟨_, rfl, ?_⟩
    simp only [List.mem_append]
    rintro (hm | hm)
    · exact hbl h.1 hm
    · exact hkl h.2 hm

theorem eachLine_print {α : Type} (print : α → Bytes) (fine : α → Prop)
    (hend : ∀ l, fine l → ∃ b, print l = b ++ [0x0a] ∧ 0x0a ∉ b) :
    ∀ (ls : List α), (∀ l ∈ ls, fine l) → eachLine ((ls.map print).flatten) = ls.map print := by
  intro ls
  induction ls with
  | nil => intro _; rfl
  | cons l ls ih =>
    intro h
    obtain ⟨b, hb, h0⟩ := hend l (h l (List.mem_cons_self ..))
    rw [List.map_cons, List.flatten_cons, hb, eachLine_cons b h0, ih fun l' hl' => h l' (List.mem_cons_of_mem _ hl')]

/-- **C124** (partial).  Of the configuration of clamav-milter or opendkim, for each keyword what the
last line with it says is taken; a value is taken as it is, up to the end of its line. -/
theorem C124_partial (ls : List KeyLine) (h : ∀ l ∈ ls, l.Fine) (key : Bytes) :
    parseKeywords ((ls.map KeyLine.print).flatten) key = said key ls := by
  have hf : ∀ (ls : List KeyLine) (m : Settings), (∀ l ∈ ls, l.Fine) →
      (ls.map KeyLine.print).foldl keyStep m key = (said key ls).or (m key) := by
    intro ls
    induction ls with
    | nil => intro m _; simp [said]
    | cons l ls ih =>
      intro m h
      rw [List.map_cons, List.foldl_cons, ih _ fun l' hl' => h l' (List.mem_cons_of_mem _ hl')]
      have hl := h l (List.mem_cons_self ..)
      conv => rhs; unfold said
      cases hsaid : said key ls with
      | some v => rfl
      | none =>
        simp only [Option.none_or]
        unfold keyStep
        cases l with
        | blank i => rw [show (KeyLine.blank i).print = i ++ [0x0a] from rfl, (keyword_other i [] hl).2]; rfl
        | comment i t =>
          rw [show (KeyLine.comment i t).print = i ++ [0x23] ++ (t ++ [0x0a]) by simp [KeyLine.print], (keyword_other i _ hl.1).1]; rfl
        | set i k s v =>
          rw [keyword_set i k s v hl]
          dsimp only
          by_cases hk : key = k
          · rw [if_pos hk, if_pos hk.symm]; rfl
          · rw [if_neg hk, if_neg (Ne.symm hk)]; rfl
        | alone i k =>
          rw [keyword_alone i k hl]
          dsimp only
          by_cases hk : key = k
          · rw [if_pos hk, if_pos hk.symm]; rfl
          · rw [if_neg hk, if_neg (Ne.symm hk)]; rfl
  unfold parseKeywords
  rw [eachLine_print KeyLine.print KeyLine.Fine keyLine_end ls h]
  have := hf ls (fun _ => none) h
  rw [Option.or_none] at this
  exact this

end Verif.Props.Detector
