import Verif.Spec.TestServer
/-
C116-C119: milter-test-server.
-/
namespace Verif.Props.TestServer
open Verif Verif.TestServer Verif.Spec.TestServer
open Verif.Spec (Pointwise)
open Verif.Server (St)

/-! ### C116: the mail file -/

theorem pieces_line {c : UInt8} {l : Bytes} (h : c ∉ l) (s : Bytes) : pieces c (l ++ c :: s) = l :: pieces c s := by
  induction l with
  | nil => simp [pieces]
  | cons x l ih =>
    rw [List.cons_append, pieces, if_neg (fun (e : x = c) => h (by rw [e]; exact List.mem_cons_self)), ih fun m => h (List.mem_cons_of_mem _ m)]

theorem pieces_ne (c : UInt8) (s : Bytes) : pieces c s ≠ [] := by
  cases s with
  | nil => simp [pieces]
  | cons x s =>
    unfold pieces
    split
    · simp
    · split <;> simp

/-- lines joined again -/
def joined : List Bytes → Bytes
  | [] => []
  | [l] => l
  | l :: ls => l ++ [0x0a] ++ joined ls

theorem joined_pieces (s : Bytes) : joined (pieces 0x0a s) = s := by
  induction s with
  | nil => rfl
  | cons x s ih =>
    unfold pieces
    obtain ⟨p, ps, hp⟩ : ∃ p ps, pieces 0x0a s = p :: ps := by
      cases h : pieces 0x0a s with
      | nil => exact absurd h (pieces_ne _ _)
      | cons p ps => exact ⟨p, ps, rfl⟩
    rw [hp] at ih ⊢
    split
    · rename_i h
      subst h
      show joined ([] :: p :: ps) = _
      simp only [joined]
      rw [ih]
      simp
    · cases ps with
      | nil => simp only [joined] at ih ⊢; rw [ih]
      | cons q ps => simp only [joined] at ih ⊢; rw [← ih]; simp

theorem pieces_lines {c : UInt8} (ls : List Bytes) (h : ∀ l ∈ ls, c ∉ l) (s : Bytes) :
    pieces c ((ls.flatMap (· ++ [c])) ++ s) = ls ++ pieces c s := by
  induction ls with
  | nil => rfl
  | cons l ls ih =>
    rw [List.flatMap_cons, List.append_assoc, List.append_assoc, List.singleton_append, pieces_line (h l List.mem_cons_self),
      ih fun x hx => h x (List.mem_cons_of_mem _ hx)]
    rfl

/-- the chunks are the lines -/
theorem chunked_joined (size : Nat) : ∀ (lines chunks : List Bytes) (kept : Bytes),
    (chunked size lines chunks kept).1.flatten ++ (chunked size lines chunks kept).2 =
      chunks.flatten ++ kept ++ lines.flatMap (· ++ [0x0a]) := by
  intro lines
  induction lines with
  | nil => intro chunks kept; simp [chunked]
  | cons l ls ih =>
    intro chunks kept
    unfold chunked
    split
    · rw [ih]; simp
    · rw [ih]; simp

theorem chunked_kept (size : Nat) : ∀ (lines chunks : List Bytes) (kept : Bytes), (kept = [] ∨ ∃ k, kept = k ++ [0x0a]) →
    (lines ≠ [] ∨ kept ≠ []) → ∃ k, (chunked size lines chunks kept).2 = k ++ [0x0a] := by
  intro lines
  induction lines with
  | nil =>
    intro chunks kept h hn
    rcases h with h | h
    · exact absurd h (hn.resolve_left fun x => x rfl)
    · exact h
  | cons l ls ih =>
    intro chunks kept h hn
    unfold chunked
    split
    · exact ih _ _ (.inr ⟨l, rfl⟩) (.inr (by simp))
    · exact ih _ _ (.inr ⟨kept ++ l, rfl⟩) (.inr (by simp))

theorem lines_joined : ∀ (ls : List Bytes), ls ≠ [] → ls.flatMap (· ++ [0x0a]) = joined ls ++ [0x0a] := by
  intro ls
  induction ls with
  | nil => exact fun h => absurd rfl h
  | cons l ls ih =>
    intro _
    cases ls with
    | nil => simp [joined]
    | cons m ls => rw [List.flatMap_cons, ih (by simp)]; simp [joined]

theorem bodyChunks_joined (size : Nat) (ls : List Bytes) (h : ls ≠ []) : (bodyChunks size ls).flatten = joined ls := by
  obtain ⟨k, hk⟩ := chunked_kept size ls [] [] (.inl rfl) (.inl h)
  have hj := chunked_joined size ls [] []
  rw [lines_joined ls h, hk] at hj
  unfold bodyChunks
  simp only [hk]
  have : (chunked size ls [] []).1.flatten ++ k = joined ls := by
    have := hj
    simp only [List.flatten_nil, List.nil_append] at this
    rw [← List.append_assoc] at this
    exact List.append_cancel_right this
  simpa using this

/-! #### headers -/

theorem uncr_cr (l : Bytes) : uncr (l ++ [0x0d]) = (l, true) := by
  unfold uncr
  simp

theorem uncr_plain {l : Bytes} (h : ∀ c ∈ l, c ≠ 0x0d) : uncr l = (l, false) := by
  unfold uncr
  rw [if_neg]
  intro e
  exact h _ (List.mem_of_getLast? e) rfl

/-- the end of a line before its line feed -/
def ending (cr : Bool) : Bytes := if cr then [0x0d] else []

/-- the end of a line -/
def newline (cr : Bool) : Bytes := if cr then [0x0d, 0x0a] else [0x0a]

theorem uncr_line {l : Bytes} (h : ∀ c ∈ l, inLine c) (cr : Bool) : uncr (l ++ ending cr) = (l, cr) := by
  cases cr
  · simp only [ending, Bool.false_eq_true, if_false, List.append_nil]
    exact uncr_plain fun c hc => (h c hc).2.2
  · exact uncr_cr l

theorem alnum_notSpace {c : UInt8} (h : isAlnum c = true) : c ≠ 0x3a := by
  rintro rfl
  revert h
  decide

theorem halves_field {name rest : Bytes} (h : 0x3a ∉ name) : halves (name ++ 0x3a :: rest) = some (name, rest) := by
  unfold halves
  rw [if_pos (by simp)]
  have h' : ∀ c ∈ name, decide (c ≠ 0x3a) = true := fun c hc => by
    simp only [decide_eq_true_eq]; rintro rfl; exact h hc
  rw [List.takeWhile_append_of_pos h', List.dropWhile_append_of_pos h']
  simp

theorem chug_field {blanks first : Bytes} (hb : ∀ c ∈ blanks, c = 0x20 ∨ c = 0x09) (hf : ∀ c ∈ first, inLine c)
    (ht : ∀ c, first.head? = some c → c ≠ 0x20 ∧ c ≠ 0x09 ∧ c ≠ 0x0c) : chug (blanks ++ first) = first := by
  unfold chug
  rw [List.dropWhile_append_of_pos fun c hc => by rcases hb c hc with rfl | rfl <;> rfl]
  cases first with
  | nil => rfl
  | cons c l =>
    obtain ⟨h1, h2, h3⟩ := ht c rfl
    obtain ⟨_, h4, h5⟩ := hf c List.mem_cons_self
    rw [List.dropWhile_cons, if_neg]
    unfold isSpace
    simp [h1, h2, h3, h4, h5]

theorem notHeader_fold {l : Bytes} (h : l.head? = some 0x20 ∨ l.head? = some 0x09) : isHeader l = false ∧ l.head?.any isSpace = true ∧ l ≠ [] := by
  unfold isHeader
  cases l with
  | nil => simp at h
  | cons c l =>
    simp only [List.head?_cons, Option.some.injEq] at h
    rcases h with rfl | rfl
    · exact ⟨by simp [isAlnum], by simp [isSpace], by simp⟩
    · exact ⟨by simp [isAlnum], by simp [isSpace], by simp⟩

theorem collect_folds (cr : Bool) (hs : List Header) (name : Bytes) : ∀ (folds : List Bytes) (v : Bytes) (rest : List Bytes),
    (∀ l ∈ folds, (l.head? = some 0x20 ∨ l.head? = some 0x09) ∧ ∀ c ∈ l, inLine c) →
    collect (folds.map (· ++ ending cr) ++ rest) (hs ++ [⟨name, some v⟩]) =
      collect rest (hs ++ [⟨name, some (v ++ folds.flatMap fun l => newline cr ++ l)⟩]) := by
  intro folds
  induction folds with
  | nil => intro v rest _; simp
  | cons l ls ih =>
    intro v rest h
    obtain ⟨h1, h2⟩ := h l List.mem_cons_self
    obtain ⟨f1, f2, f3⟩ := notHeader_fold h1
    rw [List.map_cons, List.cons_append, collect, uncr_line h2]
    simp only [f1, f2, f3, if_false, if_true, Bool.false_eq_true]
    rw [show appendValue (hs ++ [⟨name, some v⟩]) (if cr = true then [0x0d, 0x0a] else [0x0a]) l =
      some (hs ++ [⟨name, some (v ++ newline cr ++ l)⟩]) by
        unfold appendValue; simp [newline]]
    show collect (ls.map (· ++ ending cr) ++ rest) _ = _
    rw [ih _ _ fun x hx => h x (List.mem_cons_of_mem _ hx)]
    simp

theorem field_lines (f : Field) (cr : Bool) : f.lines.map (· ++ ending cr) =
    (f.name ++ 0x3a :: (f.blanks ++ f.first) ++ ending cr) :: f.folds.map (· ++ ending cr) := by
  simp [Field.lines]

theorem collect_field {f : Field} (hf : f.Legal) (cr : Bool) (hs : List Header) (rest : List Bytes) :
    collect (f.lines.map (· ++ ending cr) ++ rest) hs = collect rest (hs ++ [⟨f.name, some (f.value (newline cr))⟩]) := by
  obtain ⟨c, hc, ha⟩ := hf.starts
  have hin : ∀ x ∈ f.name ++ 0x3a :: (f.blanks ++ f.first), inLine x := by
    intro x hx
    simp only [List.mem_append, List.mem_cons] at hx
    rcases hx with hx | rfl | hx | hx
    · exact (hf.name x hx).1
    · exact ⟨by decide, by decide, by decide⟩
    · rcases hf.blanks x hx with rfl | rfl <;> exact ⟨by decide, by decide, by decide⟩
    · exact hf.first x hx
  have hne : f.name ++ 0x3a :: (f.blanks ++ f.first) ≠ [] := by simp
  have hh : isHeader (f.name ++ 0x3a :: (f.blanks ++ f.first)) = true := by
    unfold isHeader
    rw [List.head?_append, hc]
    simp [ha]
  rw [field_lines, List.cons_append, collect, uncr_line hin]
  simp only [hne, hh, if_false, if_true]
  rw [halves_field fun h => (hf.name _ h).2.1 rfl]
  simp only []
  rw [chug_field hf.blanks hf.first hf.text]
  show collect _ (hs ++ [_]) = _
  rw [collect_folds cr hs f.name f.folds f.first rest hf.folds]
  rfl

theorem collect_fields (cr : Bool) : ∀ (fs : List Field), (∀ f ∈ fs, f.Legal) → ∀ (hs : List Header) (rest : List Bytes),
    collect ((fs.flatMap Field.lines).map (· ++ ending cr) ++ ending cr :: rest) hs =
      .ok (hs ++ fs.map fun f => ⟨f.name, some (f.value (newline cr))⟩, rest) := by
  intro fs
  induction fs with
  | nil =>
    intro _ hs rest
    show collect (ending cr :: rest) hs = _
    rw [collect, show ending cr = [] ++ ending cr from rfl, uncr_line (l := []) (fun _ h => nomatch h)]
    simp
  | cons f fs ih =>
    intro h hs rest
    rw [List.flatMap_cons, List.map_append, List.append_assoc, collect_field (h f List.mem_cons_self), ih fun x hx => h x (List.mem_cons_of_mem _ hx)]
    simp

/-! #### addresses -/

theorem extract_names {value path : Bytes} (h : Names value path) : extractPath value = some path := by
  cases h with
  | @bracket before path after first inner =>
    unfold extractPath
    have hb : ∀ c ∈ before, decide (c ≠ 0x3c) = true := fun c hc => by
      simp only [decide_eq_true_eq]; rintro rfl; exact first hc
    have hp : ∀ c ∈ path, decide (c ≠ 0x3e) = true := fun c hc => by
      simp only [decide_eq_true_eq]; rintro rfl; exact inner hc
    rw [if_pos (by simp)]
    have e : (before ++ [0x3c] ++ path ++ [0x3e] ++ after).dropWhile (fun c => decide (c ≠ 0x3c)) = 0x3c :: (path ++ 0x3e :: after) := by
      simp only [List.append_assoc]
      rw [List.dropWhile_append_of_pos hb]
      simp
    simp only [e]
    rw [if_pos (by simp), List.takeWhile_cons, if_pos (by decide), List.takeWhile_append_of_pos hp]
    simp
  | @word k word after there whole ends plain =>
    unfold extractPath
    have hno : (0x3c : UInt8) ∉ List.replicate k (0x20 : UInt8) ++ word ++ after := by
      simp only [List.mem_append, not_or] at plain ⊢
      refine ⟨⟨?_, plain.1⟩, plain.2⟩
      intro h
      exact absurd (List.eq_of_mem_replicate h) (by decide)
    rw [if_neg hno]
    have e : (List.replicate k (0x20 : UInt8) ++ word ++ after).dropWhile (fun c => decide (c = 0x20)) = word ++ after := by
      rw [List.append_assoc, List.dropWhile_append_of_pos fun c hc => by rw [List.eq_of_mem_replicate hc]; rfl]
      cases word with
      | nil => exact absurd rfl there
      | cons c w =>
        rw [List.cons_append, List.dropWhile_cons, if_neg]
        simp only [decide_eq_true_eq]
        rintro rfl
        exact whole List.mem_cons_self
    have hw : ∀ c ∈ word, decide (c ≠ 0x20) = true := fun c hc => by
      simp only [decide_eq_true_eq]; rintro rfl; exact whole hc
    rw [e, List.takeWhile_append_of_pos hw]
    have ha : after.takeWhile (fun c => decide (c ≠ 0x20)) = [] := by
      cases after with
      | nil => rfl
      | cons c a =>
        rcases ends with h | h
        · cases h
        · simp only [List.head?_cons, Option.some.injEq] at h
          subst h
          simp
    rw [ha, List.append_nil]

theorem from_to : TestServer.from_ ≠ TestServer.to := by decide

theorem envelope_names (nl : Bytes) : ∀ (fs : List Field) (f : Option Bytes) (rs ps qs : List Bytes),
    Pointwise Names (valuesOf TestServer.from_ nl fs) ps → Pointwise Names (valuesOf TestServer.to nl fs) qs →
    envelope (fs.map fun x => ⟨x.name, some (x.value nl)⟩) f rs = some (ps.getLast?.or f, rs ++ qs) := by
  intro fs
  induction fs with
  | nil =>
    intro f rs ps qs h1 h2
    cases h1
    cases h2
    simp [envelope]
  | cons x fs ih =>
    intro f rs ps qs h1 h2
    rw [List.map_cons, envelope]
    by_cases hf : x.name = TestServer.from_
    · have e1 : valuesOf TestServer.from_ nl (x :: fs) = x.value nl :: valuesOf TestServer.from_ nl fs := by simp [valuesOf, hf]
      have e2 : valuesOf TestServer.to nl (x :: fs) = valuesOf TestServer.to nl fs := by
        simp [valuesOf, hf, from_to]
      rw [e1] at h1
      rw [e2] at h2
      cases h1 with
      | cons h t =>
        rw [if_pos hf, Option.getD_some, extract_names h]
        show envelope _ (some _) rs = _
        rw [ih _ _ _ _ t h2, List.getLast?_cons]
        rename_i p ps
        cases ps.getLast? <;> rfl
    · have e1 : valuesOf TestServer.from_ nl (x :: fs) = valuesOf TestServer.from_ nl fs := by simp [valuesOf, hf]
      rw [e1] at h1
      rw [if_neg hf]
      by_cases ht : x.name = TestServer.to
      · have e2 : valuesOf TestServer.to nl (x :: fs) = x.value nl :: valuesOf TestServer.to nl fs := by simp [valuesOf, ht]
        rw [e2] at h2
        cases h2 with
        | cons h t =>
          rw [if_pos ht, Option.getD_some, extract_names h]
          show envelope _ f (rs ++ [_]) = _
          rw [ih _ _ _ _ h1 t]
          simp
      · have e2 : valuesOf TestServer.to nl (x :: fs) = valuesOf TestServer.to nl fs := by simp [valuesOf, ht]
        rw [e2] at h2
        rw [if_neg ht]
        exact ih _ _ _ _ h1 h2

theorem append_all (hs : List Header) : ∀ (l : List Header), hs.foldl (fun l h => Headers.append l h.name h.value) l = l ++ hs := by
  induction hs with
  | nil => intro l; simp
  | cons h hs ih => intro l; rw [List.foldl_cons, ih]; simp [Headers.append]

/-- the lines of a mail -/
theorem mail_lines (cr : Bool) (fs : List Field) (body : Bytes) (hl : ∀ f ∈ fs, f.Legal) :
    pieces 0x0a (text (newline cr) fs body) = (fs.flatMap Field.lines).map (· ++ ending cr) ++ ending cr :: pieces 0x0a body := by
  have he : newline cr = ending cr ++ [0x0a] := by cases cr <;> rfl
  have hc : (0x0a : UInt8) ∉ ending cr := by cases cr <;> decide
  have e : text (newline cr) fs body = ((((fs.flatMap Field.lines).map (· ++ ending cr)) ++ [ending cr]).flatMap (· ++ [0x0a])) ++ body := by
    unfold text
    rw [he]
    simp [List.flatMap_append, List.flatMap_map]
  rw [e, pieces_lines]
  · simp
  · intro l hl'
    rcases List.mem_append.mp hl' with h | h
    · obtain ⟨x, hx, rfl⟩ := List.mem_map.mp h
      obtain ⟨f, hf, hx⟩ := List.mem_flatMap.mp hx
      have hin : ∀ c ∈ x, c ≠ 0x0a := by
        have hL := hl f hf
        intro c hc'
        rcases List.mem_cons.mp hx with rfl | hx
        · simp only [List.mem_append, List.mem_singleton] at hc'
          rcases hc' with ((h | rfl) | h) | h
          · exact (hL.name c h).1.2.1
          · decide
          · rcases hL.blanks c h with rfl | rfl <;> decide
          · exact (hL.first c h).2.1
        · exact ((hL.folds x hx).2 c hc').2.1
      intro h
      rcases List.mem_append.mp h with h | h
      · exact hin _ h rfl
      · exact hc h
    · cases List.mem_singleton.mp h
      exact hc

theorem mail_nonul (cr : Bool) (fs : List Field) (body : Bytes) (hl : ∀ f ∈ fs, f.Legal) (hb : ∀ c ∈ body, c ≠ 0) :
    ∀ c ∈ text (newline cr) fs body, c ≠ 0 := by
  have hn : ∀ c ∈ newline cr, c ≠ 0 := by cases cr <;> decide
  intro c hc
  unfold text at hc
  rcases List.mem_append.mp hc with hc | hc
  · rcases List.mem_append.mp hc with hc | hc
    · obtain ⟨x, hx, hc⟩ := List.mem_flatMap.mp hc
      rcases List.mem_append.mp hc with hc | hc
      · obtain ⟨f, hf, hx⟩ := List.mem_flatMap.mp hx
        have hL := hl f hf
        rcases List.mem_cons.mp hx with rfl | hx
        · simp only [List.mem_append, List.mem_singleton] at hc
          rcases hc with ((h | rfl) | h) | h
          · exact (hL.name c h).1.1
          · decide
          · rcases hL.blanks c h with rfl | rfl <;> decide
          · exact (hL.first c h).1
        · exact ((hL.folds x hx).2 c hc).1
      · exact hn c hc
    · exact hn c hc
  · exact hb c hc

theorem cstring_all {s : Bytes} (h : ∀ c ∈ s, c ≠ 0) : cstring s = s := by
  unfold cstring
  induction s with
  | nil => rfl
  | cons c s ih =>
    rw [List.takeWhile_cons, if_pos (by simpa using h c List.mem_cons_self), ih fun x hx => h x (List.mem_cons_of_mem _ hx)]

/-- no first line of a mail looks like the line an mbox starts with -/
theorem first_line (cr : Bool) (fs : List Field) (rest : List Bytes) (hl : ∀ f ∈ fs, f.Legal) :
    ∃ line more, (fs.flatMap Field.lines).map (· ++ ending cr) ++ ending cr :: rest = line :: more ∧
      (TestServer.from_ ++ [0x20]).isPrefixOf line = false := by
  cases fs with
  | nil => exact ⟨_, _, rfl, by cases cr <;> decide⟩
  | cons f fs =>
    refine ⟨_, _, by rw [List.flatMap_cons, List.map_append, field_lines]; rfl, ?_⟩
    have hn := (hl f List.mem_cons_self).name
    cases h : (TestServer.from_ ++ [0x20]).isPrefixOf (f.name ++ 0x3a :: (f.blanks ++ f.first) ++ ending cr) with
    | false => rfl
    | true =>
      exfalso
      obtain ⟨t, ht⟩ := List.isPrefixOf_iff_prefix.mp h
      match hname : f.name with
      | [] =>
        obtain ⟨c, hc, _⟩ := (hl f List.mem_cons_self).starts
        rw [hname] at hc; cases hc
      | [a] => rw [hname] at ht; simp [TestServer.from_] at ht
      | [a, b] => rw [hname] at ht; simp [TestServer.from_] at ht
      | [a, b, c] => rw [hname] at ht; simp [TestServer.from_] at ht
      | [a, b, c, d] => rw [hname] at ht; simp [TestServer.from_] at ht
      | a :: b :: c :: d :: e :: l =>
        rw [hname] at ht
        simp [TestServer.from_] at ht
        obtain ⟨_, _, _, _, he, _⟩ := ht
        exact (hn e (by rw [hname]; simp)).2.2 he.symm

/-- **C116**: a mail file, with either kind of line end and possibly with the first line of an mbox.  The milter will be shown exactly its headers, in their order, and
its body; the sender is the address the last header "From" names, the recipients are those the headers "To" name. -/
theorem C116_partial (size : Nat) (o : Options) (cr : Bool) (mbox : Option Bytes) (fields : List Field) (body : Bytes) (senders receivers : List Bytes)
    (legal : ∀ f ∈ fields, f.Legal) (nonul : ∀ c ∈ body, c ≠ 0) (hmbox : ∀ l, mbox = some l → ∀ c ∈ l, c ≠ 0 ∧ c ≠ 0x0a)
    (hs : Pointwise Names (valuesOf [0x46, 0x72, 0x6f, 0x6d] (newline cr) fields) senders)
    (hr : Pointwise Names (valuesOf [0x54, 0x6f] (newline cr) fields) receivers) :
    ∃ chunks, parseMail size o ((mbox.elim [] fun l => [0x46, 0x72, 0x6f, 0x6d, 0x20] ++ l ++ [0x0a]) ++ text (newline cr) fields body) = .ok
        { headers := o.headers ++ fields.map (fun f => ⟨f.name, some (f.value (newline cr))⟩)
          from_ := senders.getLast?.or o.from_
          recipients := if receivers = [] then o.recipients else some receivers
          body := some chunks } ∧ chunks.flatten = body := by
  refine ⟨bodyChunks size (pieces 0x0a body), ?_, by rw [bodyChunks_joined _ _ (pieces_ne _ _), joined_pieces]⟩
  obtain ⟨line, more, h1, h2⟩ := first_line cr fields (pieces 0x0a body) legal
  have hpar : parseLines size o (pieces 0x0a (text (newline cr) fields body)) = .ok
        { headers := o.headers ++ fields.map (fun f => ⟨f.name, some (f.value (newline cr))⟩)
          from_ := senders.getLast?.or o.from_
          recipients := if receivers = [] then o.recipients else some receivers
          body := some (bodyChunks size (pieces 0x0a body)) } := by
    unfold parseLines
    rw [mail_lines cr fields body legal, collect_fields cr fields legal, List.nil_append]
    simp only []
    rw [envelope_names _ _ _ _ _ _ hs hr, append_all]
    rfl
  have hns : strsplit 0x0a (text (newline cr) fields body) = pieces 0x0a (text (newline cr) fields body) := by
    unfold strsplit
    rw [if_neg]
    unfold text
    cases cr <;> simp [newline]
  cases mbox with
  | none =>
    unfold parseMail
    simp only [Option.elim, List.nil_append]
    rw [cstring_all (mail_nonul cr fields body legal nonul), hns]
    rw [← hpar, mail_lines cr fields body legal, h1]
    simp only [skipMbox, h2, Bool.false_eq_true, if_false]
  | some l =>
    unfold parseMail
    have hb := hmbox l rfl
    simp only [Option.elim]
    rw [cstring_all]
    · have e : strsplit 0x0a (([0x46, 0x72, 0x6f, 0x6d, 0x20] ++ l ++ [0x0a]) ++ text (newline cr) fields body) =
          ([0x46, 0x72, 0x6f, 0x6d, 0x20] ++ l) :: pieces 0x0a (text (newline cr) fields body) := by
        unfold strsplit
        rw [if_neg (by simp), List.append_assoc, List.singleton_append, pieces_line]
        intro h
        rcases List.mem_append.mp h with h | h
        · revert h; decide
        · exact (hb _ h).2 rfl
      rw [e, ← hpar]
      rw [skipMbox, if_pos]
      rw [List.isPrefixOf_iff_prefix]
      exact ⟨l, rfl⟩
    · intro c hc
      rcases List.mem_append.mp hc with hc | hc
      · simp only [List.mem_append, List.mem_singleton] at hc
        rcases hc with (hc | hc) | rfl
        · have : ∀ c ∈ ([0x46, 0x72, 0x6f, 0x6d, 0x20] : Bytes), c ≠ 0 := by decide
          exact this c hc
        · exact (hb c hc).1
        · decide
      · exact mail_nonul cr fields body legal nonul c hc

/-- "From: A <a@b>", "Subject: x" with a second line, "To: c@d", an empty line and "hi" -/
example : let fields : List Field := [⟨from_, [0x20], [0x41, 0x20, 0x3c, 0x61, 0x40, 0x62, 0x3e], []⟩, ⟨[0x53], [0x20, 0x09], [0x78], [[0x20, 0x79]]⟩,
      ⟨TestServer.to, [0x20], [0x63, 0x40, 0x64], []⟩]
    (∀ f ∈ fields, f.Legal) ∧ Pointwise Names (valuesOf from_ (newline true) fields) [[0x3c, 0x61, 0x40, 0x62, 0x3e]] ∧
      Pointwise Names (valuesOf TestServer.to (newline true) fields) [[0x3c, 0x63, 0x40, 0x64, 0x3e]] := by
  refine ⟨?_, ?_, ?_⟩
  · intro f hf
    simp only [List.mem_cons, List.not_mem_nil, or_false] at hf
    rcases hf with rfl | rfl | rfl <;>
    exact ⟨⟨_, rfl, by decide⟩, by simp [inLine, from_, TestServer.to], by simp, by simp [inLine], by simp, by simp [inLine]⟩
  · exact .cons (.bracket (before := [0x41, 0x20]) (path := [0x61, 0x40, 0x62]) (after := []) (by decide) (by decide)) .nil
  · exact .cons (.word (k := 0) (word := [0x63, 0x40, 0x64]) (after := []) (by decide) (by decide) (.inl rfl) (by decide)) .nil

example : parseMail 65535 {} ([0x46, 0x3a, 0x20, 0x78, 0x0a, 0x20, 0x79, 0x0a, 0x54, 0x6f, 0x3a, 0x63, 0x0a, 0x0a, 0x68, 0x0a, 0x69, 0x0a]) =
    .ok ⟨[⟨[0x46], some [0x78, 0x0a, 0x20, 0x79]⟩, ⟨TestServer.to, some [0x63]⟩], none, some [[0x3c, 0x63, 0x3e]], some [[0x68, 0x0a, 0x69, 0x0a]]⟩ := by
  decide +kernel

/-- **C116 fails** for a header that names several recipients in angle brackets: "To: <a>, <b>" gives the first one only. -/
theorem C116_list_violated : ∀ size, (match parseMail size {} (TestServer.to ++ [0x3a, 0x3c, 0x61, 0x3e, 0x2c, 0x20, 0x3c, 0x62, 0x3e, 0x0a, 0x0a]) with
    | .ok o => o.recipients | _ => none) = some [[0x3c, 0x61, 0x3e]] := by
  intro size
  rfl

/-- **C116 fails** for a header that names several recipients: "To: a, b" gives "<a,>", which is neither. -/
theorem C116_comma_violated : ∀ size, (match parseMail size {} (TestServer.to ++ [0x3a, 0x61, 0x2c, 0x20, 0x62, 0x0a, 0x0a]) with
    | .ok o => o.recipients | _ => none) = some [[0x3c, 0x61, 0x2c, 0x3e]] := by
  intro size
  rfl

/-- **C116 fails** for a file that starts with a blank: there is no header to add the line to, and the tool crashes. -/
theorem C116_blank_violated (size : Nat) (o : Options) (rest : Bytes) (h : rest.head? = some 0x61) :
    parseMail size o (0x20 :: rest) = .crash := by
  cases rest with
  | nil => cases h
  | cons c rest =>
    simp only [List.head?_cons, Option.some.injEq] at h
    subst h
    have e1 : cstring (0x20 :: 0x61 :: rest) = 0x20 :: 0x61 :: cstring rest := by
      unfold cstring
      rw [List.takeWhile_cons, if_pos (by decide), List.takeWhile_cons, if_pos (by decide)]
    obtain ⟨p, ps, hp⟩ : ∃ p ps, pieces 0x0a (cstring rest) = p :: ps := by
      cases h : pieces 0x0a (cstring rest) with
      | nil => exact absurd h (pieces_ne _ _)
      | cons p ps => exact ⟨p, ps, rfl⟩
    have e2 : strsplit 0x0a (0x20 :: 0x61 :: cstring rest) = (0x20 :: 0x61 :: p) :: ps := by
      unfold strsplit
      rw [if_neg (by simp), pieces, if_neg (by decide), pieces, if_neg (by decide), hp]
    have e3 : skipMbox ((0x20 :: 0x61 :: p) :: ps) = (0x20 :: 0x61 :: p) :: ps := by
      rw [skipMbox, if_neg]
      intro h
      obtain ⟨t, ht⟩ := List.isPrefixOf_iff_prefix.mp h
      simp [TestServer.from_] at ht
    unfold parseMail
    rw [e1, e2, e3]
    unfold parseLines
    rw [collect]
    obtain ⟨q, b, hq⟩ : ∃ q b, uncr (0x20 :: 0x61 :: p) = (0x20 :: q, b) := by
      unfold uncr
      split
      · exact ⟨_, _, rfl⟩
      · exact ⟨_, _, rfl⟩
    rw [hq]
    have h1 : isHeader (0x20 :: q) = false := by simp [isHeader, isAlnum]
    have h2 : (0x20 :: q : Bytes).head?.any isSpace = true := by simp [isSpace]
    simp [h1, appendValue, isSpace]

/-- **C116 fails** for a body with a NUL: what comes after it is not sent. -/
theorem C116_nul_violated : ∀ size, 4 ≤ size → (match parseMail size {} [0x0a, 0x68, 0x69, 0x00, 0x61, 0x62] with
    | .ok o => o.body | _ => none) = some [[0x68, 0x69]] := by
  intro size h
  have : ¬ 3 > size := by omega
  simp [parseMail, cstring, strsplit, pieces, skipMbox, TestServer.from_, parseLines, collect, uncr, envelope, bodyChunks, chunked, this]

/-- **C116 fails** for a header "from", which names the sender as "From" does but is not looked at. -/
theorem C116_case_violated : ∀ size, (match parseMail size {} [0x66, 0x72, 0x6f, 0x6d, 0x3a, 0x61, 0x0a, 0x0a] with
    | .ok o => o.from_ | _ => some []) = none := by
  intro size
  rfl

end Verif.Props.TestServer
