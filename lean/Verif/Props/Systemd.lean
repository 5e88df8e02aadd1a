import Verif.Manager.Systemd
import Verif.Spec.Systemd
import Verif.Props.DetectorWhole
import Verif.Props.Connection
/-
C133: a milter started by systemd is found where its unit's environment files say; C134: so is rspamd's proxy.
-/
namespace Verif.Props.Detector
open Verif Verif.Detector Verif.Spec.Detector Verif.Spec.Systemd

/-! ## Lines -/

theorem lstrip_blanks {i : Bytes} (hi : ∀ c ∈ i, Blank c) (x : Bytes) : Conditions.lstrip (i ++ x) = Conditions.lstrip x := by
  unfold Conditions.lstrip
  induction i with
  | nil => rfl
  | cons c i ih =>
    rw [List.cons_append, List.dropWhile_cons_of_pos (by rw [(blank_iff c).mpr (hi c List.mem_cons_self)])]
    exact ih fun d hd => hi d (List.mem_cons_of_mem _ hd)

theorem lstrip_id {x : Bytes} (h : ∀ c, x.head? = some c → ¬Blank c) : Conditions.lstrip x = x := by
  unfold Conditions.lstrip
  cases x with
  | nil => rfl
  | cons c x =>
    have : Conditions.isBlank c = false := by
      cases hb : Conditions.isBlank c with
      | false => rfl
      | true => exact absurd ((blank_iff c).mp hb) (h c rfl)
    rw [List.dropWhile_cons_of_neg (by simp [this])]

theorem strip_pad {i x t : Bytes} (hi : ∀ c ∈ i, Blank c) (hx : Stripped x) (ht : ∀ c ∈ t, Blank c) : Conditions.strip (i ++ (x ++ t)) = x := by
  unfold Conditions.strip
  rw [lstrip_blanks hi]
  cases x with
  | nil =>
    have : Conditions.lstrip ([] ++ t) = [] := by
      have := lstrip_blanks ht []
      simpa [Conditions.lstrip] using this
    rw [this]; rfl
  | cons c x =>
    rw [lstrip_id (x := (c :: x) ++ t) (by intro d hd; exact hx.1 d (by simpa using hd)), List.reverse_append,
      lstrip_blanks (by intro d hd; exact ht d (List.mem_reverse.mp hd)),
      lstrip_id (by intro d hd; rw [List.head?_reverse] at hd; exact hx.2 d hd), List.reverse_reverse]

/-- a line that begins, after blanks, with something else -/
theorem strip_head {i : Bytes} (hi : ∀ c ∈ i, Blank c) {c : UInt8} (hc : ¬Blank c) (z : Bytes) : ∃ y, Conditions.strip (i ++ c :: z) = c :: y := by
  unfold Conditions.strip
  rw [lstrip_blanks hi, lstrip_id (x := c :: z) (by intro d hd; cases hd; exact hc), List.reverse_cons]
  have key : ∀ w : Bytes, ∃ y, Conditions.lstrip (w ++ [c]) = y ++ [c] := by
    intro w
    induction w with
    | nil => exact ⟨[], lstrip_id (by intro d hd; cases hd; exact hc)⟩
    | cons d w ih =>
      by_cases hd : Blank d
      · obtain ⟨y, hy⟩ := ih
        refine ⟨y, ?_⟩
        rw [← hy]
        exact lstrip_blanks (i := [d]) (by intro e he; simp at he; rw [he]; exact hd) (w ++ [c])
      · exact ⟨d :: w, lstrip_id (by intro e he; cases he; exact hd)⟩
  obtain ⟨y, hy⟩ := key z.reverse
  exact ⟨y.reverse, by rw [hy]; simp⟩

theorem blanks_nl {t : Bytes} (h : Blanks t) : ∀ c ∈ t ++ [0x0a], Blank c := by
  intro c hc
  rcases List.mem_append.mp hc with hc | hc
  · exact (h c hc).1
  · simp at hc; rw [hc]; decide

theorem blanks_blank {t : Bytes} (h : Blanks t) : ∀ c ∈ t, Blank c := fun c hc => (h c hc).1

/-! ## Names and values -/

theorem word_ne {c : UInt8} (h : Word c) : c ≠ 0x3d ∧ ¬Blank c ∧ c ≠ 0x5b := by
  refine ⟨?_, ?_, ?_⟩
  · rintro rfl; revert h; decide
  · intro hb
    rcases hb with rfl | ⟨h1, h2⟩
    · revert h; decide
    · have : ∀ n : Fin 256, (0x09 ≤ (UInt8.ofNat n) ∧ (UInt8.ofNat n) ≤ 0x0d) → ¬ Word (UInt8.ofNat n) := by decide +kernel
      have e := this ⟨c.toNat, c.toNat_lt⟩
      simp only [UInt8.ofNat_toNat] at e
      exact e ⟨h1, h2⟩ h
  · rintro rfl; revert h; decide

theorem nameAndValue_key (b a v : Bytes) (hb : ∀ c ∈ b, Blank c) (ha : ∀ c ∈ a, Blank c) (hv : v ≠ []) (hh : ∀ c, v.head? = some c → ¬Blank c) :
    ∀ (k seen : Bytes), (∀ c ∈ k, Word c) → seen ++ k ≠ [] → nameAndValue seen (k ++ (b ++ 0x3d :: (a ++ v))) = some (seen.reverse ++ k, v) := by
  intro k
  induction k with
  | nil =>
    intro seen _ hs
    have hs : seen ≠ [] := by simpa using hs
    have e : Conditions.lstrip ([] ++ (b ++ 0x3d :: (a ++ v))) = 0x3d :: (a ++ v) := by
      rw [List.nil_append, lstrip_blanks hb, lstrip_id (by intro d hd; cases hd; decide)]
    have e2 : Conditions.lstrip (a ++ v) = v := by rw [lstrip_blanks ha, lstrip_id hh]
    have e3 : equalsHere seen ([] ++ (b ++ 0x3d :: (a ++ v))) = some (seen.reverse, v) := by
      unfold equalsHere
      rw [e]
      simp only [e2]
      rw [if_neg (by simp [hs, hv])]
    unfold nameAndValue
    rw [e3, List.append_nil]
  | cons c k ih =>
    intro seen hk _
    have hc := word_ne (hk c List.mem_cons_self)
    have e : Conditions.lstrip (c :: k ++ (b ++ 0x3d :: (a ++ v))) = c :: (k ++ (b ++ 0x3d :: (a ++ v))) :=
      lstrip_id (by intro d hd; cases hd; exact hc.2.1)
    have this := ih (c :: seen) (fun d hd => hk d (List.mem_cons_of_mem _ hd)) (by simp)
    have hn : equalsHere seen (c :: k ++ (b ++ 0x3d :: (a ++ v))) = none := by
      unfold equalsHere
      rw [e]
      split
      · rename_i he; exact absurd (List.cons.inj he).1 hc.1
      · rfl
    conv => lhs; unfold nameAndValue
    rw [hn]
    show nameAndValue (c :: seen) (k ++ (b ++ 0x3d :: (a ++ v))) = _
    rw [this]
    simp

theorem equalsHere_seen {seen s n v : Bytes} (h : equalsHere seen s = some (n, v)) : n = seen.reverse := by
  unfold equalsHere at h
  split at h
  · split at h
    · cases h
    · cases h; rfl
  · cases h

/-- the name begins with what has been seen -/
theorem nameAndValue_seen : ∀ (s seen : Bytes) (n v : Bytes), nameAndValue seen s = some (n, v) → seen.reverse <+: n := by
  intro s
  induction s with
  | nil =>
    intro seen n v h
    unfold nameAndValue at h
    cases he : equalsHere seen [] with
    | some r =>
      rw [he] at h
      cases h
      rw [equalsHere_seen he]; exact List.prefix_rfl
    | none => rw [he] at h; cases h
  | cons c s ih =>
    intro seen n v h
    unfold nameAndValue at h
    cases he : equalsHere seen (c :: s) with
    | some r =>
      rw [he] at h
      cases h
      rw [equalsHere_seen he]; exact List.prefix_rfl
    | none =>
      rw [he] at h
      have := ih (c :: seen) n v h
      rw [List.reverse_cons] at this
      exact (List.prefix_append _ _).trans this

theorem set_other (m : Machine) (u : UnitFile) (n v : Bytes) (h1 : n ≠ ascii "Description") (h2 : n ≠ ascii "ExecStart") (h3 : n ≠ ascii "EnvironmentFile") :
    u.set m n v = u := by
  simp [UnitFile.set, h1, h2, h3]

/-- what each kind of line does -/
theorem line_print (m : Machine) (u : UnitFile) (l : UnitLine) (h : l.Fine) :
    u.line m l.print = match l with
      | .blank _ => u
      | .comment _ _ _ => u
      | .header _ n _ => { u with inside := some n }
      | .set _ k _ _ v _ => u.set m k v := by
  cases l with
  | blank i =>
    have e : Conditions.strip (UnitLine.print (.blank i)) = [] := by
      have := strip_pad (i := i) (x := []) (t := [0x0a]) (blanks_blank h) ⟨(fun _ h => nomatch h), (fun _ h => nomatch h)⟩ (by intro c hc; simp at hc; rw [hc]; decide)
      simpa [UnitLine.print] using this
    unfold UnitFile.line
    rw [e]
    rfl
  | comment i sc t =>
    obtain ⟨hi, _⟩ := h
    obtain ⟨c, hc, hcb, hcs, hcd, hce⟩ : ∃ c : UInt8, UnitLine.print (.comment i sc t) = i ++ c :: (t ++ [0x0a]) ∧ ¬Blank c ∧ c ≠ 0x5b ∧ c ≠ 0x44 ∧ c ≠ 0x45 := by
      cases sc
      · exact ⟨0x23, by simp [UnitLine.print], by decide, by decide, by decide, by decide⟩
      · exact ⟨0x3b, by simp [UnitLine.print], by decide, by decide, by decide, by decide⟩
    obtain ⟨y, hy⟩ := strip_head (blanks_blank hi) hcb (t ++ [0x0a])
    unfold UnitFile.line
    rw [hc, hy]
    have hs : sectionName (c :: y) = none := by
      unfold sectionName
      split
      · rename_i he; exact absurd (List.cons.inj he).1 hcs
      · rfl
    rw [hs]
    dsimp only
    cases hn : nameAndValue [] (c :: y) with
    | none => rfl
    | some p =>
      obtain ⟨n, v⟩ := p
      have he : equalsHere [] (c :: y) = none := by
        unfold equalsHere
        split
        · rw [if_pos (.inl rfl)]
        · rfl
      have hn' : nameAndValue [c] y = some (n, v) := by
        unfold nameAndValue at hn
        rw [he] at hn
        exact hn
      have hp := nameAndValue_seen y [c] n v hn'
      obtain ⟨r, hr⟩ := hp
      simp at hr
      dsimp only
      refine set_other m u n v ?_ ?_ ?_
      · rintro rfl; exact hcd (List.cons.inj (hr.trans (show ascii "Description" = 0x44 :: ascii "escription" by decide +kernel))).1
      · rintro rfl; exact hce (List.cons.inj (hr.trans (show ascii "ExecStart" = 0x45 :: ascii "xecStart" by decide +kernel))).1
      · rintro rfl; exact hce (List.cons.inj (hr.trans (show ascii "EnvironmentFile" = 0x45 :: ascii "nvironmentFile" by decide +kernel))).1
  | header i n t =>
    obtain ⟨hi, ht, hn, _⟩ := h
    have e : Conditions.strip (UnitLine.print (.header i n t)) = 0x5b :: (n ++ [0x5d]) := by
      have := strip_pad (i := i) (x := 0x5b :: (n ++ [0x5d])) (t := t ++ [0x0a]) (blanks_blank hi)
        ⟨by intro c hc; cases hc; decide, by intro c hc; rw [← List.cons_append, List.getLast?_concat] at hc; cases hc; decide⟩ (blanks_nl ht)
      simpa [UnitLine.print] using this
    unfold UnitFile.line
    rw [e]
    simp [sectionName, hn]
  | set i k b a v t =>
    obtain ⟨hi, hk, hb, ha, hv, ht⟩ := h
    obtain ⟨k0, ks, rfl⟩ : ∃ c r, k = c :: r := by
      cases k with
      | nil => exact absurd rfl hk.1
      | cons c r => exact ⟨c, r, rfl⟩
    have hk0 := word_ne (hk.2 k0 List.mem_cons_self)
    have e : Conditions.strip (UnitLine.print (.set i (k0 :: ks) b a v t)) = (k0 :: ks) ++ (b ++ 0x3d :: (a ++ v)) := by
      have := strip_pad (i := i) (x := (k0 :: ks) ++ (b ++ 0x3d :: (a ++ v))) (t := t ++ [0x0a]) (blanks_blank hi)
        ⟨by intro c hc; cases hc; exact hk0.2.1, by
          intro c hc
          have : ((k0 :: ks) ++ (b ++ 0x3d :: (a ++ v))).getLast? = v.getLast? := by
            obtain ⟨w, x, rfl⟩ : ∃ w x, v = w ++ [x] := by
              rcases List.eq_nil_or_concat v with h | ⟨w, x, h⟩
              · exact absurd h hv.1
              · exact ⟨w, x, by rw [h, List.concat_eq_append]⟩
            rw [List.getLast?_concat, show (k0 :: ks) ++ (b ++ 0x3d :: (a ++ (w ++ [x]))) = ((k0 :: ks) ++ (b ++ 0x3d :: (a ++ w))) ++ [x] by simp,
              List.getLast?_concat]
          rw [this] at hc
          exact hv.2.2.2 c hc⟩ (blanks_nl ht)
      simpa [UnitLine.print] using this
    unfold UnitFile.line
    rw [e]
    have hs : sectionName ((k0 :: ks) ++ (b ++ 0x3d :: (a ++ v))) = none := by
      unfold sectionName
      split
      · rename_i he; exact absurd (List.cons.inj he).1 hk0.2.2
      · rfl
    rw [hs]
    dsimp only
    rw [nameAndValue_key b a v (blanks_blank hb) (blanks_blank ha) hv.1 hv.2.2.1 (k0 :: ks) [] hk.2 (by simp)]
    simp

theorem print_end (l : UnitLine) (h : l.Fine) : ∃ b, l.print = b ++ [0x0a] ∧ 0x0a ∉ b := by
  have bl : ∀ {t : Bytes}, Blanks t → 0x0a ∉ t := fun h hm => (h _ hm).2 rfl
  cases l with
  | blank i => exact ⟨i, rfl, bl h⟩
  | comment i s t =>
    refine ⟨i ++ (if s then [0x3b] else [0x23]) ++ t, rfl, ?_⟩
    have := bl h.1; have := h.2
    cases s <;> simp [*]
  | header i n t =>
    refine ⟨i ++ [0x5b] ++ n ++ [0x5d] ++ t, rfl, ?_⟩
    have := bl h.1; have := bl h.2.1; have := h.2.2.2
    simp [*]
  | set i k b a v t =>
    refine ⟨i ++ k ++ b ++ [0x3d] ++ a ++ v ++ t, rfl, ?_⟩
    obtain ⟨hi, hk, hb, ha, hv, ht⟩ := h
    have := bl hi; have := bl hb; have := bl ha; have := bl ht; have := hv.2.1
    have : (0x0a : UInt8) ∉ k := fun hm => (word_ne (hk.2 _ hm)).2.1 (by decide)
    simp [*]

/-! ## Files -/

/-- the environment files of the lines, in a section already -/
def filesFrom (cur : Option Bytes) (ls : List UnitLine) : List Bytes :=
  (valuesOf (ascii "EnvironmentFile") (settingsOf (ascii "Service") cur ls)).map undash

/-- the variables after reading files -/
def readAll (m : Machine) (vars : Vars) (files : List Bytes) : Vars :=
  files.foldl (fun vs f => match m.file f with | some c => extract false none c vs | none => vs) vars

theorem valuesOf_cons (key k v : Bytes) (l : List (Bytes × Bytes)) : valuesOf key ((k, v) :: l) = if k = key then v :: valuesOf key l else valuesOf key l := by
  unfold valuesOf
  by_cases h : k = key <;> simp [h]

theorem getLast_or {α : Type} (x : α) (l : List α) (o : Option α) : (x :: l).getLast?.or o = l.getLast?.or (some x) := by
  cases l with
  | nil => rfl
  | cons y l =>
    rw [List.getLast?_cons_cons]
    obtain ⟨z, hz⟩ : ∃ z, (y :: l).getLast? = some z := ⟨_, List.getLast?_eq_some_getLast (by simp)⟩
    rw [hz]; rfl

theorem fold_lines (m : Machine) : ∀ (ls : List UnitLine) (u : UnitFile), (∀ l ∈ ls, l.Fine) →
    let r := (ls.map UnitLine.print).foldl (UnitFile.line m) u
    r.description = (valuesOf (ascii "Description") (settingsOf (ascii "Unit") u.inside ls)).getLast?.or u.description ∧
      r.exec = (valuesOf (ascii "ExecStart") (settingsOf (ascii "Service") u.inside ls)).getLast?.or u.exec ∧
      r.vars = readAll m u.vars (filesFrom u.inside ls) := by
  intro ls
  induction ls with
  | nil => intro u _; exact ⟨rfl, rfl, rfl⟩
  | cons l ls ih =>
    intro u h
    have hl := line_print m u l (h l List.mem_cons_self)
    have ih := fun u => ih u fun x hx => h x (List.mem_cons_of_mem _ hx)
    rw [List.map_cons, List.foldl_cons, hl]
    cases l with
    | blank i => exact ih u
    | comment i s t => exact ih u
    | header i n t => exact ih { u with inside := some n }
    | set i k b a v t =>
      dsimp only
      have key : (u.set m k v).inside = u.inside ∧
          (u.set m k v).description = (if u.inside = some (ascii "Unit") ∧ k = ascii "Description" then some v else u.description) ∧
          (u.set m k v).exec = (if u.inside = some (ascii "Service") ∧ k = ascii "ExecStart" then some v else u.exec) ∧
          (u.set m k v).vars = (if u.inside = some (ascii "Service") ∧ k = ascii "EnvironmentFile" then readAll m u.vars [undash v] else u.vars) := by
        have n1 : ascii "Unit" ≠ ascii "Service" := by decide +kernel
        have n2 : ascii "ExecStart" ≠ ascii "EnvironmentFile" := by decide +kernel
        unfold UnitFile.set
        by_cases h1 : u.inside = some (ascii "Unit")
        · have h2 : u.inside ≠ some (ascii "Service") := by rw [h1]; simp [n1]
          rw [if_pos h1]
          by_cases h3 : k = ascii "Description" <;> simp [h1, h3, n1]
        · rw [if_neg h1]
          by_cases h2 : u.inside = some (ascii "Service")
          · rw [if_pos h2]
            by_cases h3 : k = ascii "ExecStart"
            · simp [h2, h3, n1.symm, n2]
            · rw [if_neg h3]
              by_cases h4 : k = ascii "EnvironmentFile"
              · rw [if_pos h4]
                cases hf : m.file (undash v) <;> simp [h2, h4, n1.symm, n2.symm, readAll, hf]
              · simp [h1, h3, h4]
          · simp [h1, h2]
      obtain ⟨e0, e1, e2, e3⟩ := key
      obtain ⟨i1, i2, i3⟩ := ih (u.set m k v)
      rw [e0] at i1 i2 i3
      refine ⟨?_, ?_, ?_⟩
      · rw [i1, e1]
        simp only [settingsOf]
        by_cases h1 : u.inside = some (ascii "Unit")
        · rw [if_pos h1]
          rw [List.cons_append, List.nil_append, valuesOf_cons]
          by_cases h2 : k = ascii "Description"
          · rw [if_pos ⟨h1, h2⟩, if_pos h2, getLast_or]
          · rw [if_neg (fun x => h2 x.2), if_neg h2]
        · rw [if_neg h1, if_neg (fun x => h1 x.1), List.nil_append]
      · rw [i2, e2]
        simp only [settingsOf]
        by_cases h1 : u.inside = some (ascii "Service")
        · rw [if_pos h1]
          rw [List.cons_append, List.nil_append, valuesOf_cons]
          by_cases h2 : k = ascii "ExecStart"
          · rw [if_pos ⟨h1, h2⟩, if_pos h2, getLast_or]
          · rw [if_neg (fun x => h2 x.2), if_neg h2]
        · rw [if_neg h1, if_neg (fun x => h1 x.1), List.nil_append]
      · rw [i3, e3]
        simp only [filesFrom, settingsOf]
        by_cases h1 : u.inside = some (ascii "Service")
        · rw [if_pos h1]
          rw [List.cons_append, List.nil_append, valuesOf_cons]
          by_cases h2 : k = ascii "EnvironmentFile"
          · rw [if_pos ⟨h1, h2⟩, if_pos h2]; rfl
          · rw [if_neg (fun x => h2 x.2), if_neg h2]
        · rw [if_neg h1, if_neg (fun x => h1 x.1), List.nil_append]

theorem files_eq (ls : List UnitLine) : filesFrom none ls = environmentFiles ls := by
  unfold filesFrom environmentFiles
  congr 1
  funext v
  unfold undash
  cases v with
  | nil => rfl
  | cons c v =>
    by_cases h : c = 0x2d
    · subst h; rfl
    · simp [h]

/-- **C133**, a unit file: the description and the command are those the file sets last in the right section, and its environment files are read in order -/
theorem C133_unit (m : Machine) (ls : List UnitLine) (h : ∀ l ∈ ls, l.Fine) :
    (parseUnit m (printUnit ls)).description = (valuesOf (ascii "Description") (settingsOf (ascii "Unit") none ls)).getLast? ∧
      (parseUnit m (printUnit ls)).exec = (valuesOf (ascii "ExecStart") (settingsOf (ascii "Service") none ls)).getLast? ∧
      (parseUnit m (printUnit ls)).vars = readAll m (fun _ => none) (environmentFiles ls) := by
  unfold parseUnit printUnit
  rw [eachLine_print UnitLine.print UnitLine.Fine print_end ls h]
  obtain ⟨a, b, c⟩ := fold_lines m ls {} h
  rw [Option.or_none] at a b
  exact ⟨a, b, by rw [c, files_eq]⟩

/-! ## The environment -/

theorem pieces_literal (env : Env) (ps : List Piece) (h : ∀ p ∈ ps, ∃ b, p = .text b) : valueAll env ps = (ps.map Piece.literal).flatten := by
  unfold valueAll
  congr 1
  apply List.map_congr_left
  intro p hp
  obtain ⟨b, rfl⟩ := h p hp
  rfl

theorem environment_shell : ∀ (ls : List Line) (env : Env), NoVariables ls → shell env ls = environment env ls := by
  intro ls
  induction ls with
  | nil => intro _ _; rfl
  | cons l ls ih =>
    intro env h
    have h2 : NoVariables ls := fun x hx => h x (List.mem_cons_of_mem _ hx)
    have e : Line.run env l = Line.setEnv env l := by
      cases l with
      | blank i => rfl
      | comment i t => rfl
      | assign e i n v r c =>
        have hv := h _ List.mem_cons_self e i n v r c rfl
        have : v.value env = Value.literal v := by
          cases v with
          | plain ps => exact pieces_literal env ps hv
          | double ps => exact pieces_literal env ps hv
          | single b => rfl
        show (fun m => if m = n then some (v.value env) else env m) = _
        rw [this]; rfl
    show shell (Line.run env l) ls = environment (Line.setEnv env l) ls
    rw [e]
    exact ih _ h2

/-- what the files on the machine say: each is an environment file, without anything that looks like a variable, or is missing -/
def Files (m : Machine) (files : List Bytes) (lines : Bytes → List Line) : Prop :=
  ∀ f ∈ files, (m.file f = some (printFile (lines f)) ∨ m.file f = none ∧ lines f = []) ∧ (∀ env, FineFile false env (lines f)) ∧ NoVariables (lines f)

theorem readAll_environment (m : Machine) (lines : Bytes → List Line) : ∀ (files : List Bytes) (vars : Vars), Files m files lines →
    readAll m vars files = environment vars (files.flatMap lines) := by
  intro files
  induction files with
  | nil => intro vars _; rfl
  | cons f files ih =>
    intro vars h
    have ih := fun v => ih v fun x hx => h x (List.mem_cons_of_mem _ hx)
    obtain ⟨hf, hfine, hno⟩ := h f List.mem_cons_self
    have e : (match m.file f with | some c => extract false none c vars | none => vars) = environment vars (lines f) := by
      rcases hf with hf | ⟨hf, hl⟩
      · rw [hf]
        dsimp only
        rw [C123_partial false none (lines f) vars (hfine vars), environment_shell _ _ hno]
      · rw [hf, hl]; rfl
    show readAll m (match m.file f with | some c => extract false none c vars | none => vars) files = _
    rw [e, ih]
    simp [environment]

/-- the milters with rules of their own -/
def systemdSpecial : List Bytes := [ascii "clamav-milter", ascii "milter-greylist", ascii "opendkim", ascii "rspamd"]

/-- where the link is that has a service started -/
def wants (script : Bytes) : Bytes := ascii "/etc/systemd/system/multi-user.target.wants/" ++ script ++ ascii ".service"

/-- **C133** (partial): a milter whose socket its environment says is found there, with its description, and is used if systemd starts it -/
theorem C133_partial (m : Machine) (k : Kind) (script s : Bytes) (ls : List UnitLine) (lines : Bytes → List Line)
    (hu : m.file (k.systemDir ++ script ++ ascii ".service") = some (printUnit ls)) (hl : ∀ l ∈ ls, l.Fine)
    (hf : Files m (environmentFiles ls) lines) (hscript : script ∉ systemdSpecial)
    (hs : environment (fun _ => none) ((environmentFiles ls).flatMap lines) (ascii "SOCKET") = some s) (h : Stripped s) (h0 : s ≠ []) :
    systemd m k script none =
      some ⟨some (finish s), (valuesOf (ascii "Description") (settingsOf (ascii "Unit") none ls)).getLast?, (m.file (wants script)).isSome⟩ := by
  obtain ⟨hd, _, hv⟩ := C133_unit m ls hl
  rw [readAll_environment m lines _ _ hf] at hv
  simp only [systemdSpecial, List.mem_cons, List.not_mem_nil, or_false, not_or] at hscript
  obtain ⟨a, b, c, d⟩ := hscript
  have e : unitSpec m k script (parseUnit m (printUnit ls)) none = some s := by
    unfold unitSpec
    simp only [a, b, c, d, if_false, Option.none_or, hv, hs, normalizeSpec_some h h0]
  unfold systemd
  rw [hu]
  dsimp only
  rw [e, hd]
  simp [a, wants]

/-- **C133**: on Debian that is what the manager uses then, and it uses the init script if systemd does not start the milter -/
theorem C133_choice_partial (m : Machine) (k : Kind) (script s : Bytes) (ls : List UnitLine) (lines : Bytes → List Line) (init : Option Detected)
    (hu : m.file (k.systemDir ++ script ++ ascii ".service") = some (printUnit ls)) (hl : ∀ l ∈ ls, l.Fine)
    (hf : Files m (environmentFiles ls) lines) (hscript : script ∉ systemdSpecial)
    (hs : environment (fun _ => none) ((environmentFiles ls).flatMap lines) (ascii "SOCKET") = some s) (h : Stripped s) (h0 : s ≠ []) :
    ((m.file (wants script)).isSome = true → (choose (systemd m k script none) init).map Detected.spec = some (some (finish s))) ∧
      ((m.file (wants script)).isSome = false → choose (systemd m k script none) init = init) := by
  rw [C133_partial m k script s ls lines hu hl hf hscript hs h h0]
  constructor
  · intro hw; simp [choose, hw]
  · intro hw; simp [choose, hw]

/-- **C133**, clamav-milter: its socket is what the configuration file says that `-c` in `ExecStart` names, and it is not used while that file is the example -/
theorem C133_clamav_partial (m : Machine) (k : Kind) (ls : List UnitLine) (exec conf s : Bytes) (a b : List Bytes) (ks : List KeyLine)
    (hu : m.file (k.systemDir ++ ascii "clamav-milter" ++ ascii ".service") = some (printUnit ls)) (hl : ∀ l ∈ ls, l.Fine)
    (he : (valuesOf (ascii "ExecStart") (settingsOf (ascii "Service") none ls)).getLast? = some exec)
    (hw : m.words exec = a ++ ascii "-c" :: conf :: b) (hc : ascii "-c" ∉ conf :: b) (hd : conf.head? ≠ some 0x24)
    (hconf : m.file conf = some ((ks.map KeyLine.print).flatten)) (hks : ∀ l ∈ ks, l.Fine) (hs : said (ascii "MilterSocket") ks = some (some s)) :
    systemd m k (ascii "clamav-milter") none =
      some ⟨some (finish s), (valuesOf (ascii "Description") (settingsOf (ascii "Unit") none ls)).getLast?,
        (m.file (wants (ascii "clamav-milter"))).isSome && (said (ascii "Example") ks).isNone⟩ := by
  obtain ⟨hdesc, hexec, _⟩ := C133_unit m ls hl
  have e1 : clamavConf m k (parseUnit m (printUnit ls)) = conf := by
    unfold clamavConf flag
    rw [hexec, he]
    dsimp only [Option.bind]
    rw [hw, C126_word _ _ _ _ hc, if_neg hd]
    rfl
  have e2 : contentOf m conf = (ks.map KeyLine.print).flatten := by unfold contentOf; rw [hconf]; rfl
  have e3 : setting (parseKeywords (contentOf m conf)) (ascii "MilterSocket") = some s := by
    unfold setting
    rw [e2, C124_partial ks hks, hs]
    rfl
  have e4 : unitSpec m k (ascii "clamav-milter") (parseUnit m (printUnit ls)) none = some s := by
    unfold unitSpec
    rw [e1]
    simp only [if_true, e3, Option.some_or]
  unfold systemd
  rw [hu]
  dsimp only
  rw [e4, hdesc, e1, e2, C124_partial ks hks]
  cases said (ascii "Example") ks <;> simp [wants]

/-! ## What is not as promised -/

/-- **C133 fails** for units that do not use an environment file: whatever socket `ExecStart` or `Environment` name, none is found, and the milter is not enabled -/
theorem C133_inline_violated (m : Machine) (k : Kind) (script : Bytes) (ls : List UnitLine)
    (hu : m.file (k.systemDir ++ script ++ ascii ".service") = some (printUnit ls)) (hl : ∀ l ∈ ls, l.Fine)
    (hf : environmentFiles ls = []) (hscript : script ∉ systemdSpecial) :
    systemd m k script none = some ⟨none, (valuesOf (ascii "Description") (settingsOf (ascii "Unit") none ls)).getLast?, false⟩ := by
  obtain ⟨hd, _, hv⟩ := C133_unit m ls hl
  rw [hf] at hv
  simp only [systemdSpecial, List.mem_cons, List.not_mem_nil, or_false, not_or] at hscript
  obtain ⟨a, b, c, d⟩ := hscript
  have hv2 : (parseUnit m (printUnit ls)).vars (ascii "SOCKET") = none := by rw [hv]; rfl
  have e : unitSpec m k script (parseUnit m (printUnit ls)) none = none := by
    unfold unitSpec
    simp only [a, b, c, d, if_false, Option.none_or, hv2, normalizeSpec]
  unfold systemd
  rw [hu]
  dsimp only
  rw [e, hd]
  simp

/-- a machine with one unit and one environment file -/
def unitMachine (unit env : String) (override : Option Bytes) : Machine where
  file p :=
    if p = ascii "/lib/systemd/system/x.service" then some (ascii unit)
    else if p = ascii "/etc/default/x" then some (ascii env)
    else if p = ascii "/etc/systemd/system/x.service" then override
    else if p = wants (ascii "x") then some []
    else none
  words _ := []

/-- **C133 fails** for a value with a dollar sign, which systemd takes as it is: it is replaced -/
theorem C133_expand_violated :
    systemd (unitMachine "[Service]\nEnvironmentFile=/etc/default/x\n" "DIR=/run\nSOCKET='$DIR/x'\n" none) debianKind (ascii "x") none =
      some ⟨some (ascii "unix:/run/x"), none, true⟩ ∧
    environment (fun _ => none) [.assign false [] (ascii "DIR") (.plain [.text (ascii "/run")]) [] none,
      .assign false [] (ascii "SOCKET") (.single (ascii "$DIR/x")) [] none] (ascii "SOCKET") = some (ascii "$DIR/x") := by
  constructor <;> decide +kernel

/-- **C133 fails** for an empty assignment, with which a unit takes back the environment files before: they are read all the same -/
theorem C133_reset_violated :
    systemd (unitMachine "[Service]\nEnvironmentFile=/etc/default/x\nEnvironmentFile=\n" "SOCKET=/run/x\n" none) debianKind (ascii "x") none =
      some ⟨some (ascii "unix:/run/x"), none, true⟩ := by
  decide +kernel

/-- **C133 fails** for a command continued on the next line: the rest is lost -/
theorem C133_continued_violated :
    (parseUnit (unitMachine "" "" none) (ascii "[Service]\nExecStart=/usr/sbin/clamav-milter \\\n -c /etc/c.conf\n")).exec =
      some (ascii "/usr/sbin/clamav-milter \\") := by
  decide +kernel

/-- the unit of an administrator, which systemd uses instead of the packaged one -/
def ownUnit (script : Bytes) : Bytes := ascii "/etc/systemd/system/" ++ script ++ ascii ".service"

/-- **C133 fails** for an administrator's own unit: whatever is put there, the milter is looked for where the packaged unit says -/
theorem C133_override_violated (m : Machine) (own : Option Bytes) (k : Kind) (script s : Bytes) (ls : List UnitLine) (lines : Bytes → List Line)
    (hk : k.systemDir ≠ ascii "/etc/systemd/system/") (hn : ownUnit script ∉ environmentFiles ls)
    (hu : m.file (k.systemDir ++ script ++ ascii ".service") = some (printUnit ls)) (hl : ∀ l ∈ ls, l.Fine)
    (hf : Files m (environmentFiles ls) lines) (hscript : script ∉ systemdSpecial)
    (hs : environment (fun _ => none) ((environmentFiles ls).flatMap lines) (ascii "SOCKET") = some s) (h : Stripped s) (h0 : s ≠ []) :
    systemd { m with file := fun p => if p = ownUnit script then own else m.file p } k script none = systemd m k script none := by
  rw [C133_partial m k script s ls lines hu hl hf hscript hs h h0]
  have hw : wants script ≠ ownUnit script := by
    intro e
    have := congrArg List.length e
    unfold wants ownUnit at this
    simp only [List.length_append] at this
    have e1 : (ascii "/etc/systemd/system/multi-user.target.wants/").length = 44 := by decide +kernel
    have e2 : (ascii "/etc/systemd/system/").length = 20 := by decide +kernel
    omega
  have hk2 : k.systemDir ++ script ++ ascii ".service" ≠ ownUnit script := by
    intro e
    unfold ownUnit at e
    exact hk (List.append_cancel_right (List.append_cancel_right e))
  rw [C133_partial _ k script s ls lines (by dsimp only; rw [if_neg hk2]; exact hu) hl ?_ hscript hs h h0]
  · dsimp only
    rw [if_neg hw]
  · intro f hf'
    have hne : f ≠ ownUnit script := fun e => hn (e ▸ hf')
    have := hf f hf'
    dsimp only
    rw [if_neg hne]
    exact this

/-! ## rspamd -/

open Spec.Connection Verif.Connection in
/-- **C134**, a proxy bound to a port of a host: the manager connects to that port of that host -/
theorem C134_host_partial (net : Net) (host port : Bytes) (milters : List Worker) (hm : ∀ w ∈ milters, w = none ∨ ∃ b, w = some (false, b)) (after : List Worker)
    (h1 : 0x3a ∉ host) (h2 : host.head? ≠ some 0x2f) (h0 : host ≠ []) (h3 : host ≠ ascii "*") (hd : Digits port) (hv : Spec.Connection.value port < 2 ^ 31) (p : UInt16) (a : Bytes) :
    ∃ spec, rspamdProxy (some (milters ++ some (true, host ++ [0x3a] ++ port) :: after)) = .spec spec ∧
      (parseSpec net spec = .ok (.inet p a) ↔
        Spec.Connection.value port ≤ 65535 ∧ p.toNat = Spec.Connection.value port ∧ Host [0, 0, 0, 0] net.inet.v4.pton net.resolve4 (0x40 :: host) a) := by
  have hfind : (milters ++ some (true, host ++ [0x3a] ++ port) :: after).find? isMilter =
      some (some (true, host ++ [0x3a] ++ port)) := by
    clear h1 h2 h0 h3 hd hv
    induction milters with
    | nil => rfl
    | cons w ws ih =>
      rw [List.cons_append, List.find?_cons_of_neg]
      · exact ih fun x hx => hm x (List.mem_cons_of_mem _ hx)
      · rcases hm w List.mem_cons_self with rfl | ⟨b, rfl⟩ <;> simp [isMilter]
  refine ⟨bindSpec (host ++ [0x3a] ++ port), by unfold rspamdProxy; simp only [hfind], ?_⟩
  have hb : bindSpec (host ++ [0x3a] ++ port) = text "inet:" ++ (port ++ 0x40 :: host) := by
    have ht := takeWhile_stop (p := (· ≠ (0x3a : UInt8))) host (by intro c hc; simp; rintro rfl; exact h1 hc) 0x3a (by simp) port
    unfold bindSpec
    rw [if_neg (by cases host with | nil => exact absurd rfl h0 | cons c r => simpa using h2)]
    dsimp only
    rw [show host ++ [0x3a] ++ port = host ++ 0x3a :: port by simp, ht.1, ht.2, if_neg h3]
    rw [show ascii "inet:" = text "inet:" by decide +kernel, show ascii "@" = [0x40] by decide +kernel]
    simp
  rw [hb]
  exact C20_inet_partial net port (0x40 :: host) hd (by simp) (.inr rfl) hv p a

/-- **C134**, a proxy bound to a port of all interfaces is found at that port of this machine -/
theorem C134_any (port : Bytes) : bindSpec (ascii "*:" ++ port) = ascii "inet:" ++ port ++ ascii "@localhost" := by
  rw [show ascii "*:" = [0x2a, 0x3a] by decide +kernel]
  rfl

open Spec.Connection Verif.Connection in
/-- **C134**, a proxy bound to a path, whatever mode and owner follow -/
theorem C134_path (net : Net) (path rest : Bytes) (h1 : path.head? = some 0x2f) (h2 : ∀ c ∈ path, c ≠ 0x20 ∧ c ≠ 0x2c)
    (hr : rest = [] ∨ rest.head? = some 0x20 ∨ rest.head? = some 0x2c) (hl : path.length ≤ 107) :
    parseSpec net (bindSpec (path ++ rest)) = .ok (.unix path) := by
  have h0 : path ≠ [] := by rintro rfl; simp at h1
  have ht : (path ++ rest).takeWhile (fun c => decide (c ≠ 0x20 ∧ c ≠ 0x2c)) = path := by
    cases rest with
    | nil => rw [List.append_nil]; exact (takeWhile_all' path (by intro c hc; simpa using h2 c hc)).1
    | cons c r =>
      refine (takeWhile_stop path (by intro c hc; simpa using h2 c hc) c ?_ r).1
      simp at hr
      rcases hr with rfl | rfl <;> rfl
  have hb : bindSpec (path ++ rest) = text "unix:" ++ path := by
    unfold bindSpec
    rw [if_pos (by cases path with | nil => exact absurd rfl h0 | cons c r => simpa using h1), ht, show ascii "unix:" = text "unix:" by decide +kernel]
  rw [hb, parse_unix net path h0 "unix:" (.inl rfl), if_pos hl]

open Spec.Connection Verif.Connection in
/-- **C134 fails** for IPv6 addresses, such as `[::1]:11332`: the spec is none -/
theorem C134_ipv6_violated (net : Net) (host d rest : Bytes) (c : UInt8) (h1 : 0x3a ∉ host) (h2 : host.head? ≠ some 0x2f) (h0 : host ≠ []) (h3 : host ≠ ascii "*")
    (hd : Digits d) (hc : ¬(0x30 ≤ c ∧ c ≤ 0x39)) (hat : c ≠ 0x40) :
    parseSpec net (bindSpec (host ++ [0x3a] ++ (d ++ c :: rest))) = .fail := by
  have hb : bindSpec (host ++ [0x3a] ++ (d ++ c :: rest)) = text "inet:" ++ (d ++ c :: (rest ++ 0x40 :: host)) := by
    have ht := takeWhile_stop (p := (· ≠ (0x3a : UInt8))) host (by intro c hc; simp; rintro rfl; exact h1 hc) 0x3a (by simp) (d ++ c :: rest)
    unfold bindSpec
    rw [if_neg (by cases host with | nil => exact absurd rfl h0 | cons c r => simpa using h2)]
    dsimp only
    rw [show host ++ [0x3a] ++ (d ++ c :: rest) = host ++ 0x3a :: (d ++ c :: rest) by simp, ht.1, ht.2, if_neg h3]
    rw [show ascii "inet:" = text "inet:" by decide +kernel, show ascii "@" = [0x40] by decide +kernel]
    simp
  rw [hb]
  exact (C20_bad_port net d (rest ++ 0x40 :: host) c hd hc hat).1

/-- `[::1]:11332` is such an address -/
example : ascii "[::1]:11332" = ascii "[" ++ [0x3a] ++ ([] ++ 0x3a :: ascii "1]:11332") := by decide +kernel

/-- **C134 fails** where rspamd runs without a proxy for milters: an exception, not "nothing found" -/
theorem C134_no_proxy_violated (ws : List Worker) (h : ∀ w ∈ ws, w = none ∨ ∃ b, w = some (false, b)) : rspamdProxy (some ws) = .crash := by
  have : ws.find? isMilter = none := by
    rw [List.find?_eq_none]
    intro w hw
    rcases h w hw with rfl | ⟨b, rfl⟩ <;> simp [isMilter]
  unfold rspamdProxy
  simp only [this]

/-! ## Cases -/

def unitLines : List UnitLine :=
  [.comment [] false (ascii "ExecStart = no"), .header [] (ascii "Unit") [0x20], .set [] (ascii "Description") [] [0x20] (ascii "A milter") [], .blank [],
    .header [] (ascii "Service") [], .set [] (ascii "EnvironmentFile") [] [] (ascii "-/etc/default/x") [], .set [0x20] (ascii "ExecStart") [0x20] [0x20] (ascii "/usr/sbin/x -c y") []]

example : ∀ l ∈ unitLines, l.Fine := by
  have h0 : Blanks [] := fun _ h => by cases h
  have h1 : Blanks [0x20] := by unfold Blanks; decide
  intro l hl
  simp only [unitLines, List.mem_cons, List.not_mem_nil, or_false] at hl
  rcases hl with rfl | rfl | rfl | rfl | rfl | rfl | rfl
  · exact ⟨h0, by decide⟩
  · exact ⟨h0, h1, by decide, by decide⟩
  · exact ⟨h0, ⟨by decide, by decide⟩, h0, h1, ⟨by decide, by decide, by intro c hc; cases hc; decide, by intro c hc; cases hc; decide⟩, h0⟩
  · exact h0
  · exact ⟨h0, h0, by decide, by decide⟩
  · exact ⟨h0, ⟨by decide, by decide⟩, h0, h0, ⟨by decide, by decide, by intro c hc; cases hc; decide, by intro c hc; cases hc; decide⟩, h0⟩
  · exact ⟨h1, ⟨by decide, by decide⟩, h1, h1, ⟨by decide, by decide, by intro c hc; cases hc; decide, by intro c hc; cases hc; decide⟩, h0⟩

example : environmentFiles unitLines = [ascii "/etc/default/x"] := by decide +kernel
example : systemd (unitMachine "#ExecStart = no\n[Unit] \nDescription= A milter\n\n[Service]\nEnvironmentFile=-/etc/default/x\n ExecStart = /usr/sbin/x -c y\n" "SOCKET=/run/x\n" none)
    debianKind (ascii "x") none = some ⟨some (ascii "unix:/run/x"), some (ascii "A milter"), true⟩ := by decide +kernel
example : ascii "#ExecStart = no\n[Unit] \nDescription= A milter\n\n[Service]\nEnvironmentFile=-/etc/default/x\n ExecStart = /usr/sbin/x -c y\n" = printUnit unitLines := by
  decide +kernel
example : rspamdProxy (some [none, some (true, ascii "*:11332")]) = .spec (ascii "inet:11332@localhost") := by decide +kernel
example : rspamdProxy (some [none, some (true, ascii "/run/rspamd.sock mode=0660")]) = .spec (ascii "unix:/run/rspamd.sock") := by decide +kernel
example : startCommand (some (ascii "/usr/bin/systemctl")) none (ascii "x") = some [ascii "/usr/bin/systemctl", ascii "start", ascii "x"] := by decide +kernel

end Verif.Props.Detector
