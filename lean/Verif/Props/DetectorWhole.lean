import Verif.Props.DetectorGrey
/-
C124-C126: examples, departures, and the connection spec that detection arrives at.
-/
namespace Verif.Props.Detector
open Verif Verif.Detector Verif.Spec.Detector

/-! ## Keywords -/

/-- a file with a comment, a keyword that is set twice and one without a value -/
example : (∀ l ∈ ([.comment [] (ascii " opendkim"), .set [] (ascii "Socket") [0x20] (ascii "inet:1@localhost"), .alone [0x09] (ascii "Quiet"),
      .blank [], .set [0x20] (ascii "Socket") [0x20, 0x09] (ascii "local:/run/a b")] : List KeyLine), l.Fine) ∧
    said (ascii "Socket") [.comment [] (ascii " opendkim"), .set [] (ascii "Socket") [0x20] (ascii "inet:1@localhost"), .alone [0x09] (ascii "Quiet"),
      .blank [], .set [0x20] (ascii "Socket") [0x20, 0x09] (ascii "local:/run/a b")] = some (some (ascii "local:/run/a b")) := by
  refine ⟨?_, by decide +kernel⟩
  have h0 : Blanks [] := fun _ h => by cases h
  have h1 : Blanks [0x20] := by unfold Blanks; decide
  have h2 : Blanks [0x09] := by unfold Blanks; decide
  have h3 : Blanks [0x20, 0x09] := by unfold Blanks; decide
  have hk : Key (ascii "Socket") := ⟨by decide, by decide⟩
  have hq : Key (ascii "Quiet") := ⟨by decide, by decide⟩
  intro l hl
  simp only [List.mem_cons, List.not_mem_nil, or_false] at hl
  rcases hl with rfl | rfl | rfl | rfl | rfl
  · exact ⟨h0, by decide⟩
  · exact ⟨h0, hk, h1, by decide, by decide, 0x69, rfl, by decide⟩
  · exact ⟨h2, hq⟩
  · exact h0
  · exact ⟨h1, hk, h3, by decide, by decide, 0x6c, rfl, by decide⟩

/-- A comment behind a value, which opendkim does not read, is read by the manager. -/
theorem C124_comment_violated :
    setting (parseKeywords (ascii "Socket inet:8891@localhost # here\n")) (ascii "Socket") = some (ascii "inet:8891@localhost # here") := by
  decide +kernel

/-- Blanks behind a value stay with it. -/
theorem C124_blanks_violated :
    setting (parseKeywords (ascii "Socket inet:8891@localhost \n")) (ascii "Socket") = some (ascii "inet:8891@localhost ") := by
  decide +kernel

/-! ## milter-greylist -/

theorem noTarpit_of_length {t : Bytes} (h : t.length < 6) : NoTarpit t := by
  intro a b e
  have : t.length = a.length + 6 + b.length := by rw [e, List.length_append, List.length_append]; rfl
  omega

/-- a file with two lists that keep clients waiting, one that does not and a socket with a mode -/
example : (∀ l ∈ ([.comment [] (ascii " greylist"), .quoted [] (ascii "socket") [0x20] (ascii "/run/grey.sock") (ascii " 666"),
      .tarpit [] true [0x20] (ascii "black ") [0x20] (ascii "125") none [], .tarpit [0x20] false [0x20] [] [0x20, 0x20] (ascii "2") (some 0x6d) (ascii " x"),
      .quiet [] (some 0x64) [0x20] (ascii "grey")] : List GreyLine), l.Fine) ∧
    longest [.comment [] (ascii " greylist"), .quoted [] (ascii "socket") [0x20] (ascii "/run/grey.sock") (ascii " 666"),
      .tarpit [] true [0x20] (ascii "black ") [0x20] (ascii "125") none [], .tarpit [0x20] false [0x20] [] [0x20, 0x20] (ascii "2") (some 0x6d) (ascii " x"),
      .quiet [] (some 0x64) [0x20] (ascii "grey")] = 125 ∧
    greySaid (ascii "socket") [.quoted [] (ascii "socket") [0x20] (ascii "/run/grey.sock") (ascii " 666")] = some (ascii "/run/grey.sock") := by
  refine ⟨?_, by decide +kernel, by decide +kernel⟩
  have h0 : Blanks [] := fun _ h => by cases h
  have h1 : Blanks [0x20] := by unfold Blanks; decide
  have h3 : Blanks [0x20, 0x20] := by unfold Blanks; decide
  have hk : Key (ascii "socket") := ⟨by decide, by decide⟩
  intro l hl
  simp only [List.mem_cons, List.not_mem_nil, or_false] at hl
  rcases hl with rfl | rfl | rfl | rfl | rfl
  · exact ⟨h0, by decide⟩
  · exact ⟨h0, hk, by decide, h1, by decide, by decide, by decide, by decide, .inr ⟨[0x20], ascii "666", rfl, h1, by decide, by decide⟩⟩
  · refine ⟨h0, h1, by decide, by decide, by intro c hc; cases hc; decide, ?_, by intro c hc; cases hc; decide, h1, by decide,
      by decide, by decide, by (intro c hc; cases hc), by decide, by decide, by (intro c hc; cases hc)⟩
    intro a b e
    have : (ascii "black ").length = a.length + 6 + b.length := by rw [e, List.length_append, List.length_append]; rfl
    have h6 : (ascii "black ").length = 6 := rfl
    have ha : a = [] := List.length_eq_zero_iff.mp (by omega)
    have hb : b = [] := List.length_eq_zero_iff.mp (by omega)
    subst ha; subst hb
    revert e; decide
  · exact ⟨h1, h1, by decide, by decide, by (intro c hc; cases hc), noTarpit_of_length (by decide), by (intro c hc; cases hc), h3, by decide,
      by decide, by decide, by intro c hc; cases hc; decide, by decide, by decide, by intro c hc; cases hc; decide⟩
  · exact ⟨h0, by intro c hc; cases hc; decide, h1, by decide, by decide, by decide, by intro c hc; cases hc; decide,
      .inr rfl, by decide⟩

/-- A list that is continued on the next line is not joined to it: the test for the backslash sees
the line feed behind it.  The wait is missed. -/
theorem C125_continued_violated :
    (parseGreylist (ascii "racl blacklist from x \\\n  tarpit 120s\n")).extend 10 = 10 := by
  decide +kernel

/-- Only the first wait of a line counts. -/
theorem C125_second_violated :
    (parseGreylist (ascii "racl blacklist tarpit 1s tarpit 2m\n")).extend 10 = 11 := by
  decide +kernel

/-- How long the manager waits: the wait of a list of recipients in minutes. -/
example : (parseGreylist (ascii "racl blacklist tarpit 2m\n")).extend 10 = 130 := by decide +kernel

/-! ## The spec -/

theorem collapse_last (rest : Bytes) (hr : ¬ascii "unix:" <+: rest ∧ ¬ascii "local:" <+: rest) (last : Option Bytes) :
    collapse last rest = last.getD [] ++ rest := by
  unfold collapse
  split
  · exact absurd ⟨_, rfl⟩ hr.1
  · exact absurd ⟨_, rfl⟩ hr.2
  · rfl

theorem collapse_all (rest : Bytes) (hr : ¬ascii "unix:" <+: rest ∧ ¬ascii "local:" <+: rest) : ∀ (ps : List Bytes) (last : Option Bytes),
    (∀ p ∈ ps, p = ascii "unix:" ∨ p = ascii "local:") →
    collapse last (ps.flatten ++ rest) = (ps.getLast?.or last).getD [] ++ rest := by
  intro ps
  induction ps with
  | nil => intro last _; exact collapse_last rest hr last
  | cons p ps ih =>
    intro last h
    have hn := fun l => ih l fun q hq => h q (List.mem_cons_of_mem _ hq)
    have e : collapse last ((p :: ps).flatten ++ rest) = collapse (some p) (ps.flatten ++ rest) := by
      rcases h p (List.mem_cons_self ..) with rfl | rfl <;> rfl
    rw [e, hn]
    cases ps with
    | nil => rfl
    | cons q qs =>
      rw [List.getLast?_cons_cons]
      obtain ⟨x, hx⟩ : ∃ x, (q :: qs).getLast? = some x := ⟨_, List.getLast?_eq_some_getLast (by simp)⟩
      rw [hx]; rfl

/-- **C126** (the form of the spec).  A path becomes a spec of a UNIX socket, a spec with several
prefixes keeps the last one, any other spec is left as it is. -/
theorem C126_form (ps : List Bytes) (rest : Bytes) (h : ∀ p ∈ ps, p = ascii "unix:" ∨ p = ascii "local:")
    (hr : ¬ascii "unix:" <+: rest ∧ ¬ascii "local:" <+: rest) :
    finish (ps.flatten ++ rest) =
      match ps.getLast? with
      | some p => p ++ rest
      | none => if rest.head? = some 0x2f then ascii "unix:" ++ rest else rest := by
  unfold finish
  cases ps with
  | nil =>
    simp only [List.flatten_nil, List.nil_append, List.getLast?_nil]
    by_cases hs : rest.head? = some 0x2f
    · rw [if_pos hs]
      have := collapse_all rest hr [ascii "unix:"] none (by intro p hp; left; simpa using hp)
      simpa [hs] using this
    · rw [if_neg hs, collapse_last rest hr]
      simp [hs]
  | cons p ps =>
    have hne : ((p :: ps).flatten ++ rest).head? ≠ some 0x2f := by
      rcases h p (List.mem_cons_self ..) with rfl | rfl <;> (show (some _ : Option UInt8) ≠ _; decide)
    rw [if_neg hne, collapse_all rest hr _ _ h]
    obtain ⟨x, hx⟩ : ∃ x, (p :: ps).getLast? = some x := ⟨_, List.getLast?_eq_some_getLast (by simp)⟩
    rw [hx]; rfl

example : finish (ascii "/run/a") = ascii "unix:/run/a" ∧ finish (ascii "local:unix:/run/a") = ascii "unix:/run/a" ∧
    finish (ascii "inet:10025") = ascii "inet:10025" := by decide +kernel

/-! ## Options -/

theorem afterLast_none (o : Bytes) : ∀ ws : List Bytes, o ∉ ws → afterLast o ws = none := by
  intro ws
  induction ws with
  | nil => intro _; rfl
  | cons w ws ih =>
    intro h
    rw [afterLast, ih fun hm => h (List.mem_cons_of_mem _ hm)]
    have : w ≠ o := fun e => h (e ▸ List.mem_cons_self ..)
    simp [this]

theorem afterLast_some (o : Bytes) (b : List Bytes) (h : o ∉ b) : ∀ a : List Bytes, afterLast o (a ++ o :: b) = some b.head? := by
  intro a
  induction a with
  | nil => rw [List.nil_append, afterLast, afterLast_none o b h]; simp
  | cons w a ih => rw [List.cons_append, afterLast, ih]

/-- **C126** (an option and its argument).  The value of an option is the word after its last
occurrence, unless that is a variable of the shell. -/
theorem C126_word (o v : Bytes) (a b : List Bytes) (h : o ∉ v :: b) :
    parameter o (a ++ o :: v :: b) = if v.head? = some 0x24 then none else some v := by
  unfold parameter
  rw [afterLast_some o (v :: b) h]
  by_cases hv : v.head? = some 0x24 <;> simp [shellVariable, hv, Option.filter]

/-- **C126** (an argument in the same word).  Without such an occurrence, it is what follows the
option in the last word that begins with it, with or without an equals sign. -/
theorem C126_joined (o v : Bytes) (eq : Bool) (a b : List Bytes) (h : o ∉ a ++ (o ++ ((if eq then [0x3d] else []) ++ v)) :: b)
    (hb : ∀ w ∈ b, ¬o <+: w) (hv : v.head? ≠ some 0x24) (he : eq = false → v.head? ≠ some 0x3d) :
    parameter o (a ++ (o ++ ((if eq then [0x3d] else []) ++ v)) :: b) = some v := by
  unfold parameter
  rw [afterLast_none o _ h]
  dsimp only
  rw [List.foldl_append, List.foldl_cons]
  have hp : o.isPrefixOf (o ++ ((if eq then [0x3d] else []) ++ v)) = true := List.isPrefixOf_iff_prefix.mpr (List.prefix_append ..)
  rw [if_pos hp, List.drop_left]
  have hx : (if ((if eq then [0x3d] else []) ++ v).head? = some 0x3d then ((if eq then [0x3d] else []) ++ v).tail
      else ((if eq then [0x3d] else []) ++ v)) = v := by
    cases eq with
    | true => simp
    | false => simp only [Bool.false_eq_true, if_false, List.nil_append]; rw [if_neg (he rfl)]
  have hs : shellVariable v = false := by simp [shellVariable, hv]
  rw [hx, hs]
  simp only [Bool.false_eq_true, if_false]
  clear h
  induction b with
  | nil => rfl
  | cons w b ih =>
    rw [List.foldl_cons, if_neg (fun e => hb w (List.mem_cons_self ..) (List.isPrefixOf_iff_prefix.mp e))]
    exact ih fun w' hw' => hb w' (List.mem_cons_of_mem _ hw')

example : parameter (ascii "-p") [ascii "-p", ascii "x", ascii "-u", ascii "-p", ascii "inet:1"] = some (ascii "inet:1") ∧
    parameter (ascii "--config-file") [ascii "-l", ascii "--config-file=/etc/x"] = some (ascii "/etc/x") := by decide +kernel

/-! ## The whole -/

/-- what is there is not blank at either end -/
def Stripped (s : Bytes) : Prop := (∀ c, s.head? = some c → ¬Blank c) ∧ ∀ c, s.getLast? = some c → ¬Blank c

theorem strip_id {s : Bytes} (h : Stripped s) : Conditions.strip s = s := by
  have l : ∀ t : Bytes, (∀ c, t.head? = some c → ¬Blank c) → Conditions.lstrip t = t := by
    intro t ht
    unfold Conditions.lstrip
    cases t with
    | nil => rfl
    | cons c t =>
      have : Conditions.isBlank c = false := by
        cases hb : Conditions.isBlank c with
        | false => rfl
        | true => exact absurd ((blank_iff c).mp hb) (ht c rfl)
      rw [List.dropWhile_cons_of_neg (by simp [this])]
  unfold Conditions.strip
  rw [l s h.1, l s.reverse (by intro c hc; rw [List.head?_reverse] at hc; exact h.2 c hc), List.reverse_reverse]

theorem normalizeSpec_some {s : Bytes} (h : Stripped s) (h0 : s ≠ []) : normalizeSpec (some s) = some s := by
  unfold normalizeSpec
  simp only [strip_id h, if_neg h0]

/-- **C126** (partial).  A milter of a Red Hat system whose init script and file in /etc/sysconfig
are assignments is found at the socket that the shell would give it, if the script is none of those
with rules of their own. -/
theorem C126_redhat_partial (m : Machine) (script : Bytes) (config : Option Bytes) (init sys : List Line) (s : Bytes)
    (hinit : m.file (ascii "/etc/init.d/" ++ script) = some (printFile init))
    (hsys : m.file (ascii "/etc/sysconfig/" ++ script) = some (printFile sys))
    (h1 : FineFile true (fun _ => none) init) (h2 : FineFile true (shell (fun _ => none) init) sys)
    (hscript : script ∉ special)
    (hs : shell (fun _ => none) (init ++ sys) (ascii "SOCKET") = some s) (h : Stripped s) (h0 : s ≠ []) :
    redhat m script config none = some (finish s) := by
  have hsh : shell (shell (fun _ => none) init) sys = shell (fun _ => none) (init ++ sys) := by simp [shell]
  unfold redhat
  rw [hinit]
  dsimp only
  rw [hsys]
  dsimp only
  rw [C123_partial true none init _ h1, C123_partial true (some script) sys _ h2, hsh]
  simp only [special, List.mem_cons, List.not_mem_nil, or_false, not_or] at hscript
  obtain ⟨a, b, c, d, e⟩ := hscript
  unfold redhatSpec
  simp only [a, b, c, d, e, if_false, false_and, Option.none_or, hs, normalizeSpec_some h h0, Option.some_or, Option.map_some]

/-- **C126** (no file in /etc/sysconfig; partial). -/
theorem C126_redhat_alone_partial (m : Machine) (script : Bytes) (config : Option Bytes) (init : List Line) (s : Bytes)
    (hinit : m.file (ascii "/etc/init.d/" ++ script) = some (printFile init))
    (hsys : m.file (ascii "/etc/sysconfig/" ++ script) = none)
    (h1 : FineFile true (fun _ => none) init) (hscript : script ∉ special)
    (hs : shell (fun _ => none) init (ascii "SOCKET") = some s) (h : Stripped s) (h0 : s ≠ []) :
    redhat m script config none = some (finish s) := by
  unfold redhat
  rw [hinit]
  dsimp only
  rw [hsys]
  dsimp only
  rw [C123_partial true none init _ h1]
  simp only [special, List.mem_cons, List.not_mem_nil, or_false, not_or] at hscript
  obtain ⟨a, b, c, d, e⟩ := hscript
  unfold redhatSpec
  simp only [a, b, c, d, e, if_false, false_and, Option.none_or, hs, normalizeSpec_some h h0, Option.some_or, Option.map_some]

/-- **C126** (milters with a configuration file; partial).  opendkim is found at the socket that its
configuration says, in the file that the shell variable names. -/
theorem C126_opendkim_partial (m : Machine) (config : Option Bytes) (init sys : List Line) (ls : List KeyLine) (conf s : Bytes)
    (hinit : m.file (ascii "/etc/init.d/opendkim") = some (printFile init))
    (hsys : m.file (ascii "/etc/sysconfig/opendkim") = some (printFile sys))
    (h1 : FineFile true (fun _ => none) init) (h2 : FineFile true (shell (fun _ => none) init) sys)
    (hconf : (shell (fun _ => none) (init ++ sys) (ascii "CONFIG")).getD (ascii "/etc/opendkim.conf") = conf)
    (hfile : m.file conf = some ((ls.map KeyLine.print).flatten)) (hl : ∀ l ∈ ls, l.Fine)
    (hs : said (ascii "Socket") ls = some (some s)) :
    redhat m (ascii "opendkim") config none = some (finish s) := by
  have hsh : shell (shell (fun _ => none) init) sys = shell (fun _ => none) (init ++ sys) := by simp [shell]
  unfold redhat
  rw [show ascii "/etc/init.d/" ++ ascii "opendkim" = ascii "/etc/init.d/opendkim" from by decide +kernel, hinit]
  dsimp only
  rw [show ascii "/etc/sysconfig/" ++ ascii "opendkim" = ascii "/etc/sysconfig/opendkim" from by decide +kernel, hsys]
  dsimp only
  rw [C123_partial true none init _ h1, C123_partial true (some (ascii "opendkim")) sys _ h2, hsh]
  have a : ascii "opendkim" ≠ ascii "enma" := by decide +kernel
  have b : ascii "opendkim" ≠ ascii "clamav-milter" := by decide +kernel
  have hc : setting (parseKeywords (contentOf m conf)) (ascii "Socket") = some s := by
    unfold setting contentOf
    rw [hfile, Option.getD_some, C124_partial ls hl, hs]
    rfl
  unfold redhatSpec
  simp only [a, b, if_false, false_and, Option.none_or, if_true, hconf, hc, Option.some_or, Option.map_some]

/-- a machine that meets the hypotheses of `C126_redhat_partial` -/
def oneMachine : Machine where
  file p :=
    if p = ascii "/etc/init.d/x" then some (printFile [.assign false [] (ascii "SOCKET") (.plain [.text (ascii "/old")]) [] none])
    else if p = ascii "/etc/sysconfig/x" then some (printFile [.assign false [] (ascii "SOCKET") (.double [.text (ascii "/run/x")]) [] none])
    else none
  words _ := []

example : redhat oneMachine (ascii "x") none none = some (ascii "unix:/run/x") := by
  have hname : Name (ascii "SOCKET") := ⟨by decide, by decide, by intro c hc; cases hc; decide⟩
  have h0 : Blanks [] := fun _ h => by cases h
  have := C126_redhat_partial oneMachine (ascii "x") none
    [.assign false [] (ascii "SOCKET") (.plain [.text (ascii "/old")]) [] none]
    [.assign false [] (ascii "SOCKET") (.double [.text (ascii "/run/x")]) [] none] (ascii "/run/x")
    (by decide +kernel) (by decide +kernel)
    (by
      simp only [FineFile, Line.Fine, Value.Fine, Parts]
      refine ⟨⟨h0, hname, fun h => (by cases h), ⟨?_, trivial⟩, h0, fun _ h => by cases h⟩, trivial⟩
      unfold PlainText; decide +kernel)
    (by
      simp only [FineFile, Line.Fine, Value.Fine, Parts]
      refine ⟨⟨h0, hname, fun h => (by cases h), ⟨?_, trivial⟩, h0, fun _ h => by cases h⟩, trivial⟩
      unfold DoubleText; decide +kernel)
    (by decide +kernel) (by decide +kernel)
    ⟨by intro c hc; cases hc; decide, by intro c hc; cases hc; decide⟩ (by decide)
  rw [this]
  decide +kernel

end Verif.Props.Detector
