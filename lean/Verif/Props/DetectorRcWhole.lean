import Verif.Props.DetectorRc
/-
C135 and C136, the whole: which milters are found on Debian without systemd and on FreeBSD, where,
and whether they are enabled.
-/
namespace Verif.Props.Detector
open Verif Verif.Detector Spec.Detector Spec.DetectorRc

/-! ## Debian -/

theorem no_shebang (c : Bytes) (h : ¬ascii "#!" <+: c) : withoutShebang c = c := by
  unfold withoutShebang
  rw [if_neg]
  intro hh
  exact h (List.isPrefixOf_iff_prefix.mp hh)

/-- the usual first line and empty lines are left out -/
theorem shebang (n : Nat) (c : Bytes) (h : ∀ x, c.head? = some x → ¬Blank x) :
    withoutShebang (ascii "#!/bin/sh" ++ List.replicate n 0x0a ++ c) = c := by
  have h1 : (ascii "#!").isPrefixOf (ascii "#!/bin/sh" ++ List.replicate n 0x0a ++ c) = true := by
    rw [List.append_assoc]; rfl
  have h2 : ((ascii "#!/bin/sh" ++ List.replicate n 0x0a ++ c).drop 2).dropWhile Conditions.isBlank = ascii "/bin/sh" ++ (List.replicate n 0x0a ++ c) := by
    rw [List.append_assoc]; rfl
  have h3 : (ascii "/bin/sh").isPrefixOf (ascii "/bin/sh" ++ (List.replicate n 0x0a ++ c)) = true := by
    exact List.isPrefixOf_iff_prefix.mpr (List.prefix_append ..)
  have h4 : (ascii "/bin/sh" ++ (List.replicate n 0x0a ++ c)).drop 7 = List.replicate n 0x0a ++ c := rfl
  have h5 : (List.replicate n 0x0a ++ c).dropWhile Conditions.isBlank = c := by
    have := lstrip_blanks (i := List.replicate n 0x0a) (fun x hx => by rw [List.eq_of_mem_replicate hx]; decide) c
    unfold Conditions.lstrip at this
    rw [this]
    exact lstrip_id h
  unfold withoutShebang
  dsimp only
  rw [if_pos h1, h2, if_pos h3, h4, h5]

/-- how an init script of assignments may begin -/
def Begins (init : Bytes) (ls : List Line) : Prop :=
  (init = printFile ls ∧ ¬ascii "#!" <+: init) ∨
    ∃ n, init = ascii "#!/bin/sh" ++ List.replicate n 0x0a ++ printFile ls ∧ ∀ x, (printFile ls).head? = some x → ¬Blank x

theorem begins {init : Bytes} {ls : List Line} (h : Begins init ls) : withoutShebang init = printFile ls := by
  rcases h with ⟨h1, h2⟩ | ⟨n, h1, h2⟩
  · rw [no_shebang _ h2, h1]
  · rw [h1, shebang n _ h2]

/-- a machine with an init script and a file in /etc/default that are assignments -/
structure OnDebian (m : Machine) (script : Bytes) (init default : List Line) : Prop where
  inInit : ∃ c, m.file (ascii "/etc/init.d/" ++ script) = some c ∧ Begins c init
  inDefault : m.file (ascii "/etc/default/" ++ script) = some (printFile default)
  fineInit : FineFile false (fun _ => none) init
  fineDefault : FineFile false (shell (fun _ => none) init) default

theorem debian_vars {m : Machine} {script : Bytes} {init default : List Line} (h : OnDebian m script init default) (info : Info) :
    ∃ c, m.file (ascii "/etc/init.d/" ++ script) = some c ∧ debianVars m script info c = shell (fun _ => none) (init ++ default) := by
  obtain ⟨c, hc, hb⟩ := h.inInit
  refine ⟨c, hc, ?_⟩
  unfold debianVars
  dsimp only
  rw [begins hb, h.inDefault]
  dsimp only
  rw [C123_partial false none init _ h.fineInit, C123_partial false _ default _ h.fineDefault]
  simp [shell]

/-- **C135** (enabled).  A milter of Debian other than clamav-milter is enabled unless its files set
`ENABLED` to 0. -/
theorem C135_enabled_partial (m : Machine) (script : Bytes) (init default : List Line) (info : Info)
    (custom : Option (Option Bytes → Option Bytes)) (h : OnDebian m script init default) (hs : script ≠ ascii "clamav-milter") :
    ∃ d, debian m script info custom = some d ∧
      (d.enabled = true ↔ shell (fun _ => none) (init ++ default) (ascii "ENABLED") ≠ some (ascii "0")) := by
  obtain ⟨c, hc, hv⟩ := debian_vars h info
  unfold debian
  rw [hc]
  refine ⟨_, rfl, ?_⟩
  dsimp only
  rw [hv]
  have : debianClamav script (shell (fun _ => none) (init ++ default)) = false := by
    unfold debianClamav
    have : (script == ascii "clamav-milter") = false := by simp [hs]
    rw [this]; rfl
  rw [this]
  simp

/-- the variables that name a socket, in the order of Debian -/
def debianKeys : List Bytes := [ascii "SOCKET", ascii "SOCKFILE", ascii "CONNECTION_SPEC"]

/-- the first of some variables that is set has this value -/
def FirstSet (env : Env) : List Bytes → Bytes → Prop
  | [], _ => False
  | k :: ks, s => env k = some s ∨ (env k = none ∧ FirstSet env ks s)

/-- **C135** (the socket; partial).  It is found at the first of `SOCKET`, `SOCKFILE` and
`CONNECTION_SPEC` that the shell would have set. -/
theorem C135_socket_partial (m : Machine) (script : Bytes) (init default : List Line) (info : Info) (s : Bytes)
    (h : OnDebian m script init default) (hc : script ≠ ascii "clamav-milter") (ho : script ≠ ascii "opendkim")
    (hs : FirstSet (shell (fun _ => none) (init ++ default)) debianKeys s) (h1 : Stripped s) (h0 : s ≠ []) :
    ∃ d, debian m script info none = some d ∧ d.spec = some (finish s) := by
  obtain ⟨c, hf, hv⟩ := debian_vars h info
  unfold debian
  rw [hf]
  refine ⟨_, rfl, ?_⟩
  dsimp only
  rw [hv]
  have : debianClamav script (shell (fun _ => none) (init ++ default)) = false := by
    unfold debianClamav
    have : (script == ascii "clamav-milter") = false := by simp [hc]
    rw [this]; rfl
  unfold debianSpec
  have hn := normalizeSpec_some h1 h0
  have nn : normalizeSpec none = none := rfl
  rcases hs with e | ⟨e1, e | ⟨e2, e | ⟨_, e⟩⟩⟩
  · simp [this, ho, e, hn]
  · simp [this, ho, e1, e, nn, hn]
  · simp [this, ho, e1, e2, e, nn, hn]
  · exact e.elim

/-- **C135** (the socket among arguments; partial).  If no such variable is set it is the argument of
`-p` in `OPTARGS`, as the shell would split it. -/
theorem C135_arguments_partial (m : Machine) (script : Bytes) (init default : List Line) (info : Info) (f v : Bytes) (a b : List Bytes)
    (h : OnDebian m script init default) (hc : script ≠ ascii "clamav-milter") (ho : script ≠ ascii "opendkim")
    (hs : ∀ k ∈ debianKeys, shell (fun _ => none) (init ++ default) k = none)
    (hf : shell (fun _ => none) (init ++ default) (ascii "OPTARGS") = some f)
    (hw : m.words f = a ++ ascii "-p" :: v :: b) (hl : ascii "-p" ∉ v :: b) (hv : v.head? ≠ some 0x24) :
    ∃ d, debian m script info none = some d ∧ d.spec = some (finish v) := by
  obtain ⟨c, hfile, hvars⟩ := debian_vars h info
  unfold debian
  rw [hfile]
  refine ⟨_, rfl, ?_⟩
  dsimp only
  rw [hvars]
  have : debianClamav script (shell (fun _ => none) (init ++ default)) = false := by
    unfold debianClamav
    have : (script == ascii "clamav-milter") = false := by simp [hc]
    rw [this]; rfl
  have hp : flag m (some f) "-p" = some v := by
    unfold flag
    rw [Option.bind_some, hw, C126_word _ v a b hl, if_neg hv]
  unfold debianSpec
  have nn : normalizeSpec none = none := rfl
  have e1 := hs (ascii "SOCKET") (by simp [debianKeys])
  have e2 := hs (ascii "SOCKFILE") (by simp [debianKeys])
  have e3 := hs (ascii "CONNECTION_SPEC") (by simp [debianKeys])
  simp [this, ho, e1, e2, e3, nn, hf, hp]

/-- **C135** (violated).  Whatever its configuration says: milter-greylist is not found at the socket
its configuration names, since that is not looked at on Debian, unlike on Red Hat. -/
theorem C135_greylist_violated (conf : Bytes → Option Bytes) (info : Info) (words : Bytes → List Bytes)
    (hinit : conf (ascii "/etc/init.d/milter-greylist") = some (ascii "DAEMON=/usr/sbin/milter-greylist\n"))
    (hdef : conf (ascii "/etc/default/milter-greylist") = some (ascii "ENABLED=1\n")) :
    debian { file := conf, words := words } (ascii "milter-greylist") info none =
      some { spec := none, description := info (ascii "Description"), enabled := true } := by
  let init : List Line := [.assign false [] (ascii "DAEMON") (.plain [.text (ascii "/usr/sbin/milter-greylist")]) [] none]
  let default : List Line := [.assign false [] (ascii "ENABLED") (.plain [.text (ascii "1")]) [] none]
  have hA : printFile init = ascii "DAEMON=/usr/sbin/milter-greylist\n" := by decide +kernel
  have hB : printFile default = ascii "ENABLED=1\n" := by decide +kernel
  have h : OnDebian { file := conf, words := words } (ascii "milter-greylist") init default :=
    { inInit := ⟨_, by rw [show ascii "/etc/init.d/" ++ ascii "milter-greylist" = ascii "/etc/init.d/milter-greylist" from by decide +kernel]; exact hinit,
        Or.inl ⟨hA.symm, by decide +kernel⟩⟩
      inDefault := by
        rw [show ascii "/etc/default/" ++ ascii "milter-greylist" = ascii "/etc/default/milter-greylist" from by decide +kernel, hB]; exact hdef
      fineInit := ⟨by
        refine ⟨by simp [Blanks], ?_, ?_, ?_, by simp [Blanks], by simp⟩
        · refine ⟨by decide, ?_, ?_⟩ <;> decide +kernel
        · intro _; unfold Small; decide +kernel
        · refine ⟨?_, trivial⟩; unfold PlainText; decide +kernel, trivial⟩
      fineDefault := ⟨by
        refine ⟨by simp [Blanks], ?_, ?_, ?_, by simp [Blanks], by simp⟩
        · refine ⟨by decide, ?_, ?_⟩ <;> decide +kernel
        · intro _; unfold Small; decide +kernel
        · refine ⟨?_, trivial⟩; unfold PlainText; decide +kernel, trivial⟩ }
  obtain ⟨c, hf, hv⟩ := debian_vars h info
  unfold debian
  rw [hf]
  dsimp only
  rw [hv]
  have key : ∀ k : Bytes, k ≠ ascii "DAEMON" → k ≠ ascii "ENABLED" → shell (fun _ => none) (init ++ default) k = none := by
    intro k h1 h2
    simp [init, default, shell, Line.run, h1, h2]
  have en : shell (fun _ => none) (init ++ default) (ascii "ENABLED") = some (ascii "1") := by decide +kernel
  have nn : normalizeSpec none = none := rfl
  have hc : debianClamav (ascii "milter-greylist") (shell (fun _ => none) (init ++ default)) = false := by
    have : (ascii "milter-greylist" == ascii "clamav-milter") = false := by decide +kernel
    unfold debianClamav; rw [this]; rfl
  have ho : ascii "milter-greylist" ≠ ascii "opendkim" := by decide +kernel
  have sp : debianSpec { file := conf, words := words } (ascii "milter-greylist") (shell (fun _ => none) (init ++ default)) none = none := by
    unfold debianSpec
    simp only [hc, ho, key (ascii "SOCKET") (by decide +kernel) (by decide +kernel), key (ascii "SOCKFILE") (by decide +kernel) (by decide +kernel),
      key (ascii "CONNECTION_SPEC") (by decide +kernel) (by decide +kernel), key (ascii "OPTARGS") (by decide +kernel) (by decide +kernel),
      key (ascii "DAEMON_ARGS") (by decide +kernel) (by decide +kernel), key (ascii "PARAMS") (by decide +kernel) (by decide +kernel), nn]
    rfl
  rw [sp, hc, en, key (ascii "DESC") (by decide +kernel) (by decide +kernel)]
  simp only [Option.or_none, Option.map_none]
  rfl

/-- a machine that meets the hypotheses of the theorems on Debian -/
def debianMachine : Machine where
  file p :=
    if p = ascii "/etc/init.d/x" then
      some (ascii "#!/bin/sh\n\nNAME=x\nENABLED=0\nSOCKET=/run/$NAME/sock\n")
    else if p = ascii "/etc/default/x" then some (ascii "ENABLED=1\n# SOCKET=/tmp/x\n")
    else none
  words _ := []

example : debian debianMachine (ascii "x") (fun _ => none) none =
    some { spec := some (ascii "unix:/run/x/sock"), description := none, enabled := true } := by decide +kernel

/-! ## FreeBSD -/

theorem lastSet_append (n : Bytes) (a b : List ConfLine) : lastSet n (a ++ b) = (lastSet n b).or (lastSet n a) := by
  induction a with
  | nil => simp [lastSet]
  | cons l a ih =>
    cases l with
    | set n' q v =>
      rw [List.cons_append]
      by_cases h : n' = n
      · simp only [lastSet, if_pos h, ih]; cases lastSet n b <;> rfl
      · simp only [lastSet, if_neg h, ih]
    | blank => rw [List.cons_append]; simp only [lastSet, ih]
    | comment t => rw [List.cons_append]; simp only [lastSet, ih]

/-- a machine of FreeBSD: the script of a milter of a name, and the three files of settings, of
which any may be missing -/
structure OnFreeBSD (m : Machine) (script name : Bytes) (lines : List ScriptLine) (conf confLocal confOwn : List ConfLine) : Prop where
  file : m.file (ascii "/usr/local/etc/rc.d/" ++ script) = some (printScript name lines)
  isName : Name name
  named : lastAssigned (ascii "name") lines = some name
  fine : ∀ l ∈ lines, l.Fine name
  once : ∀ k, (defaultsOf k lines).length ≤ 1
  inConf : contentOf m (ascii "/etc/rc.conf") = printConf conf
  inLocal : contentOf m (ascii "/etc/rc.conf.local") = printConf confLocal
  inOwn : contentOf m (ascii "/etc/rc.conf.d/" ++ name) = printConf confOwn
  fineConf : ∀ l ∈ conf ++ confLocal ++ confOwn, l.Fine

/-- the value of a variable on such a machine -/
abbrev on (name : Bytes) (lines : List ScriptLine) (conf confLocal confOwn : List ConfLine) : Env :=
  effective name (conf ++ confLocal ++ confOwn) lines

theorem freebsd_read {m : Machine} {script name : Bytes} {lines : List ScriptLine} {c1 c2 c3 : List ConfLine}
    (h : OnFreeBSD m script name lines c1 c2 c3) :
    rcName (printScript name lines) = some name ∧
    (∀ k, k ≠ [] → (rcRead m name (printScript name lines)).1 k = on name lines c1 c2 c3 k) ∧
    (rcRead m name (printScript name lines)).2.2 = lastAssigned (ascii "command_args") lines := by
  refine ⟨?_, ?_, ?_⟩
  · refine (rcName_fine name h.isName lines none h.fine).trans ?_
    rw [h.named]
    rfl
  · intro k hk
    unfold rcRead
    dsimp only
    have f := h.fineConf
    rw [h.inConf, h.inLocal, h.inOwn,
      rcConf_fine _ name h.isName _ k hk c3 _ (fun l hl => f l (by simp [hl])),
      rcConf_fine _ name h.isName _ k hk c2 _ (fun l hl => f l (by simp [hl])),
      rcConf_fine _ name h.isName _ k hk c1 _ (fun l hl => f l (by simp [hl])),
      (rcScript_fine name h.isName _ _ lines _ h.fine).1 k]
    unfold on effective
    rw [lastSet_append, lastSet_append]
    have ho := h.once k
    have : (defaultsOf k lines).getLast? = (defaultsOf k lines).head? := by
      cases hd : defaultsOf k lines with
      | nil => rfl
      | cons x xs =>
        rw [hd] at ho
        cases xs with
        | nil => rfl
        | cons y ys => simp at ho
    rw [this]
    cases lastSet (name ++ [0x5f] ++ k) c3 <;> cases lastSet (name ++ [0x5f] ++ k) c2 <;>
      cases lastSet (name ++ [0x5f] ++ k) c1 <;> cases (defaultsOf k lines).head? <;> rfl
  · unfold rcRead
    dsimp only
    rw [(rcScript_fine name h.isName _ _ lines _ h.fine).2]
    simp

theorem lower_is (x : UInt8) : (Headers.lower x = 0x79 ↔ x = 0x59 ∨ x = 0x79) ∧ (Headers.lower x = 0x65 ↔ x = 0x45 ∨ x = 0x65) ∧
    (Headers.lower x = 0x73 ↔ x = 0x53 ∨ x = 0x73) := by
  have key : ∀ i : Fin 256, (Headers.lower (UInt8.ofNat i) = 0x79 ↔ UInt8.ofNat i = 0x59 ∨ UInt8.ofNat i = 0x79) ∧
      (Headers.lower (UInt8.ofNat i) = 0x65 ↔ UInt8.ofNat i = 0x45 ∨ UInt8.ofNat i = 0x65) ∧
      (Headers.lower (UInt8.ofNat i) = 0x73 ↔ UInt8.ofNat i = 0x53 ∨ UInt8.ofNat i = 0x73) := by decide +kernel
  have := key ⟨x.toNat, x.toNat_lt⟩
  simpa using this

theorem isYes_iff (v : Bytes) : isYes v = true ↔ Yes v := by
  unfold isYes Conditions.downcase Yes
  rw [beq_iff_eq, show ascii "yes" = [0x79, 0x65, 0x73] from rfl]
  constructor
  · intro h
    match v, h with
    | [a, b, c], h =>
      simp only [List.map_cons, List.map_nil, List.cons.injEq, and_true] at h
      exact ⟨a, b, c, rfl, (lower_is a).1.mp h.1, (lower_is b).2.1.mp h.2.1, (lower_is c).2.2.mp h.2.2⟩
    | [], h => simp at h
    | [a], h => simp at h
    | [a, b], h => simp at h
    | a :: b :: c :: d :: r, h => simp at h
  · rintro ⟨a, b, c, rfl, ha, hb, hc⟩
    simp only [List.map_cons, List.map_nil, (lower_is a).1.mpr ha, (lower_is b).2.1.mpr hb, (lower_is c).2.2.mpr hc]

/-- **C136** (enabled; partial).  A milter of FreeBSD is enabled if and only if the value its
variable `enable` has, by rc.conf or by default, is yes. -/
theorem C136_enabled_partial (m : Machine) (script name : Bytes) (lines : List ScriptLine) (c1 c2 c3 : List ConfLine)
    (custom : Option (Option Bytes → Option Bytes)) (h : OnFreeBSD m script name lines c1 c2 c3)
    (hp : on name lines c1 c2 c3 (ascii "profiles") = none) :
    ∃ d, freebsd m script custom = .found d ∧
      (d.enabled = true ↔ ∃ v, on name lines c1 c2 c3 (ascii "enable") = some v ∧ Yes v) := by
  obtain ⟨r1, r2, _⟩ := freebsd_read h
  unfold freebsd
  rw [h.file]
  dsimp only
  rw [r1]
  dsimp only
  rw [r2 (ascii "profiles") (by decide), hp, if_neg (by simp)]
  refine ⟨_, rfl, ?_⟩
  dsimp only
  rw [r2 (ascii "enable") (by decide)]
  cases hv : on name lines c1 c2 c3 (ascii "enable") with
  | none =>
    have : isYes (ascii "NO") = false := by decide
    simp [this]
  | some v => simp [isYes_iff]

/-- the scripts and names with rules of their own on FreeBSD -/
def freebsdSpecials : List Bytes :=
  [ascii "milter-enma", ascii "milterenma", ascii "clamav-milter", ascii "clamav_milter", ascii "milter-opendkim",
    ascii "milteropendkim", ascii "rspamd"]

theorem freebsdSpecial_none {m : Machine} {script name : Bytes} (vars other : Vars) (args : Option Bytes)
    (h1 : script ∉ freebsdSpecials) (h2 : name ∉ freebsdSpecials) : freebsdSpecial m script name vars other args = none := by
  simp only [freebsdSpecials, List.mem_cons, List.not_mem_nil, or_false, not_or] at h1 h2
  obtain ⟨a1, _, a3, _, a5, _, a7⟩ := h1
  obtain ⟨_, b2, _, b4, _, b6, b7⟩ := h2
  unfold freebsdSpecial
  simp only [a1, a3, a5, a7, b2, b4, b6, b7, or_self, if_false, Option.or_none]

/-- **C136** (the socket; partial).  It is found at the first of `socket`, `sockfile` and
`connection_spec` that is set by rc.conf or by default. -/
theorem C136_socket_partial (m : Machine) (script name : Bytes) (lines : List ScriptLine) (c1 c2 c3 : List ConfLine) (s : Bytes)
    (h : OnFreeBSD m script name lines c1 c2 c3) (h1 : script ∉ freebsdSpecials) (h2 : name ∉ freebsdSpecials)
    (hs : FirstSet (on name lines c1 c2 c3) [ascii "socket", ascii "sockfile", ascii "connection_spec"] s)
    (hs1 : Stripped s) (hs0 : s ≠ []) :
    ∃ d, freebsd m script none = .found d ∧ d.spec = some (finish s) := by
  obtain ⟨r1, r2, _⟩ := freebsd_read h
  have h1' := h1
  have h2' := h2
  simp only [freebsdSpecials, List.mem_cons, List.not_mem_nil, or_false, not_or] at h1' h2'
  unfold freebsd
  rw [h.file]
  dsimp only
  rw [r1]
  dsimp only
  rw [if_neg (by simp [h1', h2'])]
  refine ⟨_, rfl, ?_⟩
  dsimp only
  unfold freebsdSpec
  have hn := normalizeSpec_some hs1 hs0
  have nn : normalizeSpec none = none := rfl
  rw [freebsdSpecial_none _ _ _ h1 h2, r2 (ascii "socket") (by decide), r2 (ascii "sockfile") (by decide), r2 (ascii "connection_spec") (by decide)]
  rcases hs with e | ⟨e1, e | ⟨e2, e | ⟨_, e⟩⟩⟩
  · simp [e, hn]
  · simp [e1, e, nn, hn]
  · simp [e1, e2, e, nn, hn]
  · exact e.elim

/-- **C136** (the socket among the flags; partial).  Otherwise it is the argument of `-p` in the
variable `flags`, as the shell would split it. -/
theorem C136_flags_partial (m : Machine) (script name : Bytes) (lines : List ScriptLine) (c1 c2 c3 : List ConfLine) (f v : Bytes)
    (a b : List Bytes) (h : OnFreeBSD m script name lines c1 c2 c3) (h1 : script ∉ freebsdSpecials) (h2 : name ∉ freebsdSpecials)
    (hs : ∀ k ∈ [ascii "socket", ascii "sockfile", ascii "connection_spec"], on name lines c1 c2 c3 k = none)
    (hf : on name lines c1 c2 c3 (ascii "flags") = some f)
    (hw : m.words f = a ++ ascii "-p" :: v :: b) (hl : ascii "-p" ∉ v :: b) (hv : v.head? ≠ some 0x24) :
    ∃ d, freebsd m script none = .found d ∧ d.spec = some (finish v) := by
  obtain ⟨r1, r2, _⟩ := freebsd_read h
  have h1' := h1
  have h2' := h2
  simp only [freebsdSpecials, List.mem_cons, List.not_mem_nil, or_false, not_or] at h1' h2'
  unfold freebsd
  rw [h.file]
  dsimp only
  rw [r1]
  dsimp only
  rw [if_neg (by simp [h1', h2'])]
  refine ⟨_, rfl, ?_⟩
  dsimp only
  have hp : flag m (some f) "-p" = some v := by
    unfold flag
    rw [Option.bind_some, hw, C126_word _ v a b hl, if_neg hv]
  have nn : normalizeSpec none = none := rfl
  unfold freebsdSpec
  rw [freebsdSpecial_none _ _ _ h1 h2, r2 (ascii "socket") (by decide), r2 (ascii "sockfile") (by decide), r2 (ascii "connection_spec") (by decide),
    r2 (ascii "flags") (by decide), hs _ (by simp), hs _ (by simp), hs _ (by simp), hf, nn]
  simp [hp]

/-- **C136** (only variables of the milter).  Whatever the files of settings say of others: the value
of a variable of the milter comes from lines that name it. -/
theorem C136_others (m : Machine) (script name : Bytes) (lines : List ScriptLine) (c1 c2 c3 : List ConfLine)
    (h : OnFreeBSD m script name lines c1 c2 c3) (k : Bytes) (hk : k ≠ [])
    (h0 : ∀ n q v, ConfLine.set n q v ∈ c1 ++ c2 ++ c3 → n ≠ name ++ [0x5f] ++ k) :
    (rcRead m name (printScript name lines)).1 k = (defaultsOf k lines).head? := by
  rw [(freebsd_read h).2.1 k hk]
  unfold on effective
  have key : ∀ ls : List ConfLine, (∀ n q v, ConfLine.set n q v ∈ ls → n ≠ name ++ [0x5f] ++ k) → lastSet (name ++ [0x5f] ++ k) ls = none := by
    intro ls
    induction ls with
    | nil => intro _; rfl
    | cons l ls ih =>
      intro hl
      have ih := ih fun n q v hm => hl n q v (List.mem_cons_of_mem _ hm)
      cases l with
      | set n q v => simp only [lastSet, if_neg (hl n q v (List.mem_cons_self ..)), ih]
      | blank => exact ih
      | comment t => exact ih
  rw [key _ h0]
  rfl

/-! ### where the code is not what is expected -/

theorem splitLast_two (k w : Bytes) (u : Bytes) (hw : 0x3d ∉ w) (h0 : w ≠ []) :
    splitLast [] (k ++ 0x3d :: (u ++ 0x3d :: w)) = some (k ++ 0x3d :: u, w) := by
  have := splitLast_one (k ++ 0x3d :: u) [] w hw h0 (Or.inr (by simp))
  simpa using this

/-- **C136** (violated: an equals sign in a value).  Whatever the variable and its value: a line of
rc.conf whose value has an equals sign does not set it, nor any other variable that has a name. -/
theorem C136_equals_violated (self : Option Bytes) (p k u w : Bytes) (other vars : Vars) (hp : Name p) (hk : Name k) (hu : 0x0a ∉ u)
    (hw : 0x0a ∉ w) (he : 0x3d ∉ w) (n : Bytes) (hn : Name n) :
    rcConf self p other (p ++ ascii "_" ++ k ++ ascii "=\"" ++ u ++ ascii "=" ++ w ++ ascii "\"\n") vars n = vars n := by
  have e : p ++ ascii "_" ++ k ++ ascii "=\"" ++ u ++ ascii "=" ++ w ++ ascii "\"\n" =
      ((p ++ [0x5f]) ++ (k ++ 0x3d :: ((0x22 :: u) ++ 0x3d :: (w ++ [0x22])))) ++ 0x0a :: [] := by
    rw [show ascii "_" = [0x5f] from rfl, show ascii "=\"" = [0x3d, 0x22] from rfl, show ascii "=" = [0x3d] from rfl,
      show ascii "\"\n" = [0x22, 0x0a] from rfl]
    simp
  have hno : 0x0a ∉ (p ++ [0x5f]) ++ (k ++ 0x3d :: ((0x22 :: u) ++ 0x3d :: (w ++ [0x22]))) := by
    simp [name_no_feed hp, name_no_feed hk, hu, hw]
  have hset : rcSetting p (((p ++ [0x5f]) ++ (k ++ 0x3d :: ((0x22 :: u) ++ 0x3d :: (w ++ [0x22])))) ++ [0x0a]) =
      some (k ++ 0x3d :: 0x22 :: u, w ++ [0x22]) := by
    unfold rcSetting
    rw [if_pos (by rw [List.append_assoc]; simp)]
    have : (((p ++ [0x5f]) ++ (k ++ 0x3d :: ((0x22 :: u) ++ 0x3d :: (w ++ [0x22])))) ++ [0x0a]).drop (p.length + 1) =
        (k ++ 0x3d :: ((0x22 :: u) ++ 0x3d :: (w ++ [0x22]))) ++ 0x0a :: [] := by
      rw [List.append_assoc, List.drop_append_of_le_length (by simp)]; simp
    rw [this, takeWhile_feed _ _ (fun hm => hno (List.mem_append_right _ hm)),
      splitLast_two k _ (0x22 :: u) (by simp [he]) (by simp)]
  unfold rcConf
  have hl := eachLine_cons _ hno []
  rw [List.append_nil] at hl
  rw [e, hl, List.foldl_cons, hset]
  dsimp only
  have hne : n ≠ k ++ 0x3d :: 0x22 :: u := fun h => name_no_equals hn (h ▸ by simp)
  rw [show eachLine [] = [] from rfl, List.foldl_nil, if_neg hne]

/-- a script with what is usual -/
def script (lines : String) : Bytes := ascii (". /etc/rc.subr\nname=\"x\"\nload_rc_config $name\n" ++ lines ++ "run_rc_command \"$1\"\n")

/-- a machine with a script and a file of settings; words are split at blanks -/
def freebsdMachine (own : String) (lines conf : String) : Machine where
  file p :=
    if p = ascii "/usr/local/etc/rc.d/" ++ ascii own then some (script lines)
    else if p = ascii "/etc/rc.conf" then some (ascii conf)
    else none
  words f := List.splitOn 0x20 f

/-- **C136** (violated: flags with an equals sign). -/
theorem C136_flags_violated :
    freebsd (freebsdMachine "x" ": ${x_enable=\"NO\"}\n" "x_enable=\"YES\"\nx_flags=\"-p /run/x -o a=b\"\n") (ascii "x") none =
      .found { spec := none, description := none, enabled := true } := by decide +kernel

/-- **C136** (violated: a comment behind a setting). -/
theorem C136_comment_violated :
    freebsd (freebsdMachine "x" ": ${x_enable=\"NO\"}\n" "x_enable=\"YES\" # today\nx_socket=/run/x\n") (ascii "x") none =
      .found { spec := some (ascii "unix:/run/x"), description := none, enabled := false } := by decide +kernel

/-- **C136** (violated: defaults with a colon and an equals sign, the usual form).  Whatever the
variable and its value: such a default is not seen. -/
theorem C136_default_violated (self : Option Bytes) (p k w : Bytes) (other : Vars) (s : Rc) (hp : Name p) (hk : Name k)
    (hw : 0x0a ∉ w) (n : Bytes) (hn : Name n) :
    (s.line self p other (ascii ": ${" ++ p ++ ascii "_" ++ k ++ ascii ":=" ++ w ++ ascii "}\n")).vars n = s.vars n := by
  have e : ascii ": ${" ++ p ++ ascii "_" ++ k ++ ascii ":=" ++ w ++ ascii "}\n" =
      (0x3a :: 0x20 :: 0x24 :: (([0x7b] ++ p ++ [0x5f]) ++ (k ++ 0x3a :: 0x3d :: (w ++ [0x7d])))) ++ 0x0a :: [] := by
    rw [show ascii ": ${" = [0x3a, 0x20, 0x24, 0x7b] from rfl, show ascii "_" = [0x5f] from rfl, show ascii ":=" = [0x3a, 0x3d] from rfl,
      show ascii "}\n" = [0x7d, 0x0a] from rfl]
    simp
  have h1 : ∀ (c : UInt8) (r : Bytes), c ≠ 0x24 → defaultHere p (c :: r) = none := by
    intro c r hc
    unfold defaultHere
    rw [if_neg]
    intro hh
    exact hc (List.cons_prefix_cons.mp (List.isPrefixOf_iff_prefix.mp hh)).1.symm
  have hname : ∀ (k taken : Bytes), (taken ≠ [] ∨ k ≠ []) → (∀ c ∈ k, Word c) →
      defaultName taken (k ++ 0x3a :: 0x3d :: (w ++ [0x7d])) = some (taken.reverse ++ k ++ [0x3a], w ++ [0x7d]) := by
    intro k
    induction k with
    | nil =>
      intro taken ht _
      have ht : taken ≠ [] := ht.resolve_right (· rfl)
      rw [List.nil_append]
      unfold defaultName
      rw [if_neg ht, show separator (0x3a :: 0x3d :: (w ++ [0x7d])) = none from rfl]
      dsimp only
      unfold defaultName
      rw [if_neg (by simp), show separator (0x3d :: (w ++ [0x7d])) = some (w ++ [0x7d]) from rfl]
      simp
    | cons c k ih =>
      intro taken _ hw'
      rw [List.cons_append]
      unfold defaultName
      have : (if taken = [] then none else separator (c :: (k ++ 0x3a :: 0x3d :: (w ++ [0x7d])))) = none := by
        split
        · rfl
        · exact separator_word c _ (hw' c (List.mem_cons_self ..))
      rw [this]
      dsimp only
      rw [ih (c :: taken) (Or.inl (by simp)) fun c' hc' => hw' c' (List.mem_cons_of_mem _ hc')]
      simp
  have h2 : defaultHere p (0x24 :: (([0x7b] ++ p ++ [0x5f]) ++ (k ++ 0x3a :: 0x3d :: (w ++ [0x7d])))) = some (k ++ [0x3a], w) := by
    unfold defaultHere
    have e2 : (0x24 :: (([0x7b] ++ p ++ [0x5f]) ++ (k ++ 0x3a :: 0x3d :: (w ++ [0x7d]))) : Bytes) =
        ([0x24, 0x7b] ++ p ++ [0x5f]) ++ (k ++ 0x3a :: 0x3d :: (w ++ [0x7d])) := by simp
    rw [e2, if_pos (by simp)]
    have : (([0x24, 0x7b] ++ p ++ [0x5f]) ++ (k ++ 0x3a :: 0x3d :: (w ++ [0x7d]))).drop (p.length + 3) =
        k ++ 0x3a :: 0x3d :: (w ++ [0x7d]) := by
      rw [List.drop_append_of_le_length (by simp)]; simp
    rw [this, hname k [] (Or.inr hk.1) hk.2.1]
    simp [beforeLast_end]
  have hf : 0x0a ∉ (0x3a :: 0x20 :: 0x24 :: (([0x7b] ++ p ++ [0x5f]) ++ (k ++ 0x3a :: 0x3d :: (w ++ [0x7d]))) : Bytes) := by
    simp [name_no_feed hp, name_no_feed hk, hw]
  have h3 : rcDefault p (0x3a :: 0x20 :: 0x24 :: (([0x7b] ++ p ++ [0x5f]) ++ (k ++ 0x3a :: 0x3d :: (w ++ [0x7d])))) = some (k ++ [0x3a], w) := by
    unfold rcDefault
    rw [h1 _ _ (by decide)]
    dsimp only
    unfold rcDefault
    rw [h1 _ _ (by decide)]
    dsimp only
    unfold rcDefault
    rw [h2]
  rw [e]
  unfold Rc.line
  dsimp only
  rw [takeWhile_feed _ _ hf, h3, if_neg]
  · dsimp only
    rw [if_neg]
    intro h
    exact name_bytes hn 0x3a (by decide) (h ▸ by simp)
  · rw [List.cons_append, List.dropWhile_cons_of_neg (by decide)]
    intro hh
    exact absurd (List.cons_prefix_cons.mp (List.isPrefixOf_iff_prefix.mp hh)).1 (by decide)

/-- **C136** (violated: two defaults).  The shell keeps the first, the detection takes the last. -/
theorem C136_first_violated :
    freebsd (freebsdMachine "x" ": ${x_socket=/run/a}\n: ${x_socket=/run/b}\n" "x_enable=YES\n") (ascii "x") none =
      .found { spec := some (ascii "unix:/run/b"), description := none, enabled := true } := by decide +kernel

/-- **C136** (violated: profiles).  Whatever else is there: OpenDKIM with profiles makes the
detection raise an exception. -/
theorem C136_profiles_violated (m : Machine) (name : Bytes) (lines : List ScriptLine) (c1 c2 c3 : List ConfLine) (v : Bytes)
    (custom : Option (Option Bytes → Option Bytes)) (h : OnFreeBSD m (ascii "milter-opendkim") name lines c1 c2 c3)
    (hp : on name lines c1 c2 c3 (ascii "profiles") = some v) (hv : ∃ c ∈ v, ¬Blank c) :
    freebsd m (ascii "milter-opendkim") custom = .raised := by
  obtain ⟨r1, r2, _⟩ := freebsd_read h
  unfold freebsd
  rw [h.file]
  dsimp only
  rw [r1]
  dsimp only
  rw [r2 (ascii "profiles") (by decide), hp, if_pos]
  refine ⟨Or.inl rfl, ?_⟩
  obtain ⟨c, hc, hb⟩ := hv
  rw [Option.getD_some, Bool.not_eq_true', List.all_eq_false]
  exact ⟨c, hc, fun e => hb ((blank_iff c).mp e)⟩

example : freebsd (freebsdMachine "milter-opendkim" "" "x_profiles=\"a b\"\n") (ascii "milter-opendkim") none = .raised := by decide +kernel

/-- a script and settings that meet the hypotheses -/
def exampleLines : List ScriptLine :=
  [.comment (ascii "!/bin/sh"), .command (ascii ". /etc/rc.subr"), .assign (ascii "name") .double (ascii "x"),
    .assign (ascii "rcvar") .no (ascii "x_enable"), .command (ascii "load_rc_config $name"),
    .default (ascii "enable") .equals .double (ascii "NO"), .default (ascii "socket") .colonMinus .no (ascii "/run/x")]

def exampleConf : List ConfLine :=
  [.comment (ascii " milters: x_enable=NO"), .blank, .set (ascii "x_enable") .double (ascii "YES"), .set (ascii "xy_enable") .double (ascii "NO")]

def exampleMachine : Machine where
  file p :=
    if p = ascii "/usr/local/etc/rc.d/x" then some (printScript (ascii "x") exampleLines)
    else if p = ascii "/etc/rc.conf" then some (printConf exampleConf)
    else none
  words f := List.splitOn 0x20 f

theorem example_on : OnFreeBSD exampleMachine (ascii "x") (ascii "x") exampleLines exampleConf [] [] where
  file := by
    unfold exampleMachine
    dsimp only
    rw [if_pos (by decide +kernel)]
  isName := by refine ⟨by decide, ?_, ?_⟩ <;> decide +kernel
  named := by decide +kernel
  fine := by
    intro l hl
    simp only [exampleLines, List.mem_cons, List.not_mem_nil, or_false] at hl
    rcases hl with rfl | rfl | rfl | rfl | rfl | rfl | rfl
    · exact ⟨by decide +kernel, by decide +kernel⟩
    · exact ⟨by decide +kernel, by decide +kernel, by decide +kernel⟩
    · exact ⟨⟨by decide, by decide +kernel, by decide +kernel⟩, by unfold FineValue; decide +kernel, by decide +kernel, by decide +kernel, by decide +kernel⟩
    · exact ⟨⟨by decide, by decide +kernel, by decide +kernel⟩, by unfold FineValue; decide +kernel, by decide +kernel, by decide +kernel, by decide +kernel⟩
    · exact ⟨by decide +kernel, by decide +kernel, by decide +kernel⟩
    · exact ⟨⟨by decide, by decide +kernel, by decide +kernel⟩, by unfold FineValue; decide +kernel⟩
    · exact ⟨⟨by decide, by decide +kernel, by decide +kernel⟩, by unfold FineValue; decide +kernel⟩
  once := by
    intro k
    simp only [exampleLines, defaultsOf, List.filterMap_cons, List.filterMap_nil]
    have : ascii "enable" ≠ ascii "socket" := by decide +kernel
    by_cases h1 : ascii "enable" = k <;> by_cases h2 : ascii "socket" = k <;> simp [h1, h2]
    exact absurd (h1.trans h2.symm) this
  inConf := by
    unfold contentOf exampleMachine
    dsimp only
    rw [if_neg (by decide +kernel), if_pos rfl]
    rfl
  inLocal := by decide +kernel
  inOwn := by decide +kernel
  fineConf := by
    intro l hl
    simp only [exampleConf, List.append_nil, List.mem_cons, List.not_mem_nil, or_false] at hl
    rcases hl with rfl | rfl | rfl | rfl
    · show _ ∉ _; decide +kernel
    · trivial
    · exact ⟨⟨by decide, by decide +kernel, by decide +kernel⟩, by unfold FineValue; decide +kernel⟩
    · exact ⟨⟨by decide, by decide +kernel, by decide +kernel⟩, by unfold FineValue; decide +kernel⟩

example : freebsd exampleMachine (ascii "x") none =
    .found { spec := some (ascii "unix:/run/x"), description := none, enabled := true } := by decide +kernel

end Verif.Props.Detector
