import Verif.Spec.Configuration
/-
C79-C83: what reloading, the command line and the controller do to the configuration.
-/
namespace Verif.Props.Configuration
open Verif Verif.Configuration Verif.Spec.Configuration

/-! ### clearing -/

theorem clearPackage_eq (b : Build) (c : Conf) (hp : c.platform = none → b.platform = none)
    (ho : c.options = none → b.options = none) :
    clearPackage b c = { c with platform := b.platform, options := b.options } := by
  cases c with
  | mk =>
    rename_i platform options _ _ _ _ _ _ _ _ _ _ _ _ _ _
    cases platform with
    | none =>
      cases options with
      | none => simp [clearPackage, hp rfl, ho rfl]
      | some y => simp [clearPackage, hp rfl]
    | some x =>
      cases options with
      | none => simp [clearPackage, ho rfl]
      | some y => simp [clearPackage]

theorem clear_eq (b : Build) (c : Conf) (hp : c.platform = none → b.platform = none)
    (ho : c.options = none → b.options = none) : clear b c = defaults b c.loadPaths := by
  unfold clear
  dsimp only
  rw [clearPackage_eq]
  · rfl
  · exact hp
  · exact ho

theorem newConf_eq (b : Build) (ds : List Bytes) : newConf b ds = defaults b ds := by
  unfold newConf
  rw [clear_eq] <;> simp

/-! ### finding files -/

theorem findFile_some {w : World} {fs : FS} {name : Bytes} {ds : List Bytes} {path : Bytes}
    (h : findFile w fs name ds = some path) : ∃ content, fs.file path = some content ∧ FirstIn w fs name ds content := by
  induction ds with
  | nil => simp [findFile] at h
  | cons d ds ih =>
    simp only [findFile] at h
    by_cases hd : (fs.file (w.join d name)).isSome
    · rw [if_pos hd] at h
      obtain ⟨x, hx⟩ := Option.isSome_iff_exists.mp hd
      cases h
      exact ⟨x, hx, [], d, ds, rfl, by simp, hx⟩
    · rw [if_neg hd] at h
      obtain ⟨x, hx, pre, e, post, rfl, hn, hf⟩ := ih h
      refine ⟨x, hx, d :: pre, e, post, rfl, ?_, hf⟩
      intro p hp
      rcases List.mem_cons.mp hp with rfl | hp
      · simpa using hd
      · exact hn p hp

theorem findFile_none {w : World} {fs : FS} {name : Bytes} {ds : List Bytes} (h : findFile w fs name ds = none) :
    Absent w fs name ds := by
  induction ds with
  | nil => intro d hd; cases hd
  | cons e ds ih =>
    simp only [findFile] at h
    by_cases hd : (fs.file (w.join e name)).isSome
    · rw [if_pos hd] at h; cases h
    · rw [if_neg hd] at h
      intro d hd'
      rcases List.mem_cons.mp hd' with rfl | hd'
      · simpa using hd
      · exact ih h d hd'

theorem firstIn_unique {w : World} {fs : FS} {name : Bytes} {ds : List Bytes} {x y : Bytes}
    (hx : FirstIn w fs name ds x) (hy : FirstIn w fs name ds y) : x = y := by
  induction ds with
  | nil => obtain ⟨pre, d, post, e, _⟩ := hx; cases pre <;> cases e
  | cons d ds ih =>
    obtain ⟨p1, d1, q1, e1, n1, f1⟩ := hx
    obtain ⟨p2, d2, q2, e2, n2, f2⟩ := hy
    cases p1 with
    | nil =>
      cases e1
      cases p2 with
      | nil => cases e2; rw [f1] at f2; exact Option.some.inj f2
      | cons a p2 => cases e2; rw [n2 d (by simp)] at f1; cases f1
    | cons a p1 =>
      cases e1
      cases p2 with
      | nil => cases e2; rw [n1 d (by simp)] at f2; cases f2
      | cons b p2 =>
        injection e2 with e e2
        exact ih ⟨p1, d1, q1, rfl, fun p hp => n1 p (by simp [hp]), f1⟩
          ⟨p2, d2, q2, e2, fun p hp => n2 p (by simp [hp]), f2⟩

theorem absent_firstIn {w : World} {fs : FS} {name : Bytes} {ds : List Bytes} {x : Bytes}
    (ha : Absent w fs name ds) (hx : FirstIn w fs name ds x) : False := by
  obtain ⟨pre, d, post, rfl, _, f⟩ := hx
  rw [ha d (by simp)] at f
  cases f

theorem load_found {w : World} {fs : FS} {run : FS → Bytes → Conf → List Call × Bool} {name content : Bytes} {c : Conf}
    (h : FirstIn w fs name c.loadPaths content) : load w fs run name c = runFile fs run content c := by
  unfold load
  cases hf : findFile w fs name c.loadPaths with
  | none => exact (absent_firstIn (findFile_none hf) h).elim
  | some path =>
    obtain ⟨x, hx, hfirst⟩ := findFile_some hf
    have := firstIn_unique hfirst h
    subst this
    simp [hx]

theorem load_absent {w : World} {fs : FS} {run : FS → Bytes → Conf → List Call × Bool} {name : Bytes} {c : Conf}
    (h : Absent w fs name c.loadPaths) : load w fs run name c = (c, .notExist) := by
  unfold load
  cases hf : findFile w fs name c.loadPaths with
  | none => rfl
  | some path =>
    obtain ⟨x, _, hfirst⟩ := findFile_some hf
    exact (absent_firstIn h hfirst).elim

theorem found_or_absent (w : World) (fs : FS) (name : Bytes) (ds : List Bytes) :
    Absent w fs name ds ∨ ∃ content, FirstIn w fs name ds content := by
  cases hf : findFile w fs name ds with
  | none => exact .inl (findFile_none hf)
  | some path =>
    obtain ⟨x, _, h⟩ := findFile_some hf
    exact .inr ⟨x, h⟩

/-! ### C79: a reload is like a restart -/

/-- C79 (partial).  Whatever the configuration holds, after a reload it is what the files that
are there now make of the defaults: nothing that was set before is left over.  What is missing:
a package platform (or package options) set to nothing is not given its default again. -/
theorem C79_partial (w : World) (fs : FS) (c : Conf)
    (hp : c.platform = none → w.build.platform = none) (ho : c.options = none → w.build.options = none) :
    FromFiles w fs c.loadPaths (reload w fs c).1 (reload w fs c).2 := by
  unfold reload
  rw [clear_eq w.build c hp ho]
  dsimp only
  have hl : (defaults w.build c.loadPaths).loadPaths = c.loadPaths := rfl
  rcases found_or_absent w fs configFileName c.loadPaths with ha | ⟨content, hf⟩
  · rw [load_absent (by rw [hl]; exact ha)]
    exact .nothing ha
  · rw [load_found (by rw [hl]; exact hf)]
    unfold runFile
    cases hr : w.run fs content (defaults w.build c.loadPaths) with
    | mk calls ok =>
    cases ok with
    | false => exact .failed hf hr
    | true =>
      dsimp only
      simp only [if_true]
      change FromFiles w fs c.loadPaths (loadCustomIfExist w fs (after (defaults w.build c.loadPaths) calls)).1
        (loadCustomIfExist w fs (after (defaults w.build c.loadPaths) calls)).2
      unfold loadCustomIfExist
      rcases found_or_absent w fs customConfigFileName (after (defaults w.build c.loadPaths) calls).loadPaths with ha | ⟨custom, hc⟩
      · rw [load_absent ha]
        exact .plain hf hr ha
      · rw [load_found hc]
        unfold runFile
        cases hr2 : w.runCustom fs custom (after (defaults w.build c.loadPaths) calls) with
        | mk more ok2 =>
        cases ok2 with
        | true => exact .custom hf hr hc hr2
        | false => exact .custom hf hr hc hr2

/-- the files determine the configuration -/
theorem fromFiles_unique {w : World} {fs : FS} {ds : List Bytes} {c c' : Conf} {ok ok' : Bool}
    (h : FromFiles w fs ds c ok) (h' : FromFiles w fs ds c' ok') : c = c' ∧ ok = ok' := by
  cases h with
  | nothing ha =>
    cases h' with
    | nothing _ => exact ⟨rfl, rfl⟩
    | failed hf _ => exact (absent_firstIn ha hf).elim
    | plain hf _ _ => exact (absent_firstIn ha hf).elim
    | custom hf _ _ _ => exact (absent_firstIn ha hf).elim
  | failed hf hr =>
    cases h' with
    | nothing ha => exact (absent_firstIn ha hf).elim
    | failed hf' hr' =>
      cases firstIn_unique hf hf'; rw [hr] at hr'; cases hr'; exact ⟨rfl, rfl⟩
    | plain hf' hr' _ => cases firstIn_unique hf hf'; rw [hr] at hr'; cases hr'
    | custom hf' hr' _ _ => cases firstIn_unique hf hf'; rw [hr] at hr'; cases hr'
  | plain hf hr ha =>
    cases h' with
    | nothing ha => exact (absent_firstIn ha hf).elim
    | failed hf' hr' => cases firstIn_unique hf hf'; rw [hr] at hr'; cases hr'
    | plain hf' hr' _ =>
      cases firstIn_unique hf hf'; rw [hr] at hr'; cases hr'; exact ⟨rfl, rfl⟩
    | custom hf' hr' hc _ =>
      cases firstIn_unique hf hf'; rw [hr] at hr'; cases hr'; exact (absent_firstIn ha hc).elim
  | custom hf hr hc hm =>
    cases h' with
    | nothing ha => exact (absent_firstIn ha hf).elim
    | failed hf' hr' => cases firstIn_unique hf hf'; rw [hr] at hr'; cases hr'
    | plain hf' hr' ha =>
      cases firstIn_unique hf hf'; rw [hr] at hr'; cases hr'; exact (absent_firstIn ha hc).elim
    | custom hf' hr' hc' hm' =>
      cases firstIn_unique hf hf'; rw [hr] at hr'; cases hr'
      cases firstIn_unique hc hc'; rw [hm] at hm'; cases hm'; exact ⟨rfl, rfl⟩

/-! ### C81: a custom configuration that was saved is loaded -/

theorem saveCustom_true {w : World} {content : Bytes} {fs fs' : FS} {ds : List Bytes}
    (h : saveCustom w content fs ds = (fs', true)) : ∃ pre d post, ds = pre ++ d :: post ∧
      (∀ p ∈ pre, fs.writable (w.join p customConfigFileName) = false) ∧
      fs' = fs.write (w.join d customConfigFileName) content := by
  induction ds with
  | nil => simp [saveCustom] at h
  | cons d ds ih =>
    simp only [saveCustom] at h
    by_cases hw : fs.writable (w.join d customConfigFileName)
    · rw [if_pos hw] at h
      cases h
      exact ⟨[], d, ds, rfl, by simp, rfl⟩
    · rw [if_neg hw] at h
      obtain ⟨pre, e, post, rfl, hn, rfl⟩ := ih h
      refine ⟨d :: pre, e, post, rfl, ?_, rfl⟩
      intro p hp
      rcases List.mem_cons.mp hp with rfl | hp
      · simpa using hw
      · exact hn p hp

theorem saveCustom_false {w : World} {content : Bytes} {fs fs' : FS} {ds : List Bytes}
    (h : saveCustom w content fs ds = (fs', false)) :
      fs' = fs ∧ ∀ d ∈ ds, fs.writable (w.join d customConfigFileName) = false := by
  induction ds with
  | nil => simp [saveCustom] at h; exact ⟨h.symm, by simp⟩
  | cons d ds ih =>
    simp only [saveCustom] at h
    by_cases hw : fs.writable (w.join d customConfigFileName)
    · rw [if_pos hw] at h
      cases h
    · rw [if_neg hw] at h
      obtain ⟨rfl, hn⟩ := ih h
      refine ⟨rfl, ?_⟩
      intro p hp
      rcases List.mem_cons.mp hp with rfl | hp
      · simpa using hw
      · exact hn p hp

/-- the first directory that has a custom configuration has the one just saved -/
theorem saved_first {w : World} {content : Bytes} {fs fs' : FS} {ds : List Bytes}
    (hro : ∀ d ∈ ds, fs.writable (w.join d customConfigFileName) = false → fs.file (w.join d customConfigFileName) = none)
    (h : saveCustom w content fs ds = (fs', true)) : FirstIn w fs' customConfigFileName ds content := by
  obtain ⟨pre, d, post, rfl, hn, rfl⟩ := saveCustom_true h
  -- the first directory whose path is the one written
  have key : ∀ (ds : List Bytes) , (∀ p ∈ ds, fs.writable (w.join p customConfigFileName) = false → fs.file (w.join p customConfigFileName) = none) →
      ∀ pre, ds = pre ++ d :: post → (∀ p ∈ pre, fs.writable (w.join p customConfigFileName) = false) →
      FirstIn w (fs.write (w.join d customConfigFileName) content) customConfigFileName ds content := by
    intro ds
    induction ds with
    | nil => intro _ pre e; cases pre <;> cases e
    | cons a ds ih =>
      intro hro pre e hn
      by_cases ha : w.join a customConfigFileName = w.join d customConfigFileName
      · exact ⟨[], a, ds, rfl, by simp, by simp [FS.write, ha]⟩
      · cases pre with
        | nil => cases e; exact (ha rfl).elim
        | cons b pre =>
          injection e with e1 e
          subst e1
          obtain ⟨p1, d1, q1, rfl, n1, f1⟩ := ih (fun p hp => hro p (by simp [hp])) pre e (fun p hp => hn p (by simp [hp]))
          refine ⟨a :: p1, d1, q1, rfl, ?_, f1⟩
          intro p hp
          rcases List.mem_cons.mp hp with rfl | hp
          · simp only [FS.write, if_neg ha]
            exact hro p (by simp) (hn p (by simp))
          · exact n1 p hp
  exact key _ hro pre rfl hn

/-- C81 (partial).  A custom configuration that was saved successfully is the one the next
reload runs, after the configuration file, provided the configuration file runs to its end and
leaves the load path as it is.  What is missing: a custom configuration in a directory of the
load path that cannot be written hides the one that was saved. -/
theorem C81_partial (w : World) (fs fs' : FS) (c : Conf) (content main : Bytes) (calls : List Call)
    (hro : ∀ d ∈ c.loadPaths, fs.writable (w.join d customConfigFileName) = false →
      fs.file (w.join d customConfigFileName) = none)
    (hs : saveCustom w content fs c.loadPaths = (fs', true))
    (hp : c.platform = none → w.build.platform = none) (ho : c.options = none → w.build.options = none)
    (hm : FirstIn w fs' configFileName c.loadPaths main)
    (hr : w.run fs' main (defaults w.build c.loadPaths) = (calls, true))
    (hl : (after (defaults w.build c.loadPaths) calls).loadPaths = c.loadPaths) :
    (reload w fs' c).1 = after (after (defaults w.build c.loadPaths) calls)
      (w.runCustom fs' content (after (defaults w.build c.loadPaths) calls)).1 ∧
    (reload w fs' c).2 = (w.runCustom fs' content (after (defaults w.build c.loadPaths) calls)).2 := by
  have h1 := C79_partial w fs' c hp ho
  have h2 : FromFiles w fs' c.loadPaths _ _ := .custom hm hr
    (by rw [hl]; exact saved_first hro hs)
    (show w.runCustom fs' content (after (defaults w.build c.loadPaths) calls) = (_, _) from rfl)
  exact fromFiles_unique h1 h2

/-- saving touches one file at most, and none if it fails -/
theorem C81_only (w : World) (fs : FS) (ds : List Bytes) (content : Bytes) :
    (∃ d ∈ ds, fs.writable (w.join d customConfigFileName) = true ∧
      (saveCustom w content fs ds).2 = true ∧
      ∀ p, (saveCustom w content fs ds).1.file p =
        if p = w.join d customConfigFileName then some content else fs.file p) ∨
    ((∀ d ∈ ds, fs.writable (w.join d customConfigFileName) = false) ∧
      saveCustom w content fs ds = (fs, false)) := by
  induction ds with
  | nil => right; simp [saveCustom]
  | cons d ds ih =>
    by_cases hw : fs.writable (w.join d customConfigFileName)
    · left
      refine ⟨d, by simp, hw, ?_, ?_⟩ <;> simp [saveCustom, hw, FS.write]
    · have hw' : fs.writable (w.join d customConfigFileName) = false := by simpa using hw
      have e : saveCustom w content fs (d :: ds) = saveCustom w content fs ds := by simp [saveCustom, hw']
      rw [e]
      rcases ih with ⟨a, ha, h⟩ | ⟨hn, h⟩
      · exact .inl ⟨a, by simp [ha], h⟩
      · refine .inr ⟨?_, h⟩
        intro p hp
        rcases List.mem_cons.mp hp with rfl | hp
        · exact hw'
        · exact hn p hp

/-! ### C82: the command line wins -/

theorem applySpec_eq (o : Own) (c : Conf) : ∃ l, applySpec o c = { c with managerSpec := o.spec.or c.managerSpec, locations := l } := by
  unfold applySpec
  cases o.spec with
  | none => exact ⟨c.locations, rfl⟩
  | some v => exact ⟨_, rfl⟩

theorem applyPidFile_eq (o : Own) (c : Conf) : ∃ l, applyPidFile o c = { c with pidFile := o.pidFile.or c.pidFile, locations := l } := by
  unfold applyPidFile
  cases o.pidFile with
  | none => exact ⟨c.locations, rfl⟩
  | some v => exact ⟨_, rfl⟩

theorem applyUser_eq (o : Own) (c : Conf) : ∃ l, applyUser o c = { c with user := o.user.or c.user, locations := l } := by
  unfold applyUser
  cases o.user with
  | none => exact ⟨c.locations, rfl⟩
  | some v => exact ⟨_, rfl⟩

theorem applyGroup_eq (o : Own) (c : Conf) : ∃ l, applyGroup o c = { c with group := o.group.or c.group, locations := l } := by
  unfold applyGroup
  cases o.group with
  | none => exact ⟨c.locations, rfl⟩
  | some v => exact ⟨_, rfl⟩

theorem applySocketMode_eq (o : Own) (c : Conf) : ∃ l, applySocketMode o c =
    { c with managerSocketMode := if o.socketMode ≠ 0 then o.socketMode else c.managerSocketMode, locations := l } := by
  unfold applySocketMode
  by_cases h : o.socketMode ≠ 0
  · rw [if_pos h, if_pos h]; exact ⟨_, rfl⟩
  · rw [if_neg h, if_neg h]; exact ⟨c.locations, rfl⟩

theorem applySocketGroup_eq (o : Own) (c : Conf) : ∃ l, applySocketGroup o c =
    { c with managerSocketGroup := o.socketGroup.or c.managerSocketGroup, locations := l } := by
  unfold applySocketGroup
  cases o.socketGroup with
  | none => exact ⟨c.locations, rfl⟩
  | some v => exact ⟨_, rfl⟩

theorem applyWorkers_eq (o : Own) (c : Conf) : ∃ l, applyWorkers o c =
    { c with nWorkers := if o.customWorkers = true then o.nWorkers else c.nWorkers, locations := l } := by
  unfold applyWorkers
  by_cases h : o.customWorkers = true
  · rw [if_pos h, if_pos h]; exact ⟨_, rfl⟩
  · rw [if_neg h, if_neg h]; exact ⟨c.locations, rfl⟩

theorem applyBackend_eq (o : Own) (c : Conf) : ∃ l, applyBackend o c =
    { c with backend := if o.backend ≠ .default then o.backend else c.backend, locations := l } := by
  unfold applyBackend
  by_cases h : o.backend ≠ .default
  · rw [if_pos h, if_pos h]; exact ⟨_, rfl⟩
  · rw [if_neg h, if_neg h]; exact ⟨c.locations, rfl⟩

theorem applyPending_eq (o : Own) (c : Conf) : ∃ l, applyPending o c =
    { c with maxPending := if o.customPending = true then o.maxPending else c.maxPending, locations := l } := by
  unfold applyPending
  by_cases h : o.customPending = true
  · rw [if_pos h, if_pos h]; exact ⟨_, rfl⟩
  · rw [if_neg h, if_neg h]; exact ⟨c.locations, rfl⟩

/-- what the manager's own settings make of a configuration -/
def overridden (o : Own) (c : Conf) (l : List (Bytes × Bytes × Int)) : Conf :=
  { c with
    managerSpec := o.spec.or c.managerSpec
    pidFile := o.pidFile.or c.pidFile
    user := o.user.or c.user
    group := o.group.or c.group
    managerSocketMode := if o.socketMode ≠ 0 then o.socketMode else c.managerSocketMode
    managerSocketGroup := o.socketGroup.or c.managerSocketGroup
    nWorkers := if o.customWorkers = true then o.nWorkers else c.nWorkers
    backend := if o.backend ≠ .default then o.backend else c.backend
    maxPending := if o.customPending = true then o.maxPending else c.maxPending
    locations := l }

theorem applyCustom_eq (m : Manager) : ∃ l, applyCustom m = { m with conf := overridden m.own m.conf l } := by
  suffices h : ∀ (o : Own) (c : Conf), ∃ l, applyPending o (applyBackend o (applyWorkers o (applySocketGroup o
      (applySocketMode o (applyGroup o (applyUser o (applyPidFile o (applySpec o c)))))))) = overridden o c l by
    obtain ⟨l, e⟩ := h m.own m.conf
    exact ⟨l, by unfold applyCustom; dsimp only; rw [e]⟩
  intro o c
  obtain ⟨_, e⟩ := applySpec_eq o c
  rw [e]; clear e
  obtain ⟨_, e⟩ := applyPidFile_eq o { c with managerSpec := o.spec.or c.managerSpec, locations := _ }
  rw [e]; clear e; dsimp only
  obtain ⟨_, e⟩ := applyUser_eq o _
  rw [e]; clear e; dsimp only
  obtain ⟨_, e⟩ := applyGroup_eq o _
  rw [e]; clear e; dsimp only
  obtain ⟨_, e⟩ := applySocketMode_eq o _
  rw [e]; clear e; dsimp only
  obtain ⟨_, e⟩ := applySocketGroup_eq o _
  rw [e]; clear e; dsimp only
  obtain ⟨_, e⟩ := applyWorkers_eq o _
  rw [e]; clear e; dsimp only
  obtain ⟨_, e⟩ := applyBackend_eq o _
  rw [e]; clear e; dsimp only
  obtain ⟨l, e⟩ := applyPending_eq o _
  rw [e]; clear e; dsimp only
  exact ⟨l, by unfold overridden; dsimp only⟩

/-- the same settings of the command line, but for those of syslog -/
def SameOptions (o o' : Own) : Prop := ∃ f s, o' = { o with facility := f, syslog := s }

theorem SameOptions.refl (o : Own) : SameOptions o o := ⟨o.facility, o.syslog, rfl⟩

theorem SameOptions.trans {a b c : Own} (h : SameOptions a b) (h' : SameOptions b c) : SameOptions a c := by
  obtain ⟨f, s, rfl⟩ := h
  obtain ⟨f', s', rfl⟩ := h'
  exact ⟨f', s', rfl⟩

theorem startSyslog_same (o : Own) : SameOptions o (startSyslog o) := ⟨_, _, rfl⟩

theorem setFacility_same (o : Own) (f : Option Bytes) : SameOptions o (setFacility o f) := by
  unfold setFacility
  by_cases h : o.facility = f
  · rw [if_pos h]; exact .refl o
  · rw [if_neg h]
    dsimp only
    split
    · exact ⟨_, _, rfl⟩
    · exact ⟨f, o.syslog, rfl⟩

theorem applySyslog_same (m : Manager) : SameOptions m.own (applySyslog m).own ∧ (applySyslog m).conf = m.conf := by
  unfold applySyslog
  split
  · split
    · exact ⟨setFacility_same _ _, rfl⟩
    · exact ⟨startSyslog_same _, rfl⟩
  · exact ⟨⟨m.own.facility, none, rfl⟩, rfl⟩

theorem reload_own (w : World) (fs : FS) (m : Manager) : SameOptions m.own (Manager.reload w fs m).1.own := by
  unfold Manager.reload
  dsimp only
  obtain ⟨l, e⟩ := applyCustom_eq (applySyslog { m with conf := (Configuration.reload w fs m.conf).1 })
  rw [e]
  exact (applySyslog_same { m with conf := (Configuration.reload w fs m.conf).1 }).1

theorem reload_conf (w : World) (fs : FS) (m : Manager) : ∃ l,
    (Manager.reload w fs m).1.conf = overridden (Manager.reload w fs m).1.own (reload w fs m.conf).1 l := by
  unfold Manager.reload
  dsimp only
  obtain ⟨l, e⟩ := applyCustom_eq (applySyslog { m with conf := (Configuration.reload w fs m.conf).1 })
  rw [e]
  exact ⟨l, by rw [(applySyslog_same { m with conf := (Configuration.reload w fs m.conf).1 }).2]⟩

/-- the options that are lost when the configuration is loaded -/
def Lost : CliOption → Prop
  | .syslog => True
  | .facility _ => True
  | .packetBufferSize _ => True
  | .socketMode v => v = 0
  | .backend v => v = .default
  | _ => False

/-- the manager remembers the option -/
def Has (o : Own) : CliOption → Prop
  | .spec v => o.spec = some v
  | .syslog => True
  | .facility _ => True
  | .daemon => o.customDaemon = true ∧ o.daemon = true
  | .noDaemon => o.customDaemon = true ∧ o.daemon = false
  | .user v => o.user = some v
  | .group v => o.group = some v
  | .socketGroup v => o.socketGroup = some v
  | .socketMode v => o.socketMode = v
  | .nWorkers v => o.customWorkers = true ∧ o.nWorkers = v
  | .backend v => o.backend = v
  | .packetBufferSize _ => True
  | .pidFile v => o.pidFile = some v
  | .maxPending v => o.customPending = true ∧ o.maxPending = v

theorem Has.same {o o' : Own} {x : CliOption} (h : Has o x) (hs : SameOptions o o') : Has o' x := by
  obtain ⟨f, s, rfl⟩ := hs
  cases x <;> exact h

theorem has_option (m : Manager) (x : CliOption) : Has (option m x).own x := by
  cases x <;> first | exact rfl | exact ⟨rfl, rfl⟩ | trivial

theorem has_kept {m : Manager} {x y : CliOption} (h : Has m.own x) (hs : setting y ≠ setting x) : Has (option m y).own x := by
  have key : ∀ z, (∃ v, z = CliOption.facility v) ∨ z = .syslog → Has (option m z).own x := by
    rintro z (⟨v, rfl⟩ | rfl)
    · exact h.same (setFacility_same _ _)
    · exact h.same (startSyslog_same _)
  cases y
  case facility v => exact key _ (.inl ⟨v, rfl⟩)
  case syslog => exact key _ (.inr rfl)
  all_goals cases x <;> first | exact h | exact (hs rfl).elim

theorem has_given {m : Manager} {opts : List CliOption} {x : CliOption} (hg : Given opts x) :
    Has (opts.foldl option m).own x := by
  obtain ⟨pre, post, rfl, hp⟩ := hg
  rw [List.foldl_append, List.foldl_cons]
  have : ∀ (post : List CliOption) (m : Manager), (∀ y ∈ post, setting y ≠ setting x) → Has m.own x →
      Has (post.foldl option m).own x := by
    intro post
    induction post with
    | nil => intro m _ h; exact h
    | cons y post ih =>
      intro m hp h
      exact ih _ (fun z hz => hp z (by simp [hz])) (has_kept h (hp y (by simp)))
  exact this post _ hp (has_option _ x)

/-- after a reload of the manager what it remembers is in force -/
theorem inForce_reload (w : World) (fs : FS) {m : Manager} {x : CliOption} (h : Has m.own x) (hl : ¬ Lost x) :
    InForce (Manager.reload w fs m).1 x := by
  have h' := h.same (reload_own w fs m)
  obtain ⟨l, e⟩ := reload_conf w fs m
  generalize (Manager.reload w fs m).1 = r at h' e
  cases x with
  | spec v => simp only [Has] at h'; simp [InForce, Manager.spec, e, overridden, h']
  | syslog => exact (hl trivial).elim
  | facility v => exact (hl trivial).elim
  | daemon => simp only [Has] at h'; simp [InForce, Manager.daemon, h']
  | noDaemon => simp only [Has] at h'; simp [InForce, Manager.daemon, h']
  | user v => simp only [Has] at h'; simp [InForce, Manager.user, e, overridden, h']
  | group v => simp only [Has] at h'; simp [InForce, Manager.group, e, overridden, h']
  | socketGroup v => simp only [Has] at h'; simp [InForce, Manager.socketGroup, e, overridden, h']
  | socketMode v =>
    simp only [Has] at h'
    have hv : v ≠ 0 := hl
    simp [InForce, Manager.socketMode, e, overridden, h', hv]
  | nWorkers v => simp only [Has] at h'; simp [InForce, Manager.nWorkers, h']
  | backend v =>
    simp only [Has] at h'
    have hv : v ≠ .default := hl
    simp [InForce, Manager.backend, h', hv]
  | packetBufferSize v => exact (hl trivial).elim
  | pidFile v => simp only [Has] at h'; simp [InForce, Manager.pidFile, e, overridden, h']
  | maxPending v => simp only [Has] at h'; simp [InForce, Manager.maxPending, h']

theorem event_own (w : World) (xml : FS → Conf → Bytes) (msg : Bytes) (s : System) (e : Event) :
    SameOptions s.manager.own (event w xml msg s e).manager.own := by
  cases e with
  | files fs => exact .refl _
  | hangup => exact reload_own w s.fs s.manager
  | control c =>
    cases c with
    | setConfiguration x =>
      simp only [event, Configuration.control]
      rcases saveCustom w x s.fs s.manager.conf.loadPaths with ⟨fs, _ | _⟩ <;> exact .refl _
    | getConfiguration => exact .refl _
    | reload => exact .refl _
    | getStatus => exact .refl _

theorem events_own (w : World) (xml : FS → Conf → Bytes) (msg : Bytes) (es : List Event) (s : System) :
    SameOptions s.manager.own (es.foldl (event w xml msg) s).manager.own := by
  induction es generalizing s with
  | nil => exact .refl _
  | cons e es ih => exact (event_own w xml msg s e).trans (ih _)

/-- an event that does not reload leaves the manager alone; one that reloads the manager puts
what it remembers in force -/
theorem inForce_event (w : World) (xml : FS → Conf → Bytes) (msg : Bytes) {s : System} {e : Event} {x : CliOption}
    (hr : asksReload e = false) (hl : ¬ Lost x) (h : Has s.manager.own x) (hi : InForce s.manager x) :
    InForce (event w xml msg s e).manager x := by
  cases e with
  | files fs => exact hi
  | hangup => exact inForce_reload w s.fs h hl
  | control c =>
    cases c with
    | setConfiguration y =>
      simp only [event, Configuration.control]
      rcases saveCustom w y s.fs s.manager.conf.loadPaths with ⟨fs, _ | _⟩ <;> exact hi
    | getConfiguration => exact hi
    | reload => cases hr
    | getStatus => exact hi

theorem inForce_events (w : World) (xml : FS → Conf → Bytes) (msg : Bytes) (es : List Event) {s : System} {x : CliOption}
    (hr : ∀ e ∈ es, asksReload e = false) (hl : ¬ Lost x) (h : Has s.manager.own x) (hi : InForce s.manager x) :
    InForce (es.foldl (event w xml msg) s).manager x := by
  induction es generalizing s with
  | nil => exact hi
  | cons e es ih =>
    exact ih (fun e he => hr e (by simp [he])) (h.same (event_own w xml msg s e))
      (inForce_event w xml msg (hr e (by simp)) hl h hi)

/-- the manager just before the configuration is loaded for good -/
theorem start_eq (w : World) (fs : FS) (s : Start) : ∃ m, start w fs s = (Manager.reload w fs m).1 ∧
    ∃ m₀, SameOptions (s.opts.foldl option m₀).own m.own := by
  refine ⟨_, rfl, newManager (newConf w.build (match s.configDirEnv with
    | some d => [d, s.configDir]
    | none => [s.configDir])), ?_⟩
  generalize s.opts.foldl option _ = m
  have step : ∀ (m' : Manager), SameOptions m.own m'.own → SameOptions m.own
      (match s.userDir m'.conf with
        | some d => { m' with conf := call m'.conf (.appendLoadPath d) }
        | none => m').own := by
    intro m' h
    split <;> exact h
  refine step _ ?_
  have step2 : ∀ (m' : Manager), SameOptions m.own m'.own → SameOptions m.own
      (if s.root then m' else { m' with conf := call m'.conf (.privilegeMode false) }).own := by
    intro m' h
    split <;> exact h
  refine step2 _ ?_
  split
  · exact reload_own w fs { m with conf := call m.conf (.prependLoadPath _) }
  · exact .refl _

/-- C82 (partial).  Whatever the configuration files say and however they change, an option of
the command line (the last one of its kind) is in force from the start on, through every reload
the manager does itself.  What is missing: `--syslog`, `--syslog-facility` and
`--packet-buffer-size` are lost when the configuration is loaded, socket mode 0 and the event
loop backend "default" count as not given, and a reload the controller is asked for drops most
options (see `C82_hangup_partial`). -/
theorem C82_partial (w : World) (xml : FS → Conf → Bytes) (msg : Bytes) (fs : FS) (s : Start) (x : CliOption)
    (hg : Given s.opts x) (hl : ¬ Lost x) (es : List Event) (hr : ∀ e ∈ es, asksReload e = false) :
    InForce (es.foldl (event w xml msg) ⟨start w fs s, fs⟩).manager x := by
  obtain ⟨m, e, m₀, hs⟩ := start_eq w fs s
  have hm : Has m.own x := (has_given hg).same hs
  refine inForce_events w xml msg es hr hl ?_ ?_
  · change Has (start w fs s).own x
    rw [e]
    exact hm.same (reload_own w fs m)
  · change InForce (start w fs s) x
    rw [e]
    exact inForce_reload w fs hm hl

/-- C82 (partial).  Whatever happened before, a hangup signal puts every remembered option of
the command line back in force. -/
theorem C82_hangup_partial (w : World) (xml : FS → Conf → Bytes) (msg : Bytes) (fs : FS) (s : Start) (x : CliOption)
    (hg : Given s.opts x) (hl : ¬ Lost x) (before es : List Event) (hr : ∀ e ∈ es, asksReload e = false) :
    InForce ((before ++ .hangup :: es).foldl (event w xml msg) ⟨start w fs s, fs⟩).manager x := by
  obtain ⟨m, e, m₀, hs⟩ := start_eq w fs s
  have hm : Has m.own x := (has_given hg).same hs
  have h0 : Has (start w fs s).own x := by rw [e]; exact hm.same (reload_own w fs m)
  rw [List.foldl_append, List.foldl_cons]
  have h1 := h0.same (events_own w xml msg before ⟨start w fs s, fs⟩)
  refine inForce_events w xml msg es hr hl ?_ ?_
  · exact h1.same (event_own w xml msg _ .hangup)
  · exact inForce_reload w _ h1 hl

/-- C82 (partial).  The number of workers, the event loop backend, running as a daemon and the
number of pending sessions stay as the command line has them even when the controller reloads. -/
theorem C82_controller_partial (w : World) (xml : FS → Conf → Bytes) (msg : Bytes) (fs : FS) (s : Start) (x : CliOption)
    (hg : Given s.opts x) (hl : ¬ Lost x)
    (hk : setting x = .nWorkers ∨ setting x = .backend ∨ setting x = .daemon ∨ setting x = .maxPending)
    (es : List Event) : InForce (es.foldl (event w xml msg) ⟨start w fs s, fs⟩).manager x := by
  obtain ⟨m, e, m₀, hs⟩ := start_eq w fs s
  have hm : Has m.own x := (has_given hg).same hs
  have h0 : Has (start w fs s).own x := by rw [e]; exact hm.same (reload_own w fs m)
  have h1 := h0.same (events_own w xml msg es ⟨start w fs s, fs⟩)
  generalize (es.foldl (event w xml msg) ⟨start w fs s, fs⟩).manager = r at h1
  cases x with
  | nWorkers v => simp only [Has] at h1; simp [InForce, Manager.nWorkers, h1]
  | backend v =>
    simp only [Has] at h1
    have hv : v ≠ .default := hl
    simp [InForce, Manager.backend, h1, hv]
  | daemon => simp only [Has] at h1; simp [InForce, Manager.daemon, h1]
  | noDaemon => simp only [Has] at h1; simp [InForce, Manager.daemon, h1]
  | maxPending v => simp only [Has] at h1; simp [InForce, Manager.maxPending, h1]
  | _ => rcases hk with hk | hk | hk | hk <;> cases hk

/-! ### C79 along a history -/

/-- a file never takes the package platform or the package options away -/
def KeepsPackage (run : FS → Bytes → Conf → List Call × Bool) : Prop :=
  ∀ fs content c, Call.platform none ∉ (run fs content c).1 ∧ Call.options none ∉ (run fs content c).1

/-- the package settings are there unless the build has none -/
def HasPackage (b : Build) (c : Conf) : Prop :=
  (c.platform = none → b.platform = none) ∧ (c.options = none → b.options = none)

theorem hasPackage_calls {b : Build} {calls : List Call} {c : Conf} (h : HasPackage b c)
    (hp : Call.platform none ∉ calls) (ho : Call.options none ∉ calls) : HasPackage b (after c calls) := by
  induction calls generalizing c with
  | nil => exact h
  | cons x calls ih =>
    rw [List.mem_cons, not_or] at hp ho
    refine ih ?_ hp.2 ho.2
    have hx1 := hp.1
    have hx2 := ho.1
    cases x with
    | platform v =>
      refine ⟨?_, h.2⟩
      intro e
      change v = none at e
      subst e
      exact (hx1 rfl).elim
    | options v =>
      refine ⟨h.1, ?_⟩
      intro e
      change v = none at e
      subst e
      exact (hx2 rfl).elim
    | _ => exact h

theorem hasPackage_defaults (b : Build) (ds : List Bytes) : HasPackage b (defaults b ds) := ⟨id, id⟩

theorem hasPackage_fromFiles {w : World} {fs : FS} {ds : List Bytes} {c : Conf} {ok : Bool}
    (hm : KeepsPackage w.run) (hc : KeepsPackage w.runCustom) (h : FromFiles w fs ds c ok) : HasPackage w.build c := by
  cases h with
  | nothing _ => exact hasPackage_defaults _ _
  | @failed content calls _ hr =>
    have := hm fs content (defaults w.build ds)
    rw [hr] at this
    exact hasPackage_calls (hasPackage_defaults _ _) this.1 this.2
  | @plain content calls _ hr _ =>
    have := hm fs content (defaults w.build ds)
    rw [hr] at this
    exact hasPackage_calls (hasPackage_defaults _ _) this.1 this.2
  | @custom content calls custom more _ _ hr _ hr2 =>
    have h1 := hm fs content (defaults w.build ds)
    rw [hr] at h1
    have h2 := hc fs custom (after (defaults w.build ds) calls)
    rw [hr2] at h2
    exact hasPackage_calls (hasPackage_calls (hasPackage_defaults _ _) h1.1 h1.2) h2.1 h2.2

theorem hasPackage_reload {w : World} (hm : KeepsPackage w.run) (hc : KeepsPackage w.runCustom) {c : Conf} (fs : FS)
    (h : HasPackage w.build c) : HasPackage w.build (reload w fs c).1 :=
  hasPackage_fromFiles hm hc (C79_partial w fs c h.1 h.2)

theorem hasPackage_mreload {w : World} (hm : KeepsPackage w.run) (hc : KeepsPackage w.runCustom) {m : Manager} (fs : FS)
    (h : HasPackage w.build m.conf) : HasPackage w.build (Manager.reload w fs m).1.conf := by
  obtain ⟨l, e⟩ := reload_conf w fs m
  rw [e]
  exact hasPackage_reload hm hc fs h

theorem hasPackage_event {w : World} (hm : KeepsPackage w.run) (hc : KeepsPackage w.runCustom)
    (xml : FS → Conf → Bytes) (msg : Bytes) {s : System} (e : Event)
    (h : HasPackage w.build s.manager.conf) : HasPackage w.build (event w xml msg s e).manager.conf := by
  cases e with
  | files fs => exact h
  | hangup => exact hasPackage_mreload hm hc s.fs h
  | control c =>
    cases c with
    | setConfiguration x =>
      simp only [event, Configuration.control]
      rcases saveCustom w x s.fs s.manager.conf.loadPaths with ⟨fs, _ | _⟩ <;> exact h
    | getConfiguration => exact h
    | reload => exact hasPackage_reload hm hc s.fs h
    | getStatus => exact h

theorem hasPackage_option {b : Build} {m : Manager} (o : CliOption) (h : HasPackage b m.conf) :
    HasPackage b (option m o).conf := by
  cases o <;> exact h

theorem hasPackage_start {w : World} (hm : KeepsPackage w.run) (hc : KeepsPackage w.runCustom) (fs : FS) (s : Start) :
    HasPackage w.build (start w fs s).conf := by
  unfold start
  dsimp only
  refine hasPackage_mreload hm hc fs ?_
  have step : ∀ (m' : Manager), HasPackage w.build m'.conf → HasPackage w.build
      (match s.userDir m'.conf with
        | some d => { m' with conf := call m'.conf (.appendLoadPath d) }
        | none => m').conf := by
    intro m' h
    split <;> exact h
  refine step _ ?_
  have step2 : ∀ (m' : Manager), HasPackage w.build m'.conf → HasPackage w.build
      (if s.root then m' else { m' with conf := call m'.conf (.privilegeMode false) }).conf := by
    intro m' h
    split <;> exact h
  refine step2 _ ?_
  have step3 : ∀ (m' : Manager), HasPackage w.build m'.conf → HasPackage w.build
      (match s.optConfigDir with
        | some d => (Manager.reload w fs { m' with conf := call m'.conf (.prependLoadPath d) }).1
        | none => m').conf := by
    intro m' h
    split
    · exact hasPackage_mreload hm hc fs h
    · exact h
  refine step3 _ ?_
  have fold : ∀ (opts : List CliOption) (m : Manager), HasPackage w.build m.conf →
      HasPackage w.build (opts.foldl option m).conf := by
    intro opts
    induction opts with
    | nil => intro m h; exact h
    | cons o opts ih => intro m h; exact ih _ (hasPackage_option o h)
  refine fold _ _ ?_
  change HasPackage w.build (newConf w.build _)
  rw [newConf_eq]
  exact hasPackage_defaults _ _

/-- C79 (partial).  At any point of the life of a milter-manager, however often its files have
changed and have been read, asking the controller for a reload leaves exactly the configuration
the files make of the defaults, and a hangup signal leaves that configuration with the command
line on top.  Missing: files that take the package platform or options away (`C79_violated`). -/
theorem C79_history_partial (w : World) (hm : KeepsPackage w.run) (hc : KeepsPackage w.runCustom)
    (xml : FS → Conf → Bytes) (msg : Bytes) (fs : FS) (s : Start) (es : List Event) :
    let now := es.foldl (event w xml msg) ⟨start w fs s, fs⟩
    ∃ c ok, FromFiles w now.fs now.manager.conf.loadPaths c ok ∧
      (event w xml msg now (.control .reload)).manager.conf = c ∧
      ∃ l, (event w xml msg now .hangup).manager.conf =
        overridden (event w xml msg now .hangup).manager.own c l := by
  intro now
  have hp : HasPackage w.build now.manager.conf := by
    have : ∀ (es : List Event) (t : System), HasPackage w.build t.manager.conf →
        HasPackage w.build (es.foldl (event w xml msg) t).manager.conf := by
      intro es
      induction es with
      | nil => intro t h; exact h
      | cons e es ih => intro t h; exact ih _ (hasPackage_event hm hc xml msg e h)
    exact this es _ (hasPackage_start hm hc fs s)
  exact ⟨_, _, C79_partial w now.fs now.manager.conf hp.1 hp.2, rfl, reload_conf w now.fs now.manager⟩

/-! ### C80: a reload that fails -/

theorem clear_idem (b : Build) (c : Conf) : clear b (clear b c) = clear b c := by
  cases c with
  | mk =>
    rename_i platform options _ _ _ _ _ _ _ _ _ _ _ _ _ _
    cases platform <;> cases options <;> cases hp : b.platform <;> cases ho : b.options <;>
      simp [clear, clearSignalHandlers, clearEggs, clearConditions, clearController, clearManager,
        clearPackage, clearAccount, clearProcess, clearConfiguration, clearSocket, clearLog, hp, ho]

/-- C80 (partial).  A reload that fails because there is no configuration file is reported, and
once the file is there the next reload does what it would have done without the failed one.
What is missing: while the file is missing, the configuration that was in force is gone. -/
theorem C80_partial (w : World) (fs₀ fs : FS) (c : Conf) (ha : Absent w fs₀ configFileName c.loadPaths) :
    (reload w fs₀ c).2 = false ∧ reload w fs (reload w fs₀ c).1 = reload w fs c := by
  have e : reload w fs₀ c = (clear w.build c, false) := by
    unfold reload
    dsimp only
    rw [load_absent]
    have : (clear w.build c).loadPaths = c.loadPaths := by
      unfold clear clearPackage
      dsimp only
      split <;> split <;> rfl
    rw [this]
    exact ha
  rw [e]
  refine ⟨rfl, ?_⟩
  unfold reload
  rw [clear_idem]

/-! ### C83: what the controller answers -/

/-- C83 (partial).  The controller answers a command to save a configuration with success if the
configuration is on disk, in the custom configuration file of a directory of the load path, and
with an error if nothing was written; it changes nothing else.  Asking for the configuration or
the status changes nothing.  What is missing: the reply to a reload says success even if the
reload failed (`C83_violated`). -/
theorem C83_partial (w : World) (xml : FS → Conf → Bytes) (msg : Bytes) (s : System) :
    (∀ content, (Configuration.control w xml msg s (.setConfiguration content)).1.manager = s.manager ∧
      (((Configuration.control w xml msg s (.setConfiguration content)).2 = .success ∧
          ∃ d ∈ s.manager.conf.loadPaths, ∀ p,
            (Configuration.control w xml msg s (.setConfiguration content)).1.fs.file p =
              if p = w.join d customConfigFileName then some content else s.fs.file p) ∨
        ((Configuration.control w xml msg s (.setConfiguration content)).2 = .error msg ∧
          (∀ d ∈ s.manager.conf.loadPaths, s.fs.writable (w.join d customConfigFileName) = false) ∧
          (Configuration.control w xml msg s (.setConfiguration content)).1.fs = s.fs))) ∧
    Configuration.control w xml msg s .getConfiguration = (s, .configuration (xml s.fs s.manager.conf)) ∧
    (Configuration.control w xml msg s .getStatus).1 = s := by
  refine ⟨?_, rfl, rfl⟩
  intro content
  simp only [Configuration.control]
  rcases C81_only w s.fs s.manager.conf.loadPaths content with ⟨d, hd, _, ht, hf⟩ | ⟨hn, hf⟩
  · cases h : saveCustom w content s.fs s.manager.conf.loadPaths with
    | mk fs ok =>
    rw [h] at ht hf
    cases ht
    exact ⟨rfl, .inl ⟨rfl, d, hd, hf⟩⟩
  · rw [hf]
    exact ⟨rfl, .inr ⟨rfl, hn, rfl⟩⟩

/-! ### examples -/

/-- a build without package settings but one -/
def exBuild : Build :=
  { platform := some (ascii "debian"), options := none, user := some (ascii "milter-manager"), group := none,
    socketGroup := none, spec := ascii "inet:10025", pidFile := none }

/-- the language of the files of the examples: one byte, one program -/
def exRun (_ : FS) (content : Bytes) (_ : Conf) : List Call × Bool :=
  if content = ascii "m" then
    ([.setEggs [{ name := some (ascii "clamav"), connectionSpec := some (ascii "inet:2929") }], .maxConnections 7], true)
  else if content = ascii "n" then ([.platform none], true)
  else if content = ascii "s" then ([.managerSpec (some (ascii "inet:1")), .facility (some (ascii "local1")), .useSyslog false], true)
  else if content = ascii "p" then ([.privilegeMode true], true)
  else if content = ascii "l" then ([.prependLoadPath (ascii "/other"), .maxConnections 9], true)
  else ([], false)

/-- the custom configurations of the examples -/
def exRunCustom (_ : FS) (content : Bytes) (_ : Conf) : List Call × Bool :=
  if content = ascii "old" then ([.maxFileDescriptors 1], true)
  else if content = ascii "new" then ([.maxFileDescriptors 2], true)
  else ([], false)

/-- the surroundings of the examples -/
def exWorld : World :=
  { build := exBuild, join := fun d n => d ++ ascii "/" ++ n, run := exRun, runCustom := exRunCustom }

/-- a system with one configuration file -/
def exFiles (content : Bytes) : FS :=
  { file := fun p => if p = ascii "/etc/milter-manager.conf" then some content else none
    writable := fun p => decide (p = ascii "/home/milter-manager.custom.conf") }

/-- started with a few options -/
def exStart (opts : List CliOption) (root : Bool) : Start :=
  { configDirEnv := none, configDir := ascii "/etc", opts := opts, optConfigDir := none, root := root,
    userDir := fun _ => some (ascii "/home") }

/-- the hypotheses of `C79_partial` are met by a configuration full of old settings -/
example : let c := (start exWorld (exFiles (ascii "m")) (exStart [] true)).conf
    c.eggs.length = 1 ∧ c.maxConnections = 7 ∧ HasPackage exWorld.build c ∧
    (reload exWorld (exFiles (ascii "s")) c).1.eggs = [] ∧
    (reload exWorld (exFiles (ascii "s")) c).1.maxConnections = 0 := by
  refine ⟨by decide, by decide, ⟨?_, fun _ => rfl⟩, by decide, by decide⟩
  intro h
  exact absurd h (by decide)

/-- files that leave the package settings alone -/
example : KeepsPackage exRunCustom := by
  intro fs content c
  unfold exRunCustom
  split
  · simp
  · split <;> simp

/-- C79 is violated: once a file has taken the package platform away, a reload does not bring it
back, although a restart would. -/
theorem C79_violated : ∃ (w : World) (fs fs' : FS) (s : Start),
    let now := (Manager.reload w fs' (start w fs s)).1
    now.conf.loadPaths = (start w fs' s).conf.loadPaths ∧ now.conf.platform = none ∧
    (start w fs' s).conf.platform = some (ascii "debian") :=
  ⟨exWorld, exFiles (ascii "n"), exFiles (ascii "m"), exStart [] true, by decide⟩

/-- a configuration file in /etc and another in /other -/
def exOther : FS :=
  { file := fun p => if p = ascii "/etc/milter-manager.conf" then some (ascii "l")
      else if p = ascii "/other/milter-manager.conf" then some (ascii "m") else none
    writable := fun _ => false }

/-- C79 is violated: a configuration file that puts a directory in front of the load path is
not the file that the next reload loads, though nothing has changed on disk. -/
theorem C79_load_path_violated : ∃ (w : World) (fs : FS) (s : Start),
    (start w fs s).conf.maxConnections = 9 ∧
    (Manager.reload w fs (start w fs s)).1.conf.maxConnections = 7 :=
  ⟨exWorld, exOther, exStart [] true, by decide⟩

/-- C80 is violated: the configuration file is gone for a moment, a reload fails, and all milters
are gone: mail passes unfiltered. -/
theorem C80_violated : ∃ (w : World) (fs fs' : FS) (s : Start),
    (start w fs s).conf.eggs ≠ [] ∧ (Manager.reload w fs' (start w fs s)).2 = false ∧
    (Manager.reload w fs' (start w fs s)).1.conf.eggs = [] :=
  ⟨exWorld, exFiles (ascii "m"), { exFiles (ascii "m") with file := fun _ => none }, exStart [] true, by decide⟩

example : Absent exWorld { exFiles (ascii "m") with file := fun _ => none } configFileName
    (start exWorld (exFiles (ascii "m")) (exStart [] true)).conf.loadPaths := fun _ _ => rfl

/-- the hypotheses of `C81_partial` are met: /etc cannot be written and has no custom
configuration -/
example : let c := (start exWorld (exFiles (ascii "m")) (exStart [] true)).conf
    c.loadPaths = [ascii "/etc", ascii "/home"] ∧
    (saveCustom exWorld (ascii "new") (exFiles (ascii "m")) c.loadPaths).2 = true ∧
    (∀ d ∈ c.loadPaths, (exFiles (ascii "m")).writable (exWorld.join d customConfigFileName) = false →
      (exFiles (ascii "m")).file (exWorld.join d customConfigFileName) = none) ∧
    (reload exWorld (saveCustom exWorld (ascii "new") (exFiles (ascii "m")) c.loadPaths).1 c).1.maxFileDescriptors = 2 := by
  decide

/-- /etc cannot be written but has a custom configuration -/
def exHidden : FS :=
  { file := fun p => if p = ascii "/etc/milter-manager.conf" then some (ascii "m")
      else if p = ascii "/etc/milter-manager.custom.conf" then some (ascii "old") else none
    writable := fun p => decide (p = ascii "/home/milter-manager.custom.conf") }

/-- C81 is violated: the controller reports that the new custom configuration was saved, and the
reload that follows loads the old one. -/
theorem C81_violated : ∃ (w : World) (xml : FS → Conf → Bytes) (msg : Bytes) (fs : FS) (s : Start) (content : Bytes),
    let t := Configuration.control w xml msg ⟨start w fs s, fs⟩ (.setConfiguration content)
    t.2 = .success ∧
    (event w xml msg t.1 .hangup).manager.conf.maxFileDescriptors = 1 ∧
    (w.runCustom t.1.fs content (start w fs s).conf).1 = [.maxFileDescriptors 2] :=
  ⟨exWorld, fun _ _ => [], [], exHidden, exStart [] true, ascii "new", by decide⟩

/-- `C82_partial` on a command line with several options, one of them given twice -/
example : Given [.spec (ascii "inet:2"), .daemon, .spec (ascii "inet:3"), .nWorkers 4] (.spec (ascii "inet:3")) ∧
    ¬ Lost (.spec (ascii "inet:3")) :=
  ⟨⟨[.spec (ascii "inet:2"), .daemon], [.nWorkers 4], rfl, by decide⟩, id⟩

/-- C82 is violated: a reload by way of the controller replaces the connection spec of the
command line by that of the file. -/
theorem C82_violated : ∃ (w : World) (xml : FS → Conf → Bytes) (msg : Bytes) (fs : FS) (s : Start) (x : CliOption),
    Given s.opts x ∧ ¬ Lost x ∧ InForce (start w fs s) x ∧
    ¬ InForce (event w xml msg ⟨start w fs s, fs⟩ (.control .reload)).manager x :=
  ⟨exWorld, fun _ _ => [], [], exFiles (ascii "s"), exStart [.spec (ascii "inet:3")] true, .spec (ascii "inet:3"),
    ⟨[], [], rfl, by simp⟩, id, by
      change _ = _
      decide, by
      change ¬ (_ = _)
      decide⟩

/-- C82 is violated: a packet buffer size given on the command line never has any effect. -/
theorem C82_packet_buffer_size_violated (w : World) (fs : FS) (s : Start) (m : Manager)
    (hs : start w fs s = (Manager.reload w fs m).1) :
    (start w fs s).packetBufferSize = (reload w fs m.conf).1.packetBufferSize ∧
    ∀ v, (reload w fs (option m (.packetBufferSize v)).conf).1 = (reload w fs m.conf).1 := by
  refine ⟨?_, ?_⟩
  · rw [hs]
    obtain ⟨l, e⟩ := reload_conf w fs m
    simp [Manager.packetBufferSize, e, overridden]
  · intro v
    have : clear w.build (option m (.packetBufferSize v)).conf = clear w.build m.conf := by
      simp only [option, call]
      cases m.conf with
      | mk =>
        rename_i platform options _ _ _ _ _ _ _ _ _ _ _ _ _ _
        cases platform <;> cases options <;>
          simp [clear, clearSignalHandlers, clearEggs, clearConditions, clearController, clearManager,
            clearPackage, clearAccount, clearProcess, clearConfiguration, clearSocket, clearLog]
    unfold reload
    rw [this]

/-- C82 is violated: `--syslog` and `--syslog-facility` do not survive the loading of a
configuration file that says otherwise. -/
theorem C82_syslog_violated : ∃ (w : World) (fs : FS) (s : Start),
    Given s.opts .syslog ∧ Given s.opts (.facility (ascii "local3")) ∧
    ¬ InForce (start w fs s) .syslog ∧ ∃ fs', ¬ InForce (start w fs' s) (.facility (ascii "local3")) :=
  ⟨exWorld, exFiles (ascii "s"), exStart [.syslog, .facility (ascii "local3")] true,
    ⟨[], [.facility (ascii "local3")], rfl, by decide⟩, ⟨[.syslog], [], rfl, by simp⟩, by
      change ¬ (_ ≠ _)
      decide, exFiles (ascii "m"), by
      change ¬ (_ = _)
      decide⟩

/-- C83 is violated: the reload failed, the milters are gone and the reply says success. -/
theorem C83_violated : ∃ (w : World) (xml : FS → Conf → Bytes) (msg : Bytes) (s : System),
    (reload w s.fs s.manager.conf).2 = false ∧ s.manager.conf.eggs ≠ [] ∧
    (Configuration.control w xml msg s .reload).1.manager.conf.eggs = [] ∧
    (Configuration.control w xml msg s .reload).2 = .success :=
  ⟨exWorld, fun _ _ => [], [], ⟨start exWorld (exFiles (ascii "m")) (exStart [] true),
    { exFiles (ascii "m") with file := fun _ => none }⟩, by decide⟩

/-! ### C84: a manager that is not started by root -/

/-- C84 is violated: milter-manager turns privilege mode off when it is not started by root, but
loads the configuration again afterwards, so that the file decides after all. -/
theorem C84_violated : ∃ (w : World) (fs : FS) (s : Start), s.root = false ∧
    (start w fs s).conf.privilegeMode = true :=
  ⟨exWorld, exFiles (ascii "p"), exStart [] false, by decide⟩

/-- C84 (partial).  Whether root started it makes no difference to the configuration at all:
privilege mode is on exactly if the files turn it on. -/
theorem C84_partial (w : World) (fs : FS) (s : Start) (hu : ∀ c v, s.userDir { c with privilegeMode := v } = s.userDir c) :
    start w fs { s with root := false } = start w fs { s with root := true } := by
  have hc : ∀ (c : Conf) (v : Bool), reload w fs { c with privilegeMode := v } = reload w fs c := by
    intro c v
    have : clear w.build { c with privilegeMode := v } = clear w.build c := by
      cases c with
      | mk =>
        rename_i platform options _ _ _ _ _ _ _ _ _ _ _ _ _ _
        cases platform <;> cases options <;>
          simp [clear, clearSignalHandlers, clearEggs, clearConditions, clearController, clearManager,
            clearPackage, clearAccount, clearProcess, clearConfiguration, clearSocket, clearLog]
    unfold reload
    rw [this]
  have hm : ∀ (m : Manager) (v : Bool), Manager.reload w fs { m with conf := { m.conf with privilegeMode := v } } = Manager.reload w fs m := by
    intro m v
    unfold Manager.reload
    rw [hc]
  have ha : ∀ (m : Manager), (match s.userDir { m.conf with privilegeMode := false } with
        | some d => ({ m with conf := call { m.conf with privilegeMode := false } (.appendLoadPath d) } : Manager)
        | none => { m with conf := { m.conf with privilegeMode := false } }) =
      { (match s.userDir m.conf with
        | some d => ({ m with conf := call m.conf (.appendLoadPath d) } : Manager)
        | none => m) with conf := { (match s.userDir m.conf with
        | some d => ({ m with conf := call m.conf (.appendLoadPath d) } : Manager)
        | none => m).conf with privilegeMode := false } } := by
    intro m
    rw [hu]
    cases s.userDir m.conf <;> rfl
  have key : ∀ (m : Manager), Manager.reload w fs (match s.userDir { m.conf with privilegeMode := false } with
        | some d => ({ m with conf := call { m.conf with privilegeMode := false } (.appendLoadPath d) } : Manager)
        | none => { m with conf := { m.conf with privilegeMode := false } }) =
      Manager.reload w fs (match s.userDir m.conf with
        | some d => ({ m with conf := call m.conf (.appendLoadPath d) } : Manager)
        | none => m) := by
    intro m
    rw [ha, hm]
  exact congrArg Prod.fst (key _)

end Verif.Props.Configuration
