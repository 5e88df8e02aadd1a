import Verif.Props.DumpLines
import Verif.Props.XmlLoader
/-
C127: what `--show-config` shows, loaded as a configuration file, is the configuration in force.
-/
namespace Verif.Props.Dump
open Verif Verif.Dump Verif.Spec.Dump
open Verif.Configuration (Conf Backend statusNick)
open Verif.Egg (Egg Condition)
open Verif.Connection (Net parseSpec)

/-- `q` with one setting of `p` -/
def copy (p q : Process) : Key → Process
  | .platform => { q with conf := { q.conf with platform := p.conf.platform } }
  | .options => { q with conf := { q.conf with options := p.conf.options } }
  | .privilegeMode => { q with conf := { q.conf with privilegeMode := p.conf.privilegeMode } }
  | .user => { q with conf := { q.conf with user := p.conf.user } }
  | .group => { q with conf := { q.conf with group := p.conf.group } }
  | .logLevel => { q with level := p.level }
  | .logPath => { q with logPath := p.logPath }
  | .useSyslog => { q with conf := { q.conf with useSyslog := p.conf.useSyslog } }
  | .facility => { q with conf := { q.conf with facility := p.conf.facility } }
  | .spec => { q with conf := { q.conf with managerSpec := p.conf.managerSpec } }
  | .mode => { q with conf := { q.conf with managerSocketMode := p.conf.managerSocketMode } }
  | .socketGroup => { q with conf := { q.conf with managerSocketGroup := p.conf.managerSocketGroup } }
  | .onCreate => { q with conf := { q.conf with removeManagerOnCreate := p.conf.removeManagerOnCreate } }
  | .onClose => { q with conf := { q.conf with removeManagerOnClose := p.conf.removeManagerOnClose } }
  | .daemon => { q with conf := { q.conf with daemon := p.conf.daemon } }
  | .pidFile => { q with conf := { q.conf with pidFile := p.conf.pidFile } }
  | .maintenance => { q with conf := { q.conf with maintenanceInterval := p.conf.maintenanceInterval } }
  | .suspend => { q with conf := { q.conf with suspendTime := p.conf.suspendTime } }
  | .maxConnections => { q with conf := { q.conf with maxConnections := p.conf.maxConnections } }
  | .maxFiles => { q with conf := { q.conf with maxFileDescriptors := p.conf.maxFileDescriptors } }
  | .customDirectory => { q with conf := { q.conf with customDirectory := p.conf.customDirectory } }
  | .fallback => { q with conf := { q.conf with fallback := p.conf.fallback } }
  | .atDisconnect => { q with conf := { q.conf with fallbackAtDisconnect := p.conf.fallbackAtDisconnect } }
  | .backend => { q with conf := { q.conf with backend := p.conf.backend } }
  | .nWorkers => { q with conf := { q.conf with nWorkers := p.conf.nWorkers } }
  | .packetBuffer => { q with conf := { q.conf with packetBufferSize := p.conf.packetBufferSize } }
  | .checkInterval => { q with conf := { q.conf with connectionCheckInterval := p.conf.connectionCheckInterval } }
  | .chunkSize => { q with conf := { q.conf with chunkSize := p.conf.chunkSize } }
  | .maxPending => { q with conf := { q.conf with maxPending := p.conf.maxPending } }
  | .controllerSpec => { q with conf := { q.conf with controllerSpec := p.conf.controllerSpec } }
  | .controllerMode => { q with conf := { q.conf with controllerSocketMode := p.conf.controllerSocketMode } }
  | .controllerGroup => { q with conf := { q.conf with controllerSocketGroup := p.conf.controllerSocketGroup } }
  | .controllerOnCreate => { q with conf := { q.conf with removeControllerOnCreate := p.conf.removeControllerOnCreate } }
  | .controllerOnClose => { q with conf := { q.conf with removeControllerOnClose := p.conf.removeControllerOnClose } }
  | .dbType => { q with db := { q.db with type := p.db.type } }
  | .dbName => { q with db := { q.db with name := p.db.name } }
  | .dbHost => { q with db := { q.db with host := p.db.host } }
  | .dbPort => { q with db := { q.db with port := p.db.port } }
  | .dbPath => { q with db := { q.db with path := p.db.path } }
  | .dbUser => { q with db := { q.db with user := p.db.user } }
  | .dbPassword => { q with db := { q.db with password := p.db.password } }

theorem text_textLit (o : Option Bytes) : (textLit o).text = some o := by cases o <;> rfl

theorem level_read : ∀ n < 1024, Names.signed (levelNames (UInt32.ofNat n)) = false ∧ levelNames (UInt32.ofNat n) ≠ Names.all ∧
    levelNames (UInt32.ofNat n) ≠ [] ∧ (levelNames (UInt32.ofNat n) = ascii "default" → n = 0) ∧
    (n ≠ 0 → Names.flagsFromString Logger.levels (levelNames (UInt32.ofNat n)) 0 Logger.defaultLevel = (UInt32.ofNat n, [])) := by
  decide +kernel

theorem level_levelNames (l current : UInt32) (h : l &&& 0x3ff = l) : levelOf current (.str (levelNames l)) = some l := by
  have hn : l.toNat < 1024 := by
    have := congrArg UInt32.toNat h
    rw [UInt32.toNat_and] at this
    have e : (0x3ff : UInt32).toNat = 2 ^ 10 - 1 := rfl
    rw [e, Nat.and_two_pow_sub_one_eq_mod] at this
    omega
  have e : UInt32.ofNat l.toNat = l := by simp
  obtain ⟨h1, h2, h3, h4, h5⟩ := level_read l.toNat hn
  rw [e] at h1 h2 h3 h4 h5
  unfold levelOf
  dsimp only
  by_cases h0 : l.toNat = 0
  · have : l = 0 := UInt32.toNat_inj.mp h0
    subst this
    rw [if_pos (Or.inr (show levelNames 0 = ascii "default" by decide +kernel))]
  · rw [if_neg (not_or.mpr ⟨h3, fun x => h0 (h4 x)⟩)]
    have hf : Logger.levelFromString (levelNames l) current = (l, []) := by
      unfold Logger.levelFromString
      rw [if_neg h2, ← h5 h0]
      unfold Names.flagsFromString
      rw [h1]
      rfl
    rw [hf]
    rfl

theorem store_spec (net : Net) (o : Option Bytes) (f : Option Bytes → Process) (h : ∀ s, o = some s → ∃ a, parseSpec net s = .ok a) :
    storeSpec net (textLit o) f = .on (f o) := by
  cases o with
  | none => rfl
  | some s =>
    obtain ⟨a, ha⟩ := h s rfl
    simp only [textLit, storeSpec, ha]

theorem assign_copy {net : Net} {p : Process} (h : Fine net p) (q : Process) (k : Key) :
    assign net q (p.value k) k = .on (copy p q k) := by
  cases k with
  | logLevel =>
    simp only [assign, Process.value, level_levelNames p.level q.level h.level, store, copy]
  | spec =>
    simp only [assign, Process.value]
    rw [store_spec net _ _ h.spec]
    rfl
  | controllerSpec =>
    simp only [assign, Process.value]
    rw [store_spec net _ _ h.controllerSpec]
    rfl
  | maintenance =>
    simp only [assign, Process.value, copy]
    split
    · rename_i h0
      simp only [Lit.numberOr, store]
      rw [h0]
    · rfl
  | fallback =>
    simp only [assign, Process.value, copy]
    rw [Props.XmlLoader.fallback_read h.fallback]
    rfl
  | atDisconnect =>
    have : ∀ s, statusOf (statusNick s) = some s := by intro s; cases s <;> decide
    simp only [assign, Process.value, copy, this]
    rfl
  | backend =>
    have : ∀ s, backendOf (backendNick s) = some s := by intro s; cases s <;> decide
    simp only [assign, Process.value, copy, this]
    rfl
  | _ => first | rfl | (simp only [assign, Process.value, copy, text_textLit]; rfl)

theorem keyOf_name (k : Key) : keyOf k.name = some k := by cases k <;> decide

theorem run_append {net : Net} {p : Process} {m : Mode} {a : List Stmt} {p' : Process} {m' : Mode} (h : run net p m a = .on (p', m'))
    (b : List Stmt) : run net p m (a ++ b) = run net p' m' b := by
  induction a generalizing p m with
  | nil => cases h; rfl
  | cons s a ih =>
    rw [List.cons_append]
    unfold run at h
    conv => lhs; unfold run
    cases hs : step net p m s with
    | on x =>
      rw [hs] at h
      exact ih h
    | raised => rw [hs] at h; cases h
    | ub => rw [hs] at h; cases h

theorem run_one {net : Net} {p : Process} {m : Mode} {s : Stmt} {p' : Process} {m' : Mode} (h : step net p m s = .on (p', m'))
    (b : List Stmt) : run net p m (s :: b) = run net p' m' b := by
  conv => lhs; unfold run
  rw [h]

theorem run_settings {net : Net} {p : Process} (h : Fine net p) (ks : List Key) (q : Process) :
    run net q .top (ks.map (setting p)) = .on (ks.foldl (copy p) q, .top) := by
  induction ks generalizing q with
  | nil => rfl
  | cons k ks ih =>
    rw [List.map_cons, run_one (p' := copy p q k) (m' := .top), ih]
    · rfl
    · unfold step setting
      dsimp only
      rw [keyOf_name]
      dsimp only
      rw [assign_copy h]

theorem copied (p q : Process) : keys.foldl (copy p) q =
    { conf := { p.conf with
        conditions := q.conf.conditions, eggs := q.conf.eggs, loadPaths := q.conf.loadPaths, handlers := q.conf.handlers,
        locations := q.conf.locations },
      level := p.level, logPath := p.logPath, db := { p.db with extra := q.db.extra } } := by
  obtain ⟨⟨⟩, _, _, ⟨⟩⟩ := p
  obtain ⟨⟨⟩, _, _, ⟨⟩⟩ := q
  rw [show keys = [.platform, .options, .privilegeMode, .user, .group, .logLevel, .logPath, .useSyslog, .facility,
    .spec, .mode, .socketGroup, .onCreate, .onClose, .daemon, .pidFile, .maintenance, .suspend, .maxConnections, .maxFiles,
    .customDirectory, .fallback, .atDisconnect, .backend, .nWorkers, .packetBuffer, .checkInterval, .chunkSize, .maxPending,
    .controllerSpec, .controllerMode, .controllerGroup, .controllerOnCreate, .controllerOnClose,
    .dbType, .dbName, .dbHost, .dbPort, .dbPath, .dbUser, .dbPassword] from rfl]
  simp only [List.foldl_cons, List.foldl_nil, copy]

/-! ### conditions -/

theorem remove_fresh (n : Bytes) (cs : List Condition) (hn : ∀ c ∈ cs, c.name.isSome) (h : some n ∉ cs.map (·.name)) :
    removeCondition n cs = some cs := by
  induction cs with
  | nil => rfl
  | cons c cs ih =>
    obtain ⟨m, hm⟩ := Option.isSome_iff_exists.mp (hn c List.mem_cons_self)
    rw [List.map_cons, List.mem_cons, not_or, hm] at h
    unfold removeCondition
    rw [hm]
    dsimp only
    rw [if_neg (fun e => h.1 (by rw [e])), ih (fun x hx => hn x (List.mem_cons_of_mem _ hx)) h.2]
    rfl

theorem find_fresh (n : Bytes) (cs : List Condition) (hn : ∀ c ∈ cs, c.name.isSome) (h : some n ∉ cs.map (·.name)) :
    XmlLoader.findCondition n cs = some none := by
  induction cs with
  | nil => rfl
  | cons c cs ih =>
    obtain ⟨m, hm⟩ := Option.isSome_iff_exists.mp (hn c List.mem_cons_self)
    rw [List.map_cons, List.mem_cons, not_or, hm] at h
    unfold XmlLoader.findCondition
    rw [hm]
    dsimp only
    rw [if_neg (fun e => h.1 (by rw [e])), ih (fun x hx => hn x (List.mem_cons_of_mem _ hx)) h.2]

theorem run_condition (net : Net) (q : Process) (c : Condition) (n : Bytes) (hc : c.name = some n)
    (hn : ∀ x ∈ q.conf.conditions, x.name.isSome) (h : some n ∉ q.conf.conditions.map (·.name)) :
    run net q .top (conditionStmts c) = .on ({ q with conf := { q.conf with conditions := q.conf.conditions ++ [shown c] } }, .top) := by
  unfold conditionStmts
  rw [run_one (p' := q) (m' := .condition (ascii "condition") { name := some n }),
    run_one (p' := q) (m' := .condition (ascii "condition") (shown c)),
    run_one (p' := { q with conf := { q.conf with conditions := q.conf.conditions ++ [shown c] } }) (m' := .top)]
  · rfl
  · unfold step
    have : (shown c).name = some n := hc
    simp only [this, remove_fresh n _ hn h]
  · unfold step
    dsimp only
    rw [if_pos (by decide), text_textLit]
    dsimp only
    have : ({ name := some n, description := c.description } : Condition) = shown c := by
      unfold shown; rw [hc]
    rw [this]
  · unfold step
    rw [hc]
    dsimp only [textLit]
    rw [if_neg (by decide), if_pos rfl]
    unfold openCondition
    rw [find_fresh n _ hn h]

theorem run_conditions (net : Net) (cs : List Condition) (q : Process) (hn : ∀ c ∈ cs, c.name.isSome)
    (hq : ∀ x ∈ q.conf.conditions, x.name.isSome) (hd : (q.conf.conditions.map (·.name) ++ cs.map (·.name)).Nodup) :
    run net q .top (cs.flatMap conditionStmts) =
      .on ({ q with conf := { q.conf with conditions := q.conf.conditions ++ cs.map shown } }, .top) := by
  induction cs generalizing q with
  | nil => simp [run]
  | cons c cs ih =>
    obtain ⟨n, hc⟩ := Option.isSome_iff_exists.mp (hn c List.mem_cons_self)
    have hfresh : some n ∉ q.conf.conditions.map (·.name) := by
      intro hm
      rw [List.nodup_append] at hd
      exact hd.2.2 _ hm _ (by rw [List.map_cons, hc]; exact List.mem_cons_self) rfl
    rw [List.flatMap_cons, run_append (run_condition net q c n hc hq hfresh), ih]
    · simp
    · exact fun x hx => hn x (List.mem_cons_of_mem _ hx)
    · intro x hx
      rcases List.mem_append.mp hx with hx | hx
      · exact hq x hx
      · cases List.mem_singleton.mp hx
        show (shown c).name.isSome = true
        unfold shown
        rw [hc]; rfl
    · have e : (shown c).name = c.name := rfl
      simpa [e] using hd

/-! ### milters -/

def copyEgg (e x : Egg) : EggKey → Egg
  | .spec => { x with connectionSpec := e.connectionSpec }
  | .description => { x with description := e.description }
  | .enabled => { x with enabled := e.enabled }
  | .fallback => { x with fallback := e.fallback }
  | .evaluation => { x with evaluation := e.evaluation }
  | .command => { x with command := e.command }
  | .options => { x with commandOptions := e.commandOptions }
  | .user => { x with userName := e.userName }
  | .connection => { x with timeouts := { x.timeouts with connection := e.timeouts.connection } }
  | .writing => { x with timeouts := { x.timeouts with writing := e.timeouts.writing } }
  | .reading => { x with timeouts := { x.timeouts with reading := e.timeouts.reading } }
  | .endOfMessage => { x with timeouts := { x.timeouts with endOfMessage := e.timeouts.endOfMessage } }

theorem assignEgg_copy {net : Net} {conds : List Condition} {e : Egg} (h : FineEgg net conds e) (x : Egg) (k : EggKey) :
    assignEgg net x (eggValue e k) k = .on (copyEgg e x k) := by
  cases k with
  | spec =>
    obtain ⟨s, a, hs, ha⟩ := h.spec
    simp only [assignEgg, eggValue, copyEgg, hs, textLit, Egg.setConnectionSpec, ha]
  | options =>
    obtain ⟨o, ho⟩ := Option.isSome_iff_exists.mp h.options
    simp only [assignEgg, eggValue, copyEgg, ho, textLit]
  | fallback =>
    simp only [assignEgg, eggValue, copyEgg]
    rw [Props.XmlLoader.fallback_read h.fallback]
    rfl
  | _ => first | rfl | (simp only [assignEgg, eggValue, copyEgg, text_textLit]; rfl)

theorem eggKeyOf_name (k : EggKey) : eggKeyOf (ascii "milter") (ascii "milter." ++ k.name) = some k := by cases k <;> decide

theorem run_eggSettings {net : Net} {conds : List Condition} {e : Egg} (h : FineEgg net conds e) (q : Process) (ks : List EggKey) (x : Egg) :
    run net q (.egg (ascii "milter") x) (ks.map (eggSetting e)) = .on (q, .egg (ascii "milter") (ks.foldl (copyEgg e) x)) := by
  induction ks generalizing x with
  | nil => rfl
  | cons k ks ih =>
    rw [List.map_cons, run_one (p' := q) (m' := .egg (ascii "milter") (copyEgg e x k)), ih]
    · rfl
    · unfold step eggSetting
      dsimp only
      rw [eggKeyOf_name]
      dsimp only
      rw [assignEgg_copy h]

theorem find_named {conds : List Condition} (hd : (conds.map (·.name)).Nodup) {c : Condition} (hc : c ∈ conds) :
    conds.find? (fun x => x.name = c.name) = some c := by
  induction conds with
  | nil => cases hc
  | cons d ds ih =>
    rw [List.map_cons, List.nodup_cons] at hd
    rcases List.mem_cons.mp hc with rfl | hc
    · simp
    · have : ¬ d.name = c.name := fun e => hd.1 (e ▸ List.mem_map.mpr ⟨c, hc, rfl⟩)
      rw [List.find?_cons]
      simp only [this, decide_false]
      exact ih hd.2 hc

theorem lookup_shown {conds : List Condition} (hn : ∀ c ∈ conds, c.name.isSome) (hd : (conds.map (·.name)).Nodup) (l : List Condition)
    (hl : ∀ c ∈ l, c ∈ conds) : XmlLoader.lookupConditions (conds.map shown) (l.map fun c => c.name.getD []) = .on (l.map shown) := by
  have ne : ∀ c ∈ conds, c.name ≠ none := fun c hc e => by have := hn c hc; rw [e] at this; cases this
  have := Props.XmlLoader.lookup_eq (cs := conds.map shown) (by
    intro x hx
    obtain ⟨c, hc, rfl⟩ := List.mem_map.mp hx
    exact ne c hc) (l.map shown) (by
    intro x hx
    obtain ⟨c, hc, rfl⟩ := List.mem_map.mp hx
    refine ⟨ne c (hl c hc), ?_⟩
    rw [List.find?_map]
    have e : ((fun x : Condition => decide (x.name = (shown c).name)) ∘ shown) = fun x => decide (x.name = c.name) := rfl
    rw [e, find_named hd (hl c hc)]
    rfl)
  rw [← this, List.map_map]
  congr 1
  refine List.map_congr_left fun c hc => ?_
  show c.name.getD [] = Configuration.conditionName (shown c)
  unfold Configuration.conditionName shown
  have := ne c (hl c hc)
  cases h : c.name with
  | none => exact absurd h this
  | some n => rfl

theorem run_entries (net : Net) (q : Process) (x : Egg) (l : List Condition) (names : List Bytes) :
    run net q (.list (ascii "milter") x names) (l.map fun c => Stmt.entry (.str (c.name.getD []))) =
      .on (q, .list (ascii "milter") x (names ++ l.map fun c => c.name.getD [])) := by
  induction l generalizing names with
  | nil => simp [run]
  | cons c l ih =>
    rw [List.map_cons, run_one (p' := q) (m' := .list (ascii "milter") x (names ++ [c.name.getD []])), ih]
    · simp
    · rfl

theorem run_eggConditions (net : Net) (q : Process) (e x : Egg) {conds : List Condition} (hq : q.conf.conditions = conds.map shown)
    (hn : ∀ c ∈ conds, c.name.isSome) (hd : (conds.map (·.name)).Nodup) (he : ∀ c ∈ e.conditions, c ∈ conds) :
    run net q (.egg (ascii "milter") x) (eggConditionStmts e) =
      .on (q, .egg (ascii "milter") { x with conditions := e.conditions.map shown }) := by
  have ha : assignConditions q.conf.conditions x (e.conditions.map fun c => c.name.getD []) =
      .on { x with conditions := e.conditions.map shown } := by
    unfold assignConditions
    rw [hq, lookup_shown hn hd _ he]
    dsimp only
    rw [Props.XmlLoader.foldl_add]
    simp [Egg.clearConditions]
  unfold eggConditionStmts
  split
  · rename_i h0
    rw [h0] at ha
    rw [run_one (p' := q) (m' := .egg (ascii "milter") { x with conditions := e.conditions.map shown })]
    · rfl
    · unfold step
      dsimp only
      rw [if_pos (by decide), h0]
      have ha : assignConditions q.conf.conditions x [] = .on { x with conditions := List.map shown [] } := ha
      rw [ha]
  · rw [List.append_assoc, List.singleton_append, run_one (p' := q) (m' := .list (ascii "milter") x []),
      run_append (run_entries net q x e.conditions []), List.nil_append,
      run_one (p' := q) (m' := .egg (ascii "milter") { x with conditions := e.conditions.map shown })]
    · rfl
    · unfold step
      dsimp only
      rw [ha]
    · unfold step
      dsimp only
      rw [if_pos (by decide)]

theorem removeEgg_fresh (n : Bytes) (es : List Egg) (hn : ∀ e ∈ es, e.name.isSome) (h : some n ∉ es.map (·.name)) :
    Egg.remove n es = some es ∧ Egg.find n es = some none := by
  induction es with
  | nil => exact ⟨rfl, rfl⟩
  | cons e es ih =>
    obtain ⟨m, hm⟩ := Option.isSome_iff_exists.mp (hn e List.mem_cons_self)
    rw [List.map_cons, List.mem_cons, not_or, hm] at h
    obtain ⟨i1, i2⟩ := ih (fun x hx => hn x (List.mem_cons_of_mem _ hx)) h.2
    have hne : (n == m) = false := by simpa using fun e => h.1 (by rw [e])
    unfold Egg.remove Egg.find Egg.sameName
    rw [hm, i1, i2]
    simp [hne]

theorem egg_copied (e : Egg) (n : Bytes) (hn : e.name = some n) :
    eggKeys₂.foldl (copyEgg e) { eggKeys₁.foldl (copyEgg e) (Egg.newEgg n) with conditions := e.conditions.map shown } = shownEgg e := by
  cases e
  cases hn
  rfl

theorem run_egg {net : Net} {conds : List Condition} {e : Egg} (h : FineEgg net conds e) (q : Process) (hq : q.conf.conditions = conds.map shown)
    (hn : ∀ c ∈ conds, c.name.isSome) (hd : (conds.map (·.name)).Nodup)
    (hes : ∀ x ∈ q.conf.eggs, x.name.isSome) (hf : e.name ∉ q.conf.eggs.map (·.name)) :
    run net q .top (eggStmts e) = .on ({ q with conf := { q.conf with eggs := q.conf.eggs ++ [shownEgg e] } }, .top) := by
  obtain ⟨n, hname⟩ := Option.isSome_iff_exists.mp h.named
  rw [hname] at hf
  obtain ⟨r1, r2⟩ := removeEgg_fresh n _ hes hf
  unfold eggStmts
  rw [List.append_assoc, List.append_assoc, List.append_assoc, List.singleton_append,
    run_one (p' := q) (m' := .egg (ascii "milter") (Egg.newEgg n)),
    run_append (run_eggSettings h q eggKeys₁ _), run_append (run_eggConditions net q e _ hq hn hd h.conditions),
    run_append (run_eggSettings h q eggKeys₂ _), egg_copied e n hname,
    run_one (p' := { q with conf := { q.conf with eggs := q.conf.eggs ++ [shownEgg e] } }) (m' := .top)]
  · rfl
  · have : (shownEgg e).name = some n := hname
    unfold step
    simp only [this, Egg.apply, r1]
    rfl
  · unfold step
    rw [hname]
    dsimp only [textLit]
    rw [if_pos rfl]
    unfold Egg.openEgg
    rw [r2]
    rfl

theorem run_eggs {net : Net} {conds : List Condition} (es : List Egg) (h : ∀ e ∈ es, FineEgg net conds e) (q : Process)
    (hq : q.conf.conditions = conds.map shown) (hn : ∀ c ∈ conds, c.name.isSome) (hd : (conds.map (·.name)).Nodup)
    (hes : ∀ x ∈ q.conf.eggs, x.name.isSome) (hf : (q.conf.eggs.map (·.name) ++ es.map (·.name)).Nodup) :
    run net q .top (es.flatMap eggStmts) = .on ({ q with conf := { q.conf with eggs := q.conf.eggs ++ es.map shownEgg } }, .top) := by
  induction es generalizing q with
  | nil => simp [run]
  | cons e es ih =>
    have hfresh : e.name ∉ q.conf.eggs.map (·.name) := by
      intro hm
      rw [List.nodup_append] at hf
      exact hf.2.2 _ hm _ (by rw [List.map_cons]; exact List.mem_cons_self) rfl
    rw [List.flatMap_cons, run_append (run_egg (h e List.mem_cons_self) q hq hn hd hes hfresh),
      ih (fun x hx => h x (List.mem_cons_of_mem _ hx))]
    · simp
    · exact hq
    · intro x hx
      rcases List.mem_append.mp hx with hx | hx
      · exact hes x hx
      · cases List.mem_singleton.mp hx
        exact (h e List.mem_cons_self).named
    · have e' : (shownEgg e).name = e.name := rfl
      simpa [e'] using hf

/-- **C127**: a configuration that can be loaded as it is shown: loading what is shown, by a process
with whatever settings but without conditions and milters, gives that configuration. -/
theorem C127_partial (net : Net) (p q : Process) (h : Fine net p) (hc : q.conf.conditions = []) (he : q.conf.eggs = []) :
    ∃ r, load net q p.dump = .on r ∧ Like r p := by
  have hr := read_dump h.places (fun e he c hc => h.conditions c ((h.eggs e he).conditions c hc))
  obtain ⟨q₁, hq₁⟩ : ∃ q₁, q₁ = keys.foldl (copy p) q := ⟨_, rfl⟩
  have e₁ := run_settings h keys q
  rw [← hq₁] at e₁
  rw [copied] at hq₁
  have c₁ : q₁.conf.conditions = [] := by rw [hq₁]; exact hc
  have g₁ : q₁.conf.eggs = [] := by rw [hq₁]; exact he
  have e₂ := run_conditions net p.conf.conditions q₁ h.conditions (by rw [c₁]; simp) (by rw [c₁]; simpa using h.conditionNames)
  rw [c₁, List.nil_append] at e₂
  have e₃ := run_eggs p.conf.eggs h.eggs { q₁ with conf := { q₁.conf with conditions := p.conf.conditions.map shown } } rfl h.conditions
    h.conditionNames (by rw [g₁]; simp) (by rw [g₁]; simpa using h.eggNames)
  refine ⟨{ q₁ with conf := { q₁.conf with conditions := p.conf.conditions.map shown, eggs := p.conf.eggs.map shownEgg } }, ?_, ?_⟩
  · unfold load
    rw [hr]
    dsimp only
    unfold allStmts
    rw [List.append_assoc, run_append e₁, run_append e₂, e₃]
    dsimp only
    rw [g₁, List.nil_append]
  · rw [hq₁]
    exact ⟨rfl, rfl, rfl, rfl⟩

/-! ### what cannot be loaded -/

theorem last_part (a b x y : Bytes) (hx : (0x2e : UInt8) ∉ x) (hy : (0x2e : UInt8) ∉ y) (h : a ++ [0x2e] ++ x = b ++ [0x2e] ++ y) : x = y := by
  have hf : ∀ a x : Bytes, (0x2e : UInt8) ∉ x → (a ++ [0x2e] ++ x).reverse.takeWhile (· != 0x2e) = x.reverse := by
    intro a x hx
    rw [List.reverse_append, List.reverse_append]
    have : ∀ z : Bytes, (0x2e : UInt8) ∉ z → ∀ t, (z ++ 0x2e :: t).takeWhile (· != 0x2e) = z := by
      intro z hz t
      induction z with
      | nil => simp
      | cons c z ih =>
        rw [List.mem_cons, not_or] at hz
        have : c ≠ 0x2e := fun e => hz.1 e.symm
        simp [this, ih hz.2]
    exact this _ (by simpa using hx) _
  have := congrArg (fun l => l.reverse.takeWhile (· != 0x2e)) h
  simp only [hf a x hx, hf b y hy] at this
  exact List.reverse_inj.mp this

theorem eggKeyOf_sound {var : Bytes} {k k' : EggKey} (h : eggKeyOf var (ascii "milter." ++ k.name) = some k') : k' = k := by
  have h1 := List.find?_some h
  have h2 : var ++ [0x2e] ++ k'.name = ascii "milter." ++ k.name := of_decide_eq_true h1
  have hd : ∀ k : EggKey, (0x2e : UInt8) ∉ k.name := by intro k; cases k <;> decide
  have h3 := last_part var (ascii "milter") _ _ (hd k') (hd k) h2
  have key : ∀ k : EggKey, (eggKeys₁ ++ eggKeys₂).find? (fun x => x.name = k.name) = some k := by intro k; cases k <;> decide
  have e1 := key k
  rw [← h3, key k'] at e1
  cases e1
  rfl

/-- neither the connection spec nor the command options of a milter can be `nil` -/
theorem step_nil (net : Net) (p : Process) (m : Mode) (k : EggKey) (hk : k = .spec ∨ k = .options) (r : Process × Mode) :
    step net p m (.set (ascii "milter." ++ k.name) .nil) ≠ .on r := by
  unfold step
  cases m with
  | top =>
    have : keyOf (ascii "milter." ++ k.name) = none := by rcases hk with rfl | rfl <;> decide
    dsimp only
    rw [this]
    exact fun h => nomatch h
  | condition var c =>
    dsimp only
    rw [if_neg]
    · exact fun h => nomatch h
    · intro h
      have hd : ∀ k : EggKey, (0x2e : UInt8) ∉ k.name := by intro k; cases k <;> decide
      have h : ascii "milter" ++ [0x2e] ++ k.name = var ++ [0x2e] ++ ascii "description" := by
        rw [List.append_assoc var]; exact h
      have := last_part _ _ _ _ (hd k) (by decide) h
      revert this
      rcases hk with rfl | rfl <;> decide
  | egg var e =>
    dsimp only
    cases he : eggKeyOf var (ascii "milter." ++ k.name) with
    | none => exact fun h => nomatch h
    | some k' =>
      cases eggKeyOf_sound he
      rcases hk with rfl | rfl <;> exact fun h => nomatch h
  | list var e names => exact fun h => nomatch h

theorem run_nil {net : Net} {k : EggKey} (hk : k = .spec ∨ k = .options) (ss : List Stmt)
    (h : Stmt.set (ascii "milter." ++ k.name) .nil ∈ ss) (p : Process) (m : Mode) (r : Process × Mode) : run net p m ss ≠ .on r := by
  induction ss generalizing p m with
  | nil => cases h
  | cons s ss ih =>
    unfold run
    intro hr
    cases hs : step net p m s with
    | raised => rw [hs] at hr; cases hr
    | ub => rw [hs] at hr; cases hr
    | on x =>
      rcases List.mem_cons.mp h with h | h
      · rw [← h] at hs
        exact step_nil net p m k hk x hs
      · rw [hs] at hr
        exact ih h _ _ hr

theorem load_nil {net : Net} {p : Process} (q : Process) {k : EggKey} (hk : k = .spec ∨ k = .options)
    (hp : ∀ l ∈ p.conf.locations, (0x0a : UInt8) ∉ l.2.1) (hn : ∀ e ∈ p.conf.eggs, ∀ c ∈ e.conditions, c.name.isSome)
    {e : Egg} (he : e ∈ p.conf.eggs) (hv : eggValue e k = .nil) (r : Process) : load net q p.dump ≠ .on r := by
  have hm : Stmt.set (ascii "milter." ++ k.name) .nil ∈ allStmts p := by
    unfold allStmts
    refine List.mem_append_right _ (List.mem_flatMap.mpr ⟨e, he, ?_⟩)
    have : Stmt.set (ascii "milter." ++ k.name) .nil = eggSetting e k := by unfold eggSetting; rw [hv]
    rw [this]
    unfold eggStmts
    rcases hk with rfl | rfl
    · exact List.mem_append_left _ (List.mem_append_left _ (List.mem_append_left _ (List.mem_append_right _
        (List.mem_map.mpr ⟨.spec, by decide, rfl⟩))))
    · exact List.mem_append_left _ (List.mem_append_right _ (List.mem_map.mpr ⟨.options, by decide, rfl⟩))
  unfold load
  rw [read_dump hp hn]
  dsimp only
  cases hr : run net q .top (allStmts p) with
  | raised => exact fun h => nomatch h
  | ub => exact fun h => nomatch h
  | on x => exact absurd hr (run_nil hk _ hm q .top x)

/-- **C127** fails for every configuration with a milter that has no command options, as a milter that is
not started by milter-manager: what is shown cannot be loaded. -/
theorem C127_options_violated (net : Net) (p q : Process)
    (hp : ∀ l ∈ p.conf.locations, (0x0a : UInt8) ∉ l.2.1) (hn : ∀ e ∈ p.conf.eggs, ∀ c ∈ e.conditions, c.name.isSome)
    (e : Egg) (he : e ∈ p.conf.eggs) (ho : e.commandOptions = none) (r : Process) : load net q p.dump ≠ .on r :=
  load_nil q (.inr rfl) hp hn he (by simp [eggValue, ho, textLit]) r

/-- **C127** fails for every configuration with a milter that has no connection spec, too. -/
theorem C127_spec_violated (net : Net) (p q : Process)
    (hp : ∀ l ∈ p.conf.locations, (0x0a : UInt8) ∉ l.2.1) (hn : ∀ e ∈ p.conf.eggs, ∀ c ∈ e.conditions, c.name.isSome)
    (e : Egg) (he : e ∈ p.conf.eggs) (ho : e.connectionSpec = none) (r : Process) : load net q p.dump ≠ .on r :=
  load_nil q (.inl rfl) hp hn he (by simp [eggValue, ho, textLit]) r

/-- **C127** fails for the extra options of the database: they are not shown. -/
theorem C127_extra_violated (p : Process) (x : List (Bytes × Lit)) : { p with db := { p.db with extra := x } }.dump = p.dump := by
  have h : ∀ k, { p with db := { p.db with extra := x } }.text k = p.text k := by intro k; cases k <;> rfl
  have hg : Process.group { p with db := { p.db with extra := x } } = p.group := by
    funext ks
    unfold Process.group
    simp only [h]
    rfl
  unfold Process.dump Process.lines
  rw [hg]
  rfl

section
/-- a configuration with a condition and a milter that has it -/
def exampleCondition : Condition := { name := some (ascii "S\"25#{x}"), description := some (ascii "a\nb"), data := some (ascii "d") }
def exampleEgg : Egg :=
  { name := some (ascii "m"), connectionSpec := some (ascii "unix:/tmp/a b"), commandOptions := some [], conditions := [exampleCondition] }
def exampleNet : Net := ⟨⟨⟨fun _ => [], fun _ => none⟩, ⟨fun _ => [], fun _ => none⟩⟩, fun _ => none, fun _ => none⟩
def exampleBuild : Configuration.Build := ⟨some (ascii "debian"), none, none, none, none, ascii "unix:/var/run/m", none⟩
def exampleProcess : Process :=
  { conf := { Configuration.newConf exampleBuild [] with
      conditions := [exampleCondition], eggs := [exampleEgg], locations := [(ascii "milter[m]", ascii "/etc/x", 3)] }, level := 0x16 }

example : Fine exampleNet exampleProcess := by
  refine ⟨?_, (fun s h => nomatch h), .inl rfl, by decide, by decide, by decide, ?_, by decide, by decide⟩
  · intro s h
    cases h
    exact ⟨_, rfl⟩
  · intro e he
    cases List.mem_singleton.mp he
    exact ⟨rfl, ⟨_, _, rfl, rfl⟩, rfl, .inl rfl, by decide⟩

example : ∃ r, load exampleNet { conf := Configuration.newConf exampleBuild [] } exampleProcess.dump = .on r ∧
    r.conf.eggs = [{ exampleEgg with conditions := [{ exampleCondition with data := none }] }] ∧ r.level = 0x16 := by
  obtain ⟨r, h1, h2⟩ := C127_partial exampleNet exampleProcess { conf := Configuration.newConf exampleBuild [] } (by
    refine ⟨?_, (fun s h => nomatch h), .inl rfl, by decide, by decide, by decide, ?_, by decide, by decide⟩
    · intro s h
      cases h
      exact ⟨_, rfl⟩
    · intro e he
      cases List.mem_singleton.mp he
      exact ⟨rfl, ⟨_, _, rfl, rfl⟩, rfl, .inl rfl, by decide⟩) rfl rfl
  refine ⟨r, h1, ?_, h2.level⟩
  rw [h2.conf]
  rfl

/-- a milter as most configuration files define it -/
example : ∀ e ∈ [({ exampleEgg with commandOptions := none } : Egg)], e.commandOptions = none := by decide
end

end Verif.Props.Dump
