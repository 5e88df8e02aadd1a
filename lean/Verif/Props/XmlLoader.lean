import Verif.Props.ConfigurationXml
import Verif.Manager.XmlLoader
import Verif.Spec.XmlLoader
/-
C86: what the controller hands out can be handed back.
-/
namespace Verif.Props.XmlLoader
open Verif Verif.Xml Verif.XmlLoader
open Verif.Configuration hiding Event load
open Verif.Egg (Egg Condition)
open Verif.Connection (Net parseSpec)
open Verif.Spec.ConfigurationXml Verif.Spec.XmlLoader
open Verif.Props.Xml

variable (settings : Section → Bytes → Bool) (net : Net)

/-- the loader reads these events to the end -/
def Reads (l : Loader) (evs : List Event) (l' : Loader) : Prop := run settings net l evs = some (l', true)

variable {settings net}

theorem run_append {l l' : Loader} {a : List Event} (b : List Event) (h : Reads settings net l a l') :
    run settings net l (a ++ b) = run settings net l' b := by
  induction a generalizing l with
  | nil =>
    have : l = l' := by simpa [Reads, run] using h
    rw [this]
    rfl
  | cons e a ih =>
    unfold Reads at h
    simp only [List.cons_append, run] at h ⊢
    cases hs : step settings net l e with
    | on x =>
      rw [hs] at h
      exact ih h
    | raised => rw [hs] at h; simp at h
    | ub => rw [hs] at h; simp at h

theorem Reads.append {l l' l'' : Loader} {a b : List Event} (h : Reads settings net l a l') (h' : Reads settings net l' b l'') :
    Reads settings net l (a ++ b) l'' := by
  unfold Reads
  rw [run_append b h]
  exact h'

theorem reads_nil (l : Loader) : Reads settings net l [] l := rfl

theorem reads_chars (l : Loader) (s : State) (t : Bytes) (rest : List (State × Bytes)) (b : Bytes) (h : l.stack = (s, t) :: rest) :
    Reads settings net l (chars b) { l with stack := (s, t ++ b) :: rest } := by
  induction b generalizing l t with
  | nil =>
    cases l
    cases h
    simp [Reads, chars, run]
  | cons c b ih =>
    change run settings net l (.char c :: chars b) = _
    simp only [run, step, text, h]
    have := ih { l with stack := (s, t ++ [c]) :: rest } (t ++ [c]) rfl
    simpa [Reads] using this

/-- an element with text where the loader expects it -/
theorem reads_leaf {name : Bytes} {i : Item} {s : State} (l : Loader) (t : Bytes) (rest : List (State × Bytes)) (v : Bytes) (n : Nat)
    (h : l.stack = (s, t) :: rest) (hn : nextState settings s name = some (.item i)) :
    Reads settings net l (leafEv name v n)
      { l with stack := (s, t ++ indent n ++ [10]) :: rest, egg := setItem l.egg i v } := by
  have h1 := reads_chars (settings := settings) (net := net) l s t rest (indent n) h
  have h2 : Reads settings net { l with stack := (s, t ++ indent n) :: rest } [.start name]
      { l with stack := (.item i, []) :: (s, t ++ indent n) :: rest } := by
    simp [Reads, run, step, tagStart, hn, nextEgg]
  have h3 := reads_chars (settings := settings) (net := net)
    { l with stack := (.item i, []) :: (s, t ++ indent n) :: rest } (.item i) [] ((s, t ++ indent n) :: rest) v rfl
  have h4 : Reads settings net { l with stack := (.item i, [] ++ v) :: (s, t ++ indent n) :: rest } [.stop name]
      { l with stack := (s, t ++ indent n) :: rest, egg := setItem l.egg i v } := by
    simp [Reads, run, step, tagEnd]
  have h5 := reads_chars (settings := settings) (net := net)
    { l with stack := (s, t ++ indent n) :: rest, egg := setItem l.egg i v } s (t ++ indent n) rest [10] rfl
  exact (((h1.append h2).append h3).append h4).append h5

/-- a loader inside an element of kind `s`, with these settings of the milter read so far -/
def At (l l' : Loader) (s : State) (rest : List (State × Bytes)) (e : EggConfig) : Prop :=
  ∃ t, l' = { l with stack := (s, t) :: rest, egg := e }

/-- reading these events inside an element of kind `s` takes the settings from `e` to `e'` -/
def Inside (settings : Section → Bytes → Bool) (net : Net) (s : State) (evs : List Event) (e e' : EggConfig) : Prop :=
  ∀ (l : Loader) t rest, l.stack = (s, t) :: rest → l.egg = e →
    ∃ t', Reads settings net l evs { l with stack := (s, t') :: rest, egg := e' }

theorem inside_nil (s : State) (e : EggConfig) : Inside settings net s [] e e := by
  intro l t rest h he
  refine ⟨t, ?_⟩
  cases l
  cases h
  cases he
  exact reads_nil _

theorem Inside.append {s : State} {a b : List Event} {e e' e'' : EggConfig} (h : Inside settings net s a e e')
    (h' : Inside settings net s b e' e'') : Inside settings net s (a ++ b) e e'' := by
  intro l t rest hs he
  obtain ⟨t1, h1⟩ := h l t rest hs he
  obtain ⟨t2, h2⟩ := h' { l with stack := (s, t1) :: rest, egg := e' } t1 rest rfl rfl
  exact ⟨t2, h1.append h2⟩

theorem inside_leaf {name : Bytes} {i : Item} {s : State} (v : Bytes) (n : Nat) (e : EggConfig)
    (hn : nextState settings s name = some (.item i)) : Inside settings net s (leafEv name v n) e (setItem e i v) := by
  intro l t rest h he
  refine ⟨t ++ indent n ++ [10], ?_⟩
  rw [← he]
  exact reads_leaf l t rest v n h hn

/-- the setting of an element that may be absent -/
def setMaybe (e : EggConfig) (i : Item) : Option Bytes → EggConfig
  | some v => setItem e i v
  | none => e

theorem inside_maybe {name : Bytes} {i : Item} {s : State} (v : Option Bytes) (n : Nat) (e : EggConfig)
    (hn : nextState settings s name = some (.item i)) : Inside settings net s (maybeEv name v n) e (setMaybe e i v) := by
  cases v with
  | none => exact inside_nil s e
  | some v => exact inside_leaf v n e hn

/-- the names of the conditions -/
theorem inside_names (cs : List Condition) (n : Nat) (e : EggConfig) (ns : List Bytes) (he : e.conditions = some ns) :
    Inside settings net .conditions
      (cs.flatMap fun c => leafEv (ascii "applicable-condition") (conditionName c) n) e
      { e with conditions := some (ns ++ cs.map conditionName) } := by
  induction cs generalizing e ns with
  | nil =>
    have : { e with conditions := some (ns ++ List.map conditionName []) } = e := by
      cases e
      cases he
      simp
    rw [this]
    exact inside_nil _ _
  | cons c cs ih =>
    rw [List.flatMap_cons]
    have h1 := inside_leaf (settings := settings) (net := net) (i := .applicableCondition) (s := .conditions)
      (name := ascii "applicable-condition") (conditionName c) n e (by
        have : normalize (ascii "applicable-condition") = ascii "applicable_condition" := by decide
        simp [nextState, this])
    have h2 := ih (setItem e .applicableCondition (conditionName c)) (ns ++ [conditionName c]) (by simp [setItem, he])
    have := h1.append h2
    simpa [setItem] using this

/-- the conditions of a milter -/
theorem inside_conditions (cs : List Condition) (n m : Nat) (e : EggConfig) (hc : e.conditions = none) :
    Inside settings net .milter
      (if cs.isEmpty then [] else openEv (ascii "applicable-conditions") n ++
        (cs.flatMap fun c => leafEv (ascii "applicable-condition") (conditionName c) m) ++
        closeEv (ascii "applicable-conditions") n) e
      { e with conditions := if cs.isEmpty then none else some (cs.map conditionName) } := by
  by_cases h : cs.isEmpty
  · rw [if_pos h, if_pos h]
    have : { e with conditions := none } = e := by
      cases e
      cases hc
      rfl
    rw [this]
    exact inside_nil _ _
  · rw [if_neg h, if_neg h]
    intro l t rest hs he
    subst he
    have h1 := reads_chars (settings := settings) (net := net) l .milter t rest (indent n) hs
    have h2 : Reads settings net { l with stack := (.milter, t ++ indent n) :: rest } [.start (ascii "applicable-conditions")]
        { l with stack := (.conditions, []) :: (.milter, t ++ indent n) :: rest, egg := { l.egg with conditions := some [] } } := by
      have : normalize (ascii "applicable-conditions") = ascii "applicable_conditions" := by decide
      simp [Reads, run, step, tagStart, nextState, this, nextEgg]
    have h3 := reads_chars (settings := settings) (net := net)
      { l with stack := (.conditions, []) :: (.milter, t ++ indent n) :: rest, egg := { l.egg with conditions := some [] } }
      .conditions [] ((.milter, t ++ indent n) :: rest) [10] rfl
    obtain ⟨t4, h4⟩ := inside_names (settings := settings) (net := net) cs m { l.egg with conditions := some [] } [] rfl
      { l with stack := (.conditions, [] ++ [10]) :: (.milter, t ++ indent n) :: rest, egg := { l.egg with conditions := some [] } }
      ([] ++ [10]) ((.milter, t ++ indent n) :: rest) rfl rfl
    have h5 := reads_chars (settings := settings) (net := net)
      { l with stack := (.conditions, t4) :: (.milter, t ++ indent n) :: rest, egg := { l.egg with conditions := some (cs.map conditionName) } }
      .conditions t4 ((.milter, t ++ indent n) :: rest) (indent n) rfl
    have h6 : Reads settings net
        { l with stack := (.conditions, t4 ++ indent n) :: (.milter, t ++ indent n) :: rest, egg := { l.egg with conditions := some (cs.map conditionName) } }
        [.stop (ascii "applicable-conditions")]
        { l with stack := (.milter, t ++ indent n) :: rest, egg := { l.egg with conditions := some (cs.map conditionName) } } := by
      simp [Reads, run, step, tagEnd]
    have h7 := reads_chars (settings := settings) (net := net)
      { l with stack := (.milter, t ++ indent n) :: rest, egg := { l.egg with conditions := some (cs.map conditionName) } }
      .milter (t ++ indent n) rest [10] rfl
    refine ⟨t ++ indent n ++ [10], ?_⟩
    have := (((((h1.append h2).append h3).append h4).append h5).append h6).append h7
    simpa [openEv, closeEv] using this

/-- what the loader knows of a milter when its element ends -/
def configOf (e : Egg) : EggConfig :=
  { name := e.name, description := e.description, enabled := some e.enabled, connectionSpec := e.connectionSpec,
    command := e.command, commandOptions := e.commandOptions, fallbackStatus := some (statusNick e.fallback),
    evaluationMode := some e.evaluation,
    conditions := if e.conditions.isEmpty then none else some (e.conditions.map conditionName) }

theorem truth_read (b : Bool) : decide ((if b then ascii "true" else ascii "false") = ascii "true") = b := by
  cases b <;> decide

/-- what stands in the element of a milter -/
def innerEv (e : Egg) (n : Nat) : List Event :=
  maybeEv (ascii "name") e.name n ++
  maybeEv (ascii "description") e.description n ++
  leafEv (ascii "enabled") (if e.enabled then ascii "true" else ascii "false") n ++
  leafEv (ascii "fallback-status") (statusNick e.fallback) n ++
  leafEv (ascii "evaluation-mode") (if e.evaluation then ascii "true" else ascii "false") n ++
  maybeEv (ascii "connection-spec") e.connectionSpec n ++
  maybeEv (ascii "command") e.command n ++
  maybeEv (ascii "command-options") e.commandOptions n ++
  (if e.conditions.isEmpty then []
   else openEv (ascii "applicable-conditions") n ++
    (e.conditions.flatMap fun c => leafEv (ascii "applicable-condition") (conditionName c) (n + 2)) ++
    closeEv (ascii "applicable-conditions") n)

theorem eggEv_eq (e : Egg) (n : Nat) :
    eggEv e n = openEv (ascii "milter") n ++ innerEv e (n + 2) ++ closeEv (ascii "milter") n := by
  simp [eggEv, innerEv]

theorem next_milter (name : Bytes) (i : Item) (h1 : normalize name ≠ ascii "applicable_conditions")
    (h2 : milterItem (normalize name) = some i) : nextState settings .milter name = some (.item i) := by
  simp [nextState, h1, h2]

theorem inside_inner (e : Egg) (n : Nat) : Inside settings net .milter (innerEv e n) {} (configOf e) := by
  have h := ((((((((inside_maybe (settings := settings) (net := net) e.name n {}
      (next_milter (ascii "name") .name (by decide) (by decide))).append
    (inside_maybe e.description n _ (next_milter (ascii "description") .description (by decide) (by decide)))).append
    (inside_leaf (if e.enabled then ascii "true" else ascii "false") n _ (next_milter (ascii "enabled") .enabled (by decide) (by decide)))).append
    (inside_leaf (statusNick e.fallback) n _ (next_milter (ascii "fallback-status") .fallbackStatus (by decide) (by decide)))).append
    (inside_leaf (if e.evaluation then ascii "true" else ascii "false") n _ (next_milter (ascii "evaluation-mode") .evaluationMode (by decide) (by decide)))).append
    (inside_maybe e.connectionSpec n _ (next_milter (ascii "connection-spec") .connectionSpec (by decide) (by decide)))).append
    (inside_maybe e.command n _ (next_milter (ascii "command") .command (by decide) (by decide)))).append
    (inside_maybe e.commandOptions n _ (next_milter (ascii "command-options") .commandOptions (by decide) (by decide))))
  have hc := h.append (inside_conditions e.conditions n (n + 2) _ (by
    cases e.name <;> cases e.description <;> cases e.connectionSpec <;> cases e.command <;> cases e.commandOptions <;> rfl))
  have he : ∀ x y, Inside settings net .milter (innerEv e n) {} x → x = y → Inside settings net .milter (innerEv e n) {} y := by
    intro x y hx hxy
    exact hxy ▸ hx
  refine he _ _ hc ?_
  unfold configOf
  cases e.name <;> cases e.description <;> cases e.connectionSpec <;> cases e.command <;> cases e.commandOptions <;>
    simp only [setMaybe, setItem, truth_read]

/-- a milter: all depends on `define_milter` -/
theorem reads_egg (e : Egg) (n : Nat) (l l' : Loader) (t : Bytes) (rest : List (State × Bytes))
    (h : l.stack = (.milters, t) :: rest)
    (hd : defineMilter net { l with stack := (.milters, t ++ indent n) :: rest, egg := configOf e } = .on l')
    (hl : l'.stack = (.milters, t ++ indent n) :: rest) :
    Reads settings net l (eggEv e n) { l' with stack := (.milters, t ++ indent n ++ [10]) :: rest } := by
  rw [eggEv_eq]
  have h1 := reads_chars (settings := settings) (net := net) l .milters t rest (indent n) h
  have h2 : Reads settings net { l with stack := (.milters, t ++ indent n) :: rest } [.start (ascii "milter")]
      { l with stack := (.milter, []) :: (.milters, t ++ indent n) :: rest, egg := {} } := by
    have : normalize (ascii "milter") = ascii "milter" := by decide
    simp [Reads, run, step, tagStart, nextState, this, nextEgg]
  have h3 := reads_chars (settings := settings) (net := net)
    { l with stack := (.milter, []) :: (.milters, t ++ indent n) :: rest, egg := {} }
    .milter [] ((.milters, t ++ indent n) :: rest) [10] rfl
  obtain ⟨t4, h4⟩ := inside_inner (settings := settings) (net := net) e (n + 2)
    { l with stack := (.milter, [] ++ [10]) :: (.milters, t ++ indent n) :: rest, egg := {} }
    ([] ++ [10]) ((.milters, t ++ indent n) :: rest) rfl rfl
  have h5 := reads_chars (settings := settings) (net := net)
    { l with stack := (.milter, t4) :: (.milters, t ++ indent n) :: rest, egg := configOf e }
    .milter t4 ((.milters, t ++ indent n) :: rest) (indent n) rfl
  have h6 : Reads settings net
      { l with stack := (.milter, t4 ++ indent n) :: (.milters, t ++ indent n) :: rest, egg := configOf e }
      [.stop (ascii "milter")] l' := by
    simp only [Reads, run, step, tagEnd, hd]
  have h7 := reads_chars (settings := settings) (net := net) l' .milters (t ++ indent n) rest [10] hl
  have := (((((h1.append h2).append h3).append h4).append h5).append h6).append h7
  simpa [openEv, closeEv] using this

/-! ### defining a milter -/

theorem findCondition_eq {cs : List Condition} {c : Condition} {n : Bytes} (hn : c.name = some n)
    (hs : ∀ x ∈ cs, x.name ≠ none) (h : cs.find? (fun x => x.name = c.name) = some c) :
    findCondition n cs = some (some c) := by
  induction cs with
  | nil => simp at h
  | cons x cs ih =>
    rw [List.find?_cons] at h
    unfold findCondition
    cases hx : x.name with
    | none => exact absurd hx (hs x (List.mem_cons_self ..))
    | some m =>
      rw [hx, hn] at h
      by_cases hm : m = n
      · subst hm
        simp only [decide_true, Option.some.injEq] at h
        simp [h]
      · have hm' : ¬ n = m := fun e => hm e.symm
        have hm2 : ¬ (some m = some n) := fun e => hm (Option.some.inj e)
        simp only [hm2, decide_false] at h
        simp only [hm', if_false]
        refine ih (fun y hy => hs y (List.mem_cons_of_mem _ hy)) ?_
        rw [hn]
        exact h

theorem lookup_eq {cs : List Condition} (hs : ∀ x ∈ cs, x.name ≠ none) (l : List Condition)
    (h : ∀ c ∈ l, c.name ≠ none ∧ cs.find? (fun x => x.name = c.name) = some c) :
    lookupConditions cs (l.map conditionName) = .on l := by
  induction l with
  | nil => rfl
  | cons c l ih =>
    obtain ⟨h1, h2⟩ := h c (List.mem_cons_self ..)
    rw [List.map_cons]
    unfold lookupConditions
    cases hn : c.name with
    | none => exact absurd hn h1
    | some n =>
      have : conditionName c = n := by simp [conditionName, hn]
      rw [this, findCondition_eq hn hs h2]
      dsimp only
      rw [ih fun d hd => h d (List.mem_cons_of_mem _ hd)]

theorem lookup_config {cs : List Condition} (hs : ∀ x ∈ cs, x.name ≠ none) (l : List Condition)
    (h : ∀ c ∈ l, c.name ≠ none ∧ cs.find? (fun x => x.name = c.name) = some c) :
    lookupConditions cs ((if l.isEmpty then none else some (l.map conditionName)).getD []) = .on l := by
  cases l with
  | nil => rfl
  | cons c l => exact lookup_eq hs (c :: l) h

theorem fallback_read {s : Status} (h : s = .accept ∨ s = .reject ∨ s = .temporaryFailure ∨ s = .discard) :
    fallbackStatus (statusNick s) = some s := by
  rcases h with rfl | rfl | rfl | rfl <;> decide

theorem foldl_add (cs : List Condition) (e : Egg) :
    cs.foldl Egg.addCondition e = { e with conditions := e.conditions ++ cs } := by
  induction cs generalizing e with
  | nil => simp
  | cons c cs ih =>
    rw [List.foldl_cons, ih]
    simp [Egg.addCondition]

theorem find_eq {es : List Egg} (hs : ∀ x ∈ es, x.name ≠ none) (n : Bytes) :
    Egg.find n es = some (es.find? fun x => x.name = some n) := by
  induction es with
  | nil => rfl
  | cons x es ih =>
    unfold Egg.find Egg.sameName
    rw [List.find?_cons]
    cases hx : x.name with
    | none => exact absurd hx (hs x (List.mem_cons_self ..))
    | some m =>
      have ih' := ih fun y hy => hs y (List.mem_cons_of_mem _ hy)
      by_cases hm : n = m
      · subst hm
        simp
      · have hm' : ¬ m = n := fun e => hm e.symm
        simp [hm, hm', ih']

theorem remove_eq {es : List Egg} (hs : ∀ x ∈ es, x.name ≠ none) (n : Bytes) :
    Egg.remove n es = some (es.eraseP fun x => x.name = some n) := by
  induction es with
  | nil => rfl
  | cons x es ih =>
    unfold Egg.remove Egg.sameName
    rw [List.eraseP_cons]
    cases hx : x.name with
    | none => exact absurd hx (hs x (List.mem_cons_self ..))
    | some m =>
      have ih' := ih fun y hy => hs y (List.mem_cons_of_mem _ hy)
      by_cases hm : n = m
      · subst hm
        simp
      · have hm' : ¬ m = n := fun e => hm e.symm
        simp [hm, hm', ih']

/-- the egg `define_milter` starts from -/
def opened (n : Bytes) : Option Egg → Egg
  | none => Egg.newEgg n
  | some o =>
    { (Egg.newEgg n) with description := o.description, enabled := o.enabled, connectionSpec := o.connectionSpec, timeouts := o.timeouts, userName := o.userName, command := o.command, commandOptions := if o.command = none then none else o.commandOptions, conditions := o.conditions }

theorem openEgg_eq {es : List Egg} (hs : InUse net es) (n : Bytes) :
    Egg.openEgg net es n = some (some (opened n (es.find? fun x => x.name = some n))) := by
  unfold Egg.openEgg
  rw [find_eq fun x hx => (hs x hx).1]
  cases hf : es.find? fun x => x.name = some n with
  | none => rfl
  | some o =>
    have ho := hs o (List.mem_of_find?_eq_some hf)
    obtain ⟨on, od, oe, os, ot, ou, oc, oo, oconds, of, ov⟩ := o
    have hm : Egg.merge net (Egg.newEgg n) ⟨on, od, oe, os, ot, ou, oc, oo, oconds, of, ov⟩ =
        some (true, opened n (some ⟨on, od, oe, os, ot, ou, oc, oo, oconds, of, ov⟩)) := by
      unfold Egg.merge opened
      cases os with
      | none =>
        cases od <;> cases ou <;> cases oc <;>
          simp [foldl_add, Egg.clearConditions, Egg.newEgg]
      | some s =>
        obtain ⟨a, ha⟩ := ho.2 s rfl
        have hset : ∀ x : Egg, Egg.setConnectionSpec net x (some s) = some (true, { x with connectionSpec := some s }) := by
          intro x
          simp [Egg.setConnectionSpec, ha]
        cases od <;> cases ou <;> cases oc <;>
          simp [hset, foldl_add, Egg.clearConditions, Egg.newEgg]
    simp [hm]

theorem configure_eq {conds : List Condition} (hc : ∀ x ∈ conds, x.name ≠ none) {e : Egg} (h : Loadable net conds e)
    (n : Bytes) (hn : e.name = some n) (old : Option Egg) :
    configure net conds (configOf e) (opened n old) = .on (restored old e) := by
  obtain ⟨h1, h2, h3, h4, h5⟩ := h
  have hl := lookup_config hc e.conditions h5
  have hf := fallback_read h4
  obtain ⟨en, ed, ee, es, et, eu, ec, eo, econds, ef, ev⟩ := e
  dsimp only at *
  subst hn
  have hset : (if (es.getD []) = [] then some (true, opened n old) else Egg.setConnectionSpec net (opened n old) (some (es.getD []))) =
      some (true, { opened n old with connectionSpec := es <|> (opened n old).connectionSpec }) := by
    cases es with
    | none => simp
    | some s =>
      obtain ⟨hs, a, ha⟩ := h2 s rfl
      simp [hs, Egg.setConnectionSpec, ha]
  unfold configure configOf
  dsimp only
  rw [hset]
  dsimp only
  rw [hl]
  dsimp only
  rw [foldl_add]
  rw [hf]
  have hcmd : (ec = none ∧ eo = none) ∨ ∃ x y, ec = some x ∧ eo = some y := by
    cases ec with
    | none => exact .inl ⟨rfl, h3.mp rfl⟩
    | some x =>
      cases eo with
      | none => exact absurd (h3.mpr rfl) (by simp)
      | some y => exact .inr ⟨x, y, rfl, rfl⟩
  rcases hcmd with ⟨rfl, rfl⟩ | ⟨x, y, rfl, rfl⟩
  · cases old with
    | none => cases ed <;> simp [opened, restored, Egg.newEgg, Egg.clearConditions]
    | some o => cases ed <;> simp [opened, restored, Egg.newEgg, Egg.clearConditions]
  · cases old with
    | none => cases ed <;> simp [opened, restored, Egg.newEgg, Egg.clearConditions]
    | some o => cases ed <;> simp [opened, restored, Egg.newEgg, Egg.clearConditions]

theorem define_eq (l : Loader) {e : Egg} (hc : ∀ x ∈ l.conditions, x.name ≠ none) (h : Loadable net l.conditions e)
    (hs : InUse net l.eggs) (hcfg : l.egg = configOf e) :
    defineMilter net l = .on { l with eggs := put l.eggs e } := by
  unfold defineMilter
  rw [hcfg]
  cases hn : e.name with
  | none => exact absurd hn h.name
  | some n =>
    have : (configOf e).name = some n := hn
    rw [this]
    dsimp only
    rw [openEgg_eq hs n]
    dsimp only
    rw [configure_eq hc h n hn]
    dsimp only
    unfold Egg.apply
    rw [remove_eq fun x hx => (hs x hx).1]
    simp [Egg.add, put, hn]

theorem inUse_put {conds : List Condition} {es : List Egg} {e : Egg} (hs : InUse net es) (h : Loadable net conds e) :
    InUse net (put es e) := by
  intro x hx
  rcases List.mem_append.mp hx with hx | hx
  · exact hs x (List.mem_of_mem_eraseP hx)
  · rw [List.mem_singleton] at hx
    subst hx
    refine ⟨h.name, ?_⟩
    intro s hsp
    cases hsp' : e.connectionSpec with
    | some s' =>
      have : s = s' := by
        have : (restored (es.find? fun x => x.name = e.name) e).connectionSpec = some s' := by simp [restored, hsp']
        rw [this] at hsp
        exact (Option.some.inj hsp).symm
      subst this
      exact (h.spec s hsp').2
    | none =>
      cases hf : es.find? fun x => x.name = e.name with
      | none =>
        rw [hf] at hsp
        simp [restored, hsp'] at hsp
      | some o =>
        rw [hf] at hsp
        have : o.connectionSpec = some s := by simpa [restored, hsp'] using hsp
        exact (hs o (List.mem_of_find?_eq_some hf)).2 s this

theorem reads_eggs (es : List Egg) (n : Nat) (l : Loader) (t : Bytes) (rest : List (State × Bytes))
    (h : l.stack = (.milters, t) :: rest) (hc : ∀ x ∈ l.conditions, x.name ≠ none)
    (hl : ∀ e ∈ es, Loadable net l.conditions e) (hs : InUse net l.eggs) :
    ∃ t' g, Reads settings net l (es.flatMap fun e => eggEv e n)
      { l with stack := (.milters, t') :: rest, egg := g, eggs := es.foldl put l.eggs } := by
  induction es generalizing l t with
  | nil =>
    refine ⟨t, l.egg, ?_⟩
    cases l
    cases h
    exact reads_nil _
  | cons e es ih =>
    have he := hl e (List.mem_cons_self ..)
    have hd := define_eq (net := net) { l with stack := (.milters, t ++ indent n) :: rest, egg := configOf e } hc he hs rfl
    have h1 := reads_egg (settings := settings) e n l _ t rest h hd rfl
    obtain ⟨t', g, h2⟩ := ih { l with stack := (.milters, t ++ indent n ++ [10]) :: rest, egg := configOf e, eggs := put l.eggs e }
      (t ++ indent n ++ [10]) rfl hc (fun x hx => hl x (List.mem_cons_of_mem _ hx)) (inUse_put hs he)
    refine ⟨t', g, ?_⟩
    rw [List.flatMap_cons]
    exact h1.append h2

/-- the loader after the root element was opened -/
theorem reads_root (l : Loader) (h : l.stack = [(.root, [])]) :
    Reads settings net l (openEv (ascii "configuration") 0)
      { l with stack := [(.configuration, [10]), (.root, [])] } := by
  have hn : normalize (ascii "configuration") = ascii "configuration" := by decide
  have h1 : Reads settings net l [.start (ascii "configuration")] { l with stack := [(.configuration, []), (.root, [])] } := by
    simp [Reads, run, step, tagStart, nextState, hn, nextEgg, h]
  have h2 := reads_chars (settings := settings) (net := net)
    { l with stack := [(.configuration, []), (.root, [])] } .configuration [] [(.root, [])] [10] rfl
  have := h1.append h2
  simpa [openEv, indent, chars] using this

theorem reads_end (l : Loader) (t : Bytes) (h : l.stack = [(.configuration, t), (.root, [])]) :
    Reads settings net l (closeEv (ascii "configuration") 0) { l with stack := [(.root, [10])] } := by
  have h1 : Reads settings net l [.stop (ascii "configuration")] { l with stack := [(.root, [])] } := by
    simp [Reads, run, step, tagEnd, h]
  have h2 := reads_chars (settings := settings) (net := net) { l with stack := [(.root, [])] } .root [] [] [10] rfl
  have := h1.append h2
  simpa [closeEv, indent, chars] using this

theorem reads_milters (es : List Egg) (l : Loader) (t : Bytes)
    (h : l.stack = [(.configuration, t), (.root, [])]) (hc : ∀ x ∈ l.conditions, x.name ≠ none)
    (hl : ∀ e ∈ es, Loadable net l.conditions e) (hs : InUse net l.eggs) :
    ∃ t' g, Reads settings net l
      (openEv (ascii "milters") 2 ++ (es.flatMap fun e => eggEv e 4) ++ closeEv (ascii "milters") 2)
      { l with stack := [(.configuration, t'), (.root, [])], egg := g, eggs := es.foldl put l.eggs } := by
  have hn : normalize (ascii "milters") = ascii "milters" := by decide
  have h1 := reads_chars (settings := settings) (net := net) l .configuration t [(.root, [])] (indent 2) h
  have h2 : Reads settings net { l with stack := [(.configuration, t ++ indent 2), (.root, [])] } [.start (ascii "milters")]
      { l with stack := [(.milters, []), (.configuration, t ++ indent 2), (.root, [])] } := by
    have d1 : ascii "milters" ≠ ascii "security" := by decide
    have d2 : ascii "milters" ≠ ascii "controller" := by decide
    have d3 : ascii "milters" ≠ ascii "manager" := by decide
    simp [Reads, run, step, tagStart, nextState, hn, nextEgg, d1, d2, d3]
  have h3 := reads_chars (settings := settings) (net := net)
    { l with stack := [(.milters, []), (.configuration, t ++ indent 2), (.root, [])] }
    .milters [] [(.configuration, t ++ indent 2), (.root, [])] [10] rfl
  obtain ⟨t4, g, h4⟩ := reads_eggs (settings := settings) (net := net) es 4
    { l with stack := [(.milters, [] ++ [10]), (.configuration, t ++ indent 2), (.root, [])] } ([] ++ [10])
    [(.configuration, t ++ indent 2), (.root, [])] rfl hc hl hs
  have h5 := reads_chars (settings := settings) (net := net)
    { l with stack := [(.milters, t4), (.configuration, t ++ indent 2), (.root, [])], egg := g, eggs := es.foldl put l.eggs }
    .milters t4 [(.configuration, t ++ indent 2), (.root, [])] (indent 2) rfl
  have h6 : Reads settings net
      { l with stack := [(.milters, t4 ++ indent 2), (.configuration, t ++ indent 2), (.root, [])], egg := g, eggs := es.foldl put l.eggs }
      [.stop (ascii "milters")]
      { l with stack := [(.configuration, t ++ indent 2), (.root, [])], egg := g, eggs := es.foldl put l.eggs } := by
    simp [Reads, run, step, tagEnd]
  have h7 := reads_chars (settings := settings) (net := net)
    { l with stack := [(.configuration, t ++ indent 2), (.root, [])], egg := g, eggs := es.foldl put l.eggs }
    .configuration (t ++ indent 2) [(.root, [])] [10] rfl
  refine ⟨t ++ indent 2 ++ [10], g, ?_⟩
  have := (((((h1.append h2).append h3).append h4).append h5).append h6).append h7
  simpa [openEv, closeEv] using this

/-- C86 (partial).  Loading the XML of a configuration without applicable conditions and without
a custom configuration file, into a configuration with any milters `old`, succeeds and sets every
milter of the XML as the XML says, one after the other, each taking over what the XML does not
say from the milter of its name.  What is missing: the XML of configurations with conditions or
with a custom configuration file, and of milters that are not `Loadable`, is refused
(`C86_violated`, `C86_conditions_violated`, `C86_command_violated`). -/
theorem C86_partial (conds : List Condition) (hc : ∀ x ∈ conds, x.name ≠ none) (c : Conf) (hp : PlainConf none c)
    (hn : c.conditions = []) (hl : ∀ e ∈ c.eggs, Loadable net conds e) (old : List Egg) (hs : InUse net old) :
    ∃ l, XmlLoader.load settings net conds old (toXml none c 0) = some (l, true) ∧
      l.eggs = c.eggs.foldl put old ∧ l.sent = [] := by
  unfold XmlLoader.load
  rw [events_conf none c 0 hp]
  dsimp only
  have h1 := reads_root (settings := settings) (net := net)
    { stack := [(.root, [])], eggs := old, conditions := conds } rfl
  unfold confEv
  rw [hn]
  by_cases he : c.eggs.isEmpty
  · rw [if_pos he]
    have h2 := reads_end (settings := settings) (net := net)
      { stack := [(.configuration, [10]), (.root, [])], eggs := old, conditions := conds } [10] rfl
    refine ⟨{ stack := [(.root, [10])], eggs := old, conditions := conds }, ?_, ?_, rfl⟩
    · have h3 : Reads settings net _ _ _ := h1.append h2
      simp only [maybeEv, List.isEmpty_nil, if_true, List.append_nil]
      exact h3
    · rw [List.isEmpty_iff.mp he]
      rfl
  · rw [if_neg he]
    obtain ⟨t, g, h2⟩ := reads_milters (settings := settings) (net := net) c.eggs
      { stack := [(.configuration, [10]), (.root, [])], eggs := old, conditions := conds } [10] rfl hc hl hs
    have h3 := reads_end (settings := settings) (net := net)
      { stack := [(.configuration, t), (.root, [])], egg := g, eggs := c.eggs.foldl put old, conditions := conds } t rfl
    refine ⟨{ stack := [(.root, [10])], egg := g, eggs := c.eggs.foldl put old, conditions := conds }, ?_, rfl, rfl⟩
    have h4 : Reads settings net _ _ _ := (h1.append h2).append h3
    simp only [maybeEv, List.isEmpty_nil, if_true, List.append_nil]
    simpa [Reads] using h4

theorem restored_self {conds : List Condition} {e : Egg} (h : Loadable net conds e) : restored (some e) e = e := by
  have hc := h.command
  obtain ⟨en, ed, ee, es, et, eu, ec, eo, econds, ef, ev⟩ := e
  dsimp only at hc
  cases ec with
  | none =>
    have : eo = none := hc.mp rfl
    subst this
    cases ed <;> cases es <;> simp [restored]
  | some c => cases ed <;> cases es <;> simp [restored]

theorem foldl_put {conds : List Condition} (es d : List Egg) (h : ∀ e ∈ es, Loadable net conds e) :
    es.foldl put (es ++ d) = d ++ es := by
  induction es generalizing d with
  | nil => simp
  | cons e es ih =>
    have : put (e :: es ++ d) e = es ++ (d ++ [e]) := by
      simp [put, restored_self (h e (List.mem_cons_self ..))]
    rw [List.foldl_cons, this, ih _ fun x hx => h x (List.mem_cons_of_mem _ hx)]
    simp

/-- C86 (partial).  Handed back to the configuration it came from, the XML leaves all milters
and their order exactly as they were. -/
theorem C86_back_partial (conds : List Condition) (hc : ∀ x ∈ conds, x.name ≠ none) (c : Conf) (hp : PlainConf none c)
    (hn : c.conditions = []) (hl : ∀ e ∈ c.eggs, Loadable net conds e) :
    ∃ l, XmlLoader.load settings net conds c.eggs (toXml none c 0) = some (l, true) ∧ l.eggs = c.eggs ∧ l.sent = [] := by
  obtain ⟨l, h1, h2, h3⟩ := C86_partial (settings := settings) conds hc c hp hn hl c.eggs (by
    intro e he
    exact ⟨(hl e he).name, fun s hs => ((hl e he).spec s hs).2⟩)
  refine ⟨l, h1, ?_, h3⟩
  have := foldl_put c.eggs [] hl
  rw [List.append_nil] at this
  rw [h2, this]
  rfl

/-- an element that is not expected ends the loading -/
theorem run_refused {l l' : Loader} {a : List Event} (n : Bytes) (b : List Event) (h : Reads settings net l a l')
    (s : State) (t : Bytes) (rest : List (State × Bytes)) (hs : l'.stack = (s, t) :: rest)
    (hn : nextState settings s n = none) : run settings net l (a ++ .start n :: b) = some (l', false) := by
  rw [run_append _ h]
  simp [run, step, tagStart, hs, hn]

/-- C86 is violated: as soon as there is a custom configuration file (that is, after the first
configuration was handed in), the XML handed out starts with an element that the loader refuses:
nothing of it is loaded. -/
theorem C86_violated (conds : List Condition) (c : Conf) (t : Bytes) (hp : PlainConf (some t) c) (old : List Egg) :
    ∃ l, XmlLoader.load settings net conds old (toXml (some t) c 0) = some (l, false) ∧ l.eggs = old ∧ l.sent = [] := by
  unfold XmlLoader.load
  rw [events_conf (some t) c 0 hp]
  dsimp only
  have h1 := reads_root (settings := settings) (net := net)
    { stack := [(.root, [])], eggs := old, conditions := conds } rfl
  have h2 := reads_chars (settings := settings) (net := net)
    { stack := [(.configuration, [10]), (.root, [])], eggs := old, conditions := conds } .configuration [10] [(.root, [])]
    (indent 2) rfl
  have h3 : Reads settings net _ _ _ := h1.append h2
  have hn : nextState settings .configuration (ascii "last-modified") = none := by
    have e : normalize (ascii "last-modified") = ascii "last_modified" := by decide
    have d1 : ascii "last_modified" ≠ ascii "security" := by decide
    have d2 : ascii "last_modified" ≠ ascii "controller" := by decide
    have d3 : ascii "last_modified" ≠ ascii "manager" := by decide
    have d4 : ascii "last_modified" ≠ ascii "milters" := by decide
    simp [nextState, e, d1, d2, d3, d4]
  refine ⟨{ stack := [(.configuration, [10] ++ indent 2), (.root, [])], eggs := old, conditions := conds }, ?_, rfl, rfl⟩
  unfold confEv
  simp only [maybeEv, leafEv, List.append_assoc, List.singleton_append, Nat.zero_add]
  rw [← List.append_assoc]
  exact run_refused _ _ h3 _ _ _ rfl hn

/-- C86 is violated: the same for every configuration that defines an applicable condition. -/
theorem C86_conditions_violated (conds : List Condition) (c : Conf) (hp : PlainConf none c) (hc : c.conditions ≠ [])
    (old : List Egg) :
    ∃ l, XmlLoader.load settings net conds old (toXml none c 0) = some (l, false) ∧ l.eggs = old ∧ l.sent = [] := by
  unfold XmlLoader.load
  rw [events_conf none c 0 hp]
  dsimp only
  have h1 := reads_root (settings := settings) (net := net)
    { stack := [(.root, [])], eggs := old, conditions := conds } rfl
  have h2 := reads_chars (settings := settings) (net := net)
    { stack := [(.configuration, [10]), (.root, [])], eggs := old, conditions := conds } .configuration [10] [(.root, [])]
    (indent 2) rfl
  have h3 : Reads settings net _ _ _ := h1.append h2
  have hn : nextState settings .configuration (ascii "applicable-conditions") = none := by
    have e : normalize (ascii "applicable-conditions") = ascii "applicable_conditions" := by decide
    have d1 : ascii "applicable_conditions" ≠ ascii "security" := by decide
    have d2 : ascii "applicable_conditions" ≠ ascii "controller" := by decide
    have d3 : ascii "applicable_conditions" ≠ ascii "manager" := by decide
    have d4 : ascii "applicable_conditions" ≠ ascii "milters" := by decide
    simp [nextState, e, d1, d2, d3, d4]
  refine ⟨{ stack := [(.configuration, [10] ++ indent 2), (.root, [])], eggs := old, conditions := conds }, ?_, rfl, rfl⟩
  unfold confEv
  have he : c.conditions.isEmpty = false := by simpa using hc
  rw [he]
  simp only [Bool.false_eq_true, if_false, maybeEv, openEv, List.append_assoc, List.singleton_append, List.nil_append,
    Nat.zero_add]
  simp only [openEv, List.append_assoc, List.singleton_append] at h3
  have := run_refused (settings := settings) (net := net) (ascii "applicable-conditions")
    (chars [10] ++ ((c.conditions.flatMap fun x => conditionEv x 4) ++ (closeEv (ascii "applicable-conditions") 2 ++
      ((if c.eggs.isEmpty then [] else chars (indent 2) ++ (.start (ascii "milters") :: (chars [10] ++
        ((c.eggs.flatMap fun e => eggEv e 4) ++ closeEv (ascii "milters") 2)))) ++ closeEv (ascii "configuration") 0))))
    h3 _ _ _ rfl hn
  simpa using this

/-- a milter with a command and conditions, and one with next to nothing -/
def exMilters : List Egg :=
  [{ name := some (ascii "a<b"), command := some (ascii "/bin/a"), commandOptions := some (ascii "-x 'y & z'"),
     enabled := false, fallback := .temporaryFailure, conditions := [{ name := some (ascii "S25R") }] },
   { name := some (ascii "b"), evaluation := true }]

/-- the hypotheses of `C86_partial` and `C86_back_partial` are met -/
example : let c : Conf := { exConf {} with eggs := exMilters }
    PlainConf none c ∧ c.conditions = [] ∧ ∀ e ∈ c.eggs, Loadable net [{ name := some (ascii "S25R") }] e := by
  refine ⟨⟨by simp, ?_, by intro x hx; cases hx⟩, rfl, ?_⟩
  · intro e he
    rcases List.mem_cons.mp he with rfl | he
    · refine ⟨?_, ?_, ?_, ?_, ?_, ?_⟩
      · intro t ht; cases ht; unfold Plain; decide
      · intro t ht; cases ht
      · intro t ht; cases ht
      · intro t ht; cases ht; unfold Plain; decide
      · intro t ht; cases ht; unfold Plain; decide
      · intro x hx
        rcases List.mem_cons.mp hx with rfl | hx
        · unfold Plain; decide
        · cases hx
    · rcases List.mem_cons.mp he with rfl | he
      · refine ⟨?_, ?_, ?_, ?_, ?_, ?_⟩ <;> first
          | (intro t ht; cases ht; unfold Plain; decide)
          | (intro t ht; cases ht)
      · cases he
  · intro e he
    rcases List.mem_cons.mp he with rfl | he
    · refine ⟨by simp, (by intro s hs; cases hs), by simp, by simp, ?_⟩
      intro x hx
      rcases List.mem_cons.mp hx with rfl | hx
      · exact ⟨by simp, by decide⟩
      · cases hx
    · rcases List.mem_cons.mp he with rfl | he
      · exact ⟨by simp, (by intro s hs; cases hs), by simp, by simp, (by intro x hx; cases hx)⟩
      · cases he

/-- C86 is violated: a milter that has a command but no options for it cannot be handed back,
nor any milter after it. -/
theorem C86_command_violated : ∃ c : Conf, PlainConf none c ∧ c.conditions = [] ∧ c.eggs.length = 2 ∧
    (XmlLoader.load settings net [] c.eggs (toXml none { c with eggs := c.eggs.map fun e => { e with enabled := false } } 0)).map
      (fun r => (r.1.eggs, r.2)) = some (c.eggs, false) := by
  refine ⟨{ exConf {} with eggs := [{ name := some (ascii "a"), command := some (ascii "x") }, { name := some (ascii "b") }] },
    ⟨by simp, ?_, by intro x hx; cases hx⟩, rfl, rfl, ?_⟩
  · intro e he
    rcases List.mem_cons.mp he with rfl | he
    · refine ⟨?_, ?_, ?_, ?_, ?_, ?_⟩ <;> first
        | (intro t ht; cases ht; unfold Plain; decide)
        | (intro t ht; cases ht)
    · rcases List.mem_cons.mp he with rfl | he
      · refine ⟨?_, ?_, ?_, ?_, ?_, ?_⟩ <;> first
          | (intro t ht; cases ht; unfold Plain; decide)
          | (intro t ht; cases ht)
      · cases he
  · set_option maxRecDepth 100000 in rfl

end Verif.Props.XmlLoader
