import Verif.Core.ProtocolAgent
import Verif.Spec.Macros
/-
C16, C17: macro lookups.
-/
namespace Verif.Props
open Verif Verif.Macros Verif.Spec.Macros

/-- a call on the modelled agent; the result is the value a lookup returned -/
def agentStep (a : Agent) : Call → Agent
  | .setContext c => a.setContext c
  | .setMacro c n v => a.setMacro c n v
  | .setMacros c l => a.setMacros c l
  | .setTable c t => a.setTable c t
  | .clear c => a.clear c
  | .clearMessage => a.clearMessage
  | .lookup n => (a.getMacro n).2
  | .available => a.getAvailable.2

/-- the agent after a history, newest call first -/
def agentAfter : List Call → Agent
  | [] => Agent.init
  | c :: h => agentStep (agentAfter h) c

theorem getMacro_agent (a : Agent) (n : Bytes) : (a.getMacro n).2 = a.getAvailable.2 := by
  unfold Agent.getMacro
  split
  rename_i t a' h
  rw [h]
  split
  · rfl
  · split <;> rfl

theorem getAvailable_macros (a : Agent) : a.getAvailable.2.macros = a.macros ∧
    a.getAvailable.2.context = a.context := by
  unfold Agent.getAvailable
  split <;> exact ⟨rfl, rfl⟩

theorem foldl_update (l : List (Bytes × Option Bytes)) (t : Table) (n : Bytes) :
    l.foldl (fun t p => t.update p.1 p.2) t n = match lastDef n l with
      | some v => v
      | none => t n := by
  induction l generalizing t with
  | nil => rfl
  | cons p l ih =>
    obtain ⟨m, v⟩ := p
    rw [List.foldl_cons, ih, lastDef]
    cases lastDef n l with
    | some w => rfl
    | none =>
      simp only [Table.update]
      by_cases h : n = m
      · simp [h]
      · have : ¬ m = n := fun e => h e.symm
        simp [h, this]

/-- the tables of the agent hold what the history defined -/
theorem tables (h : List Call) (s : UInt8) (n : Bytes) :
    (agentAfter h).ensure s n = defined s n h ∧ (agentAfter h).context = current h := by
  induction h with
  | nil => exact ⟨rfl, rfl⟩
  | cons c h ih =>
    obtain ⟨ih, ihc⟩ := ih
    have hs : ∀ a b : Agent, a.macros = b.macros → a.ensure s n = b.ensure s n := by
      intro a b e; simp [Agent.ensure, e]
    rw [agentAfter]
    cases c with
    | setContext c => exact ⟨(hs _ _ rfl).trans ih, rfl⟩
    | setMacro c m v =>
      refine ⟨?_, ihc⟩
      simp only [agentStep, Agent.setMacro, Agent.invalidate, Agent.put, Agent.ensure, defined]
      by_cases e : s = c
      · subst e
        simp only [if_true, Option.getD_some, Table.update, true_and]
        by_cases e' : n = m
        · simp [e']
        · have : ¬ m = n := fun e => e' e.symm
          simp only [e', this, if_false]
          exact ih
      · have : ¬ c = s := fun x => e x.symm
        simp only [e, this, if_false, false_and]
        exact ih
    | setMacros c l =>
      refine ⟨?_, ihc⟩
      simp only [agentStep, Agent.setMacros, Agent.put, defined]
      by_cases e : s = c
      · subst e
        simp only [Agent.ensure, if_true, Option.getD_some]
        rw [foldl_update]
        cases lastDef n l with
        | some v => rfl
        | none => exact ih
      · have : ¬ c = s := fun x => e x.symm
        simp only [Agent.ensure, e, this, if_false]
        exact ih
    | setTable c t =>
      refine ⟨?_, ihc⟩
      simp only [agentStep, Agent.setTable, Agent.invalidate, Agent.put, Agent.ensure, defined]
      by_cases e : s = c
      · subst e
        simp only [if_true, Option.getD_some, Table.merge, Table.empty]
        cases t n <;> rfl
      · have : ¬ c = s := fun x => e x.symm
        simp only [e, this, if_false]
        exact ih
    | clear c =>
      refine ⟨?_, ihc⟩
      simp only [agentStep, Agent.clear, Agent.invalidate, Agent.ensure, defined]
      by_cases e : s = c
      · subst e; simp [Table.empty]
      · have : ¬ c = s := fun x => e x.symm
        simp only [e, this, if_false]
        exact ih
    | clearMessage =>
      refine ⟨?_, ihc⟩
      simp only [agentStep, Agent.clearMessage, Agent.invalidate, Agent.ensure, defined]
      have hm : messageContexts.contains s = true ↔ s ∈ messageStages := by
        rw [List.contains_iff_mem]; rfl
      by_cases e : s ∈ messageStages
      · simp only [hm.2 e, e, if_true]; rfl
      · have : messageContexts.contains s = false := by
          rw [Bool.eq_false_iff]; exact fun x => e (hm.1 x)
        simp only [this, e, if_false]
        exact ih
    | lookup m =>
      simp only [agentStep, defined, getMacro_agent, current]
      have := getAvailable_macros (agentAfter h)
      exact ⟨(hs _ _ this.1).trans ih, this.2.trans ihc⟩
    | available =>
      simp only [agentStep, defined, current]
      have := getAvailable_macros (agentAfter h)
      exact ⟨(hs _ _ this.1).trans ih, this.2.trans ihc⟩

theorem idxOf_cons_of_ne {a b : UInt8} {l : List UInt8} (h : b ≠ a) :
    (b :: l).idxOf a = l.idxOf a + 1 := by
  rw [List.idxOf_cons, beq_false_of_ne h]
  rfl

/-- the table the loop collects, stage by stage -/
theorem collect_eq (a : Agent) (h : List Call) (n : Bytes)
    (hd : ∀ s, a.ensure s n = defined s n h) (ctx : UInt8) (order : List UInt8) (acc : Table) :
    collect a.macros ctx order acc n =
      match latest h n (if ctx ∈ order then order.take (order.idxOf ctx + 1) else order) with
      | some v => some v
      | none => acc n := by
  induction order generalizing acc with
  | nil => simp [collect, latest]
  | cons c order ih =>
    have hc : addContext acc (a.macros c) n = match defined c n h with
        | some v => some v
        | none => acc n := by
      rw [← hd c]
      simp only [Agent.ensure]
      cases a.macros c with
      | none => rfl
      | some t => rfl
    rw [collect]
    by_cases e : c = ctx
    · subst e
      simp only [if_true, List.mem_cons, true_or, List.idxOf_cons_self, Nat.zero_add,
        List.take_succ_cons, List.take_zero, latest]
      rw [hc]
    · have e' : ¬ ctx = c := fun x => e x.symm
      simp only [e, if_false, List.mem_cons, e', false_or]
      rw [ih, hc]
      by_cases hm : ctx ∈ order
      · simp only [hm, if_true]
        rw [idxOf_cons_of_ne e, List.take_succ_cons, latest]
        cases latest h n (List.take (order.idxOf ctx + 1) order) <;> rfl
      · simp only [hm, if_false, latest]
        cases latest h n order <;> rfl

theorem collect_visible (h : List Call) (n : Bytes) :
    collect (agentAfter h).macros (agentAfter h).context searchOrder Table.empty n =
      visible h n := by
  rw [collect_eq (agentAfter h) h n (fun s => (tables h s n).1) _ _ _, (tables h 0 []).2]
  show _ = latest h n (upTo (current h))
  have : (if current h ∈ searchOrder then List.take (List.idxOf (current h) searchOrder + 1) searchOrder
      else searchOrder) = upTo (current h) := rfl
  rw [this]
  cases latest h n (upTo (current h)) <;> rfl

/-- the cache is empty, or holds what is visible -/
theorem cache (h : List Call) :
    (Fresh.Unread h → (agentAfter h).available = none) ∧
    (Fresh h → ∀ t, (agentAfter h).available = some t → ∀ n, t n = visible h n) := by
  induction h with
  | nil => exact ⟨fun _ => rfl, fun _ t ht => by cases ht⟩
  | cons c h ih =>
    obtain ⟨ih1, ih2⟩ := ih
    have hv : ∀ c, (∀ s n, defined s n (c :: h) = defined s n h) → current (c :: h) = current h →
        ∀ n, visible (c :: h) n = visible h n := by
      intro c hd hc n
      unfold visible
      rw [hc]
      induction upTo (current h) with
      | nil => rfl
      | cons s l ihl => simp only [latest, ihl, hd]
    have hget : ∀ c, (∀ s n, defined s n (c :: h) = defined s n h) → current (c :: h) = current h →
        Fresh h → ∀ t, (agentAfter h).getAvailable.2.available = some t →
          ∀ n, t n = visible (c :: h) n := by
      intro c hd hc hf t ht n
      rw [hv c hd hc]
      unfold Agent.getAvailable at ht
      split at ht
      · rename_i t' ht'
        rw [ht'] at ht
        simp only [Option.some.injEq] at ht
        subst ht
        exact ih2 hf t' ht' n
      · simp only [Option.some.injEq] at ht
        rw [← ht]
        exact collect_visible h n
    rw [agentAfter]
    cases c with
    | setContext c => exact ⟨fun _ => rfl, fun _ t ht => by cases ht⟩
    | setMacro c m v => exact ⟨fun _ => rfl, fun _ t ht => by cases ht⟩
    | setTable c t => exact ⟨fun _ => rfl, fun _ t ht => by cases ht⟩
    | clear c => exact ⟨fun _ => rfl, fun _ t ht => by cases ht⟩
    | clearMessage => exact ⟨fun _ => rfl, fun _ t ht => by cases ht⟩
    | setMacros c l =>
      constructor
      · intro hu; exact ih1 hu
      · intro hf t ht
        have : (agentAfter h).available = none := ih1 hf
        simp only [agentStep, Agent.setMacros, Agent.put] at ht
        rw [this] at ht
        cases ht
    | lookup m =>
      refine ⟨fun hu => absurd hu id, fun hf t ht => ?_⟩
      simp only [agentStep, getMacro_agent] at ht
      exact hget (.lookup m) (fun _ _ => rfl) rfl hf t ht
    | available =>
      exact ⟨fun hu => absurd hu id, fun hf t ht => hget .available (fun _ _ => rfl) rfl hf t ht⟩

theorem getAvailable_visible (h : List Call) (hf : Fresh h) (n : Bytes) :
    (agentAfter h).getAvailable.1 n = visible h n := by
  unfold Agent.getAvailable
  split
  · rename_i t ht; exact (cache h).2 hf t ht n
  · exact collect_visible h n

theorem bracketed_iff (n : Bytes) : bracketed n = true ↔ ∃ i, n = [0x7b] ++ i ++ [0x7d] := by
  constructor
  · intro hb
    simp only [bracketed, Bool.and_eq_true, beq_iff_eq] at hb
    obtain ⟨h1, h2⟩ := hb
    cases n with
    | nil => simp at h1
    | cons c n =>
      simp only [List.head?_cons, Option.some.injEq] at h1
      subst h1
      rcases List.eq_nil_or_concat n with rfl | ⟨i, d, rfl⟩
      · simp at h2
      · rw [List.concat_eq_append, ← List.cons_append, List.getLast?_concat, Option.some.injEq] at h2
        exact ⟨i, by simp [h2]⟩
  · rintro ⟨i, rfl⟩
    simp only [bracketed, List.getLast?_concat]
    rfl

/-- **C16** (every history without the cache slip of the variadic call): a lookup returns
the value from the latest stage not after the current one; a name in braces falls back to
the name without them; later stages are invisible, and every definition is visible. -/
theorem C16_partial (h : List Call) (hf : Fresh h) (name : Bytes) :
    Result h name ((agentAfter h).getMacro name).1 := by
  have hg := getAvailable_visible h hf
  unfold Agent.getMacro
  split
  rename_i t a' e
  rw [e] at hg
  simp only at hg
  cases hv : visible h name with
  | some v =>
    simp only [hg, hv]
    refine ⟨fun _ => hv.symm, fun x => ?_, fun x => ?_⟩ <;> rw [hv] at x <;> cases x
  | none =>
    simp only [hg, hv]
    refine ⟨fun x => absurd hv x, fun _ i hi => ?_, fun _ hi => ?_⟩
    · rw [if_pos ((bracketed_iff name).2 ⟨i, hi⟩)]
      congr 1
      rw [hi]
      simp
    · rw [if_neg]
      intro hb
      obtain ⟨i, hi'⟩ := (bracketed_iff name).1 hb
      exact hi i hi'

/-- every call except the variadic one keeps the history fresh -/
theorem fresh_of_no_variadic (h : List Call) (hn : ∀ s l, Call.setMacros s l ∉ h) : Fresh h := by
  induction h with
  | nil => trivial
  | cons c h ih =>
    have ih := ih (fun s l hm => hn s l (List.mem_cons_of_mem _ hm))
    cases c with
    | setMacros s l => exact absurd List.mem_cons_self (hn s l)
    | lookup _ => exact ih
    | available => exact ih
    | _ => trivial

/-- **C16** with only the calls the library itself makes (single definitions, tables,
clears, context changes, lookups). -/
theorem C16_library_calls (h : List Call) (hn : ∀ s l, Call.setMacros s l ∉ h) (name : Bytes) :
    Result h name ((agentAfter h).getMacro name).1 :=
  C16_partial h (fresh_of_no_variadic h hn) name

/-- **C16** is violated by the variadic call: after a lookup, `set_macros` defines a macro
that the next lookup does not find. -/
theorem C16_violated :
    let h : List Call := [.setMacros 0x43 [([0x6a], some [0x31])], .lookup [0x6a], .setContext 0x43]
    visible h [0x6a] = some [0x31] ∧ ((agentAfter h).getMacro [0x6a]).1 = none := by
  decide

/-- **C16** is violated for the stage of unknown SMTP commands: a macro defined for that
stage is not found by a lookup in that stage. -/
theorem C16_unknown_violated :
    let h : List Call := [.setContext 0x55, .setMacro 0x55 [0x6a] (some [0x31])]
    defined 0x55 [0x6a] h = some [0x31] ∧ ((agentAfter h).getMacro [0x6a]).1 = none := by
  decide

/-- two stages define `j`; in helo the later definition wins, in connect it is invisible -/
example :
    let h : List Call := [.setContext 0x48, .setMacro 0x48 [0x6a] (some [0x32]),
      .setMacro 0x43 [0x6a] (some [0x31])]
    Fresh h ∧ ((agentAfter h).getMacro [0x7b, 0x6a, 0x7d]).1 = some [0x32] ∧
    ((agentAfter (.setContext 0x43 :: h)).getMacro [0x6a]).1 = some [0x31] :=
  ⟨trivial, by decide, by decide⟩

/-- **C17**: whatever happened before, once the message-related macros are cleared a lookup
made before anything new is defined finds nothing from envelope-from or later, and what it
finds of connect and helo is what was defined before. -/
theorem C17_cleared (h : List Call) (stage : UInt8) (name : Bytes) :
    (stage ∈ [0x4d, 0x52, 0x54, 0x4c, 0x4e, 0x42, 0x45] →
      (agentAfter (.clearMessage :: h)).ensure stage name = none) ∧
    (stage ∉ [0x4d, 0x52, 0x54, 0x4c, 0x4e, 0x42, 0x45] →
      (agentAfter (.clearMessage :: h)).ensure stage name = (agentAfter h).ensure stage name) := by
  rw [(tables _ stage name).1, (tables h stage name).1]
  exact ⟨fun hs => if_pos hs, fun hs => if_neg hs⟩

/-- **C17** as the lookup sees it: after the reset, in whatever stage, a lookup gives the
helo value if there is one and otherwise the connect value (as far as the stage allows),
and never a value of the previous message. -/
theorem C17_lookup (h : List Call) (later : List UInt8) (name : Bytes) :
    let now := later.map Call.setContext ++ .clearMessage :: h
    ∀ v, ((agentAfter now).getMacro name).1 = some v →
      ∃ n, (n = name ∨ name = [0x7b] ++ n ++ [0x7d]) ∧
        (defined 0x48 n h = some v ∨ (defined 0x48 n h = none ∨ current now = 0x43) ∧
          defined 0x43 n h = some v) := by
  intro now v hv
  have hf : Fresh now := by
    show Fresh (later.map Call.setContext ++ .clearMessage :: h)
    cases later with
    | nil => trivial
    | cons c l => trivial
  have hd : ∀ s n, defined s n now = if s ∈ messageStages then none else defined s n h := by
    intro s n
    show defined s n (later.map Call.setContext ++ .clearMessage :: h) = _
    clear hv hf
    clear_value now
    induction later with
    | nil => rfl
    | cons c l ih => exact ih
  have key : ∀ n, visible now n = some v →
      defined 0x48 n h = some v ∨ (defined 0x48 n h = none ∨ current now = 0x43) ∧
          defined 0x43 n h = some v := by
    intro n hn
    have hm : ∀ s ∈ messageStages, defined s n now = none := fun s hs => by rw [hd, if_pos hs]
    have hl : ∀ l, (∀ s ∈ l, s ∈ messageStages) → latest now n l = none := by
      intro l hl
      induction l with
      | nil => rfl
      | cons s l ih =>
        rw [latest, ih (fun x hx => hl x (List.mem_cons_of_mem _ hx)), hm s (hl s List.mem_cons_self)]
    have h48 : defined 0x48 n now = defined 0x48 n h := by rw [hd, if_neg (by decide)]
    have h43 : defined 0x43 n now = defined 0x43 n h := by rw [hd, if_neg (by decide)]
    unfold visible at hn
    by_cases hc : current now = 0x43
    · rw [hc, show upTo 0x43 = [0x43] by decide] at hn
      simp only [latest, h43] at hn
      exact .inr ⟨.inr hc, hn⟩
    · have : ∃ l, upTo (current now) = 0x43 :: 0x48 :: l ∧ ∀ s ∈ l, s ∈ messageStages := by
        unfold upTo
        split
        · rename_i hmem
          have : List.idxOf (current now) stages = (List.idxOf (current now) (stages.drop 1)) + 1 := by
            rw [show stages = 0x43 :: stages.drop 1 by rfl, idxOf_cons_of_ne (fun e => hc e.symm)]
            rfl
          rw [this]
          refine ⟨messageStages.take (List.idxOf (current now) (stages.drop 1)), ?_, ?_⟩
          · rfl
          · exact fun s hs => List.mem_of_mem_take hs
        · exact ⟨messageStages, rfl, fun s hs => hs⟩
      obtain ⟨l, hl1, hl2⟩ := this
      rw [hl1] at hn
      simp only [latest, hl l hl2, h48, h43] at hn
      cases hh : defined 0x48 n h with
      | some w => rw [hh] at hn; exact .inl hn
      | none => rw [hh] at hn; exact .inr ⟨.inl rfl, hn⟩
  obtain ⟨r1, r2, r3⟩ := C16_partial now hf name
  cases hv' : visible now name with
  | some w =>
    have : ((agentAfter now).getMacro name).1 = visible now name := r1 (by rw [hv']; simp)
    rw [this] at hv
    exact ⟨name, .inl rfl, key name hv⟩
  | none =>
    by_cases hb : ∃ i, name = [0x7b] ++ i ++ [0x7d]
    · obtain ⟨i, hi⟩ := hb
      rw [r2 hv' i hi] at hv
      exact ⟨i, .inr hi, key i hv⟩
    · rw [r3 hv' (fun i hi => hb ⟨i, hi⟩)] at hv
      cases hv

/-- the queue id `i` of the first message is gone after the reset, `j` of connect remains -/
example :
    let h : List Call := [.setMacro 0x4d [0x69] (some [0x51]), .setMacro 0x43 [0x6a] (some [0x31])]
    ((agentAfter (.setContext 0x4d :: h)).getMacro [0x69]).1 = some [0x51] ∧
    ((agentAfter (.setContext 0x4d :: .clearMessage :: h)).getMacro [0x69]).1 = none ∧
    ((agentAfter (.setContext 0x4d :: .clearMessage :: h)).getMacro [0x6a]).1 = some [0x31] := by
  decide

end Verif.Props
