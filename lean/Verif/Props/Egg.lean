import Verif.Manager.Egg
import Verif.Spec.Egg
import Verif.Spec.Pointwise
/-
C45: merging milter definitions.  C54: what a configuration file's definitions amount to.
C55: which milters a session consults.
-/
namespace Verif.Props
open Verif Verif.Egg Verif.Spec.Egg
open Verif.Connection (Net SockAddr parseSpec)

theorem foldl_addCondition (cs : List Condition) (e : Egg) :
    cs.foldl addCondition e = { e with conditions := e.conditions ++ cs } := by
  induction cs generalizing e with
  | nil => simp
  | cons c cs ih => simp [ih, addCondition]

/-- **C45** a merge succeeds iff the other definition has no connection spec or a valid one,
and then the result takes from the other definition what it specifies (connection spec,
description, user; command together with its options), always the timeouts, the enabled flag
and the conditions, and keeps its own name, fallback status and evaluation mode -/
theorem C45_taken (net : Net) (e other : Egg)
    (h : ∀ s, other.connectionSpec = some s → ∃ a, parseSpec net s = .ok a) :
    ∃ r, merge net e other = some (true, r) ∧
      r.connectionSpec = other.connectionSpec.or e.connectionSpec ∧
      r.description = other.description.or e.description ∧
      r.userName = other.userName.or e.userName ∧
      r.command = other.command.or e.command ∧
      r.commandOptions = (if other.command.isSome then other.commandOptions else e.commandOptions) ∧
      r.timeouts = other.timeouts ∧ r.enabled = other.enabled ∧ r.conditions = other.conditions ∧
      r.name = e.name ∧ r.fallback = e.fallback ∧ r.evaluation = e.evaluation := by
  cases hs : other.connectionSpec with
  | none =>
    refine ⟨_, by simp only [merge, hs]; rfl, ?_⟩
    simp only [foldl_addCondition, clearConditions]
    cases other.description <;> cases other.userName <;> cases other.command <;> simp
  | some s =>
    obtain ⟨a, ha⟩ := h s hs
    refine ⟨_, by simp only [merge, hs, setConnectionSpec, ha]; rfl, ?_⟩
    simp only [foldl_addCondition, clearConditions]
    cases other.description <;> cases other.userName <;> cases other.command <;> simp

/-- **C45** if the other definition's connection spec is invalid, the merge fails and changes
nothing -/
theorem C45_refused (net : Net) (e other : Egg) (s : Bytes) (hs : other.connectionSpec = some s)
    (h : parseSpec net s = .fail) : merge net e other = some (false, e) := by
  simp [merge, hs, setConnectionSpec, h]

/-- **C45** nothing but an unreadable spec makes a merge fail -/
theorem C45_only (net : Net) (e other r : Egg) (h : merge net e other = some (false, r)) :
    r = e ∧ ∃ s, other.connectionSpec = some s ∧ parseSpec net s = .fail := by
  cases hs : other.connectionSpec with
  | none => simp [merge, hs] at h
  | some s =>
    cases hp : parseSpec net s with
    | ok a => simp [merge, hs, setConnectionSpec, hp] at h
    | fail => simp [merge, hs, setConnectionSpec, hp] at h; exact ⟨h.symm, s, rfl, hp⟩
    | ub => simp [merge, hs, setConnectionSpec, hp] at h

/-- **C45** merging applicable conditions: description and data are replaced where given,
the name never -/
theorem C45_condition (c other : Condition) :
    (mergeCondition c other).name = c.name ∧
    (mergeCondition c other).description = other.description.or c.description ∧
    (mergeCondition c other).data = other.data.or c.data := by
  unfold mergeCondition
  cases other.description <;> cases other.data <;> simp

namespace EggExample

/-- no names resolve -/
def net : Net := ⟨⟨⟨fun _ => [], fun _ => none⟩, ⟨fun _ => [], fun _ => none⟩⟩, fun _ => none, fun _ => none⟩

/-- "unix:/a" -/
def spec : Bytes := [0x75, 0x6e, 0x69, 0x78, 0x3a, 0x2f, 0x61]
/-- "a": no scheme -/
def bad : Bytes := [0x61]

/-- a definition that rejects when its milter is down -/
def careful : Egg :=
  { newEgg [0x61] with connectionSpec := some spec, fallback := .reject, evaluation := true,
                       commandOptions := some [0x2d], conditions := [{ name := some [0x73] }] }

/-- another one with a description and a command -/
def other : Egg :=
  { newEgg [0x62] with connectionSpec := some (spec ++ [0x62]), description := some [0x64], command := some [0x63] }

end EggExample
open EggExample

example : ∀ s, other.connectionSpec = some s → ∃ a, parseSpec net s = .ok a := by
  intro s hs
  cases hs
  exact ⟨.unix [0x2f, 0x61, 0x62], by decide⟩

/-- the case of `C45_taken` is not trivial: `careful` gets the spec, the description and the
command of `other`, loses its options and conditions and stays careful -/
example : merge net careful other = some (true,
    { name := some [0x61], description := some [0x64], connectionSpec := some (spec ++ [0x62]),
      command := some [0x63], fallback := .reject, evaluation := true }) := by decide

example : parseSpec net bad = .fail := by decide

/-! ### C54 -/

/-- the configuration after one statement -/
def stepOp (net : Net) (es : List Egg) : Op → Option (List Egg)
  | .define n f => define net es n f
  | .remove n => remove n es

/-- the configuration after a history, the latest statement first -/
def configured (net : Net) : List Op → Option (List Egg)
  | [] => some []
  | o :: before => (configured net before).bind fun es => stepOp net es o

/-- the blocks keep the name of the definition and leave it with a connection spec that can
be read, or none -/
def Sane (net : Net) : Op → Prop
  | .define n f => ∀ e, e.name = some n → (f e).name = some n ∧
      ((∀ s, e.connectionSpec = some s → ∃ a, parseSpec net s = .ok a) →
        ∀ s, (f e).connectionSpec = some s → ∃ a, parseSpec net s = .ok a)
  | .remove _ => True

/-- all definitions named, with readable specs, no name twice -/
structure Tidy (net : Net) (es : List Egg) : Prop where
  named : ∀ e ∈ es, ∃ n, e.name = some n
  readable : ∀ e ∈ es, ∀ s, e.connectionSpec = some s → ∃ a, parseSpec net s = .ok a
  nodup : (es.map Egg.name).Nodup

theorem Tidy.tail {net : Net} {e : Egg} {es : List Egg} (h : Tidy net (e :: es)) : Tidy net es where
  named e' he := h.named e' (List.mem_cons_of_mem _ he)
  readable e' he := h.readable e' (List.mem_cons_of_mem _ he)
  nodup := (List.nodup_cons.mp h.nodup).2

theorem find_tidy {net : Net} {es : List Egg} (h : Tidy net es) (n : Bytes) :
    find n es = some (es.find? fun e => e.name == some n) := by
  induction es with
  | nil => rfl
  | cons e es ih =>
    obtain ⟨m, hm⟩ := h.named e (List.mem_cons_self ..)
    simp only [find, sameName, hm, List.find?_cons]
    by_cases hn : n = m
    · subst hn
      simp
    · have : ((some m : Option Bytes) == some n) = false := by simpa using fun e => hn e.symm
      simp only [this]
      have h2 : (n == m) = false := by simpa using hn
      simp [h2, ih h.tail]

theorem remove_tidy {net : Net} {es : List Egg} (h : Tidy net es) (n : Bytes) :
    remove n es = some (es.filter fun e => e.name != some n) := by
  induction es with
  | nil => rfl
  | cons e es ih =>
    obtain ⟨m, hm⟩ := h.named e (List.mem_cons_self ..)
    simp only [remove, sameName, hm, List.filter_cons]
    by_cases hn : n = m
    · subst hn
      have := (List.nodup_cons.mp h.nodup).1
      simp only [beq_self_eq_true, bne_self_eq_false, Bool.false_eq_true, if_false]
      have h2 : es.filter (fun e => e.name != some n) = es := by
        rw [List.filter_eq_self]
        intro e' he'
        simp only [bne_iff_ne, ne_eq]
        intro e''
        exact this (List.mem_map.mpr ⟨e', he', by rw [e'', hm]⟩)
      rw [h2]
      simp
    · have : ((some m : Option Bytes) != some n) = true := by simpa using fun e => hn e.symm
      simp only [this]
      have h2 : (n == m) = false := by simpa using hn
      simp [h2, ih h.tail]

theorem Tidy.filter {net : Net} {es : List Egg} (h : Tidy net es) (p : Egg → Bool) : Tidy net (es.filter p) where
  named e he := h.named e (List.mem_filter.mp he).1
  readable e he := h.readable e (List.mem_filter.mp he).1
  nodup := h.nodup.sublist ((List.filter_sublist).map _)

theorem Tidy.add {net : Net} {es : List Egg} (h : Tidy net es) (e : Egg) (n : Bytes) (hn : e.name = some n)
    (hr : ∀ s, e.connectionSpec = some s → ∃ a, parseSpec net s = .ok a)
    (hf : ∀ e' ∈ es, e'.name ≠ some n) : Tidy net (es ++ [e]) where
  named e' he' := by
    rcases List.mem_append.mp he' with he' | he'
    · exact h.named e' he'
    · rw [List.mem_singleton.mp he']; exact ⟨n, hn⟩
  readable e' he' := by
    rcases List.mem_append.mp he' with he' | he'
    · exact h.readable e' he'
    · rw [List.mem_singleton.mp he']; exact hr
  nodup := by
    rw [List.map_append, List.nodup_append]
    refine ⟨h.nodup, by simp, ?_⟩
    intro a ha b hb
    simp only [List.map_cons, List.map_nil, List.mem_singleton] at hb
    obtain ⟨e', he', rfl⟩ := List.mem_map.mp ha
    rw [hb, hn]
    exact hf e' he'

/-- a definition merged into a fresh one of the same name is what `kept` says -/
theorem merge_kept (net : Net) (old : Egg) (n : Bytes) (hn : old.name = some n)
    (h : ∀ s, old.connectionSpec = some s → ∃ a, parseSpec net s = .ok a) :
    merge net (newEgg n) old = some (true, kept old) := by
  obtain ⟨r, hr, h1, h2, h3, h4, h5, h6, h7, h8, h9, h10, h11⟩ := C45_taken net (newEgg n) old h
  rw [hr]
  congr 2
  obtain ⟨a, b, c, d, e, f, g, i, j, k, l⟩ := r
  simp only [newEgg, Option.or_none] at h1 h2 h3 h4 h5 h6 h7 h8 h9 h10 h11
  subst h1 h2 h3 h4 h5 h6 h7 h8 h9 h10 h11
  simp [kept, hn]

theorem find?_filter_self (es : List Egg) (n : Bytes) :
    (es.filter fun e => e.name != some n).find? (fun e => e.name == some n) = none := by
  rw [List.find?_eq_none]
  intro e he
  have := (List.mem_filter.mp he).2
  simpa using this

theorem find?_filter_ne (es : List Egg) (n m : Bytes) (h : m ≠ n) :
    (es.filter fun e => e.name != some n).find? (fun e => e.name == some m) = es.find? (fun e => e.name == some m) := by
  rw [List.find?_filter]
  congr 1
  funext e
  by_cases he : e.name = some m
  · simp [he, h]
  · simp [he]

/-- `configured` keeps the configuration tidy, and it has for each name the definition in
force -/
theorem configured_tidy (net : Net) (ops : List Op) (hs : ∀ o ∈ ops, Sane net o) :
    ∃ es, configured net ops = some es ∧ Tidy net es ∧
      ∀ m, es.find? (fun e => e.name == some m) = inForce kept ops m := by
  induction ops with
  | nil => exact ⟨[], rfl, ⟨by simp, by simp, by simp⟩, fun _ => rfl⟩
  | cons o before ih =>
    obtain ⟨es, hes, ht, hf⟩ := ih fun o ho => hs o (List.mem_cons_of_mem _ ho)
    have hso := hs o (List.mem_cons_self ..)
    cases o with
    | remove n =>
      refine ⟨_, by simp only [configured, hes, Option.bind_some, stepOp]; exact remove_tidy ht n, ht.filter _, ?_⟩
      intro m
      simp only [inForce]
      split
      · rename_i h; subst h; exact find?_filter_self es m
      · rename_i h; rw [find?_filter_ne es n m h]; exact hf m
    | define n f =>
      simp only [configured, hes, Option.bind_some, stepOp]
      have hopen : ∃ e0, openEgg net es n = some (some e0) ∧ e0.name = some n ∧
          (∀ s, e0.connectionSpec = some s → ∃ a, parseSpec net s = .ok a) ∧
          e0 = given kept n (inForce kept before n) := by
        rw [← hf n]
        simp only [openEgg, find_tidy ht n]
        cases hfd : es.find? (fun e => e.name == some n) with
        | none => exact ⟨newEgg n, rfl, rfl, by simp [newEgg], rfl⟩
        | some old =>
          have hon : old.name = some n := by simpa using List.find?_some hfd
          have hor := ht.readable old (List.mem_of_find?_eq_some hfd)
          refine ⟨kept old, ?_, by simp [kept, hon], by simpa [kept] using hor, rfl⟩
          have := merge_kept net old n hon hor
          simp [this]
      obtain ⟨e0, ho, hn0, hr0, he0⟩ := hopen
      obtain ⟨hn1, hr1⟩ := hso e0 hn0
      refine ⟨(es.filter fun e => e.name != some n) ++ [f e0], ?_, ?_, ?_⟩
      · simp [define, ho, Egg.apply, remove_tidy ht n, Egg.add]
      · refine (ht.filter _).add _ n hn1 (hr1 hr0) ?_
        intro e' he'
        simpa using (List.mem_filter.mp he').2
      · intro m
        rw [List.find?_append]
        simp only [inForce]
        split
        · rename_i h
          subst h
          rw [find?_filter_self, Option.none_or, List.find?_cons, hn1, ← he0]
          simp
        · rename_i h
          rw [find?_filter_ne es n m h, hf m]
          have : ¬ (n = m) := fun e => h e.symm
          simp [hn1, this]

/-- **C54, partial** after any history of definitions and removals the configuration has at
most one definition of each name, and looking a name up finds the definition in force: the
one its latest definition made, starting from what `kept` keeps of the one before.  Missing:
a repeated definition should start from all of the old one (see `C54_fallback_violated`) -/
theorem C54_partial (net : Net) (ops : List Op) (hs : ∀ o ∈ ops, Sane net o) :
    ∃ es, configured net ops = some es ∧ (es.map Egg.name).Nodup ∧
      ∀ m, find m es = some (inForce kept ops m) := by
  obtain ⟨es, h, ht, hf⟩ := configured_tidy net ops hs
  exact ⟨es, h, ht.nodup, fun m => by rw [find_tidy ht, hf]⟩

/-- the definitions the file makes of `careful`: defined, then defined again by a block
that changes nothing but the description -/
def twice : List Op :=
  [.define [0x61] fun e => { e with description := some [0x64] },
   .define [0x61] fun e => { e with connectionSpec := some spec, fallback := .reject, evaluation := true }]

example : ∀ o ∈ twice, Sane net o := by
  intro o ho
  simp only [twice, List.mem_cons, List.not_mem_nil, or_false] at ho
  rcases ho with rfl | rfl
  · exact fun e he => ⟨he, fun h => h⟩
  · refine fun e he => ⟨he, fun _ s hs => ?_⟩
    cases hs
    exact ⟨.unix [0x2f, 0x61], by decide⟩

/-- **C54, violated** a milter that rejects when it is down, and is only evaluated, loses
both settings when a later file defines it again just to describe it: mail it would have
rejected is accepted -/
theorem C54_fallback_violated : ∃ es e, configured net twice = some es ∧ find [0x61] es = some (some e) ∧
    inForce id twice [0x61] = some { e with fallback := .reject, evaluation := true } ∧
    e.fallback = .accept ∧ e.evaluation = false :=
  ⟨[{ newEgg [0x61] with connectionSpec := some spec, description := some [0x64] }],
    { newEgg [0x61] with connectionSpec := some spec, description := some [0x64] }, by decide, by decide,
    by decide, rfl, rfl⟩

/-- **C54, violated** defining a milter again also moves it behind all others -/
theorem C54_order_violated :
    (configured net [.define [0x61] id, .define [0x62] id, .define [0x61] id]).map (List.map Egg.name) =
      some [some [0x62], some [0x61]] := by decide

/-! ### C55 -/

/-- **C55, partial** a session consults the enabled milters that have a connection spec, in
the order of the configuration, each with the name, timeouts, user, command, fallback status,
evaluation mode and conditions of its definition and the address its spec says.  Missing: a
spec that was valid when the file was read may not resolve any more when the session starts
(`C55_unresolved_violated`) -/
theorem C55_partial (net : Net) (es : List Egg)
    (h : ∀ e ∈ es, ∀ s, e.connectionSpec = some s → ∃ a, parseSpec net s = .ok a) :
    ∃ cs, setup net es = some cs ∧
      Spec.Pointwise (fun e (c : Child × List Condition) =>
        c.1.name = e.name ∧ c.1.timeouts = e.timeouts ∧ c.1.userName = e.userName ∧
        c.1.command = e.command ∧ c.1.commandOptions = e.commandOptions ∧
        c.1.fallback = e.fallback ∧ c.1.evaluation = e.evaluation ∧ c.2 = e.conditions ∧
        ∃ s a, e.connectionSpec = some s ∧ parseSpec net s = .ok a ∧ c.1.address = some a)
        (consulted es) cs := by
  induction es with
  | nil => exact ⟨[], rfl, .nil⟩
  | cons e es ih =>
    obtain ⟨cs, hcs, hf⟩ := ih fun e he => h e (List.mem_cons_of_mem _ he)
    have he := h e (List.mem_cons_self ..)
    cases hen : e.enabled with
    | false =>
      refine ⟨cs, by simp [setup, hen, hcs], ?_⟩
      simpa [consulted, hen] using hf
    | true =>
      cases hsp : e.connectionSpec with
      | none =>
        refine ⟨cs, by simp [setup, hen, hcs, hatch, hsp], ?_⟩
        simpa [consulted, hen, hsp] using hf
      | some s =>
        obtain ⟨a, ha⟩ := he s hsp
        refine ⟨_, by simp only [setup, hen, hcs, hatch, hsp, ha]; rfl, ?_⟩
        simp only [consulted, hen, hsp, List.filter_cons, Option.isSome_some, Bool.and_self, if_true]
        exact .cons ⟨rfl, rfl, rfl, rfl, rfl, rfl, rfl, rfl, s, a, hsp, ha, rfl⟩ hf

example : (setup net [other, { careful with enabled := false }, careful, newEgg [0x63]]).map
    (List.map fun c => (c.1.name, c.1.fallback, c.2.length)) =
      some [(some [0x62], .accept, 0), (some [0x61], .reject, 1)] := by decide

/-- **C55, violated** a milter whose host cannot be resolved when a session starts is
consulted all the same, without an address to reach it at -/
theorem C55_unresolved_violated :
    ∃ cs, setup net [{ newEgg [0x61] with connectionSpec := some ([0x69, 0x6e, 0x65, 0x74, 0x3a, 0x31, 0x40, 0x68]) }] = some cs ∧
      cs.map (fun c => (c.1.name, c.1.address)) = [(some [0x61], none)] := ⟨_, rfl, by decide⟩

end Verif.Props
