import Verif.Spec.Policy
import Verif.Props.Conditions
import Verif.Props.Egg
/-
C128: policies.
-/
namespace Verif.Props.Policy
open Verif Verif.Policy Verif.Spec.Policy Verif.Macros
open Verif.Conditions (Address Event Told stop any tell tellAll)

theorem anyPolicy_true (f : Policy → Option Bool) (ps : List Policy) (h : ∀ p ∈ ps, f p ≠ none) :
    ∃ b, anyPolicy f ps = some b ∧ (b = true ↔ ∃ p ∈ ps, f p = some true) := by
  induction ps with
  | nil => exact ⟨false, rfl, by simp⟩
  | cons p ps ih =>
    obtain ⟨b, h1, h2⟩ := ih fun q hq => h q (List.mem_cons_of_mem _ hq)
    have hp := h p (List.mem_cons_self ..)
    unfold anyPolicy
    cases hf : f p with
    | none => exact absurd hf hp
    | some v =>
      cases v with
      | true => exact ⟨true, rfl, by simp [hf]⟩
      | false => exact ⟨b, h1, by rw [h2]; simp [hf]⟩

theorem matches_met {α : Type} (c : Option (Criterion α)) (x : α) (h : ∀ f, c = some f → ∀ x, f x ≠ none) :
    ∃ b, matches_ c x = some b ∧ (b = true ↔ Met c x) := by
  cases c with
  | none => exact ⟨false, rfl, by simp [Met]⟩
  | some f =>
    have := h f rfl x
    cases hf : f x with
    | none => exact absurd hf this
    | some b => exact ⟨b, hf, by simp [Met, hf]⟩

theorem target_mem (p : Policy) (m : Bytes) : p.target m = true ↔ m ∈ p.milters := by simp [Policy.target]

theorem stop_one (c : Conditions.Condition) (e : Event) (a : Agent) (v : Option Bool) (h : c.blocks e = [fun a => (v, a)]) :
    stop [c] e a = (v == some true, a) := by
  simp only [stop, h, any]
  rcases v with _ | _ | _ <;> rfl

theorem stop_none (c : Conditions.Condition) (e : Event) (a : Agent) (h : c.blocks e = []) : stop [c] e a = (false, a) := by
  simp only [stop, h, any]

/-- the code's reasons to stop a milter -/
def Reason (ps : List Policy) (m : Bytes) : Event → Prop
  | .connect h x => ∃ p ∈ ps, m ∈ p.milters ∧ ¬ (Met p.host h ∨ Met p.address x)
  | .envelopeFrom f => ∃ p ∈ ps, m ∈ p.milters ∧ ¬ Met p.sender f
  | .envelopeRecipient r => ∃ p ∈ ps, m ∈ p.milters ∧ ¬ Met p.recipient r
  | .data => ∃ p ∈ ps, m ∉ p.milters
  | _ => False

/-- what is decided at an event, whatever the macros are -/
theorem decided (ps : List Policy) (m : Bytes) (hq : ∀ p ∈ ps, Quiet p) (e : Event) (a : Agent) :
    ∃ b, stop [condition ps m] e a = (b, a) ∧
      (b = true ↔ Reason ps m e) := by
  have simple : ∀ (c : Policy → Option (Criterion Bytes)) (x : Bytes), (∀ p ∈ ps, ∀ f, c p = some f → ∀ x, f x ≠ none) →
      ∃ b, anyPolicy (fun p => if !p.target m then some false else (matches_ (c p) x).map (!·)) ps = some b ∧
        (b = true ↔ ∃ p ∈ ps, m ∈ p.milters ∧ ¬ Met (c p) x) := by
    intro c x hc
    have each : ∀ p ∈ ps, ∃ b, (if !p.target m then some false else (matches_ (c p) x).map (!·)) = some b ∧
        (b = true ↔ m ∈ p.milters ∧ ¬ Met (c p) x) := by
      intro p hp
      obtain ⟨v, hv, hm⟩ := matches_met (c p) x (hc p hp)
      rw [← target_mem, ← hm, hv]
      cases p.target m <;> cases v <;> exact ⟨_, rfl, by simp⟩
    obtain ⟨b, hb, hb'⟩ := anyPolicy_true (fun p => if !p.target m then some false else (matches_ (c p) x).map (!·)) ps fun p hp hn => by
      obtain ⟨b, h, _⟩ := each p hp
      rw [h] at hn
      cases hn
    refine ⟨b, hb, hb'.trans ⟨?_, ?_⟩⟩
    · rintro ⟨p, hp, h⟩
      obtain ⟨b, h1, h2⟩ := each p hp
      rw [h1] at h
      cases h
      exact ⟨p, hp, h2.mp rfl⟩
    · rintro ⟨p, hp, h⟩
      obtain ⟨b, h1, h2⟩ := each p hp
      exact ⟨p, hp, by rw [h1, h2.mpr h]⟩
  cases e with
  | connect h x =>
    have each : ∀ p ∈ ps, ∃ b, p.stopOnConnect m h x = some b ∧ (b = true ↔ m ∈ p.milters ∧ ¬ (Met p.host h ∨ Met p.address x)) := by
      intro p hp
      obtain ⟨v, hv, hm⟩ := matches_met p.host h (hq p hp).host
      obtain ⟨w, hw, hn⟩ := matches_met p.address x (hq p hp).address
      rw [← target_mem, ← hm, ← hn]
      unfold Policy.stopOnConnect
      rw [hv, hw]
      cases p.target m <;> cases v <;> cases w <;> exact ⟨_, rfl, by simp⟩
    obtain ⟨b, hb, hb'⟩ := anyPolicy_true (fun p => p.stopOnConnect m h x) ps fun p hp hn => by
      obtain ⟨b, h, _⟩ := each p hp
      rw [h] at hn
      cases hn
    refine ⟨b, ?_, hb'.trans ⟨?_, ?_⟩⟩
    · rw [stop_one _ _ a (some b) (by simp only [Conditions.Condition.blocks, condition, List.map_cons, List.map_nil, hb])]
      cases b <;> rfl
    · rintro ⟨p, hp, h⟩
      obtain ⟨b, h1, h2⟩ := each p hp
      rw [h1] at h
      cases h
      exact ⟨p, hp, h2.mp rfl⟩
    · rintro ⟨p, hp, h⟩
      obtain ⟨b, h1, h2⟩ := each p hp
      exact ⟨p, hp, by rw [h1, h2.mpr h]⟩
  | helo f =>
    refine ⟨false, ?_, by simp [Reason]⟩
    cases ps with
    | nil => rfl
    | cons p ps => rfl
  | envelopeFrom f =>
    obtain ⟨b, hb, hb'⟩ := simple (·.sender) f fun p hp => (hq p hp).sender
    refine ⟨b, ?_, hb'⟩
    rw [stop_one _ _ a (some b) (by simp only [Conditions.Condition.blocks, condition, List.map_cons, List.map_nil]; rw [show anyPolicy (fun p => p.stopOnEnvelopeFrom m f) ps = some b from hb])]
    cases b <;> rfl
  | envelopeRecipient r =>
    obtain ⟨b, hb, hb'⟩ := simple (·.recipient) r fun p hp => (hq p hp).recipient
    refine ⟨b, ?_, hb'⟩
    rw [stop_one _ _ a (some b) (by simp only [Conditions.Condition.blocks, condition, List.map_cons, List.map_nil]; rw [show anyPolicy (fun p => p.stopOnEnvelopeRecipient m r) ps = some b from hb])]
    cases b <;> rfl
  | data =>
    obtain ⟨b, hb, hb'⟩ := anyPolicy_true (fun p => p.stopOnData m) ps fun p hp hn => by
      unfold Policy.stopOnData at hn
      cases hn
    refine ⟨b, ?_, hb'.trans ?_⟩
    · rw [stop_one _ _ a (some b) (by simp only [Conditions.Condition.blocks, condition, hb])]
      cases b <;> rfl
    · constructor
      · rintro ⟨p, hp, h⟩
        refine ⟨p, hp, fun hm => ?_⟩
        simp only [Policy.stopOnData, (target_mem p m).mpr hm] at h
        cases h
      · rintro ⟨p, hp, h⟩
        refine ⟨p, hp, ?_⟩
        have : p.target m = false := by
          cases ht : p.target m
          · rfl
          · exact absurd ((target_mem p m).mp ht) h
        simp only [Policy.stopOnData, this]
        rfl
  | header n v => exact ⟨false, stop_none _ _ _ rfl, by simp [Reason]⟩
  | endOfHeader => exact ⟨false, stop_none _ _ _ rfl, by simp [Reason]⟩
  | body c => exact ⟨false, stop_none _ _ _ rfl, by simp [Reason]⟩
  | endOfMessage => exact ⟨false, stop_none _ _ _ rfl, by simp [Reason]⟩

/-- nothing is stopped in a list of events iff at no event a reason to stop is there -/
theorem tellAll_none (cs : List Conditions.Condition) (P : Event → Prop)
    (h : ∀ e a, (stop cs e a).1 = true ↔ P e) (ts : List Told) (a : Agent) :
    (∀ b ∈ (tellAll cs ts a).1, b = false) ↔ ∀ t ∈ ts, ¬ P t.event := by
  induction ts generalizing a with
  | nil => simp [tellAll]
  | cons t ts ih =>
    simp only [tellAll, List.mem_cons, forall_eq_or_imp]
    rw [ih]
    have : (tell cs t a).1 = true ↔ P t.event := by
      rw [← h t.event (Conditions.enter t.event (Conditions.defineMacro t.macros t.event a))]
      unfold tell
      split <;> simp_all
    rw [← this]
    simp

/-- **C128, partial** with policies whose criteria never raise an exception, a milter is not stopped at any command of a session up to DATA, whatever macros
come with the commands, exactly if every policy lists it and is met by the session in the sense of `Strict`.  Missing: it should be so exactly if the session fits
(`Fits`) every policy that lists it; see the theorems below for the ways in which this differs. -/
theorem C128_partial (ps : List Policy) (hq : ∀ p ∈ ps, Quiet p) (m : Bytes) (s : Session) (ts : List Told) (hts : ts.map (·.event) = s.events) (a : Agent) :
    (∀ b ∈ (tellAll [condition ps m] ts a).1, b = false) ↔ ∀ p ∈ ps, m ∈ p.milters ∧ Strict p s := by
  rw [tellAll_none _ (Reason ps m) ?_]
  · have key : ∀ P : Event → Prop, (∀ t ∈ ts, P t.event) ↔ ∀ e ∈ s.events, P e := by
      intro P
      rw [← hts]
      simp
    rw [key (fun e => ¬ Reason ps m e)]
    simp only [Session.events, List.mem_append, List.mem_cons, List.not_mem_nil, or_false, List.mem_map]
    constructor
    · intro h p hp
      have hm : m ∈ p.milters := Classical.byContradiction fun hm => h .data (Or.inr rfl) ⟨p, hp, hm⟩
      refine ⟨hm, Classical.byContradiction fun hn => h _ (Or.inl (Or.inl (Or.inl rfl))) ⟨p, hp, hm, hn⟩,
        Classical.byContradiction fun hn => h _ (Or.inl (Or.inl (Or.inr (Or.inr rfl)))) ⟨p, hp, hm, hn⟩, ?_⟩
      intro r hr
      exact Classical.byContradiction fun hn => h _ (Or.inl (Or.inr ⟨r, hr, rfl⟩)) ⟨p, hp, hm, hn⟩
    · rintro h e (((rfl | rfl | rfl) | ⟨r, hr, rfl⟩) | rfl)
      · rintro ⟨p, hp, _, hn⟩
        exact hn (h p hp).2.1
      · exact id
      · rintro ⟨p, hp, _, hn⟩
        exact hn (h p hp).2.2.1
      · rintro ⟨p, hp, _, hn⟩
        exact hn ((h p hp).2.2.2 r hr)
      · rintro ⟨p, hp, hn⟩
        exact hn (h p hp).1
  · intro e a
    obtain ⟨b, h1, h2⟩ := decided ps m hq e a
    rw [h1]
    exact h2

/-- the part of what is wanted that holds: a milter that is told of DATA is wanted by every policy as far as host, address (one of the two), sender and recipients go,
and a session that fits a policy with all criteria is not kept from a milter that all policies list -/
theorem C128_sound_partial (ps : List Policy) (hq : ∀ p ∈ ps, Quiet p) (m : Bytes) (s : Session) (ts : List Told) (hts : ts.map (·.event) = s.events) (a : Agent) :
    ((∀ b ∈ (tellAll [condition ps m] ts a).1, b = false) → ∀ p ∈ ps, Allows p.sender s.sender ∧ ∀ r ∈ s.recipients, Allows p.recipient r) ∧
    ((∀ p ∈ ps, m ∈ p.milters ∧ p.host ≠ none ∧ p.sender ≠ none ∧ p.recipient ≠ none) → Wanted ps m s →
      ∀ b ∈ (tellAll [condition ps m] ts a).1, b = false) := by
  refine ⟨fun h p hp => ?_, fun hall hw => ?_⟩
  · have := ((C128_partial ps hq m s ts hts a).mp h p hp).2
    exact ⟨Or.inr this.2.1, fun r hr => Or.inr (this.2.2 r hr)⟩
  · refine (C128_partial ps hq m s ts hts a).mpr fun p hp => ?_
    obtain ⟨hm, h1, h2, h3⟩ := hall p hp
    obtain ⟨f1, _, _, f4, f5⟩ := hw p hp hm
    exact ⟨hm, Or.inl (f1.resolve_left h1), f4.resolve_left h2, fun r hr => (f5 r hr).resolve_left h3⟩

/-- **C128, violated** a milter that some policy does not list is stopped at DATA by that policy, whatever its criteria are and whatever the session is like, although nothing is said of the milter -/
theorem C128_unlisted_violated (ps : List Policy) (m : Bytes) (p : Policy) (hp : p ∈ ps) (hm : m ∉ p.milters) (a : Agent) :
    (stop [condition ps m] .data a).1 = true := by
  obtain ⟨b, hb, hb'⟩ := anyPolicy_true (fun p => p.stopOnData m) ps fun p hp hn => by
    unfold Policy.stopOnData at hn
    cases hn
  have : b = true := hb'.mpr ⟨p, hp, by
    have : p.target m = false := by
      cases ht : p.target m
      · rfl
      · exact absurd ((target_mem p m).mp ht) hm
    simp only [Policy.stopOnData, this]
    rfl⟩
  rw [stop_one _ _ a (some b) (by simp only [Conditions.Condition.blocks, condition, hb]), this]
  rfl

/-- **C128, violated** two policies for different milters leave no milter at all: each is stopped at DATA by the other's policy -/
theorem C128_two_violated (ps : List Policy) (p q : Policy) (hp : p ∈ ps) (hq : q ∈ ps) (hpq : ∀ m ∈ p.milters, m ∉ q.milters) (m : Bytes) (a : Agent) :
    (stop [condition ps m] .data a).1 = true := by
  by_cases hm : m ∈ p.milters
  · exact C128_unlisted_violated ps m q hq (hpq m hm) a
  · exact C128_unlisted_violated ps m p hp hm a

/-- **C128, violated** a policy with neither a host nor an address - say, with a sender only - stops its milters when the client connects, whoever that is -/
theorem C128_not_given_violated (p : Policy) (m : Bytes) (hm : m ∈ p.milters) (hh : p.host = none) (ha : p.address = none) (host : Bytes) (x : Address) (a : Agent) :
    (stop [condition [p] m] (.connect host x) a).1 = true := by
  rw [stop_one _ _ a (some true) ?_]
  · rfl
  · simp only [Conditions.Condition.blocks, condition, List.map_cons, List.map_nil, anyPolicy, Policy.stopOnConnect, (target_mem p m).mpr hm, hh, ha, matches_]
    rfl

/-- **C128, violated** the name the client gives in HELO is never looked at -/
theorem C128_helo_violated (ps : List Policy) (m : Bytes) (fqdn : Bytes) (a : Agent) : stop [condition ps m] (.helo fqdn) a = (false, a) := by
  cases ps with
  | nil => rfl
  | cons p ps => rfl

/-! ### Definitions -/

open Verif.Egg (Egg openEgg addCondition)
open Verif.Spec.Egg (kept)

theorem redefine_tidy (net : Connection.Net) (c : Egg.Condition) (es done : List Egg) (ht : Tidy net (es ++ done)) :
    redefine net c (es.map (·.name)) (es ++ done) = some (done ++ es.map fun e => addCondition (kept e) c) := by
  induction es generalizing done with
  | nil => simp [redefine]
  | cons e es ih =>
    obtain ⟨n, hn⟩ := ht.named e (by simp)
    have hr := ht.readable e (by simp)
    have hopen : openEgg net (e :: es ++ done) n = some (some (kept e)) := by
      unfold openEgg
      rw [find_tidy ht n]
      have : (e :: es ++ done).find? (fun e => e.name == some n) = some e := by simp [hn]
      simp only [this, Option.bind_eq_bind, Option.bind_some]
      rw [merge_kept net e n hn hr]
      rfl
    have hnd := ht.nodup
    have hne : ∀ e' ∈ es ++ done, e'.name ≠ some n := by
      intro e' he' h
      rw [List.cons_append, List.map_cons] at hnd
      exact (List.nodup_cons.mp hnd).1 (List.mem_map.mpr ⟨e', he', by rw [h, hn]⟩)
    have hremove : Egg.remove n (e :: es ++ done) = some (es ++ done) := by
      rw [remove_tidy ht n, List.cons_append, List.filter_cons, hn]
      simp only [bne_self_eq_false, Bool.false_eq_true, if_false]
      rw [List.filter_eq_self.mpr]
      intro e' he'
      simpa using hne e' he'
    have ht' : Tidy net (es ++ (done ++ [addCondition (kept e) c])) := by
      rw [← List.append_assoc]
      exact Tidy.add (Tidy.tail (by simpa using ht)) _ n (by simp [addCondition, kept, hn]) (by simpa [addCondition, kept] using hr) hne
    simp only [List.map_cons, hn, redefine, hopen, Option.bind_eq_bind, Option.bind_some, Egg.apply, hremove, Egg.add]
    rw [List.append_assoc, Option.pure_def, Option.bind_some, ih _ ht']
    simp

/-- **C128, partial** applying policies keeps the milters in their order and adds the condition to each.  Missing: nothing else should change. -/
theorem C128_apply_partial (net : Connection.Net) (ps : List Policy) (cs : List Egg.Condition) (es : List Egg) (ht : Tidy net es) :
    ∃ cs' c, apply net ps cs es = some (cs', if ps = [] then es else es.map fun e => addCondition (kept e) c) ∧
      (ps = [] → cs' = cs) ∧ (ps ≠ [] → c.name = some policyName ∧ c ∈ cs') := by
  cases ps with
  | nil => exact ⟨cs, {}, by simp [apply], fun _ => rfl, fun h => absurd rfl h⟩
  | cons p ps =>
    refine ⟨(defineCondition cs policyName policyDescription).2, (defineCondition cs policyName policyDescription).1, ?_, fun h => by simp at h, fun _ => ⟨?_, ?_⟩⟩
    · have := redefine_tidy net (defineCondition cs policyName policyDescription).1 es [] (by simpa using ht)
      simp only [List.append_nil, List.nil_append] at this
      simp only [apply, List.isEmpty_cons, Bool.false_eq_true, if_false, this, Option.map_some]
      rfl
    · unfold defineCondition
      dsimp only
      cases findCondition cs policyName with
      | none => rfl
      | some old =>
        obtain ⟨_, d, x⟩ := old
        cases d <;> cases x <;> rfl
    · unfold defineCondition
      simp

/-- **C128, violated** as soon as there is a policy, every milter - also one no policy lists - falls back to "accept" and is out of evaluation mode -/
theorem C128_settings_violated (net : Connection.Net) (ps : List Policy) (hps : ps ≠ []) (cs : List Egg.Condition) (es : List Egg) (ht : Tidy net es) :
    ∃ cs' es', apply net ps cs es = some (cs', es') ∧ es'.map (·.name) = es.map (·.name) ∧ ∀ e ∈ es', e.fallback = .accept ∧ e.evaluation = false := by
  obtain ⟨cs', c, h, _, _⟩ := C128_apply_partial net ps cs es ht
  rw [if_neg hps] at h
  refine ⟨cs', _, h, ?_, ?_⟩
  · rw [List.map_map]
    rfl
  · intro e he
    obtain ⟨e, _, rfl⟩ := List.mem_map.mp he
    exact ⟨rfl, rfl⟩

/-! ### Cases -/

/-- an object whose `===` is equality -/
def is (x : Bytes) : Criterion Bytes := fun y => some (y == x)

/-- a policy like that of test/fixtures/leader/connect-policy.conf, with all criteria -/
def inside : Policy :=
  { milters := [ascii "a", ascii "b"], host := some (is (ascii "here")), fqdn := some (is (ascii "h")), sender := some (is (ascii "<s>")), recipient := some (is (ascii "<r>")) }

/-- a session that fits it but for the name given in HELO -/
def session : Session := ⟨ascii "here", .unix, ascii "other", ascii "<s>", [ascii "<r>", ascii "<r>"]⟩

theorem inside_quiet : Quiet inside := by
  constructor <;> intro f hf x <;> simp only [inside, Option.some.injEq, reduceCtorEq] at hf
  all_goals (rw [← hf]; simp [is])

/-- the commands of a session, without macros -/
def told (s : Session) : List Told := s.events.map fun e => ⟨none, e, false⟩

example : (told session).map (·.event) = session.events := by simp [told, Function.comp_def]
example : (tellAll [condition [inside] (ascii "a")] (told session) Agent.init).1 = [false, false, false, false, false, false] := by decide +kernel
example : (tellAll [condition [inside] (ascii "c")] (told session) Agent.init).1 = [false, false, false, false, false, true] := by decide +kernel
example : (tellAll [condition [inside] (ascii "a")] (told { session with host := ascii "there" }) Agent.init).1 = [true, false, false, false, false, false] := by decide +kernel
example : ∀ p ∈ [inside], ascii "a" ∈ p.milters ∧ Strict p session := by
  intro p hp
  rw [List.mem_singleton.mp hp]
  refine ⟨by decide, Or.inl ⟨_, rfl, by decide⟩, ⟨_, rfl, by decide⟩, ?_⟩
  intro r hr
  simp only [session, List.mem_cons, List.not_mem_nil, or_false, or_self] at hr
  exact ⟨_, rfl, by rw [hr]; decide⟩

/-- **C128, violated** the session is not wanted, yet the milter stays -/
theorem C128_fqdn_violated : ¬ Wanted [inside] (ascii "a") session ∧ ∀ b ∈ (tellAll [condition [inside] (ascii "a")] (told session) Agent.init).1, b = false := by
  refine ⟨fun h => ?_, by decide +kernel⟩
  have := (h inside (List.mem_singleton.mpr rfl) (by decide)).2.2.1
  rcases this with h | ⟨f, hf, h⟩
  · cases h
  · simp only [inside, Option.some.injEq] at hf
    rw [← hf] at h
    revert h
    decide

example : Tidy EggExample.net [{ Egg.newEgg (ascii "a") with connectionSpec := some EggExample.spec, fallback := .reject, evaluation := true }, Egg.newEgg (ascii "b")] where
  named e he := by
    rcases List.mem_cons.mp he with rfl | he
    · exact ⟨_, rfl⟩
    · rw [List.mem_singleton.mp he]; exact ⟨_, rfl⟩
  readable e he s hs := by
    rcases List.mem_cons.mp he with rfl | he
    · cases hs; exact ⟨.unix [0x2f, 0x61], by decide⟩
    · rw [List.mem_singleton.mp he] at hs; cases hs
  nodup := by decide

end Verif.Props.Policy
