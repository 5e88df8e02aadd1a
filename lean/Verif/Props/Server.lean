import Verif.Spec.Server
/-
C32-C37: the context talking to one milter.
-/
namespace Verif.Props
open Verif Verif.Server Verif.Spec.Server

namespace ServerLemmas

/-- if something is outstanding, a timeout is registered -/
def Ok (w : Option St) (s : State) : Prop := w.isSome = true → s.timer.isSome = true

theorem Ok_none (s : State) : Ok none s := fun h => by simp at h

theorem Ok_timer {w : Option St} {s : State} {t : Timer} (h : s.timer = some t) : Ok w s :=
  fun _ => by simp [h]

theorem watchItems_append (g o st own w a b) :
    watchItems g o st own w (a ++ b) =
      match watchItems g o st own w a with
      | none => none
      | some w => watchItems g o st own w b := by
  induction a generalizing w with
  | nil => rfl
  | cons i a ih =>
    simp only [List.cons_append, watchItems]
    cases watchItem g o st own w i with
    | none => rfl
    | some w => exact ih w

/-- an action after which the bookkeeping holds whenever it did before -/
def Plain : Action → Prop
  | .enter _ | .abortFlushed => False
  | .transited n => n = .body ∨ n = .abort ∨ n = .invalid
  | _ => True

/-- the shapes of interrupted functions -/
inductive Safe : List Action → Prop
  | nil : Safe []
  | plain (a l) : Plain a → Safe l → Safe (a :: l)
  | enter (n l) : Safe l → Safe (.enter n :: .transited n :: l)
  | abort (l) : Safe l →
      Safe (.abortFlushed :: .processed .always :: .resetMessage :: .transited .abort :: l)

/-- what a piece of execution must satisfy -/
def Good (o : Option Opt) (own : Bool) (w : Option St) (s' : State) (out : List Item) : Prop :=
  ∃ w', watchItems .exceptBody o s'.state own w out = some w' ∧ Ok w' s'

def Stack (s : State) : Prop := ∀ f ∈ s.stack, Safe f

theorem Safe.flush (l : List St) : Safe (l.flatMap flushActions) := by
  induction l with
  | nil => exact .nil
  | cons n l ih =>
    rw [List.flatMap_cons]
    cases n <;> first
      | exact .abort _ ih
      | exact .enter _ _ ih
      | exact .plain _ _ trivial (.plain _ _ (by simp [Plain]) ih)

theorem needReply_answered (o : Opt) (n : St) (h : answered (some o) n = true) :
    needReply (some o) n = some true := by
  revert h
  cases n <;> simp [answered, needReply, noReplyFlag]

/-- the fields that execution leaves alone -/
def Same (s s' : State) : Prop := s'.option = s.option ∧ s'.stack = s.stack

theorem writePacket_good (s : State) (c : Cmd) (n : St) (ok : Bool) (w : Option St) (own : Bool)
    (o : Option Opt) (st : St) (hn : leadsTo c = n)
    (hw : Ok w s) :
    ∃ w', watchItems .exceptBody o st own w (writePacket s c n ok).1.out = some w' ∧
      Ok w' (writePacket s c n ok).1.st ∧ Same s (writePacket s c n ok).1.st ∧
      (writePacket s c n ok).1.after = [] := by
  subst hn
  unfold writePacket
  split
  · exact ⟨w, rfl, hw, ⟨rfl, rfl⟩, rfl⟩
  · rename_i hb
    cases ok
    · refine ⟨none, rfl, Ok_none _, ?_, rfl⟩
      simp only [Bool.false_eq_true, if_false, pause]
      split <;> exact ⟨rfl, rfl⟩
    · simp only [if_true, go]
      by_cases hs : waitsItsTurn c = true
      · have hna : leadsTo c ≠ .abort ∧ leadsTo c ≠ .quit := by
          cases c <;> simp_all [waitsItsTurn, leadsTo]
        have ht : s.timer = none := by
          cases h : s.timer with
          | none => rfl
          | some t => exact absurd ⟨hna.1, hna.2, by simp [isProcessing, h]⟩ hb
        have hwn : w = none := by
          cases w with
          | none => rfl
          | some _ => have := hw rfl; simp [ht] at this
        subst hwn
        refine ⟨some (leadsTo c), ?_, ?_, ?_, trivial⟩
        · simp [watchItems, watchItem, hs]
        · rw [if_neg (by simp [hna.1, hna.2])]
          exact Ok_timer rfl
        · rw [if_neg (by simp [hna.1, hna.2])]
          exact ⟨rfl, rfl⟩
      · have hab : leadsTo c = .abort ∨ leadsTo c = .quit := by
          cases c <;> simp_all [waitsItsTurn, leadsTo]
        refine ⟨w, ?_, ?_, ?_, trivial⟩
        · simp [watchItems, watchItem, hs]
        · rw [if_pos hab]; exact hw
        · rw [if_pos hab]; exact ⟨rfl, rfl⟩

theorem incrementBodyQueue_same (s : State) :
    (incrementBodyQueue s).timer = s.timer ∧ Same s (incrementBodyQueue s) ∧
      (incrementBodyQueue s).state = s.state := by
  unfold incrementBodyQueue
  split <;> exact ⟨rfl, ⟨rfl, rfl⟩, rfl⟩

theorem flushBody_good (s : State) (ok : Bool) (w : Option St) (own : Bool)
    (o : Option Opt) (st : St) (hw : Ok w s) :
    ∃ w', watchItems .exceptBody o st own w (flushBody s ok).1.out = some w' ∧
      Ok w' (flushBody s ok).1.st ∧ Same s (flushBody s ok).1.st ∧
      (flushBody s ok).1.after = [] := by
  unfold flushBody
  have h := writePacket_good (appendBodyQueue s)
    (.body ((appendBodyQueue s).body.take (Enc.bodyPackedSize (appendBodyQueue s).body))) .body ok w
    own o st rfl hw
  simp only
  generalize writePacket (appendBodyQueue s)
    (.body ((appendBodyQueue s).body.take (Enc.bodyPackedSize (appendBodyQueue s).body))) .body ok
    = r at h
  obtain ⟨w', h1, h2, h3, h4⟩ := h
  cases r with
  | mk r b =>
    cases b with
    | false => exact ⟨w', h1, h2, h3, h4⟩
    | true =>
      have hi := incrementBodyQueue_same
        { r.st with body := r.st.body.drop (Enc.bodyPackedSize (appendBodyQueue s).body) }
      refine ⟨w', h1, ?_, ?_, h4⟩
      · intro hs; rw [hi.1]; exact h2 hs
      · exact ⟨hi.2.1.1.trans h3.1, hi.2.1.2.trans h3.2⟩

/-- a state before a part of a function ends, the outstanding command being forgotten -/
theorem enter_good (s : State) (n : St) (ok : Bool) (own : Bool) (st : St) (w : Option St)
    (hown : own = true) :
    (∃ w', watchItems .exceptBody s.option st own w (enter s n ok).out = some w' ∧
      ((enter s n ok).paused = true → Ok w' (enter s n ok).st)) ∧
      (answered s.option n = true → n ≠ .body → (enter s n ok).st.timer.isSome = true) ∧
      Same s (enter s n ok).st ∧ (enter s n ok).after = [] := by
  subst hown
  have hbody : (∃ w', watchItems .exceptBody s.option st true w
        (flushBody (setState { s with timer := none } .body) ok).1.out = some w' ∧
        ((flushBody (setState { s with timer := none } .body) ok).1.paused = true →
          Ok w' (flushBody (setState { s with timer := none } .body) ok).1.st)) ∧
      Same s (flushBody (setState { s with timer := none } .body) ok).1.st ∧
      (flushBody (setState { s with timer := none } .body) ok).1.after = [] := by
    have h0 := flushBody_good (setState { s with timer := none } .body) ok none true s.option st
      (Ok_none _)
    obtain ⟨w0, h1, h2, h3, h4⟩ := h0
    refine ⟨?_, ⟨h3.1, h3.2⟩, h4⟩
    unfold flushBody writePacket
    simp only [isProcessing, appendBodyQueue, setState, Option.isSome_none, Bool.false_eq_true,
      and_false, if_false]
    cases ok
    · exact ⟨none, rfl, fun _ => Ok_none _⟩
    · refine ⟨some .body, ?_, fun h => by simp [go] at h⟩
      simp [go, watchItems, watchItem, waitsItsTurn, leadsTo]
  cases n
  case body =>
    simp only [enter]
    split
    · exact ⟨⟨w, rfl, fun h => by simp [go] at h⟩, fun _ h => absurd rfl h, ⟨rfl, rfl⟩, rfl⟩
    · split
      · exact ⟨⟨w, rfl, fun h => by simp [go] at h⟩, fun _ h => absurd rfl h, ⟨rfl, rfl⟩, rfl⟩
      · exact ⟨⟨w, rfl, fun h => by simp [go] at h⟩, fun _ h => absurd rfl h, ⟨rfl, rfl⟩, rfl⟩
      · exact ⟨hbody.1, fun _ h => absurd rfl h, hbody.2⟩
  case endOfMessage =>
    simp only [enter]
    refine ⟨⟨w, rfl, fun h => by simp [go] at h⟩, fun _ _ => rfl, ?_, rfl⟩
    split <;> exact ⟨rfl, rfl⟩
  case quit =>
    exact ⟨⟨w, rfl, fun h => by simp [enter, go] at h⟩,
      fun h => by cases ho : s.option <;> simp [answered, ho] at h, ⟨rfl, rfl⟩, rfl⟩
  all_goals
    simp only [enter]
    cases ho : s.option with
    | none =>
      simp only [needReply, setState, Option.map_none, if_true, if_false, reduceCtorEq]
      exact ⟨⟨w, rfl, fun h => by simp [go] at h⟩, fun h => by simp [answered] at h,
        ⟨ho.symm ▸ rfl, rfl⟩, rfl⟩
    | some op =>
      simp only [setState, if_true, if_false, reduceCtorEq]
      split
      · exact ⟨⟨w, rfl, fun h => by simp [go] at h⟩, fun h => by
          rename_i hx; simp [needReply] at hx, ⟨ho.symm ▸ rfl, rfl⟩, rfl⟩
      · exact ⟨⟨w, rfl, fun h => by simp [go] at h⟩, fun _ _ => rfl, ⟨ho.symm ▸ rfl, rfl⟩, rfl⟩
      · refine ⟨⟨w, rfl, fun h => by simp [go] at h⟩, fun h => ?_, ⟨ho.symm ▸ rfl, rfl⟩, rfl⟩
        rename_i hx
        rw [needReply_answered op _ h] at hx
        simp at hx

theorem enter_paused (s : State) (n : St) (ok : Bool) (h : (enter s n ok).paused = true) :
    n = .body := by
  cases n <;> first | rfl | skip
  all_goals
    exfalso
    revert h
    simp only [enter]
    first
      | (simp [go]; done)
      | (split <;> simp [go])

theorem clearBody_same (s : State) :
    (clearBody s).timer = s.timer ∧ Same s (clearBody s) := by
  simp only [clearBody]; split <;> exact ⟨rfl, ⟨rfl, rfl⟩⟩

theorem act_good (s : State) (a : Action) (ok : Bool) (w : Option St)
    (st : St) (h1 : Plain a) (hw : Ok w s) (hst : (act s ok a).paused = true → st = (act s ok a).st.state) :
    (∃ w', watchItems .exceptBody s.option st true w (act s ok a).out = some w' ∧
      Ok w' (act s ok a).st) ∧ Same s (act s ok a).st ∧ Safe (act s ok a).after := by
  cases a
  case enter n => exact h1.elim
  case abortFlushed => exact h1.elim
  case transited n =>
    refine ⟨⟨none, ?_, Ok_none _⟩, ⟨rfl, rfl⟩, .nil⟩
    rcases h1 with rfl | rfl | rfl <;> cases s.option <;>
      simp [act, pause, watchItems, watchItem, answered]
  case processed c =>
    revert hst
    simp only [act]
    split
    · split
      · intro hst
        rw [hst rfl]
        refine ⟨⟨if s.state = .abort then none else w, rfl, ?_⟩, ⟨rfl, rfl⟩, .plain _ _ trivial .nil⟩
        split
        · exact Ok_none _
        · exact hw
      · exact fun _ => ⟨⟨w, rfl, hw⟩, ⟨rfl, rfl⟩, .nil⟩
    · exact fun _ => ⟨⟨w, rfl, hw⟩, ⟨rfl, rfl⟩, .nil⟩
  case flushRest =>
    simp only [act]
    split
    · obtain ⟨w', h1, h2, h3, h4⟩ := flushBody_good s ok w true s.option st hw
      exact ⟨⟨w', h1, h2⟩, h3, h4 ▸ .nil⟩
    · exact ⟨⟨w, rfl, hw⟩, ⟨rfl, rfl⟩, .nil⟩
  case clearIfBody =>
    simp only [act]
    have := clearBody_same s
    split
    · exact ⟨⟨w, rfl, fun h => by simp only [go, this.1]; exact hw h⟩, this.2, .nil⟩
    · exact ⟨⟨w, rfl, hw⟩, ⟨rfl, rfl⟩, .nil⟩
  case clearBody =>
    have := clearBody_same s
    exact ⟨⟨w, rfl, fun h => by simp only [act, go, this.1]; exact hw h⟩, this.2, .nil⟩
  case enterIfSent =>
    simp only [act]
    split
    · exact ⟨⟨w, rfl, hw⟩, ⟨rfl, rfl⟩, .nil⟩
    · exact ⟨⟨w, rfl, hw⟩, ⟨rfl, rfl⟩, .nil⟩
  all_goals exact ⟨⟨w, rfl, hw⟩, ⟨rfl, rfl⟩, .nil⟩

theorem Safe.append {a b : List Action} (ha : Safe a) (hb : Safe b) : Safe (a ++ b) := by
  induction ha with
  | nil => exact hb
  | plain a l h _ ih => exact .plain _ _ h ih
  | enter n l _ ih => exact .enter _ _ ih
  | abort l _ ih => exact .abort _ ih

theorem exec_good (l : List Action) (hl : Safe l) (s : State) (ok : Bool) (w : Option St)
    (hw : Ok w s) (hs : Stack s) :
    Good s.option true w (exec s ok l).1 (exec s ok l).2 ∧ (exec s ok l).1.option = s.option ∧
      Stack (exec s ok l).1 := by
  induction hl generalizing s w with
  | nil => exact ⟨⟨w, rfl, hw⟩, rfl, hs⟩
  | plain a l ha hl ih =>
    rw [exec]
    by_cases hp : (act s ok a).paused = true
    · simp only [hp, if_true]
      obtain ⟨⟨w', h1, h2⟩, h3, h4⟩ := act_good s a ok w (act s ok a).st.state ha hw (fun _ => rfl)
      refine ⟨⟨w', h1, h2⟩, h3.1, ?_⟩
      intro f hf
      rcases List.mem_cons.1 hf with rfl | hf
      · exact h4.append hl
      · exact hs f (h3.2 ▸ hf)
    · rw [Bool.not_eq_true] at hp
      simp only [hp, Bool.false_eq_true, if_false]
      obtain ⟨⟨w', h1, h2⟩, h3, h4⟩ := act_good s a ok w (exec (act s ok a).st ok l).1.state ha hw
        (fun h => absurd (hp.symm.trans h) (by simp))
      obtain ⟨⟨w'', g1, g2⟩, g3, g4⟩ := ih (act s ok a).st w' h2 (fun f hf => hs f (h3.2 ▸ hf))
      refine ⟨⟨w'', ?_, g2⟩, g3.trans h3.1, g4⟩
      rw [watchItems_append, h1]
      rw [h3.1] at g1
      exact g1
  | enter n l hl ih =>
    rw [exec]
    simp only [act]
    by_cases hp : (enter s n ok).paused = true
    · simp only [hp, if_true]
      obtain ⟨⟨w', h1, h2⟩, _, h3, h4⟩ := enter_good s n ok true (enter s n ok).st.state w rfl
      refine ⟨⟨w', h1, h2 hp⟩, h3.1, ?_⟩
      intro f hf
      rcases List.mem_cons.1 hf with rfl | hf
      · rw [h4]; exact .plain _ _ (Or.inl (enter_paused s n ok hp)) hl
      · exact hs f (h3.2 ▸ hf)
    · rw [Bool.not_eq_true] at hp
      simp only [hp, Bool.false_eq_true, if_false]
      obtain ⟨⟨w', h1, _⟩, h2, h3, h4⟩ := enter_good s n ok true (enter s n ok).st.state w rfl
      simp only [exec, act, pause, if_true, List.nil_append]
      refine ⟨⟨if answered s.option n && !(decide (n = .body)) then some n else none, ?_, ?_⟩, h3.1, ?_⟩
      · rw [watchItems_append, h1]
        simp [watchItems, watchItem]
      · intro hsome
        by_cases ha : answered s.option n = true
        · by_cases hb : n = .body
          · simp [hb] at hsome
          · exact h2 ha hb
        · simp [ha] at hsome
      · intro f hf
        rcases List.mem_cons.1 hf with rfl | hf
        · exact hl
        · exact hs f (h3.2 ▸ hf)
  | abort l hl ih =>
    have hst : (abortFlushed s).state = .abort := rfl
    have hsame : (abortFlushed s).option = s.option ∧ (abortFlushed s).stack = s.stack := by
      simp only [abortFlushed, setState]
      split
      · split <;> exact ⟨rfl, rfl⟩
      · exact ⟨rfl, rfl⟩
    simp only [exec, act, go, Cond.holds, if_true, List.nil_append, if_false, Bool.false_eq_true]
    cases hr : (abortFlushed s).result with
    | some r =>
      simp only [pause, if_true]
      refine ⟨⟨none, ?_, Ok_none _⟩, hsame.1, ?_⟩
      · simp [watchItems, watchItem, hst]
      · intro f hf
        rcases List.mem_cons.1 hf with rfl | hf
        · exact .plain _ _ trivial (.plain _ _ trivial (.plain _ _ (Or.inr (Or.inl rfl)) hl))
        · exact hs f (hsame.2 ▸ hf)
    | none =>
      simp only [pause, if_true, if_false, Bool.false_eq_true, List.nil_append]
      refine ⟨⟨none, ?_, Ok_none _⟩, hsame.1, ?_⟩
      · cases s.option <;> simp [watchItems, watchItem, answered]
      · intro f hf
        rcases List.mem_cons.1 hf with rfl | hf
        · exact hl
        · exact hs f (hsame.2 ▸ hf)

theorem Stack.push {s s' : State} {f : List Action} (hs : Stack s) (h : s'.stack = f :: s.stack)
    (hf : Safe f) : Stack s' := by
  intro g hg
  rw [h] at hg
  rcases List.mem_cons.1 hg with rfl | hg
  · exact hf
  · exact hs g hg

/-- what a step must satisfy -/
def Good2 (o : Option Opt) (own : Bool) (w : Option St) (r : State × List Item) : Prop :=
  (∃ w', watchItems .exceptBody o r.1.state own w r.2 = some w' ∧ Ok w' r.1) ∧ Stack r.1

theorem watchItems_ret (g o st own w out b) :
    watchItems g o st own w (out ++ [.ret b]) = watchItems g o st own w out := by
  rw [watchItems_append]
  cases watchItems g o st own w out <;> rfl

theorem returning_write {s s0 : State} (hs : Stack s0) (hst : s.stack = s0.stack)
    (ht : s.timer = s0.timer) (c : Cmd) (n : St) (ok : Bool) (w : Option St) (o : Option Opt)
    (hn : leadsTo c = n) (hw : Ok w s0) (rest : List Action) (hr : rest = [] ∨ rest = [.notProcessing]) :
    Good2 o false w (returning (writePacket s c n ok) rest) := by
  have hw' : Ok w s := fun h => by rw [ht]; exact hw h
  have h := fun st => writePacket_good s c n ok w false o st hn hw'
  have hrs : Safe rest := by
    rcases hr with rfl | rfl
    · exact .nil
    · exact .plain _ _ trivial .nil
  generalize writePacket s c n ok = p at h
  obtain ⟨p, b⟩ := p
  simp only [returning, andThen]
  by_cases hp : p.paused = true
  · simp only [hp, if_true]
    obtain ⟨w', h1, h2, h3, h4⟩ := h p.st.state
    refine ⟨⟨w', (watchItems_ret ..).trans h1, h2⟩, ?_⟩
    exact Stack.push (s := p.st) (fun f hf => hs f (hst ▸ h3.2 ▸ hf)) rfl (h4 ▸ hrs)
  · rw [Bool.not_eq_true] at hp
    simp only [hp, Bool.false_eq_true, if_false]
    obtain ⟨w', h1, h2, h3, h4⟩ := h p.st.state
    rcases hr with rfl | rfl
    · refine ⟨⟨w', (watchItems_ret ..).trans ?_, h2⟩, (fun f hf => hs f (hst ▸ h3.2 ▸ hf))⟩
      simpa [exec] using h1
    · refine ⟨⟨w', (watchItems_ret ..).trans ?_, h2⟩, (fun f hf => hs f (hst ▸ h3.2 ▸ hf))⟩
      simpa [exec, act, go] using h1

theorem returning_flush {s s0 : State} (hs : Stack s0) (hst : s.stack = s0.stack)
    (ht : s.timer = s0.timer) (ok : Bool) (w : Option St) (o : Option Opt) (hw : Ok w s0) :
    Good2 o false w (returning (flushBody s ok)) := by
  have hw' : Ok w s := fun h => by rw [ht]; exact hw h
  have h := fun st => flushBody_good s ok w false o st hw'
  generalize flushBody s ok = p at h
  obtain ⟨p, b⟩ := p
  simp only [returning, andThen]
  obtain ⟨w', h1, h2, h3, h4⟩ := h p.st.state
  by_cases hp : p.paused = true
  · simp only [hp, if_true]
    refine ⟨⟨w', (watchItems_ret ..).trans h1, h2⟩, ?_⟩
    exact Stack.push (s := p.st) (fun f hf => hs f (hst ▸ h3.2 ▸ hf)) rfl
      (by rw [show p.after = [] from h4]; exact .nil)
  · rw [Bool.not_eq_true] at hp
    simp only [hp, Bool.false_eq_true, if_false]
    refine ⟨⟨w', (watchItems_ret ..).trans ?_, h2⟩, (fun f hf => hs f (hst ▸ h3.2 ▸ hf))⟩
    simpa [exec] using h1

theorem stopOn_good {s s0 : State} (hs : Stack s0) (hst : s.stack = s0.stack)
    (ht : s.timer = s0.timer) (n : St) (w : Option St) (o : Option Opt) (hw : Ok w s0) :
    Good2 o false w (stopOn s n) := by
  refine ⟨⟨w, rfl, fun h => ?_⟩, Stack.push hs (f := [.processed .inMessage]) ?_ (.plain _ _ trivial .nil)⟩
  · show s.timer.isSome = true
    rw [ht]; exact hw h
  · show [.processed .inMessage] :: s.stack = _
    rw [hst]

theorem answer_good {s s0 : State} (hs : Stack s0) (hst : s.stack = s0.stack)
    (ht : s.timer = s0.timer) (n : St) (r : Reply) (w : Option St) (o : Option Opt) (hw : Ok w s0) :
    Good2 o false w (answer s n r) := by
  refine ⟨⟨w, rfl, fun h => ?_⟩, Stack.push hs (f := []) ?_ .nil⟩
  · show s.timer.isSome = true
    rw [ht]; exact hw h
  · show [] :: s.stack = _
    rw [hst]

theorem Good2.ite {o : Option Opt} {own : Bool} {w : Option St} {c : Prop} [Decidable c]
    {a b : State × List Item} (ha : c → Good2 o own w a) (hb : ¬c → Good2 o own w b) :
    Good2 o own w (if c then a else b) := by
  by_cases h : c
  · rw [if_pos h]; exact ha h
  · rw [if_neg h]; exact hb h

theorem command_good (s : State) (c : Cmd) (stop ok : Bool) (w : Option St) (hw : Ok w s)
    (hs : Stack s) : Good2 s.option false w (command s c stop ok) := by
  cases c <;> simp only [command, ensureResult]
  case negotiate => exact returning_write hs (by rfl) (by rfl) _ _ _ _ _ (by rfl) hw _ (Or.inl rfl)
  case defineMacro => exact ⟨⟨w, rfl, hw⟩, hs⟩
  case quit => exact returning_write hs (by rfl) (by rfl) _ _ _ _ _ (by rfl) hw _ (Or.inl rfl)
  case abort => exact returning_write hs (by rfl) (by rfl) _ _ _ _ _ (by rfl) hw _ (Or.inr rfl)
  case data =>
    refine Good2.ite (fun _ => ?_) (fun _ => ?_)
    · exact stopOn_good hs (by rfl) (by rfl) _ _ _ hw
    · split
      · exact ⟨⟨w, rfl, hw⟩, hs⟩
      · refine Good2.ite (fun _ => ?_) (fun _ => ?_)
        · exact answer_good hs (by rfl) (by rfl) _ _ _ _ hw
        · exact returning_write hs (by rfl) (by rfl) _ _ _ _ _ (by rfl) hw _ (Or.inl rfl)
  case body =>
    refine Good2.ite (fun _ => ?_) (fun _ => ?_)
    · exact stopOn_good hs (by rfl) (by rfl) _ _ _ hw
    · refine Good2.ite (fun _ => ?_) (fun _ => ?_)
      · exact answer_good hs (by rfl) (by rfl) _ _ _ _ hw
      · exact returning_flush hs (by rfl) (by rfl) _ _ _ hw
  case endOfMessage =>
    refine Good2.ite (fun _ => ?_) (fun _ => ?_)
    · exact stopOn_good hs (by rfl) (by rfl) _ _ _ hw
    · exact returning_write hs (by rfl) (by rfl) _ _ _ _ _ (by rfl) hw _ (Or.inl rfl)
  case unknown =>
    refine Good2.ite (fun _ => ?_) (fun _ => ?_)
    · exact answer_good hs (by rfl) (by rfl) _ _ _ _ hw
    · exact returning_write hs (by rfl) (by rfl) _ _ _ _ _ (by rfl) hw _ (Or.inl rfl)
  all_goals
    refine Good2.ite (fun _ => ?_) (fun _ => ?_)
    · exact stopOn_good hs (by rfl) (by rfl) _ _ _ hw
    · refine Good2.ite (fun _ => ?_) (fun _ => ?_)
      · exact answer_good hs (by rfl) (by rfl) _ _ _ _ hw
      · exact returning_write hs (by rfl) (by rfl) _ _ _ _ _ (by rfl) hw _ (Or.inl rfl)

macro "safe" : tactic => `(tactic| repeat (first | exact Safe.nil | refine Safe.plain _ _ trivial ?_))

theorem report_good {s s0 : State} (hs : Stack s0) (hst : s.stack = s0.stack) (r : Reply)
    (rest : List Action) (hr : Safe rest) (w : Option St) (o : Option Opt) (hw : Ok w s) :
    Good2 o true w (report s r rest) := by
  unfold report
  split
  · exact ⟨⟨w, rfl, hw⟩, fun f hf => hs f (hst ▸ hf)⟩
  · refine ⟨⟨w, rfl, hw⟩, Stack.push hs (f := rest) ?_ hr⟩
    show rest :: s.stack = _
    rw [hst]

theorem invalidState_good {s s0 : State} (hs : Stack s0) (hst : s.stack = s0.stack)
    (w : Option St) (o : Option Opt) (hw : Ok w s) : Good2 o true w (invalidState s) := by
  refine ⟨⟨w, rfl, hw⟩, Stack.push hs (f := []) ?_ .nil⟩
  show [] :: s.stack = _
  rw [hst]

theorem modification_good {s s0 : State} (hs : Stack s0) (hst : s.stack = s0.stack) (r : Reply)
    (rest : List Action) (hr : Safe rest) (w : Option St) (o : Option Opt) (hw : Ok w s) :
    Good2 o true w (modification s r rest) := by
  unfold modification
  split
  · exact report_good hs hst r rest hr w o hw
  · exact invalidState_good hs hst w o hw

theorem exec_good2 (l : List Action) (hl : Safe l) (s : State) (ok : Bool) (w : Option St)
    (hw : Ok w s) (hs : Stack s) : Good2 s.option true w (exec s ok l) :=
  have h := exec_good l hl s ok w hw hs
  ⟨h.1, h.2.2⟩

theorem refuse_same (s : State) (st : Status) :
    (refuse s st).1.stack = s.stack ∧ (refuse s st).1.option = s.option ∧
      ((refuse s st).2 = [] ∨ (refuse s st).2 = [.ub]) := by
  unfold refuse
  split
  · unfold refuseRecipient
    have h1 : (ensureResult { s with rcptStatus := st }).stack = s.stack := rfl
    have h2 : (ensureResult { s with rcptStatus := st }).option = s.option := rfl
    simp only
    generalize ensureResult { s with rcptStatus := st } = S at h1 h2
    cases S.result with
    | none => exact ⟨h1, h2, Or.inl rfl⟩
    | some r =>
      simp only
      split
      · exact ⟨h1, h2, Or.inr rfl⟩
      · exact ⟨h1, h2, Or.inl rfl⟩
  · exact ⟨rfl, rfl, Or.inl rfl⟩

theorem Good2.ub {o : Option Opt} {own : Bool} {w : Option St} {r : State × List Item}
    {out : List Item} (h : Good2 o own w r) (ho : out = [] ∨ out = [.ub]) :
    Good2 o own w (r.1, out ++ r.2) := by
  rcases ho with rfl | rfl
  · exact h
  · exact h

theorem reply_good (s : State) (r : Reply) (ok : Bool) (w : Option St) (hw : Ok w s)
    (hs : Stack s) :
    Good2 s.option true (if finishes r then none else w) (reply s r ok) := by
  cases r <;> simp only [reply, finishes, if_true, Bool.false_eq_true, if_false]
  case negotiate o m =>
    cases ho : s.option with
    | none =>
      simp only [Bool.not_true, Bool.false_eq_true, if_false]
      split
      · split
        · exact ⟨⟨none, rfl, Ok_none _⟩, hs⟩
        · exact report_good hs (by rfl) _ _ (by safe) _ _ (by exact Ok_none _)
      · exact invalidState_good hs (by rfl) _ _ (by exact Ok_none _)
    | some mine =>
      simp only
      split
      · exact ⟨⟨none, rfl, Ok_none _⟩, Stack.push hs (f := []) rfl .nil⟩
      · split
        · split
          · exact ⟨⟨none, rfl, Ok_none _⟩, hs⟩
          · exact report_good hs (by rfl) _ _ (by safe) _ _ (by exact Ok_none _)
        · exact invalidState_good hs (by rfl) _ _ (by exact Ok_none _)
  case cont =>
    split
    · split
      · exact ⟨⟨none, rfl, Ok_none _⟩, hs⟩
      · unfold continueBody
        split
        · exact exec_good2 [.flushRest] (by safe) { s with timer := none } ok none (Ok_none _) hs
        · simp only
          split
          · exact ⟨⟨none, rfl, Ok_none _⟩,
              Stack.push hs (f := [.enterIfSent, .flushRest]) rfl (by safe)⟩
          · exact exec_good2 [.flushRest] (by safe) { s with timer := none, bodyQueue := _ } ok none (Ok_none _) hs
    · split
      · exact report_good hs (by rfl) _ _ (by safe) _ _ (by exact Ok_none _)
      · exact invalidState_good hs (by rfl) _ _ (by exact Ok_none _)
  case replyCode code e m =>
    have h := refuse_same s (codeStatus code)
    refine Good2.ub ?_ h.2.2
    split
    · refine report_good (s0 := s) hs ?_ _ _ (by safe) _ _ (by exact Ok_none _)
      split
      · exact (clearBody_same _).2.2.trans h.1
      · exact h.1
    · exact invalidState_good hs (by exact h.1) _ _ (by exact Ok_none _)
  case temporaryFailure =>
    have h := refuse_same s .temporaryFailure
    exact Good2.ub (report_good hs (by exact h.1) _ _ (by safe) _ _ (by exact Ok_none _)) h.2.2
  case reject =>
    have h := refuse_same s .reject
    exact Good2.ub (report_good hs (by exact h.1) _ _ (by safe) _ _ (by exact Ok_none _)) h.2.2
  case accept => exact report_good hs (by rfl) _ _ (by safe) _ _ (by exact Ok_none _)
  case discard => exact report_good hs (by rfl) _ _ (by safe) _ _ (by exact Ok_none _)
  case progress =>
    split
    · exact report_good hs (by rfl) _ _ .nil _ _ (by exact Ok_timer rfl)
    · exact modification_good hs (by rfl) _ _ .nil _ _ (by exact hw)
  case connectionFailure => exact report_good hs (by rfl) _ _ (by safe) _ _ (by exact Ok_none _)
  case shutdown => exact report_good hs (by rfl) _ _ (by safe) _ _ (by exact Ok_none _)
  case skip =>
    split
    · exact report_good hs (by rfl) _ _ (by safe) _ _ (by exact Ok_none _)
    · exact invalidState_good hs (by rfl) _ _ (by exact Ok_none _)
  case quarantine => exact modification_good hs (by rfl) _ _ (by safe) _ _ (by exact hw)
  case addHeader => exact modification_good hs (by rfl) _ _ (by safe) _ _ (by exact hw)
  case insertHeader => exact modification_good hs (by rfl) _ _ (by safe) _ _ (by exact hw)
  case changeHeader => exact modification_good hs (by rfl) _ _ (by safe) _ _ (by exact hw)
  case deleteHeader => exact modification_good hs (by rfl) _ _ (by safe) _ _ (by exact hw)
  all_goals exact modification_good hs (by rfl) _ _ .nil _ _ (by exact hw)

theorem step_good (s : State) (e : Event) (w : Option St) (hw : Ok w s) (hs : Stack s) :
    Good2 s.option (ownInitiative e) (watchEvent s.option w e) (step s e) := by
  cases e with
  | command c stop ok => exact command_good s c stop ok w hw hs
  | reply r ok => exact reply_good s r ok w hw hs
  | flushed ok =>
    refine exec_good2 _ (Safe.flush _) { s with nextStates := [] } ok _ ?_ hs
    intro h
    cases w with
    | none => exact absurd h (by simp [watchEvent])
    | some n => exact hw rfl
  | handlerReturns ok =>
    simp only [step]
    cases h : s.stack with
    | nil => exact ⟨⟨w, rfl, hw⟩, hs⟩
    | cons f st =>
      exact exec_good2 f (hs f (by simp [h])) { s with stack := st } ok w hw
        (fun g hg => hs g (by rw [h]; exact List.mem_cons_of_mem _ hg))
  | timeout =>
    simp only [step, timeout]
    split
    · exact ⟨⟨w, rfl, Ok_timer rfl⟩, Stack.push hs (f := [.shutdownAgent]) rfl (.plain _ _ trivial .nil)⟩
    · exact ⟨⟨w, rfl, Ok_timer rfl⟩, Stack.push hs (f := [.shutdownAgent]) rfl (.plain _ _ trivial .nil)⟩
    · exact ⟨⟨w, rfl, Ok_timer rfl⟩, Stack.push hs (f := [.shutdownAgent]) rfl (.plain _ _ trivial .nil)⟩
    · exact ⟨⟨w, rfl, Ok_timer rfl⟩, Stack.push hs (f := []) rfl .nil⟩
    · exact ⟨⟨w, rfl, hw⟩, hs⟩
    · exact ⟨⟨w, rfl, hw⟩, hs⟩
  | establish ok => exact ⟨⟨none, rfl, Ok_none _⟩, hs⟩
  | connected ok =>
    refine ⟨⟨none, ?_, Ok_none _⟩, Stack.push hs (f := []) rfl .nil⟩
    cases ok <;> rfl
  | setStatus => exact ⟨⟨w, rfl, hw⟩, hs⟩
  | setState => exact ⟨⟨w, rfl, hw⟩, hs⟩
  | setProcessingMessage => exact ⟨⟨w, rfl, hw⟩, hs⟩
  | setQuitted => exact ⟨⟨w, rfl, hw⟩, hs⟩

theorem run_good (es : List Event) (s : State) (w : Option St) (hw : Ok w s) (hs : Stack s) :
    ∃ w', watch .exceptBody w (run s es).2 = some w' ∧ Ok w' (run s es).1 ∧ Stack (run s es).1 := by
  induction es generalizing s w with
  | nil => exact ⟨w, rfl, hw, hs⟩
  | cons e es ih =>
    obtain ⟨⟨w', h1, h2⟩, h3⟩ := step_good s e w hw hs
    obtain ⟨w'', g1, g2, g3⟩ := ih (step s e).1 w' h2 h3
    refine ⟨w'', ?_, g2, g3⟩
    simp only [run, watch, h1]
    exact g1

/-- a command that is neither stopped nor declined is handed to `write_packet` -/
theorem command_busy (s : State) (c : Cmd) (ok : Bool) (hb : s.timer.isSome = true)
    (hw : waitsItsTurn c = true) (hd : ¬Declined s.option c) (hm : ∀ k m, c ≠ .defineMacro k m) :
    (command s c false ok).2 = [.emit (.error .busy), .ret false] := by
  have hwr : ∀ (s' : State) (c' : Cmd) (n : St), s'.timer.isSome = true → n ≠ .abort → n ≠ .quit →
      (returning (writePacket s' c' n ok)).2 = [.emit (.error .busy), .ret false] := by
    intro s' c' n ht h1 h2
    rw [writePacket, if_pos ⟨h1, h2, ht⟩]
    rfl
  have hen : ∀ (o : Opt) (f : UInt32), o.step &&& f = 0 → isEnableStep (some o) f = false := by
    intro o f h
    simp [isEnableStep, h]
  cases c
  case defineMacro k m => exact absurd rfl (hm k m)
  case abort => simp [waitsItsTurn] at hw
  case quit => simp [waitsItsTurn] at hw
  case negotiate => exact hwr _ _ _ hb (by simp) (by simp)
  case endOfMessage => exact hwr _ _ _ hb (by simp) (by simp)
  case body chunk =>
    cases ho : s.option with
    | none => rw [ho] at hd; exact absurd trivial hd
    | some o =>
      rw [ho] at hd
      simp only [Declined, ne_eq, Decidable.not_not] at hd
      simp only [command, ensureResult, ho, hen o _ hd, Bool.false_eq_true, if_false]
      rw [flushBody]
      simp only
      rw [writePacket, if_pos ⟨by simp, by simp, hb⟩]
      rfl
  case data =>
    cases ho : s.option with
    | none => rw [ho] at hd; exact absurd trivial hd
    | some o =>
      rw [ho] at hd
      simp only [Declined, ne_eq, not_or, Decidable.not_not] at hd
      simp only [command, ensureResult, ho, hen o _ hd.2, Bool.false_eq_true, if_false, or_false, hd.1]
      exact hwr _ _ _ hb (by simp) (by simp)
  all_goals
    cases ho : s.option with
    | none => rw [ho] at hd; exact absurd trivial hd
    | some o =>
      rw [ho] at hd
      simp only [Declined, ne_eq, Decidable.not_not] at hd
      simp only [command, ensureResult, ho, hen o _ hd, Bool.false_eq_true, if_false]
      exact hwr _ _ _ hb (by simp) (by simp)

end ServerLemmas

open ServerLemmas

/-! ## C32 -/

/-- C32 for every history, except that a body command counts as outstanding only until it has
gone out: a command is written only when none is outstanding. -/
theorem C32_partial (es : List Event) : OneAtATime .exceptBody (run State.init es).2 := by
  obtain ⟨w, h, _⟩ := run_good es State.init none (Ok_none _) (fun f hf => by simp [State.init] at hf)
  simp [OneAtATime, h]

/-- C32, the refusal: after any history that leaves a command outstanding, any command other
than abort and quit that would have to be sent is refused with the busy error, and nothing is
written. -/
theorem C32_refused (es : List Event) (c : Cmd) (ok : Bool)
    (ho : Outstanding .exceptBody (run State.init es).2) (hw : waitsItsTurn c = true)
    (hd : ¬Declined (run State.init es).1.option c) (hm : ∀ k m, c ≠ .defineMacro k m) :
    (step (run State.init es).1 (.command c false ok)).2 = [.emit (.error .busy), .ret false] := by
  obtain ⟨w, h, h2, _⟩ := run_good es State.init none (Ok_none _) (fun f hf => by simp [State.init] at hf)
  obtain ⟨n, hn⟩ := ho
  rw [h] at hn
  cases hn
  exact command_busy _ c ok (h2 rfl) hw hd hm

/-- C32, the exception: abort and quit are written whatever is outstanding. -/
theorem C32_abort_quit (es : List Event) (stop : Bool) (c : Cmd) (hc : c = .abort ∨ c = .quit) :
    (step (run State.init es).1 (.command c stop true)).2 = [.wrote c, .ret true] := by
  rcases hc with rfl | rfl <;> simp [step, command, returning, andThen, writePacket, go, exec, act]

/-- a milter that negotiated nothing away -/
def plainOption : Opt := { version := 6, action := 0x1ff, step := 0 }

/-- negotiation, up to the milter's answer -/
def negotiation (o : Opt) : List Event :=
  [.establish true, .connected true, .handlerReturns true, .command (.negotiate o) false true,
    .flushed true, .handlerReturns true, .reply (.negotiate o none) true, .handlerReturns true]

unseal Enc.chunkSize in
/-- C32 does not hold for the body: once a body command has gone out completely, no reply to it
is awaited (`process_next_state_body` registers no timeout), so the next command is written
although the milter has not answered. -/
theorem C32_violated : ∃ es, ¬OneAtATime .full (run State.init es).2 := by
  refine ⟨negotiation plainOption ++
    [.command (.body [1]) false true, .flushed true, .handlerReturns true,
      .command (.endOfMessage []) false true], ?_⟩
  intro h
  exact h (by rfl)

unseal Enc.chunkSize in
/-- the same: a milter that never answers a body command is never timed out -/
theorem C32_body_timeout_violated : ∃ es,
    Outstanding .full (run State.init es).2 ∧ (run State.init es).1.state = .body ∧
      isProcessing (run State.init es).1 = false ∧
      (step (run State.init es).1 .timeout).2 = [] := by
  refine ⟨negotiation plainOption ++
    [.command (.body [1]) false true, .flushed true, .handlerReturns true], ⟨.body, by rfl⟩,
    by rfl, by rfl, by rfl⟩

/-- a helo that awaits its answer: the hypotheses of `C32_refused` are met -/
example : Outstanding .exceptBody (run State.init (negotiation plainOption ++
      [.command (.helo [104]) false true, .flushed true, .handlerReturns true])).2 ∧
    ¬Declined (run State.init (negotiation plainOption ++
      [.command (.helo [104]) false true, .flushed true, .handlerReturns true])).1.option .data := by
  refine ⟨⟨.helo, by rfl⟩, ?_⟩
  show ¬(6 < 4 ∨ _ ≠ (0 : UInt32))
  decide

/-- and the answer releases it -/
example : (run State.init (negotiation plainOption ++
      [.command (.helo [104]) false true, .flushed true, .handlerReturns true, .reply .cont true,
       .handlerReturns true, .command .data false true])).2.map (·.out) =
    [[.ret true], [.emit .ready], [], [.wrote (.negotiate plainOption), .ret true],
      [.emit (.stateTransited .negotiate)], [], [.emit (.reply (.negotiate plainOption none))], [],
      [.wrote (.helo [104]), .ret true], [.emit (.stateTransited .helo)], [], [.emit (.reply .cont)], [],
      [.wrote .data, .ret true]] := by rfl

/-! ## C33 -/

namespace ServerLemmas

/-- no reply is reported -/
def Silent (out : List Item) : Prop := ∀ r, Item.emit (.reply r) ∉ out

theorem Silent.append {a b : List Item} (ha : Silent a) (hb : Silent b) : Silent (a ++ b) := by
  intro r h
  rcases List.mem_append.1 h with h | h
  · exact ha r h
  · exact hb r h

theorem writePacket_silent (s : State) (c : Cmd) (n : St) (ok : Bool) :
    Silent (writePacket s c n ok).1.out ∧ (writePacket s c n ok).1.st.quitted = s.quitted := by
  unfold writePacket
  split
  · exact ⟨fun r h => by simp [pause] at h, rfl⟩
  · cases ok
    · refine ⟨fun r h => by simp [pause] at h, ?_⟩
      simp only [Bool.false_eq_true, if_false, pause]
      split <;> rfl
    · refine ⟨fun r h => by simp [go] at h, ?_⟩
      simp only [if_true, go]
      split <;> rfl

theorem flushBody_silent (s : State) (ok : Bool) :
    Silent (flushBody s ok).1.out ∧ (flushBody s ok).1.st.quitted = s.quitted := by
  unfold flushBody
  have h := writePacket_silent (appendBodyQueue s)
    (.body ((appendBodyQueue s).body.take (Enc.bodyPackedSize (appendBodyQueue s).body))) .body ok
  simp only
  generalize writePacket (appendBodyQueue s)
    (.body ((appendBodyQueue s).body.take (Enc.bodyPackedSize (appendBodyQueue s).body))) .body ok
    = r at h
  obtain ⟨r, b⟩ := r
  cases b
  · exact h
  · refine ⟨h.1, ?_⟩
    simp only [incrementBodyQueue]
    split <;> exact h.2

theorem enter_silent (s : State) (n : St) (ok : Bool) :
    Silent (enter s n ok).out ∧ (enter s n ok).st.quitted = s.quitted := by
  have hn : ∀ s : State, Silent (go s).out := fun s r h => by simp [go] at h
  have hu : ∀ s : State, Silent (go s [.ub]).out := fun s r h => by simp [go] at h
  cases n <;> simp only [enter]
  case body =>
    split
    · exact ⟨hn _, rfl⟩
    · split
      · exact ⟨hu _, rfl⟩
      · exact ⟨hn _, rfl⟩
      · exact flushBody_silent _ _
  case endOfMessage => refine ⟨hn _, ?_⟩; split <;> rfl
  case quit => exact ⟨fun r h => by simp [go] at h, rfl⟩
  all_goals
    simp only [if_true, if_false, reduceCtorEq]
    split
    · exact ⟨hu _, rfl⟩
    · exact ⟨hn _, rfl⟩
    · exact ⟨hn _, rfl⟩

theorem act_silent (s : State) (a : Action) (ok : Bool) :
    Silent (act s ok a).out ∧ (act s ok a).st.quitted = s.quitted := by
  have hn : ∀ s : State, Silent (go s).out := fun s r h => by simp [go] at h
  cases a <;> simp only [act]
  case enter n => exact enter_silent s n ok
  case abortFlushed =>
    refine ⟨hn _, ?_⟩
    simp only [go, abortFlushed, setState]
    split
    · split <;> rfl
    · rfl
  case processed c =>
    split
    · split
      · exact ⟨fun r h => by simp [pause] at h, rfl⟩
      · exact ⟨hn _, rfl⟩
    · exact ⟨hn _, rfl⟩
  case flushRest =>
    split
    · exact flushBody_silent s ok
    · exact ⟨hn _, rfl⟩
  case clearIfBody =>
    refine ⟨hn _, ?_⟩
    simp only [go, clearBody]
    split
    · split <;> rfl
    · rfl
  case clearBody =>
    refine ⟨hn _, ?_⟩
    simp only [go, clearBody]
    split <;> rfl
  case enterIfSent =>
    refine ⟨hn _, ?_⟩
    simp only [go]
    split <;> rfl
  case invalidNext => exact ⟨fun r h => by simp [pause] at h, rfl⟩
  case transited => exact ⟨fun r h => by simp [pause] at h, rfl⟩
  case shutdownAgent => exact ⟨fun r h => by simp [go] at h, rfl⟩
  all_goals exact ⟨hn _, rfl⟩

theorem exec_silent (l : List Action) (s : State) (ok : Bool) :
    Silent (exec s ok l).2 ∧ (exec s ok l).1.quitted = s.quitted := by
  induction l generalizing s with
  | nil => exact ⟨fun r h => by simp [exec] at h, rfl⟩
  | cons a l ih =>
    have h := act_silent s a ok
    simp only [exec]
    split
    · exact h
    · exact ⟨h.1.append (ih _).1, (ih _).2.trans h.2⟩

theorem refuse_silent (s : State) (st : Status) :
    Silent (refuse s st).2 ∧ (refuse s st).1.quitted = s.quitted ∧ (refuse s st).1.state = s.state := by
  constructor
  · rcases (refuse_same s st).2.2 with h | h <;> rw [h] <;> intro r hr <;> simp at hr
  · unfold refuse
    split
    · unfold refuseRecipient
      have h1 : (ensureResult { s with rcptStatus := st }).quitted = s.quitted := rfl
      have h2 : (ensureResult { s with rcptStatus := st }).state = s.state := rfl
      simp only
      generalize ensureResult { s with rcptStatus := st } = S at h1 h2
      cases S.result with
      | none => exact ⟨h1, h2⟩
      | some r =>
        simp only
        split
        · exact ⟨h1, h2⟩
        · exact ⟨h1, h2⟩
    · exact ⟨rfl, rfl⟩

theorem report_quitted (s : State) (r : Reply) (rest : List Action) (h : s.quitted = true) :
    report s r rest = (s, []) := by simp [report, h]

theorem invalidState_silent (s : State) :
    Silent (invalidState s).2 ∧ (invalidState s).1.quitted = s.quitted :=
  ⟨fun r h => by simp [invalidState, andThen, pause] at h, rfl⟩

theorem modification_quitted (s : State) (r : Reply) (rest : List Action) (h : s.quitted = true) :
    Silent (modification s r rest).2 ∧ (modification s r rest).1.quitted = true := by
  unfold modification
  split
  · rw [report_quitted _ _ _ h]; exact ⟨fun r h => by simp at h, h⟩
  · exact ⟨(invalidState_silent s).1, h⟩

theorem reply_quitted (s : State) (r : Reply) (ok : Bool) (h : s.quitted = true) :
    Silent (reply s r ok).2 ∧ (reply s r ok).1.quitted = true := by
  have hnil : Silent [] := fun r h => by simp at h
  cases r <;> simp only [reply]
  case negotiate o m =>
    cases s.option with
    | none =>
      simp only [Bool.not_true, Bool.false_eq_true, if_false, h, if_true]
      split
      · exact ⟨hnil, by simp⟩
      · exact ⟨(invalidState_silent _).1, rfl⟩
    | some mine =>
      simp only [h, if_true]
      split
      · exact ⟨fun r h => by simp [andThen, pause] at h, rfl⟩
      · split
        · exact ⟨hnil, by simp⟩
        · exact ⟨(invalidState_silent _).1, rfl⟩
  case cont =>
    simp only [h, if_true]
    split
    · exact ⟨hnil, by simp⟩
    · split
      · rw [report_quitted]
        · exact ⟨hnil, by simp⟩
        · rfl
      · exact ⟨(invalidState_silent _).1, rfl⟩
  case replyCode code e m =>
    have hr := refuse_silent s (codeStatus code)
    split
    · rw [report_quitted]
      · refine ⟨hr.1.append hnil, ?_⟩
        split
        · rename_i hx; simp [hr.2.1, h] at hx
        · exact hr.2.1.trans h
      · split
        · rename_i hx; simp [hr.2.1, h] at hx
        · exact hr.2.1.trans h
    · exact ⟨hr.1.append (invalidState_silent _).1, hr.2.1.trans h⟩
  case temporaryFailure =>
    have hr := refuse_silent s .temporaryFailure
    rw [report_quitted _ _ _ (by exact hr.2.1.trans h)]
    exact ⟨hr.1.append hnil, hr.2.1.trans h⟩
  case reject =>
    have hr := refuse_silent s .reject
    rw [report_quitted _ _ _ (by exact hr.2.1.trans h)]
    exact ⟨hr.1.append hnil, hr.2.1.trans h⟩
  case progress =>
    simp only [h, Bool.true_eq_false, and_false, if_false]
    exact modification_quitted _ _ _ h
  case skip =>
    split
    · rw [report_quitted _ _ _ (by exact h)]; exact ⟨hnil, h⟩
    · exact ⟨(invalidState_silent _).1, h⟩
  case accept => rw [report_quitted _ _ _ (by exact h)]; exact ⟨hnil, h⟩
  case discard => rw [report_quitted _ _ _ (by exact h)]; exact ⟨hnil, h⟩
  case connectionFailure => rw [report_quitted _ _ _ (by exact h)]; exact ⟨hnil, h⟩
  case shutdown => rw [report_quitted _ _ _ (by exact h)]; exact ⟨hnil, h⟩
  all_goals exact modification_quitted _ _ _ (by exact h)

theorem returning_quitted (o : Out × Bool) (rest : List Action) :
    (returning o rest).1.quitted = o.1.st.quitted := by
  simp only [returning, andThen]
  split
  · rfl
  · exact (exec_silent _ _ _).2

theorem command_quitted (s : State) (c : Cmd) (stop ok : Bool) (h : s.quitted = true) :
    (command s c stop ok).1.quitted = true := by
  have hw : ∀ (s : State) c n rest, s.quitted = true →
      (returning (writePacket s c n ok) rest).1.quitted = true := by
    intro s c n rest h
    rw [returning_quitted, (writePacket_silent ..).2]; exact h
  have hs : ∀ (s : State) n, s.quitted = true → (stopOn s n).1.quitted = true := by
    intro s n h; unfold stopOn; rw [returning_quitted]; exact h
  have ha : ∀ (s : State) n r, s.quitted = true → (answer s n r).1.quitted = true := by
    intro s n r h; unfold answer; rw [returning_quitted]; exact h
  have hi : ∀ (c : Prop) [Decidable c] (a b : State × List Item), a.1.quitted = true →
      b.1.quitted = true → (if c then a else b).1.quitted = true := by
    intro c _ a b ha hb; split <;> assumption
  cases c <;> simp only [command, ensureResult]
  case negotiate => exact hw _ _ _ _ h
  case defineMacro => exact h
  case quit => exact hw _ _ _ _ rfl
  case abort => exact hw _ _ _ _ h
  case data =>
    refine hi _ _ _ (hs _ _ h) ?_
    split
    · exact h
    · exact hi _ _ _ (ha _ _ _ h) (hw _ _ _ _ h)
  case body =>
    refine hi _ _ _ (hs _ _ h) (hi _ _ _ (ha _ _ _ h) ?_)
    rw [returning_quitted, (flushBody_silent ..).2]; exact h
  case endOfMessage => exact hi _ _ _ (hs _ _ h) (hw _ _ _ _ h)
  case unknown => exact hi _ _ _ (ha _ _ _ h) (hw _ _ _ _ h)
  all_goals exact hi _ _ _ (hs _ _ h) (hi _ _ _ (ha _ _ _ h) (hw _ _ _ _ h))

theorem step_quitted (s : State) (e : Event) (h : s.quitted = true) (hq : e ≠ .setQuitted false) :
    (step s e).1.quitted = true ∧ (ownInitiative e = true → Silent (step s e).2) := by
  have hnil : Silent [] := fun r h => by simp at h
  cases e with
  | command c stop ok =>
    exact ⟨command_quitted s c stop ok h, fun he => by simp [ownInitiative] at he⟩
  | reply r ok => exact ⟨(reply_quitted s r ok h).2, fun _ => (reply_quitted s r ok h).1⟩
  | flushed ok => exact ⟨(exec_silent _ _ _).2.trans h, fun _ => (exec_silent _ _ _).1⟩
  | handlerReturns ok =>
    simp only [step]
    split
    · exact ⟨h, fun _ => hnil⟩
    · exact ⟨(exec_silent _ _ _).2.trans h, fun _ => (exec_silent _ _ _).1⟩
  | timeout =>
    simp only [step, timeout]
    split <;> exact ⟨h, fun _ r hr => by simp [andThen, pause] at hr⟩
  | establish ok => exact ⟨h, fun _ r hr => by simp [step] at hr⟩
  | connected ok =>
    refine ⟨h, fun _ r hr => ?_⟩
    cases ok <;> simp [step, andThen, pause] at hr
  | setStatus => exact ⟨h, fun _ => hnil⟩
  | setState => exact ⟨h, fun _ => hnil⟩
  | setProcessingMessage => exact ⟨h, fun _ => hnil⟩
  | setQuitted b =>
    cases b
    · exact absurd rfl hq
    · exact ⟨rfl, fun _ => hnil⟩

theorem run_quitted (es : List Event) (s : State) (h : s.quitted = true)
    (hq : ∀ e ∈ es, e ≠ .setQuitted false) :
    ∀ l ∈ (run s es).2, ownInitiative l.event = true → Silent l.out := by
  induction es generalizing s with
  | nil => intro l hl; simp [run] at hl
  | cons e es ih =>
    intro l hl
    simp only [run] at hl
    have hs := step_quitted s e h (hq e (by simp))
    rcases List.mem_cons.1 hl with rfl | hl
    · exact hs.2
    · exact ih (step s e).1 hs.1 (fun e he => hq e (by simp [he])) l hl

end ServerLemmas

/-- C33: after quit was called (and unless the quitted mark is taken away again), whatever
happens - replies of any kind in any order, timeouts, flushes, nested handlers - nothing but the
call of a command function can make the context report a reply. -/
theorem C33 (es1 es2 : List Event) (stop ok : Bool) (hq : ∀ e ∈ es2, e ≠ .setQuitted false) :
    ∀ l ∈ (run (step (run State.init es1).1 (.command .quit stop ok)).1 es2).2,
      ownInitiative l.event = true → ∀ r, Item.emit (.reply r) ∉ l.out := by
  refine run_quitted es2 _ ?_ hq
  simp only [step, command]
  rw [returning_quitted, (writePacket_silent ..).2]

/-- C33 is about replies that would otherwise be reported -/
example : (run (run State.init (negotiation plainOption)).1
      [.command (.helo [104]) false true, .flushed true, .handlerReturns true, .reply .reject true]).2.map (·.out) =
      [[.wrote (.helo [104]), .ret true], [.emit (.stateTransited .helo)], [], [.emit (.reply .reject)]] ∧
    (run (run State.init (negotiation plainOption)).1
      [.command (.helo [104]) false true, .flushed true, .handlerReturns true,
        .command .quit false true, .reply .reject true]).2.map (·.out) =
      [[.wrote (.helo [104]), .ret true], [.emit (.stateTransited .helo)], [],
        [.wrote .quit, .ret true], []] := by
  constructor <;> rfl

/-! ## C34 -/

namespace ServerLemmas

theorem answerable_iff (st : St) : answerable st = true ↔ Allowed st .cont := by
  cases st <;> simp [answerable, Allowed]

theorem answerable_iff_code (st : St) (c e m) : answerable st = true ↔ Allowed st (.replyCode c e m) := by
  cases st <;> simp [answerable, Allowed]

theorem mem_report {s : State} {r x : Reply} {rest : List Action}
    (h : Item.emit (.reply x) ∈ (report s r rest).2) : x = r ∧ s.quitted = false := by
  unfold report at h
  split at h
  · simp at h
  · rename_i hq
    simp [andThen, pause] at h
    exact ⟨h, by simpa using hq⟩

theorem mem_modification {s : State} {r x : Reply} {rest : List Action}
    (h : Item.emit (.reply x) ∈ (modification s r rest).2) :
    x = r ∧ s.state = .endOfMessage ∧ s.quitted = false := by
  unfold modification at h
  split at h
  · rename_i hs
    exact ⟨(mem_report h).1, hs, (mem_report h).2⟩
  · exact absurd h ((invalidState_silent s).1 x)

end ServerLemmas

/-- C34, no report out of place: in whatever state the context is, a reply of the milter leads
to no report of any other reply, and is itself reported only if the state allows it and quit was
not sent. -/
theorem C34_only_allowed (s : State) (r x : Reply) (ok : Bool)
    (h : Item.emit (.reply x) ∈ (step s (.reply r ok)).2) :
    x = r ∧ Allowed s.state r ∧ s.quitted = false := by
  cases r <;> simp only [step, reply] at h
  case negotiate o m =>
    have key : ∀ s' : State, s'.state = s.state → s'.quitted = s.quitted →
        Item.emit (.reply x) ∈ (if s'.state = .negotiate then
          (if s'.quitted then (s', []) else report { s' with negotiated := true } (.negotiate o m) [])
          else invalidState s').2 → x = .negotiate o m ∧ Allowed s.state (.negotiate o m) ∧ s.quitted = false := by
      intro s' h1 h2 h
      split at h
      · rename_i hs
        split at h
        · simp at h
        · exact ⟨(mem_report h).1, h1 ▸ hs, h2 ▸ (mem_report h).2⟩
      · exact absurd h ((invalidState_silent _).1 x)
    cases ho : s.option with
    | none =>
      simp only [ho, Bool.not_true, Bool.false_eq_true, if_false] at h
      exact key { s with timer := none, option := some o } rfl rfl h
    | some mine =>
      simp only [ho] at h
      split at h
      · simp [andThen, pause] at h
      · exact key { s with timer := none, option := some (mine.combine o).2 } rfl rfl h
  case cont =>
    split at h
    · rename_i hs
      split at h
      · simp at h
      · rename_i hq
        refine ⟨?_, by simp [Allowed, hs], by simpa using hq⟩
        unfold continueBody at h
        split at h
        · exact absurd h ((exec_silent _ _ _).1 x)
        · simp only at h
          split at h
          · simpa [andThen, pause] using h
          · exact absurd h ((exec_silent _ _ _).1 x)
    · split at h
      · rename_i hs
        exact ⟨(mem_report h).1, (answerable_iff _).1 hs, (mem_report h).2⟩
      · exact absurd h ((invalidState_silent _).1 x)
  case replyCode code e m =>
    have hr := refuse_silent s (codeStatus code)
    rcases List.mem_append.1 h with h | h
    · exact absurd h (hr.1 x)
    · split at h
      · rename_i hs
        rw [hr.2.2] at hs
        have h2 := mem_report h
        refine ⟨h2.1, (answerable_iff_code _ _ _ _).1 hs, ?_⟩
        rw [← hr.2.1]
        have := h2.2
        revert this
        split
        · intro this; rename_i hx; exact hx.2
        · exact id
      · exact absurd h ((invalidState_silent _).1 x)
  case temporaryFailure =>
    have hr := refuse_silent s .temporaryFailure
    rcases List.mem_append.1 h with h | h
    · exact absurd h (hr.1 x)
    · exact ⟨(mem_report h).1, trivial, hr.2.1 ▸ (mem_report h).2⟩
  case reject =>
    have hr := refuse_silent s .reject
    rcases List.mem_append.1 h with h | h
    · exact absurd h (hr.1 x)
    · exact ⟨(mem_report h).1, trivial, hr.2.1 ▸ (mem_report h).2⟩
  case progress =>
    split at h
    · rename_i hs; exact ⟨(mem_report h).1, hs.1, hs.2⟩
    · exact mem_modification h
  case skip =>
    split at h
    · rename_i hs; exact ⟨(mem_report h).1, hs, (mem_report h).2⟩
    · exact absurd h ((invalidState_silent _).1 x)
  case accept => exact ⟨(mem_report h).1, trivial, (mem_report h).2⟩
  case discard => exact ⟨(mem_report h).1, trivial, (mem_report h).2⟩
  case connectionFailure => exact ⟨(mem_report h).1, trivial, (mem_report h).2⟩
  case shutdown => exact ⟨(mem_report h).1, trivial, (mem_report h).2⟩
  case quarantine q => exact mem_modification (s := { s with status := .quarantine }) h
  all_goals exact mem_modification h

/-- C34, the error: a reply that the state does not allow yields exactly one invalid-state
error - the only other outcome being the version error for a negotiation reply of a newer
version. -/
theorem C34_error (s : State) (r : Reply) (ok : Bool) (h : ¬Allowed s.state r) :
    (step s (.reply r ok)).2 = [.emit (.error .invalidState)] ∨
      ∃ o m, r = .negotiate o m ∧ (step s (.reply r ok)).2 = [.emit (.error .newerVersion)] := by
  have hm : ∀ (s : State) r rest, s.state ≠ .endOfMessage →
      (modification s r rest).2 = [.emit (.error .invalidState)] := by
    intro s r rest hs
    simp [modification, hs, invalidState, andThen, pause]
  cases r
  case negotiate o m =>
    simp only [Allowed] at h
    simp only [step, reply]
    cases ho : s.option with
    | none => left; simp only [Bool.not_true, Bool.false_eq_true, if_false, h]; rfl
    | some mine =>
      simp only
      split
      · right; exact ⟨o, m, rfl, rfl⟩
      · left; simp [invalidState, andThen, pause]
  case cont =>
    left
    have h1 : ¬answerable s.state = true := fun hx => h ((answerable_iff _).1 hx)
    have h2 : s.state ≠ .body := fun hx => by rw [hx] at h1; exact h1 rfl
    simp [step, reply, h1, h2, invalidState, andThen, pause]
  case replyCode code e m =>
    left
    have h1 : ¬answerable s.state = true := fun hx => h ((answerable_iff_code _ _ _ _).1 hx)
    have h2 : s.state ≠ .envelopeRecipient := fun hx => by rw [hx] at h1; exact h1 rfl
    have hr := refuse_silent s (codeStatus code)
    simp [step, reply, h1, refuse, h2, invalidState, andThen, pause]
  case skip =>
    left
    simp only [Allowed] at h
    simp [step, reply, h, invalidState, andThen, pause]
  case progress =>
    left
    simp only [Allowed] at h
    simp only [step, reply, h, false_and, if_false]
    exact hm _ _ _ h
  case temporaryFailure => exact absurd trivial h
  case reject => exact absurd trivial h
  case accept => exact absurd trivial h
  case discard => exact absurd trivial h
  case connectionFailure => exact absurd trivial h
  case shutdown => exact absurd trivial h
  all_goals
    left
    simp only [Allowed] at h
    exact hm _ _ _ h

/-- C34, nothing lost: an allowed reply is reported unless quit was sent; a negotiation reply may
fail on its version instead, and in the body state a continue is reported when it is the last
one awaited for the oldest body command. -/
theorem C34_reported (s : State) (r : Reply) (ok : Bool) (h : Allowed s.state r)
    (hq : s.quitted = false)
    (hb : r = .cont → s.state = .body → s.bodyQueue.head? = some 1) :
    Item.emit (.reply r) ∈ (step s (.reply r ok)).2 ∨
      ∃ o m, r = .negotiate o m ∧ (step s (.reply r ok)).2 = [.emit (.error .newerVersion)] := by
  have hm : ∀ (s : State) r rest, s.state = .endOfMessage → s.quitted = false →
      Item.emit (.reply r) ∈ (modification s r rest).2 := by
    intro s r rest hs hq
    simp [modification, hs, report, hq, andThen, pause]
  have hrep : ∀ (s : State) r rest, s.quitted = false → Item.emit (.reply r) ∈ (report s r rest).2 := by
    intro s r rest hq
    simp [report, hq, andThen, pause]
  cases r
  case negotiate o m =>
    simp only [Allowed] at h
    simp only [step, reply]
    cases ho : s.option with
    | none =>
      left
      simp only [Bool.not_true, Bool.false_eq_true, if_false, h, if_true, hq]
      exact hrep _ _ _ rfl
    | some mine =>
      simp only
      split
      · right; exact ⟨o, m, rfl, rfl⟩
      · left
        simp only [Bool.false_eq_true, if_false, h, hq]
        exact hrep _ _ _ rfl
  case cont =>
    left
    simp only [step, reply]
    split
    · rename_i hs
      have hb := hb rfl hs
      cases hbq : s.bodyQueue with
      | nil => simp [hbq] at hb
      | cons n q =>
        simp only [hbq, List.head?_cons, Option.some.injEq] at hb
        subst hb
        simp [hq, continueBody, andThen, pause]
    · rw [if_pos ((answerable_iff _).2 h)]
      exact hrep _ _ _ hq
  case replyCode code e m =>
    left
    have hr := refuse_silent s (codeStatus code)
    simp only [step, reply]
    rw [if_pos (by rw [hr.2.2]; exact (answerable_iff_code _ _ _ _).2 h)]
    refine List.mem_append_right _ (hrep _ _ _ ?_)
    split
    · simp only [clearBody]; split <;> exact hr.2.1.trans hq
    · exact hr.2.1.trans hq
  case temporaryFailure =>
    left
    exact List.mem_append_right _ (hrep _ _ _ ((refuse_silent s .temporaryFailure).2.1.trans hq))
  case reject =>
    left
    exact List.mem_append_right _ (hrep _ _ _ ((refuse_silent s .reject).2.1.trans hq))
  case accept => left; exact hrep _ _ _ hq
  case discard => left; exact hrep _ _ _ hq
  case connectionFailure => left; exact hrep _ _ _ hq
  case shutdown => left; exact hrep _ _ _ hq
  case progress =>
    left
    simp only [Allowed] at h
    simp only [step, reply, h, hq, true_and, if_true]
    exact hrep _ _ _ rfl
  case skip =>
    left
    simp only [Allowed] at h
    simp only [step, reply, h, if_true]
    exact hrep _ _ _ hq
  all_goals
    left
    exact hm _ _ _ h hq

/-- an allowed and a refused modification -/
example : (step (run State.init (negotiation plainOption ++
      [.command (.endOfMessage []) false true, .flushed true, .handlerReturns true])).1
        (.reply (.addHeader [88] [89]) true)).2 = [.emit (.reply (.addHeader [88] [89]))] ∧
    (step (run State.init (negotiation plainOption)).1 (.reply (.addHeader [88] [89]) true)).2 =
      [.emit (.error .invalidState)] := by
  constructor <;> rfl

end Verif.Props
