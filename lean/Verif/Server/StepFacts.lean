import Verif.Server.Context
/-
What a step of a server context (`Server/Context.lean`) can put out: at most one signal, packets
only for the command called or a rest of a body, and reply signals only for the reply received or
on behalf of a milter that declined a command.
-/
namespace Verif.Server
open Verif

def isEmit : Item → Bool
  | .emit _ => true
  | _ => false

/-- the states a stop-on-* signal belongs to -/
def stopState : St → Bool
  | .connect | .helo | .envelopeFrom | .envelopeRecipient | .data | .header | .endOfHeader
  | .body | .endOfMessage => true
  | _ => false

/-- a signal that is neither a reply nor "stopped" -/
def plainSignal : Signal → Bool
  | .reply _ | .stopped => false
  | _ => true

/-- at most one signal, nothing written but bodies, the signal neither a reply nor "stopped" -/
structure Tame (out : List Item) : Prop where
  one : (out.filter isEmit).length ≤ 1
  body : ∀ c, Item.wrote c ∈ out → ∃ b, c = .body b
  plain : ∀ sig, Item.emit sig ∈ out → plainSignal sig = true

theorem Tame.nil : Tame [] := ⟨by simp, by simp, by simp⟩

theorem Tame.emit {sig : Signal} (h : plainSignal sig = true) : Tame [.emit sig] :=
  ⟨Nat.le_refl 1, by simp, by simpa using h⟩

theorem Tame.append {a b : List Item} (ha : ∀ x ∈ a, isEmit x = false)
    (hw : ∀ c, Item.wrote c ∈ a → ∃ b, c = .body b) (hb : Tame b) : Tame (a ++ b) := by
  refine ⟨?_, ?_, ?_⟩
  · rw [List.filter_append, List.filter_eq_nil_iff.mpr (by simpa using ha)]
    simpa using hb.one
  · intro c hc
    rcases List.mem_append.mp hc with h | h
    · exact hw c h
    · exact hb.body c h
  · intro sig hs
    rcases List.mem_append.mp hs with h | h
    · have := ha _ h; simp [isEmit] at this
    · exact hb.plain sig h

/-- what an action puts out -/
structure TameOut (o : Out) : Prop where
  tame : Tame o.out
  go : o.paused = false → ∀ x ∈ o.out, isEmit x = false

theorem writePacket_facts (s : State) (c : Cmd) (n : St) (ok : Bool) :
    let o := writePacket s c n ok
    (o.1.out = [.wrote c] ∧ o.1.paused = false ∧ o.2 = true) ∨
    (∃ e, o.1.out = [.emit (.error e)] ∧ o.1.paused = true ∧ o.2 = false) := by
  simp only [writePacket]
  split
  · right; exact ⟨.busy, rfl, rfl, rfl⟩
  · split
    · left; exact ⟨rfl, rfl, rfl⟩
    · right; exact ⟨.ioError, rfl, rfl, rfl⟩

theorem flushBody_facts (s : State) (ok : Bool) :
    let o := flushBody s ok
    ((∃ b, o.1.out = [.wrote (.body b)]) ∧ o.1.paused = false ∧ o.2 = true) ∨
    (∃ e, o.1.out = [.emit (.error e)] ∧ o.1.paused = true ∧ o.2 = false) := by
  have h := writePacket_facts (appendBodyQueue s)
    (.body ((appendBodyQueue s).body.take (Enc.bodyPackedSize (appendBodyQueue s).body))) .body ok
  simp only [flushBody]
  revert h
  cases writePacket (appendBodyQueue s)
    (.body ((appendBodyQueue s).body.take (Enc.bodyPackedSize (appendBodyQueue s).body))) .body ok with
  | mk o b =>
    intro h
    rcases h with ⟨h1, h2, h3⟩ | ⟨e, h1, h2, h3⟩
    · left
      simp only at h1 h2 h3
      subst h3
      exact ⟨⟨_, h1⟩, h2, rfl⟩
    · right
      simp only at h1 h2 h3
      subst h3
      exact ⟨e, h1, h2, rfl⟩

theorem flushBody_tame (s : State) (ok : Bool) : TameOut (flushBody s ok).1 := by
  rcases flushBody_facts s ok with ⟨⟨b, h1⟩, h2, _⟩ | ⟨e, h1, h2, _⟩
  · refine ⟨?_, ?_⟩
    · rw [h1]; exact ⟨by simp [isEmit], by simp, by simp⟩
    · intro _; rw [h1]; simp [isEmit]
  · refine ⟨?_, ?_⟩
    · rw [h1]; exact Tame.emit rfl
    · intro h; rw [h2] at h; cases h

theorem go_tame (s : State) : TameOut (go s) := ⟨Tame.nil, by simp [go]⟩

theorem goItem_tame (s : State) (i : Item) (h : isEmit i = false) (hw : ∀ c, i ≠ .wrote c) :
    TameOut (go s [i]) := by
  refine ⟨⟨?_, ?_, ?_⟩, ?_⟩
  · simp [go, h]
  · intro c hc; simp [go] at hc; exact absurd hc.symm (hw c)
  · intro sig hs; simp [go] at hs; subst hs; simp [isEmit] at h
  · intro _ x hx; simp [go] at hx; subst hx; exact h

theorem pause_tame (s : State) (sig : Signal) (after : List Action) (h : plainSignal sig = true) :
    TameOut (pause s [.emit sig] after) := ⟨Tame.emit h, by simp [pause]⟩

theorem enter_tame (s : State) (n : St) (ok : Bool) : TameOut (enter s n ok) := by
  have hub := fun s => goItem_tame s .ub rfl (by simp)
  have hsh := fun s => goItem_tame s .shutdown rfl (by simp)
  have hother : ∀ (n' : St) (s' : State), TameOut
      (match needReply s'.option n' with
      | none => go s' [.ub]
      | some true => go { s' with timer := some .reading }
      | some false => go s') := by
    intro n' s'
    split
    · exact hub _
    · exact go_tame _
    · exact go_tame _
  cases n <;> simp only [enter]
  case body =>
    split
    · exact go_tame _
    · split
      · exact hub _
      · exact go_tame _
      · exact flushBody_tame _ _
  case endOfMessage => exact go_tame _
  case quit => exact hsh _
  all_goals exact hother _ _

theorem act_tame (s : State) (a : Action) (ok : Bool) : TameOut (act s ok a) := by
  cases a <;> simp only [act]
  case enter n => exact enter_tame s n ok
  case invalidNext => exact pause_tame _ _ _ rfl
  case transited n => exact pause_tame _ _ _ rfl
  case processed c =>
    split
    · split
      · exact pause_tame _ _ _ rfl
      · exact go_tame _
    · exact go_tame _
  case flushRest =>
    split
    · exact flushBody_tame _ _
    · exact go_tame _
  case shutdownAgent => exact goItem_tame _ _ rfl (by simp)
  all_goals exact go_tame _

theorem exec_tame (l : List Action) (s : State) (ok : Bool) : Tame (exec s ok l).2 := by
  induction l generalizing s with
  | nil => exact Tame.nil
  | cons a l ih =>
    have h := act_tame s a ok
    simp only [exec]
    cases hp : (act s ok a).paused with
    | true => simp only [if_true]; exact h.tame
    | false =>
      simp only [Bool.false_eq_true, if_false]
      exact Tame.append (h.go hp) h.tame.body (ih _)

theorem andThen_tame (o : Out) (rest : List Action) (ok : Bool) (h : TameOut o) :
    Tame (andThen ok o rest).2 := by
  simp only [andThen]
  cases hp : o.paused with
  | true => simp only [if_true]; exact h.tame
  | false =>
    simp only [Bool.false_eq_true, if_false]
    exact Tame.append (h.go hp) h.tame.body (exec_tame _ _ _)

/-- what a step puts out; `s'` is the state it leaves -/
structure Facts (e : Event) (s' : State) (out : List Item) : Prop where
  one : (out.filter isEmit).length ≤ 1
  wrote : ∀ c, Item.wrote c ∈ out → (∃ b, c = .body b) ∨ ∃ stop ok, e = .command c stop ok
  reply : ∀ r, Item.emit (.reply r) ∈ out → r = .cont ∨ r = .skip ∨ ∃ ok, e = .reply r ok
  stopped : Item.emit .stopped ∈ out → stopState s'.state = true

theorem Facts.tame {e : Event} {s' : State} {out : List Item} (h : Tame out) : Facts e s' out :=
  ⟨h.one, fun c hc => .inl (h.body c hc),
    fun r hr => by have := h.plain _ hr; simp [plainSignal] at this,
    fun hr => by have := h.plain _ hr; simp [plainSignal] at this⟩

theorem Facts.ite {e : Event} {p : Prop} [Decidable p] {a b : State × List Item}
    (ha : p → Facts e a.1 a.2) (hb : ¬p → Facts e b.1 b.2) :
    Facts e (if p then a else b).1 (if p then a else b).2 := by
  split
  · exact ha ‹_›
  · exact hb ‹_›

theorem Facts.ret {e : Event} {s' : State} {out : List Item} {b : Bool} (h : Facts e s' out) :
    Facts e s' (out ++ [.ret b]) := by
  refine ⟨?_, ?_, ?_, ?_⟩
  · rw [List.filter_append]; simpa [isEmit] using h.one
  · intro c hc; exact h.wrote c (by simpa using hc)
  · intro c hc; exact h.reply c (by simpa using hc)
  · intro hc; exact h.stopped (by simpa using hc)

theorem Facts.ub {e : Event} {s' : State} {out : List Item} (pre : List Item) (hp : ∀ x ∈ pre, x = .ub)
    (h : Facts e s' out) : Facts e s' (pre ++ out) := by
  have hf : ∀ x, x ∈ pre ++ out → x = .ub ∨ x ∈ out := fun x hx => by
    rcases List.mem_append.mp hx with h | h
    · exact .inl (hp x h)
    · exact .inr h
  refine ⟨?_, ?_, ?_, ?_⟩
  · rw [List.filter_append, List.filter_eq_nil_iff.mpr (fun x hx => by rw [hp x hx]; simp [isEmit])]
    simpa using h.one
  · intro c hc; exact h.wrote c ((hf _ hc).resolve_left (by simp))
  · intro c hc; exact h.reply c ((hf _ hc).resolve_left (by simp))
  · intro hc; exact h.stopped ((hf _ hc).resolve_left (by simp))

theorem exec_notProcessing (s : State) : exec s true [.notProcessing] = ({ s with processingMessage := false }, []) :=
  rfl

theorem returning_write_facts (s : State) (c : Cmd) (n : St) (ok stop ok' : Bool) (rest : List Action) :
    Facts (.command c stop ok') (returning (writePacket s c n ok) rest).1
      (returning (writePacket s c n ok) rest).2 := by
  simp only [returning]
  apply Facts.ret
  rcases writePacket_facts s c n ok with ⟨h1, h2, _⟩ | ⟨e, h1, h2, _⟩
  · simp only [andThen, h2, Bool.false_eq_true, if_false, h1]
    have ht := exec_tame rest (writePacket s c n ok).1.st true
    refine ⟨?_, ?_, ?_, ?_⟩
    · simpa [isEmit] using ht.one
    · intro c' hc
      have hc' : c' = c ∨ Item.wrote c' ∈ (exec (writePacket s c n ok).1.st true rest).2 := by simpa using hc
      rcases hc' with h | h
      · cases h; exact .inr ⟨_, _, rfl⟩
      · exact .inl (ht.body _ h)
    · intro r hr
      have := ht.plain _ (by simpa using hr)
      simp [plainSignal] at this
    · intro hr
      have := ht.plain _ (by simpa using hr)
      simp [plainSignal] at this
  · simp only [andThen, h2, if_true, h1]
    exact Facts.tame (Tame.emit rfl)

theorem stopOn_facts (s : State) (n : St) (e : Event) (hn : stopState n = true) :
    Facts e (stopOn s n).1 (stopOn s n).2 := by
  refine ⟨?_, ?_, ?_, ?_⟩
  · exact Nat.le_refl 1
  · intro c hc; simp [stopOn, returning, andThen, pause] at hc
  · intro c hc; simp [stopOn, returning, andThen, pause] at hc
  · intro _; simpa [stopOn, returning, andThen, pause, setState] using hn

theorem answer_facts (s : State) (n : St) (r : Reply) (e : Event) (hr : r = .cont ∨ r = .skip) :
    Facts e (answer s n r).1 (answer s n r).2 := by
  refine ⟨?_, ?_, ?_, ?_⟩
  · exact Nat.le_refl 1
  · intro c hc; simp [answer, returning, andThen, pause] at hc
  · intro x hc
    simp [answer, returning, andThen, pause] at hc
    subst hc; rcases hr with h | h
    · exact .inl h
    · exact .inr (.inl h)
  · intro hc; simp [answer, returning, andThen, pause] at hc

theorem returning_flush_facts (s : State) (ok : Bool) (e : Event) :
    Facts e (returning (flushBody s ok)).1 (returning (flushBody s ok)).2 := by
  simp only [returning]
  apply Facts.ret
  exact Facts.tame (andThen_tame _ _ _ (flushBody_tame s ok))

theorem command_facts (s : State) (c : Cmd) (stop ok : Bool) :
    Facts (.command c stop ok) (command s c stop ok).1 (command s c stop ok).2 := by
  cases c <;> simp only [command]
  case negotiate => exact returning_write_facts _ _ _ _ _ _ _
  case defineMacro => exact Facts.tame Tame.nil
  case endOfMessage =>
    exact Facts.ite (fun _ => stopOn_facts _ _ _ rfl) fun _ => returning_write_facts _ _ _ _ _ _ _
  case quit => exact returning_write_facts _ _ _ _ _ _ _
  case abort => exact returning_write_facts _ _ _ _ _ _ _
  case unknown =>
    exact Facts.ite (fun _ => answer_facts _ _ _ _ (.inl rfl)) fun _ => returning_write_facts _ _ _ _ _ _ _
  case body =>
    exact Facts.ite (fun _ => stopOn_facts _ _ _ rfl) fun _ =>
      Facts.ite (fun _ => answer_facts _ _ _ _ (.inr rfl)) fun _ => returning_flush_facts _ _ _
  case data =>
    refine Facts.ite (fun _ => stopOn_facts _ _ _ rfl) fun _ => ?_
    split
    · exact Facts.tame ⟨by simp [isEmit], by simp, by simp⟩
    · exact Facts.ite (fun _ => answer_facts _ _ _ _ (.inl rfl)) fun _ => returning_write_facts _ _ _ _ _ _ _
  all_goals
    exact Facts.ite (fun _ => stopOn_facts _ _ _ rfl) fun _ =>
      Facts.ite (fun _ => answer_facts _ _ _ _ (.inl rfl)) fun _ => returning_write_facts _ _ _ _ _ _ _

theorem report_facts (s : State) (r : Reply) (rest : List Action) (ok : Bool) :
    Facts (.reply r ok) (report s r rest).1 (report s r rest).2 := by
  refine Facts.ite (fun _ => Facts.tame Tame.nil) fun _ => ?_
  refine ⟨?_, ?_, ?_, ?_⟩
  · exact Nat.le_refl 1
  · intro c hc; simp [andThen, pause] at hc
  · intro x hc
    simp [andThen, pause] at hc
    subst hc; exact .inr (.inr ⟨_, rfl⟩)
  · intro hc; simp [andThen, pause] at hc

theorem invalidState_facts (s : State) (e : Event) : Facts e (invalidState s).1 (invalidState s).2 :=
  Facts.tame (Tame.emit rfl)

theorem modification_facts (s : State) (r : Reply) (rest : List Action) (ok : Bool) :
    Facts (.reply r ok) (modification s r rest).1 (modification s r rest).2 :=
  Facts.ite (fun _ => report_facts _ _ _ _) fun _ => invalidState_facts _ _

theorem refuse_ub (s : State) (st : Status) : ∀ x ∈ (refuse s st).2, x = .ub := by
  intro x hx
  unfold refuse at hx
  split at hx
  · simp only [refuseRecipient] at hx
    split at hx
    · cases hx
    · split at hx
      · simpa using hx
      · cases hx
  · cases hx

theorem continueBody_facts (s : State) (ok ok' : Bool) :
    Facts (.reply .cont ok') (continueBody s ok).1 (continueBody s ok).2 := by
  unfold continueBody
  split
  · exact Facts.tame (exec_tame _ _ _)
  · refine Facts.ite (fun _ => ?_) fun _ => Facts.tame (exec_tame _ _ _)
    refine ⟨?_, ?_, ?_, ?_⟩
    · exact Nat.le_refl 1
    · intro c hc; simp [andThen, pause] at hc
    · intro x hc
      simp [andThen, pause] at hc
      subst hc; exact .inl rfl
    · intro hc; simp [andThen, pause] at hc

theorem reply_facts (s : State) (r : Reply) (ok : Bool) :
    Facts (.reply r ok) (reply s r ok).1 (reply s r ok).2 := by
  cases r <;> simp only [reply]
  case negotiate o req =>
    refine Facts.ite (fun _ => Facts.tame (Tame.emit rfl)) fun _ => ?_
    refine Facts.ite (fun _ => ?_) fun _ => invalidState_facts _ _
    exact Facts.ite (fun _ => Facts.tame Tame.nil) fun _ => report_facts _ _ _ _
  case cont =>
    refine Facts.ite (fun _ => ?_) fun _ => ?_
    · exact Facts.ite (fun _ => Facts.tame Tame.nil) fun _ => continueBody_facts _ _ _
    · exact Facts.ite (fun _ => report_facts _ _ _ _) fun _ => invalidState_facts _ _
  case replyCode code e m =>
    refine Facts.ub _ (refuse_ub _ _) ?_
    exact Facts.ite (fun _ => report_facts _ _ _ _) fun _ => invalidState_facts _ _
  case temporaryFailure => exact Facts.ub _ (refuse_ub _ _) (report_facts _ _ _ _)
  case reject => exact Facts.ub _ (refuse_ub _ _) (report_facts _ _ _ _)
  case progress =>
    exact Facts.ite (fun _ => report_facts _ _ _ _) fun _ => modification_facts _ _ _ _
  case skip =>
    exact Facts.ite (fun _ => report_facts _ _ _ _) fun _ => invalidState_facts _ _
  all_goals first
    | exact modification_facts _ _ _ _
    | exact report_facts _ _ _ _

theorem timeout_facts (s : State) (e : Event) : Facts e (timeout s).1 (timeout s).2 := by
  unfold timeout
  split
  all_goals first
    | exact Facts.tame Tame.nil
    | exact Facts.tame (Tame.emit rfl)

theorem step_facts (s : State) (e : Event) : Facts e (step s e).1 (step s e).2 := by
  cases e <;> simp only [step]
  case command c stop ok => exact command_facts _ _ _ _
  case reply r ok => exact reply_facts _ _ _
  case flushed ok => exact Facts.tame (exec_tame _ _ _)
  case handlerReturns ok =>
    split
    · exact Facts.tame Tame.nil
    · exact Facts.tame (exec_tame _ _ _)
  case timeout => exact timeout_facts _ _
  case establish ok => exact Facts.tame ⟨by simp [isEmit], by simp, by simp⟩
  case connected ok =>
    refine Facts.tame (Tame.emit ?_)
    cases ok <;> rfl
  all_goals exact Facts.tame Tame.nil

end Verif.Server
