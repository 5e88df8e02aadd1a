import Verif.Props.Server
/-
C35 and C37: what a context writes to its milter.
-/
namespace Verif.Props
open Verif Verif.Server Verif.Spec.Server

namespace ServerBody
open ServerLemmas

/-- what a piece of execution on the context's own initiative may do: it writes nothing but
stored body bytes, in order, and only if there are any -/
def Keeps (s s' : State) (out : List Item) : Prop :=
  out.flatMap bodyBytes ++ s'.body = s.body ∧
    (∀ c, Item.wrote c ∈ out → (∃ b, c = .body b) ∧ s.body ≠ [])

theorem Keeps.refl {s s' : State} {out : List Item} (h : s'.body = s.body)
    (ho : ∀ c, Item.wrote c ∉ out) : Keeps s s' out := by
  refine ⟨?_, fun c hc => absurd hc (ho c)⟩
  have : out.flatMap bodyBytes = [] := by
    rw [List.flatMap_eq_nil_iff]
    intro i hi
    cases i <;> first | rfl | exact absurd hi (ho _)
  rw [this, h, List.nil_append]

theorem Keeps.trans {s s1 s2 : State} {a b : List Item} (ha : Keeps s s1 a) (hb : Keeps s1 s2 b) :
    Keeps s s2 (a ++ b) := by
  refine ⟨?_, ?_⟩
  · rw [List.flatMap_append, List.append_assoc, hb.1, ha.1]
  · intro c hc
    rcases List.mem_append.1 hc with hc | hc
    · exact ha.2 c hc
    · obtain ⟨h1, h2⟩ := hb.2 c hc
      refine ⟨h1, fun h => h2 ?_⟩
      have := ha.1
      rw [h] at this
      exact (List.append_eq_nil_iff.1 this).2

theorem bodyPackedSize_eq (b : Bytes) : b.take (Enc.bodyPackedSize b) ++ b.drop (Enc.bodyPackedSize b) = b :=
  List.take_append_drop _ _

/-- `flush_body` either writes the first part of what is waiting, or nothing -/
theorem flushBody_cases (s : State) (ok : Bool) :
    ((flushBody s ok).1.out = [.wrote (.body (s.body.take (Enc.bodyPackedSize s.body)))] ∧
      (flushBody s ok).1.st.body = s.body.drop (Enc.bodyPackedSize s.body)) ∨
    ((∃ e, (flushBody s ok).1.out = [.emit (.error e)]) ∧ (flushBody s ok).1.st.body = s.body) := by
  unfold flushBody
  simp only
  by_cases hp : isProcessing (appendBodyQueue s) = true
  · rw [writePacket, if_pos ⟨by simp, by simp, hp⟩]
    exact Or.inr ⟨⟨_, rfl⟩, rfl⟩
  · rw [writePacket, if_neg (fun h => hp h.2.2)]
    cases ok
    · exact Or.inr ⟨⟨_, rfl⟩, rfl⟩
    · left
      refine ⟨rfl, ?_⟩
      simp only [if_true, incrementBodyQueue]
      split <;> rfl

theorem flushBody_bytes (s : State) (ok : Bool) :
    (flushBody s ok).1.out.flatMap bodyBytes ++ (flushBody s ok).1.st.body = s.body ∧
      (∀ c, Item.wrote c ∈ (flushBody s ok).1.out → ∃ b, c = .body b) ∧
      (flushBody s ok).1.st.option = s.option := by
  obtain ⟨_, _, _, h3, _⟩ := flushBody_good s ok none true none .start (Ok_none _)
  rcases flushBody_cases s ok with ⟨h1, h2⟩ | ⟨⟨e, h1⟩, h2⟩
  · rw [h1, h2]
    exact ⟨by simp [bodyBytes], fun c hc => ⟨_, by simpa using hc⟩, h3.1⟩
  · rw [h1, h2]
    exact ⟨by simp [bodyBytes], fun c hc => by simp at hc, h3.1⟩

theorem flushBody_keeps (s : State) (ok : Bool) (h : s.body ≠ []) :
    Keeps s (flushBody s ok).1.st (flushBody s ok).1.out := by
  have := flushBody_bytes s ok
  exact ⟨this.1, fun c hc => ⟨this.2.1 c hc, h⟩⟩

theorem enter_keeps (s : State) (n : St) (ok : Bool) :
    Keeps s (enter s n ok).st (enter s n ok).out ∧ (enter s n ok).st.option = s.option := by
  have hn : ∀ c, Item.wrote c ∉ ([] : List Item) := by simp
  have hu : ∀ c, Item.wrote c ∉ [Item.ub] := by simp
  cases n <;> simp only [enter]
  case body =>
    split
    · exact ⟨Keeps.refl rfl hn, rfl⟩
    · split
      · exact ⟨Keeps.refl rfl hu, rfl⟩
      · exact ⟨Keeps.refl rfl hn, rfl⟩
      · rename_i hb _ _
        refine ⟨?_, (flushBody_bytes _ _).2.2⟩
        exact flushBody_keeps (setState { s with timer := none } .body) ok
          (fun h => hb (by rw [h]; rfl))
  case endOfMessage => split <;> exact ⟨Keeps.refl rfl hn, rfl⟩
  case quit => exact ⟨Keeps.refl rfl (by simp [go]), rfl⟩
  all_goals
    simp only [if_true, if_false, reduceCtorEq]
    split
    · exact ⟨Keeps.refl rfl hu, rfl⟩
    · exact ⟨Keeps.refl rfl hn, rfl⟩
    · exact ⟨Keeps.refl rfl hn, rfl⟩

theorem act_keeps (s : State) (a : Action) (ok : Bool) :
    Keeps s (act s ok a).st (act s ok a).out ∧ (act s ok a).st.option = s.option := by
  have hn : ∀ c, Item.wrote c ∉ ([] : List Item) := by simp
  cases a <;> simp only [act]
  case enter n => exact enter_keeps s n ok
  case abortFlushed =>
    simp only [abortFlushed]
    split
    · split <;> exact ⟨Keeps.refl rfl hn, rfl⟩
    · exact ⟨Keeps.refl rfl hn, rfl⟩
  case processed c =>
    split
    · split
      · exact ⟨Keeps.refl rfl (by simp [pause]), rfl⟩
      · exact ⟨Keeps.refl rfl hn, rfl⟩
    · exact ⟨Keeps.refl rfl hn, rfl⟩
  case flushRest =>
    split
    · rename_i hb
      exact ⟨flushBody_keeps s ok (fun h => by simp [h] at hb), (flushBody_bytes _ _).2.2⟩
    · exact ⟨Keeps.refl rfl hn, rfl⟩
  case clearIfBody =>
    simp only [clearBody]
    split
    · split <;> exact ⟨Keeps.refl rfl hn, rfl⟩
    · exact ⟨Keeps.refl rfl hn, rfl⟩
  case clearBody =>
    simp only [clearBody]
    split <;> exact ⟨Keeps.refl rfl hn, rfl⟩
  case enterIfSent => split <;> exact ⟨Keeps.refl rfl hn, rfl⟩
  case invalidNext => exact ⟨Keeps.refl rfl (by simp [pause]), rfl⟩
  case transited => exact ⟨Keeps.refl rfl (by simp [pause]), rfl⟩
  case shutdownAgent => exact ⟨Keeps.refl rfl (by simp [go]), rfl⟩
  all_goals exact ⟨Keeps.refl rfl hn, rfl⟩

theorem exec_keeps (l : List Action) (s : State) (ok : Bool) :
    Keeps s (exec s ok l).1 (exec s ok l).2 ∧ (exec s ok l).1.option = s.option := by
  induction l generalizing s with
  | nil => exact ⟨Keeps.refl rfl (by simp [exec]), rfl⟩
  | cons a l ih =>
    have h := act_keeps s a ok
    simp only [exec]
    split
    · exact h
    · exact ⟨h.1.trans (ih _).1, (ih _).2.trans h.2⟩

theorem report_keeps {s0 : State} (s : State) (r : Reply) (rest : List Action) (h : s.body = s0.body) :
    Keeps s0 (report s r rest).1 (report s r rest).2 ∧ (report s r rest).1.option = s.option := by
  unfold report
  split
  · exact ⟨Keeps.refl h (by simp), rfl⟩
  · exact ⟨Keeps.refl h (by simp [andThen, pause]), rfl⟩

theorem invalidState_keeps {s0 : State} (s : State) (h : s.body = s0.body) :
    Keeps s0 (invalidState s).1 (invalidState s).2 ∧ (invalidState s).1.option = s.option :=
  ⟨Keeps.refl h (by simp [invalidState, andThen, pause]), rfl⟩

theorem modification_keeps {s0 : State} (s : State) (r : Reply) (rest : List Action) (h : s.body = s0.body) :
    Keeps s0 (modification s r rest).1 (modification s r rest).2 ∧
      (modification s r rest).1.option = s.option := by
  unfold modification
  split
  · exact report_keeps s r rest h
  · exact invalidState_keeps s h

/-- a milter that takes the body still does so after its option was narrowed -/
def Narrower (o o' : Option Opt) : Prop := ∀ b b', ¬Declined o (.body b) → ¬Declined o' (.body b')

theorem Narrower.refl (o : Option Opt) : Narrower o o := by
  intro b b' h
  cases o <;> exact h

theorem Narrower.of_eq {o o' : Option Opt} (h : o' = o) : Narrower o o' := h ▸ Narrower.refl _

theorem refuse_body (s : State) (st : Status) : (refuse s st).1.body = s.body := by
  unfold refuse
  split
  · unfold refuseRecipient
    have h1 : (ensureResult { s with rcptStatus := st }).body = s.body := rfl
    simp only
    generalize ensureResult { s with rcptStatus := st } = S at h1
    cases S.result with
    | none => exact h1
    | some r =>
      simp only
      split <;> exact h1
  · rfl

theorem Keeps.ub {s : State} {r : State × List Item} {out : List Item} (h : Keeps s r.1 r.2)
    (ho : out = [] ∨ out = [.ub]) : Keeps s r.1 (out ++ r.2) := by
  rcases ho with rfl | rfl
  · exact h
  · exact Keeps.trans (Keeps.refl rfl (by simp)) h

theorem and_zero (a b c : UInt32) (h : a &&& c = 0) : (a &&& b) &&& c = 0 := by
  rw [UInt32.and_assoc, UInt32.and_comm b, ← UInt32.and_assoc, h, UInt32.zero_and]

theorem reply_keeps (s : State) (r : Reply) (ok : Bool) :
    Keeps s (reply s r ok).1 (reply s r ok).2 ∧ Narrower s.option (reply s r ok).1.option := by
  have hs : ∀ (p : State × List Item) (o : Option Opt), (Keeps s p.1 p.2 ∧ p.1.option = o) → o = s.option →
      Keeps s p.1 p.2 ∧ Narrower s.option p.1.option := by
    intro p o h ho
    refine ⟨h.1, ?_⟩
    rw [h.2, ho]
    exact Narrower.refl _
  cases r <;> simp only [reply]
  case negotiate o m =>
    have key : ∀ s' : State, s'.body = s.body → Narrower s.option s'.option →
        Keeps s (if s'.state = .negotiate then
          (if s'.quitted then (s', []) else report { s' with negotiated := true } (.negotiate o m) [])
          else invalidState s').1 (if s'.state = .negotiate then
          (if s'.quitted then (s', []) else report { s' with negotiated := true } (.negotiate o m) [])
          else invalidState s').2 ∧ Narrower s.option (if s'.state = .negotiate then
          (if s'.quitted then (s', []) else report { s' with negotiated := true } (.negotiate o m) [])
          else invalidState s').1.option := by
      intro s' h1 h2
      split
      · split
        · exact ⟨Keeps.refl h1 (by simp), h2⟩
        · have h := report_keeps (s0 := s) { s' with negotiated := true } (.negotiate o m) [] h1
          refine ⟨h.1, ?_⟩
          rw [h.2]
          exact h2
      · exact ⟨(invalidState_keeps s' h1).1, by rw [(invalidState_keeps (s0 := s) s' h1).2]; exact h2⟩
    cases ho : s.option with
    | none =>
      simp only [Bool.not_true, Bool.false_eq_true, if_false]
      have hN : Narrower none (some o) := fun b b' h => absurd trivial h
      have := key { s with timer := none, option := some o } rfl (ho ▸ hN)
      rw [ho] at this
      exact this
    | some mine =>
      have hN : Narrower (some mine) (some (mine.combine o).2) := by
        intro b b' h
        simp only [Declined, ne_eq, Decidable.not_not] at h ⊢
        unfold Opt.combine
        split
        · exact h
        · exact and_zero _ _ _ h
      simp only
      split
      · exact ⟨Keeps.refl rfl (by simp [andThen, pause]), hN⟩
      · have := key { s with timer := none, option := some (mine.combine o).2 } rfl (ho ▸ hN)
        rw [ho] at this
        exact this
  case cont =>
    split
    · split
      · exact ⟨Keeps.refl rfl (by simp), Narrower.refl _⟩
      · unfold continueBody
        split
        · exact hs _ _ (exec_keeps _ { s with timer := none } _) rfl
        · simp only
          split
          · exact ⟨Keeps.refl rfl (by simp [andThen, pause]), Narrower.refl _⟩
          · exact hs _ _ (exec_keeps _ { s with timer := none, bodyQueue := _ } _) rfl
    · split
      · exact hs _ _ (report_keeps _ _ _ rfl) rfl
      · exact hs _ _ (invalidState_keeps _ rfl) rfl
  case replyCode code e m =>
    have h := refuse_same s (codeStatus code)
    have hb := refuse_body s (codeStatus code)
    split
    · have := report_keeps (s0 := s) (if (refuse s (codeStatus code)).1.state = .body ∧ (refuse s (codeStatus code)).1.quitted = false
        then clearBody { (refuse s (codeStatus code)).1 with timer := none } else { (refuse s (codeStatus code)).1 with timer := none }) (.replyCode code e m)
        [.processed .inMessageNotRecipient] (by
          split
          · simp only [clearBody]; split <;> exact hb
          · exact hb)
      refine ⟨Keeps.ub this.1 h.2.2, ?_⟩
      refine Narrower.of_eq (this.2.trans ?_)
      split
      · simp only [clearBody]; split <;> exact h.2.1
      · exact h.2.1
    · have := invalidState_keeps (s0 := s) { (refuse s (codeStatus code)).1 with timer := none } hb
      exact ⟨Keeps.ub this.1 h.2.2, Narrower.of_eq (this.2.trans h.2.1)⟩
  case temporaryFailure =>
    have h := refuse_same s .temporaryFailure
    have := report_keeps (s0 := s) { (refuse s .temporaryFailure).1 with timer := none } .temporaryFailure
      [.processed .inMessageNotRecipient, .clearIfBody] (refuse_body s _)
    exact ⟨Keeps.ub this.1 h.2.2, Narrower.of_eq (this.2.trans h.2.1)⟩
  case reject =>
    have h := refuse_same s .reject
    have := report_keeps (s0 := s) { (refuse s .reject).1 with timer := none } .reject
      [.processed .inMessageNotRecipient, .clearIfBody] (refuse_body s _)
    exact ⟨Keeps.ub this.1 h.2.2, Narrower.of_eq (this.2.trans h.2.1)⟩
  case progress =>
    split
    · exact hs _ _ (report_keeps { s with timer := some .endOfMessage } _ _ rfl) rfl
    · exact hs _ _ (modification_keeps _ _ _ rfl) rfl
  case skip =>
    split
    · exact hs _ _ (report_keeps { s with timer := none } _ _ rfl) rfl
    · exact hs _ _ (invalidState_keeps { s with timer := none } rfl) rfl
  case accept => exact hs _ _ (report_keeps { s with status := .accept, timer := none } _ _ rfl) rfl
  case discard => exact hs _ _ (report_keeps { s with status := .discard, timer := none } _ _ rfl) rfl
  case connectionFailure => exact hs _ _ (report_keeps { s with status := .error, timer := none } _ _ rfl) rfl
  case shutdown => exact hs _ _ (report_keeps { s with timer := none } _ _ rfl) rfl
  case quarantine q => exact hs _ _ (modification_keeps { s with status := .quarantine } _ _ rfl) rfl
  all_goals exact hs _ _ (modification_keeps _ _ _ rfl) rfl

/-- what the call of a command function does: it writes at most that command, and only if the
milter did not decline it; body bytes are kept -/
def Calls (s : State) (c : Cmd) (stop : Bool) (r : State × List Item) : Prop :=
  r.2.flatMap bodyBytes ++ r.1.body = s.body ++ bodyOf s.option (.command c stop true) ∧
    (∀ x, Item.wrote x ∈ r.2 → leadsTo x = leadsTo c ∧ ¬Declined s.option x) ∧
    ((∀ o, c ≠ .negotiate o) → r.1.option = s.option)

theorem returning_write_out (s : State) (c : Cmd) (n : St) (ok : Bool) (rest : List Action)
    (hr : rest = [] ∨ rest = [.notProcessing]) :
    (∀ x, Item.wrote x ∈ (returning (writePacket s c n ok) rest).2 → x = c) ∧
      (returning (writePacket s c n ok) rest).1.body = s.body ∧
      (returning (writePacket s c n ok) rest).1.option = s.option := by
  unfold writePacket
  split
  · exact ⟨by simp [returning, andThen, pause], rfl, rfl⟩
  · cases ok
    · refine ⟨by simp [returning, andThen, pause], ?_, ?_⟩ <;>
      · simp only [Bool.false_eq_true, if_false, returning, andThen, pause, if_true]
        split <;> rfl
    · rcases hr with rfl | rfl
      · refine ⟨by simp [returning, andThen, go, exec], ?_, ?_⟩ <;>
        · simp only [if_true, returning, andThen, go, exec, Bool.false_eq_true, if_false]
          split <;> rfl
      · refine ⟨by simp [returning, andThen, go, exec, act], ?_, ?_⟩ <;>
        · simp only [if_true, returning, andThen, go, exec, act, Bool.false_eq_true, if_false]
          split <;> rfl

theorem Calls.write {s0 s : State} (c : Cmd) (n : St) (ok stop : Bool) (rest : List Action)
    (hr : rest = [] ∨ rest = [.notProcessing]) (hb : s.body = s0.body)
    (ho : (∀ o, c ≠ .negotiate o) → s.option = s0.option) (hc : ∀ b, c ≠ .body b)
    (hd : ¬Declined s0.option c) : Calls s0 c stop (returning (writePacket s c n ok) rest) := by
  obtain ⟨h1, h2, h3⟩ := returning_write_out s c n ok rest hr
  refine ⟨?_, ?_, fun h => h3.trans (ho h)⟩
  · have hz : (returning (writePacket s c n ok) rest).2.flatMap bodyBytes = [] := by
      rw [List.flatMap_eq_nil_iff]
      intro i hi
      cases i with
      | wrote x =>
        have := h1 x hi
        subst this
        cases x <;> first | rfl | exact absurd rfl (hc _)
      | _ => rfl
    have hg : bodyOf s0.option (.command c stop true) = [] := by
      cases c <;> first | rfl | exact absurd rfl (hc _)
    rw [hz, hg, h2, hb, List.append_nil, List.nil_append]
  · intro x hx
    rw [h1 x hx]
    exact ⟨rfl, hd⟩

theorem Calls.none {s0 : State} (c : Cmd) (stop : Bool) (r : State × List Item)
    (ho : ∀ x, Item.wrote x ∉ r.2) (hb : r.1.body = s0.body) (hop : r.1.option = s0.option)
    (hg : bodyOf s0.option (.command c stop true) = []) : Calls s0 c stop r := by
  refine ⟨?_, fun x hx => absurd hx (ho x), fun _ => hop⟩
  have hz : r.2.flatMap bodyBytes = [] := by
    rw [List.flatMap_eq_nil_iff]
    intro i hi
    cases i <;> first | rfl | exact absurd hi (ho _)
  rw [hz, hg, hb, List.append_nil, List.nil_append]

theorem enabled_iff (o : Option Opt) (f : UInt32) (h : ¬isEnableStep o f = true) :
    ∃ o', o = some o' ∧ o'.step &&& f = 0 := by
  cases o with
  | none => exact absurd rfl h
  | some o => exact ⟨o, rfl, by simpa [isEnableStep] using h⟩

theorem Calls.ite {s : State} {c : Cmd} {stop : Bool} {p : Prop} [Decidable p] {a b : State × List Item}
    (ha : p → Calls s c stop a) (hb : ¬p → Calls s c stop b) : Calls s c stop (if p then a else b) := by
  by_cases h : p
  · rw [if_pos h]; exact ha h
  · rw [if_neg h]; exact hb h

theorem command_calls (s : State) (c : Cmd) (stop ok : Bool) : Calls s c stop (command s c stop ok) := by
  have hnb : ∀ c : Cmd, (∀ b, c ≠ .body b) → bodyOf s.option (.command c stop true) = [] := by
    intro c hc
    cases c <;> first | rfl | exact absurd rfl (hc _)
  cases c <;> simp only [command, ensureResult]
  case negotiate => exact Calls.write _ _ _ _ _ (Or.inl rfl) rfl (fun h => absurd rfl (h _)) (by simp) (by simp [Declined])
  case defineMacro => exact Calls.none _ _ _ (by simp) rfl rfl (hnb _ (by simp))
  case quit => exact Calls.write _ _ _ _ _ (Or.inl rfl) rfl (fun _ => rfl) (by simp) (by simp [Declined])
  case abort => exact Calls.write _ _ _ _ _ (Or.inr rfl) rfl (fun _ => rfl) (by simp) (by simp [Declined])
  case endOfMessage =>
    refine Calls.ite (fun _ => ?_) (fun _ => ?_)
    · exact Calls.none _ _ _ (by simp [stopOn, returning, andThen, pause]) rfl rfl (hnb _ (by simp))
    · exact Calls.write _ _ _ _ _ (Or.inl rfl) rfl (fun _ => rfl) (by simp) (by simp [Declined])
  case unknown =>
    refine Calls.ite (fun _ => ?_) (fun h => ?_)
    · exact Calls.none _ _ _ (by simp [answer, returning, andThen, pause]) rfl rfl (hnb _ (by simp))
    · obtain ⟨o, ho, hf⟩ := enabled_iff _ _ h
      exact Calls.write _ _ _ _ _ (Or.inl rfl) rfl (fun _ => rfl) (by simp) (by rw [ho]; simp [Declined, hf])
  case data =>
    refine Calls.ite (fun _ => ?_) (fun _ => ?_)
    · exact Calls.none _ _ _ (by simp [stopOn, returning, andThen, pause]) rfl rfl (hnb _ (by simp))
    · split
      · exact Calls.none _ _ _ (by simp) rfl rfl (hnb _ (by simp))
      · rename_i o ho
        refine Calls.ite (fun _ => ?_) (fun h => ?_)
        · exact Calls.none _ _ _ (by simp [answer, returning, andThen, pause]) rfl rfl (hnb _ (by simp))
        · rw [not_or] at h
          obtain ⟨o', ho', hf⟩ := enabled_iff _ _ h.2
          rw [ho] at ho'
          cases ho'
          exact Calls.write _ _ _ _ _ (Or.inl rfl) rfl (fun _ => rfl) (by simp)
            (by rw [ho]; simpa [Declined, hf] using h.1)
  case body chunk =>
    refine Calls.ite (fun h => ?_) (fun hstop => ?_)
    · exact Calls.none _ _ _ (by simp [stopOn, returning, andThen, pause]) rfl rfl (by rw [h]; rfl)
    · refine Calls.ite (fun h => ?_) (fun h => ?_)
      · refine Calls.none _ _ _ (by simp [answer, returning, andThen, pause]) rfl rfl ?_
        rw [Bool.not_eq_true] at hstop
        rw [hstop]
        simp only [bodyOf]
        rw [if_pos]
        cases ho : s.option with
        | none => exact trivial
        | some o => simpa [isEnableStep, ho, Declined] using h
      · obtain ⟨o, ho, hf⟩ := enabled_iff _ _ h
        have hd : ∀ b, ¬Declined s.option (.body b) := by intro b; rw [ho]; simp [Declined, hf]
        rw [Bool.not_eq_true] at hstop
        have hk := flushBody_bytes { s with result := some (Result.told (.body chunk) (s.result.getD {})), body := s.body ++ chunk } ok
        have hgiven : bodyOf s.option (.command (.body chunk) stop true) = chunk := by
          rw [hstop]; simp only [bodyOf, if_neg (hd chunk)]
        generalize flushBody { s with result := some (Result.told (.body chunk) (s.result.getD {})), body := s.body ++ chunk } ok = p at hk
        obtain ⟨p, b⟩ := p
        have hret : (returning (p, b)).1.body = p.st.body ∧ (returning (p, b)).1.option = p.st.option ∧
            (returning (p, b)).2 = p.out ++ [.ret b] := by
          simp only [returning, andThen]
          split
          · exact ⟨rfl, rfl, rfl⟩
          · simp [exec]
        refine ⟨?_, ?_, fun _ => hret.2.1.trans hk.2.2⟩
        · rw [hret.1, hret.2.2, hgiven, List.flatMap_append]
          simpa [bodyBytes] using hk.1
        · intro x hx
          rw [hret.2.2] at hx
          have hx : Item.wrote x ∈ p.out := by simpa using hx
          obtain ⟨b', rfl⟩ := hk.2.1 x hx
          exact ⟨rfl, hd b'⟩
  all_goals
    refine Calls.ite (fun _ => ?_) (fun _ => ?_)
    · exact Calls.none _ _ _ (by simp [stopOn, returning, andThen, pause]) rfl rfl (hnb _ (by simp))
    · refine Calls.ite (fun _ => ?_) (fun h => ?_)
      · exact Calls.none _ _ _ (by simp [answer, returning, andThen, pause]) rfl rfl (hnb _ (by simp))
      · obtain ⟨o, ho, hf⟩ := enabled_iff _ _ h
        exact Calls.write _ _ _ _ _ (Or.inl rfl) rfl (fun _ => rfl) (by simp) (by rw [ho]; simp [Declined, hf])

/-- steps that are not calls of command functions -/
theorem step_keeps (s : State) (e : Event) (h : ownInitiative e = true) :
    Keeps s (step s e).1 (step s e).2 ∧ Narrower s.option (step s e).1.option := by
  have hx : ∀ (p : State × List Item), (Keeps s p.1 p.2 ∧ p.1.option = s.option) →
      Keeps s p.1 p.2 ∧ Narrower s.option p.1.option := by
    intro p h
    exact ⟨h.1, by rw [h.2]; exact Narrower.refl _⟩
  cases e with
  | command c stop ok => simp [ownInitiative] at h
  | reply r ok => exact reply_keeps s r ok
  | flushed ok => exact hx _ (exec_keeps _ { s with nextStates := [] } ok)
  | handlerReturns ok =>
    simp only [step]
    split
    · exact ⟨Keeps.refl rfl (by simp), Narrower.refl _⟩
    · rename_i f st hst
      exact hx _ (exec_keeps f { s with stack := st } ok)
  | timeout =>
    simp only [step, timeout]
    split <;> exact ⟨Keeps.refl rfl (by simp [andThen, pause]), Narrower.refl _⟩
  | establish ok => exact ⟨Keeps.refl rfl (by simp [step]), Narrower.refl _⟩
  | connected ok => exact ⟨Keeps.refl rfl (by simp [step, andThen, pause]), Narrower.refl _⟩
  | setStatus => exact ⟨Keeps.refl rfl (by simp [step]), Narrower.refl _⟩
  | setState => exact ⟨Keeps.refl rfl (by simp [step]), Narrower.refl _⟩
  | setProcessingMessage => exact ⟨Keeps.refl rfl (by simp [step]), Narrower.refl _⟩
  | setQuitted => exact ⟨Keeps.refl rfl (by simp [step]), Narrower.refl _⟩

/-- only a milter that takes the body has body bytes waiting for it -/
def Wanted (s : State) : Prop := s.body ≠ [] → ¬Declined s.option (.body [])

theorem step_wanted (s : State) (e : Event) (h : Wanted s) (hn : ∀ o stop ok, e ≠ .command (.negotiate o) stop ok) :
    Wanted (step s e).1 ∧ ∀ c, Item.wrote c ∈ (step s e).2 → ¬Declined s.option c := by
  by_cases ho : ownInitiative e = true
  · have hk := step_keeps s e ho
    refine ⟨?_, ?_⟩
    · intro hb
      refine hk.2 [] [] (h ?_)
      intro hnil
      have := hk.1.1
      rw [hnil] at this
      exact hb (List.append_eq_nil_iff.1 this).2
    · intro c hc
      obtain ⟨⟨b, rfl⟩, hb⟩ := hk.1.2 c hc
      exact (Narrower.refl _) [] b (h hb)
  · cases e with
    | command c stop ok =>
      have hc := command_calls s c stop ok
      refine ⟨?_, fun x hx => (hc.2.1 x hx).2⟩
      intro hb
      simp only [step] at hb ⊢
      rw [hc.2.2 (fun o heq => hn o stop ok (by rw [heq]))]
      by_cases hs : s.body = []
      · have h1 := hc.1
        rw [hs, List.nil_append] at h1
        cases c with
        | body chunk =>
          cases stop
          · simp only [bodyOf] at h1
            split at h1
            · exact absurd (List.append_eq_nil_iff.1 h1).2 hb
            · rename_i hd; exact (Narrower.refl _) _ [] hd
          · exact absurd (List.append_eq_nil_iff.1 h1).2 hb
        | _ => exact absurd (List.append_eq_nil_iff.1 h1).2 hb
      · exact h hs
    | _ => simp [ownInitiative] at ho

theorem step_bytes (s : State) (e : Event) :
    (step s e).2.flatMap bodyBytes ++ (step s e).1.body = s.body ++ bodyOf s.option e := by
  by_cases ho : ownInitiative e = true
  · have : bodyOf s.option e = [] := by
      cases e <;> first | rfl | simp [ownInitiative] at ho
    rw [this, List.append_nil]
    exact (step_keeps s e ho).1.1
  · cases e with
    | command c stop ok =>
      rw [show bodyOf s.option (.command c stop ok) = bodyOf s.option (.command c stop true) by
        cases c <;> cases stop <;> rfl]
      exact (command_calls s c stop ok).1
    | _ => simp [ownInitiative] at ho

theorem run_bytes (es : List Event) (s : State) :
    bodyWritten (run s es).2 ++ (run s es).1.body = s.body ++ bodyGiven (run s es).2 := by
  induction es generalizing s with
  | nil => simp [run, bodyWritten, bodyGiven]
  | cons e es ih =>
    simp only [run, bodyWritten, bodyGiven, List.flatMap_cons] at ih ⊢
    rw [List.append_assoc, ih, ← List.append_assoc, step_bytes, List.append_assoc]

theorem run_wanted (es : List Event) (s : State) (h : Wanted s)
    (hn : ∀ o stop ok, Event.command (.negotiate o) stop ok ∉ es) :
    ∀ l ∈ (run s es).2, ∀ c, Item.wrote c ∈ l.out → ¬Declined l.option c := by
  induction es generalizing s with
  | nil => simp [run]
  | cons e es ih =>
    have hs := step_wanted s e h (fun o stop ok heq => hn o stop ok (by simp [heq]))
    intro l hl
    simp only [run] at hl
    rcases List.mem_cons.1 hl with rfl | hl
    · exact hs.2
    · exact ih _ hs.1 (fun o stop ok hm => hn o stop ok (by simp [hm])) l hl

theorem run_nobody (es : List Event) (s : State) (h : s.body = [])
    (hn : ∀ b stop ok, Event.command (.body b) stop ok ∉ es) :
    (run s es).1.body = [] ∧ ∀ l ∈ (run s es).2, ∀ c, Item.wrote c ∈ l.out → ¬Declined l.option c := by
  induction es generalizing s with
  | nil => simp [run, h]
  | cons e es ih =>
    have hg : bodyOf s.option e = [] := by
      cases e with
      | command c stop ok =>
        cases c with
        | body b => exact absurd List.mem_cons_self (hn b stop ok)
        | _ => rfl
      | _ => rfl
    have hb := step_bytes s e
    rw [h, hg, List.append_nil] at hb
    have hw : ∀ c, Item.wrote c ∈ (step s e).2 → ¬Declined s.option c := by
      intro x hx
      cases e with
      | command c stop ok => exact ((command_calls s c stop ok).2.1 x hx).2
      | _ => exact absurd h ((step_keeps s _ rfl).1.2 x hx).2
    have hr := ih (step s e).1 (List.append_eq_nil_iff.1 hb).2
      (fun b stop ok hm => hn b stop ok (by simp [hm]))
    refine ⟨hr.1, ?_⟩
    intro l hl
    simp only [run] at hl
    rcases List.mem_cons.1 hl with rfl | hl
    · exact hw
    · exact hr.2 l hl

theorem run_append (s : State) (a b : List Event) :
    run s (a ++ b) = ((run (run s a).1 b).1, (run s a).2 ++ (run (run s a).1 b).2) := by
  induction a generalizing s with
  | nil => rfl
  | cons e a ih => simp only [List.cons_append, run, ih]

end ServerBody
open ServerBody ServerLemmas

/-! ## C35 -/

/-- C35: in every history in which negotiation is over before the first body chunk, no command
the milter declined in its negotiated steps is ever written to it. -/
theorem C35 (es1 es2 : List Event) (h1 : ∀ b stop ok, Event.command (.body b) stop ok ∉ es1)
    (h2 : ∀ o stop ok, Event.command (.negotiate o) stop ok ∉ es2) :
    ∀ l ∈ (run State.init (es1 ++ es2)).2, ∀ c, Item.wrote c ∈ l.out → ¬Declined l.option c := by
  rw [run_append]
  have hr := run_nobody es1 State.init rfl h1
  intro l hl
  rcases List.mem_append.1 hl with hl | hl
  · exact hr.2 l hl
  · exact run_wanted es2 _ (fun hb => absurd hr.1 hb) h2 l hl

/-- C35, calls: in any state whatsoever, a call writes no command the milter declined -/
theorem C35_calls (s : State) (c : Cmd) (stop ok : Bool) (x : Cmd)
    (h : Item.wrote x ∈ (step s (.command c stop ok)).2) : ¬Declined s.option x :=
  ((command_calls s c stop ok).2.1 x h).2

/-- C35, the answer on the milter's behalf: a declined command (that is not stopped) is
answered at once, with continue, or skip for the body; data before negotiation is not. -/
theorem C35_on_behalf (s : State) (c : Cmd) (ok : Bool) (h : Declined s.option c)
    (hd : c = .data → s.option ≠ none) :
    (step s (.command c false ok)).2 = [.emit (.reply (onBehalf c)), .ret true] := by
  cases ho : s.option with
  | none =>
    rw [ho] at h hd
    cases c
    case data => exact absurd rfl (hd rfl)
    all_goals first
      | exact h.elim
      | (simp [step, command, ensureResult, ho, isEnableStep, answer, returning, andThen, pause, onBehalf])
  | some o =>
    rw [ho] at h
    cases c
    case data =>
      simp only [Declined, ne_eq] at h
      simp [step, command, ensureResult, ho, isEnableStep, h, answer, returning, andThen, pause, onBehalf]
    all_goals first
      | exact h.elim
      | (simp only [Declined, ne_eq] at h
         simp [step, command, ensureResult, ho, isEnableStep, h, answer, returning, andThen, pause, onBehalf])

/-- a milter without helo and body, a helo and a body for it -/
example : (run State.init (negotiation { plainOption with step := 0x12 } ++
      [.command (.helo [104]) false true, .handlerReturns true, .command (.body [1]) false true,
        .handlerReturns true, .command .data false true])).2.map (·.out) =
    [[.ret true], [.emit .ready], [], [.wrote (.negotiate { plainOption with step := 0x12 }), .ret true],
      [.emit (.stateTransited .negotiate)], [],
      [.emit (.reply (.negotiate { plainOption with step := 0x12 } none))], [],
      [.emit (.reply .cont), .ret true], [], [.emit (.reply .skip), .ret true], [],
      [.wrote .data, .ret true]] := by rfl

/-! ## C37 -/

/-- C37 over a whole session, for every history (any chunk sizes, busy refusals, output errors,
aborts, nested handlers): what was written, followed by what is still waiting, is exactly what
was passed in.  Nothing is lost, repeated or reordered.  Missing: that the waiting rest goes out
before the end of the message. -/
theorem C37_partial (es : List Event) :
    bodyWritten (run State.init es).2 ++ (run State.init es).1.body = bodyGiven (run State.init es).2 := by
  simpa [State.init] using run_bytes es State.init

/-- C37 for chunks that fit in a packet: if nothing is waiting, a successful body call writes
exactly its chunk and leaves nothing waiting. -/
theorem C37_small (s : State) (chunk : Bytes) (h : s.body = []) (hs : chunk.length ≤ Enc.chunkSize)
    (hd : ¬Declined s.option (.body chunk)) (hb : isProcessing s = false) :
    (step s (.command (.body chunk) false true)).2 = [.wrote (.body chunk), .ret true] ∧
      (step s (.command (.body chunk) false true)).1.body = [] := by
  have he : isEnableStep s.option 0x10 = false := by
    cases ho : s.option with
    | none => rw [ho] at hd; exact absurd trivial hd
    | some o => rw [ho] at hd; simpa [Declined, isEnableStep] using hd
  have hp : Enc.bodyPackedSize chunk = chunk.length := by
    unfold Enc.bodyPackedSize; rw [if_neg (by omega)]
  simp only [isProcessing] at hb
  simp only [step, command, ensureResult, he, h, List.nil_append, Bool.false_eq_true, if_false]
  unfold flushBody writePacket
  simp only [appendBodyQueue, isProcessing, hb, Bool.false_eq_true, and_false, if_false, hp,
    List.take_length, reduceCtorEq, or_self, if_true, go, List.drop_length]
  simp only [returning, andThen, Bool.false_eq_true, if_false, exec, List.append_nil]
  refine ⟨rfl, ?_⟩
  simp only [incrementBodyQueue]
  split <;> rfl

/-- a chunk that does not fit in a packet -/
def bigChunk : Bytes := List.replicate (Enc.chunkSize + 1) 7

theorem bigChunk_packed : Enc.bodyPackedSize bigChunk = Enc.chunkSize := by
  unfold Enc.bodyPackedSize bigChunk
  rw [if_pos (by simp)]


theorem bigChunk_take : bigChunk.take Enc.chunkSize = List.replicate Enc.chunkSize 7 := by
  unfold bigChunk; rw [List.take_replicate, Nat.min_eq_left (by omega)]

theorem bigChunk_drop : bigChunk.drop Enc.chunkSize = [7] := by
  unfold bigChunk
  rw [List.drop_replicate, Nat.add_sub_cancel_left]
  rfl

/-- passing the big chunk to an idle context -/
theorem step_bigChunk (s : State) (h : s.body = []) (hd : isEnableStep s.option 0x10 = false)
    (hb : s.timer = none) (hq : s.bodyQueue = []) :
    step s (.command (.body bigChunk) false true) =
      ({ s with
          result := some (Result.told (.body bigChunk) (s.result.getD {})), body := [7], bodyQueue := [1]
          timer := some .writing, nextStates := s.nextStates ++ [.body] },
        [.wrote (.body (List.replicate Enc.chunkSize 7)), .ret true]) := by
  simp only [step, command, ensureResult, hd, h, List.nil_append, Bool.false_eq_true, if_false]
  unfold flushBody writePacket
  simp only [appendBodyQueue, isProcessing, hb, bigChunk_packed, bigChunk_take, bigChunk_drop, hq,
    Option.isSome_none, Bool.false_eq_true, and_false, if_false, reduceCtorEq, or_self, if_true, go,
    List.nil_append]
  rfl

/-- a message up to its body -/
def messageStart : List Event :=
  [.command (.envelopeFrom [60, 62]) false true, .flushed true, .handlerReturns true,
    .reply .cont true, .handlerReturns true, .command .endOfHeader false true, .flushed true,
    .handlerReturns true, .reply .cont true, .handlerReturns true]

theorem run_cons (s : State) (e : Event) (es : List Event) :
    run s (e :: es) = ((run (step s e).1 es).1, ⟨s.option, e, (step s e).1.state, (step s e).2⟩ :: (run (step s e).1 es).2) :=
  rfl

/-- the context after a big chunk was passed to it -/
def afterBig : State :=
  let s := (run State.init (negotiation plainOption ++ messageStart)).1
  { s with
    result := some (Result.told (.body bigChunk) (s.result.getD {})), body := [7], bodyQueue := [1]
    timer := some .writing, nextStates := s.nextStates ++ [.body] }

theorem run_big (es : List Event) :
    run State.init (negotiation plainOption ++ messageStart ++ .command (.body bigChunk) false true :: es) =
      ((run afterBig es).1,
        (run State.init (negotiation plainOption ++ messageStart)).2 ++
          ⟨some plainOption, .command (.body bigChunk) false true, afterBig.state,
            [.wrote (.body (List.replicate Enc.chunkSize 7)), .ret true]⟩ :: (run afterBig es).2) := by
  have h := step_bigChunk (run State.init (negotiation plainOption ++ messageStart)).1
    (by rfl) (by rfl) (by rfl) (by rfl)
  rw [run_append, run_cons, h]
  rfl

theorem AllSucceed.of_outs {t : List Line} {o : List (List Item)} (h : t.map (·.out) = o)
    (ho : ∀ l ∈ o, l.all fine = true) : AllSucceed t := by
  intro l hl
  exact ho l.out (h ▸ List.mem_map_of_mem hl)

theorem start_succeeds : AllSucceed (run State.init (negotiation plainOption ++ messageStart)).2 := by
  refine AllSucceed.of_outs (o := [[.ret true], [.emit .ready], [], [.wrote (.negotiate plainOption), .ret true],
      [.emit (.stateTransited .negotiate)], [], [.emit (.reply (.negotiate plainOption none))], [],
      [.wrote (.envelopeFrom [60, 62]), .ret true], [.emit (.stateTransited .envelopeFrom)], [],
      [.emit (.reply .cont)], [], [.wrote .endOfHeader, .ret true],
      [.emit (.stateTransited .endOfHeader)], [], [.emit (.reply .cont)], []]) (by rfl) (by decide)

theorem big_succeeds (es : List Event) (h : AllSucceed (run afterBig es).2) :
    AllSucceed (run State.init (negotiation plainOption ++ messageStart ++
      .command (.body bigChunk) false true :: es)).2 := by
  rw [run_big]
  intro l hl
  rcases List.mem_append.1 hl with hl | hl
  · exact start_succeeds l hl
  · rcases List.mem_cons.1 hl with rfl | hl
    · rfl
    · exact h l hl

unseal Enc.chunkSize in
/-- C37 does not hold per message: the rest of an oversized chunk is still waiting when its
message is aborted, and goes out at the head of the body of the next message.  No call fails. -/
theorem C37_abort_violated : ∃ es1 es2 : List Event,
    AllSucceed (run State.init es1).2 ∧ AllSucceed (run (run State.init es1).1 es2).2 ∧
      (run State.init es1).1.state = .abort ∧
      es2.head? = some (.command (.envelopeFrom [60, 62]) false true) ∧
      bodyGiven (run (run State.init es1).1 es2).2 = [1] ∧
      bodyWritten (run (run State.init es1).1 es2).2 = [7, 1] := by
  refine ⟨negotiation plainOption ++ messageStart ++ .command (.body bigChunk) false true ::
      [.flushed true, .handlerReturns true, .command .abort false true, .flushed true,
        .handlerReturns true, .handlerReturns true],
    messageStart ++ [.command (.body [1]) false true], ?_, ?_, ?_, rfl, ?_, ?_⟩
  · refine big_succeeds _ (AllSucceed.of_outs (o := [[.emit (.stateTransited .body)], [], [.wrote .abort, .ret true],
      [.emit (.messageProcessed .abort (Result.told (.body bigChunk)
        ((run State.init (negotiation plainOption ++ messageStart)).1.result.getD {})))], [.emit (.stateTransited .abort)], []]) (by rfl) (by decide))
  · rw [run_big]
    refine AllSucceed.of_outs (o := [[.wrote (.envelopeFrom [60, 62]), .ret true], [.emit (.stateTransited .envelopeFrom)], [],
      [.emit (.reply .cont)], [], [.wrote .endOfHeader, .ret true],
      [.emit (.stateTransited .endOfHeader)], [], [.emit (.reply .cont)], [], [.wrote (.body [7, 1]), .ret true]])
      (by rfl) (by decide)
  · rw [run_big]; rfl
  · rw [run_big]; rfl
  · rw [run_big]; rfl

/-- C37 is also violated at the end of a message: when the milter has answered the first part of
an oversized chunk, the end of message is accepted and written before the rest of the body. -/
theorem C37_end_violated : ∃ es : List Event,
    AllSucceed (run State.init es).2 ∧
      (∃ l ∈ (run State.init es).2, Item.wrote (.endOfMessage []) ∈ l.out) ∧
      bodyWritten (run State.init es).2 ≠ bodyGiven (run State.init es).2 := by
  refine ⟨negotiation plainOption ++ messageStart ++ .command (.body bigChunk) false true ::
      [.flushed true, .handlerReturns true, .reply .cont true, .command (.endOfMessage []) false true],
    ?_, ?_, ?_⟩
  · exact big_succeeds _ (AllSucceed.of_outs (o := [[.emit (.stateTransited .body)], [], [.emit (.reply .cont)],
      [.wrote (.endOfMessage []), .ret true]]) (by rfl) (by decide))
  · rw [run_big]
    refine ⟨⟨some plainOption, .command (.endOfMessage []) false true, .body,
      [.wrote (.endOfMessage []), .ret true]⟩, ?_, by simp⟩
    refine List.mem_append_right _ (List.mem_cons_of_mem _ ?_)
    have : (run afterBig [.flushed true, .handlerReturns true, .reply .cont true,
        .command (.endOfMessage []) false true]).2.getLast? =
        some ⟨some plainOption, .command (.endOfMessage []) false true, .body,
          [.wrote (.endOfMessage []), .ret true]⟩ := by rfl
    exact List.mem_of_getLast? this
  · intro h
    have hb := C37_partial (negotiation plainOption ++ messageStart ++
      .command (.body bigChunk) false true ::
      [.flushed true, .handlerReturns true, .reply .cont true, .command (.endOfMessage []) false true])
    rw [← h] at hb
    have h0 := List.append_cancel_left (hb.trans (List.append_nil _).symm)
    rw [run_big] at h0
    revert h0
    rw [show (run afterBig [.flushed true, .handlerReturns true, .reply .cont true,
        .command (.endOfMessage []) false true]).1.body = [7] by rfl]
    simp

unseal Enc.chunkSize in
/-- two small chunks -/
example : bodyWritten (run State.init (negotiation plainOption ++ messageStart ++
      [.command (.body [1, 2]) false true, .flushed true, .handlerReturns true, .reply .cont true,
        .handlerReturns true, .command (.body [3]) false true])).2 = [1, 2, 3] := by rfl

end Verif.Props
