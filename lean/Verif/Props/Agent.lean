import Verif.Spec.Agent
/-
C87: the end of an agent.
-/
namespace Verif.Props.Agent
open Verif Verif.Agent Verif.Spec.Agent

theorem quiet_nil : Quiet [] := ⟨by simp, by simp⟩

theorem quiet_append {a b : List Item} (ha : Quiet a) (hb : Quiet b) : Quiet (a ++ b) :=
  ⟨by simp [ha.1, hb.1], fun x => by simp [ha.2 x, hb.2 x]⟩

theorem quiet_error : Quiet [Item.error] := ⟨by simp, by simp⟩

theorem quiet_flushed : Quiet [Item.flushed] := ⟨by simp, by simp⟩

/-- the agent has ended -/
def Ended (s : State) : Prop := s.finished = true ∧ s.reader = none

/-- the end is said in these items, once, and nothing is decoded after it -/
def Says (t : List Item) : Prop := ∃ p q, t = p ++ .finished :: q ∧ .finished ∉ p ∧ Quiet q

/-- what a part of a run does to the end of an agent -/
def Ok (s : State) (t : List Item) (s' : State) : Prop :=
  (Ended s → Quiet t ∧ Ended s') ∧
  (s.finished = false → (s'.finished = false ∧ .finished ∉ t) ∨ (Ended s' ∧ Says t))

theorem Ok.trans {s s1 s2 : State} {a b : List Item} (h1 : Ok s a s1) (h2 : Ok s1 b s2) : Ok s (a ++ b) s2 := by
  refine ⟨fun h => ?_, fun h => ?_⟩
  · obtain ⟨q1, e1⟩ := h1.1 h
    obtain ⟨q2, e2⟩ := h2.1 e1
    exact ⟨quiet_append q1 q2, e2⟩
  · rcases h1.2 h with ⟨f, n⟩ | ⟨e, p, q, rfl, np, qq⟩
    · rcases h2.2 f with ⟨f2, n2⟩ | ⟨e2, p, q, rfl, np, qq⟩
      · exact .inl ⟨f2, by simp [n, n2]⟩
      · exact .inr ⟨e2, a ++ p, q, by simp, by simp [n, np], qq⟩
    · obtain ⟨q2, e2⟩ := h2.1 e
      exact .inr ⟨e2, p, q ++ b, by simp, np, quiet_append qq q2⟩

/-- nothing happens to the end -/
theorem Ok.same {s s' : State} {t : List Item} (hf : s'.finished = s.finished) (hr : s.reader = none → s'.reader = none)
    (ht : Quiet t) : Ok s t s' :=
  ⟨fun h => ⟨ht, by rw [hf]; exact h.1, hr h.2⟩, fun h => .inl ⟨by rw [hf]; exact h, ht.1⟩⟩

/-- the state is as good as another one -/
theorem Ok.after {s s1 s2 : State} {t : List Item} (h : Ok s t s1) (hf : s2.finished = s1.finished) (hr : s1.reader = none → s2.reader = none) : Ok s t s2 := by
  have := h.trans (Ok.same (s := s1) (s' := s2) hf hr quiet_nil)
  simpa using this

theorem Ok.before {s s1 s2 : State} {t : List Item} (h : Ok s1 t s2) (hf : s1.finished = s.finished) (hr : s.reader = none → s1.reader = none) : Ok s t s2 := by
  have := (Ok.same (s := s) (s' := s1) hf hr quiet_nil).trans h
  simpa using this

theorem start_ok (s : State) : Ok s (start s).2 (start s).1 := by
  unfold start
  split
  · exact Ok.same rfl id ⟨by simp, by simp⟩
  · exact Ok.same rfl (fun h => by simp [h]) quiet_nil

theorem start_facts (s : State) : (start s).1.finished = s.finished ∧ (s.reader = none → (start s).1.reader = none) ∧ Quiet (start s).2 ∧
    (start s).1.shuttingDown = s.shuttingDown := by
  unfold start
  split
  · exact ⟨rfl, id, ⟨by simp, by simp⟩, rfl⟩
  · exact ⟨rfl, fun h => by simp [h], quiet_nil, rfl⟩

theorem innerCalls_facts (cs : List Call) (s : State) : (innerCalls s cs).1.finished = s.finished ∧
    (s.reader = none → (innerCalls s cs).1.reader = none) ∧ Quiet (innerCalls s cs).2 ∧ (innerCalls s cs).1.shuttingDown = s.shuttingDown := by
  induction cs generalizing s with
  | nil => exact ⟨rfl, id, quiet_nil, rfl⟩
  | cons c cs ih =>
    cases c with
    | shutdown => exact ih s
    | start =>
      obtain ⟨a1, a2, a3, a4⟩ := start_facts s
      obtain ⟨b1, b2, b3, b4⟩ := ih (start s).1
      exact ⟨b1.trans a1, fun h => b2 (a2 h), quiet_append a3 b3, b4.trans a4⟩

theorem defaultFinished_ended (s : State) (h : s.reader = none) : Ended (defaultFinished s) := by
  refine ⟨rfl, ?_⟩
  simp [defaultFinished, h]

/-- "finished" is said when there is no reader any more -/
theorem innerFinish_ok (h : List Call) (s : State) (hr : s.reader = none) (hf : s.finished = false) : Ok s (innerFinish h s).2 (innerFinish h s).1 := by
  obtain ⟨_, a2, a3, _⟩ := innerCalls_facts h s
  refine ⟨fun e => absurd e.1 (by simp [hf]), fun _ => .inr ⟨defaultFinished_ended _ (a2 hr), [], (innerCalls s h).2, rfl, by simp, a3⟩⟩

theorem shutdown_ok (h : List Call) (s : State) : Ok s (shutdown h s).2 (shutdown h s).1 := by
  obtain ⟨loop, reader, writer, fin, sd⟩ := s
  unfold shutdown
  cases reader with
  | none =>
    cases fin with
    | true => exact Ok.same rfl (fun _ => rfl) quiet_nil
    | false =>
      exact ((innerFinish_ok h { loop := loop, writer := writer.map shutdownWriter, shuttingDown := true } rfl rfl).before
        (s := { loop := loop, writer := writer, shuttingDown := sd }) rfl (fun _ => rfl)).after rfl id
  | some r =>
    dsimp only
    simp only [Option.isSome_some, Bool.not_true, Bool.false_and, Bool.false_eq_true, if_false, List.append_nil]
    split
    · cases fin with
      | true => exact Ok.same rfl (fun _ => rfl) quiet_nil
      | false =>
        simp only [Bool.false_eq_true, if_false]
        exact ((innerFinish_ok h { loop := loop, writer := writer, shuttingDown := true } rfl rfl).before
          (s := { loop := loop, reader := some r, writer := writer, shuttingDown := sd }) rfl (fun _ => rfl)).after rfl id
    · exact Ok.same rfl (fun e => absurd e (by simp)) quiet_nil

theorem call_ok (h : List Call) (s : State) (c : Call) : Ok s (call h s c).2 (call h s c).1 := by
  cases c with
  | start => exact start_ok s
  | shutdown =>
    unfold call
    dsimp only
    split
    · exact Ok.same rfl id quiet_nil
    · exact shutdown_ok h s

theorem calls_ok (h cs : List Call) (s : State) : Ok s (calls h s cs).2 (calls h s cs).1 := by
  induction cs generalizing s with
  | nil => exact Ok.same rfl id quiet_nil
  | cons c cs ih => exact (call_ok h s c).trans (ih _)

/-- handlers that do not ask for a shut down do nothing about the end -/
theorem calls_start (h cs : List Call) (s : State) (hc : .shutdown ∉ cs) : (calls h s cs).1.finished = s.finished ∧
    (s.reader = none → (calls h s cs).1.reader = none) ∧ Quiet (calls h s cs).2 := by
  induction cs generalizing s with
  | nil => exact ⟨rfl, id, quiet_nil⟩
  | cons c cs ih =>
    cases c with
    | shutdown => simp at hc
    | start =>
      obtain ⟨a1, a2, a3, _⟩ := start_facts s
      obtain ⟨b1, b2, b3⟩ := ih (start s).1 (by simpa using hc)
      exact ⟨b1.trans a1, fun h => b2 (a2 h), quiet_append a3 b3⟩

theorem readerFinished_ok (h : List Call) (s : State) (hh : .shutdown ∉ h) : Ok s (readerFinished h s).2 (readerFinished h s).1 := by
  unfold readerFinished
  dsimp only
  split
  · exact Ok.same rfl (fun _ => rfl) quiet_nil
  · rename_i hf
    obtain ⟨_, a2, a3⟩ := calls_start h h { s with reader := none } hh
    exact ⟨fun e => absurd e.1 hf, fun _ => .inr ⟨defaultFinished_ended _ (a2 rfl), [], _, rfl, by simp, a3⟩⟩

/-- what is decoded by an agent that has a reader -/
theorem decoded_ok (s : State) (t : List Item) (hr : s.reader ≠ none) (ht : .finished ∉ t) : Ok s t s :=
  ⟨fun e => absurd e.2 hr, fun h => .inl ⟨h, ht⟩⟩

/-- a reader that is in its callback stays while handlers run -/
def Busy (s : State) : Prop := ∃ r, s.reader = some r ∧ r.watching = true ∧ (r.processing = true ∨ r.requested = true)

theorem start_busy (s : State) (b : Busy s) : Busy (start s).1 := by
  obtain ⟨r, e, w, p⟩ := b
  unfold start
  split
  · exact ⟨r, e, w, p⟩
  · exact ⟨startReader r, by simp [e], rfl, p⟩

theorem shutdown_busy (h : List Call) (s : State) (b : Busy s) : Busy (shutdown h s).1 ∧ (shutdown h s).1.finished = s.finished ∧
    (shutdown h s).2 = [] ∧ ∃ r, (shutdown h s).1.reader = some r ∧ r.requested = true := by
  obtain ⟨r, e, w, p⟩ := b
  have e2 : shutdownReader r = ({ r with requested := true }, false) := by
    unfold shutdownReader
    rw [w]
    cases hq : r.requested with
    | true => cases r; simp_all
    | false =>
      have : r.processing = true := by simpa [hq] using p
      simp [this]
  unfold shutdown
  simp only [e, e2]
  simp only [Option.isSome_some, Bool.not_true, Bool.false_and, Bool.false_eq_true, if_false, List.append_nil]
  exact ⟨⟨_, rfl, w, .inr rfl⟩, trivial, trivial, _, rfl, rfl⟩

/-- the reader was asked to end -/
def Asked (s : State) : Prop := ∃ r, s.reader = some r ∧ r.requested = true

theorem start_asked (s : State) (b : Asked s) : Asked (start s).1 := by
  obtain ⟨r, e, w⟩ := b
  unfold start
  split
  · exact ⟨r, e, w⟩
  · exact ⟨startReader r, by simp [e], w⟩

/-- while the reader is in its callback handlers can only ask for the end -/
theorem calls_busy (h cs : List Call) (s : State) (b : Busy s) (hs : s.shuttingDown = false) : Busy (calls h s cs).1 ∧
    (calls h s cs).1.finished = s.finished ∧ Quiet (calls h s cs).2 ∧ (calls h s cs).1.shuttingDown = false ∧
    (Asked s → Asked (calls h s cs).1) ∧ (.shutdown ∈ cs → Asked (calls h s cs).1) := by
  induction cs generalizing s with
  | nil => exact ⟨b, rfl, quiet_nil, hs, id, by simp⟩
  | cons c cs ih =>
    cases c with
    | start =>
      obtain ⟨a1, _, a3, a4⟩ := start_facts s
      obtain ⟨b1, b2, b3, b4, b5, b6⟩ := ih (start s).1 (start_busy s b) (a4.trans hs)
      exact ⟨b1, b2.trans a1, quiet_append a3 b3, b4, fun h => b5 (start_asked s h), fun h => b6 (by simpa using h)⟩
    | shutdown =>
      obtain ⟨c1, c2, c3, c4⟩ := shutdown_busy h s b
      have e : call h s .shutdown = shutdown h s := by simp [call, hs]
      have hs' : (shutdown h s).1.shuttingDown = false := rfl
      obtain ⟨b1, b2, b3, b4, b5, b6⟩ := ih (shutdown h s).1 c1 hs'
      refine ⟨?_, ?_, ?_, ?_, ?_, ?_⟩
      · simpa [calls, e] using b1
      · simpa [calls, e] using b2.trans c2
      · simpa [calls, e, c3] using b3
      · simpa [calls, e] using b4
      · intro _; simpa [calls, e] using b5 c4
      · intro _; simpa [calls, e] using b5 c4

theorem reads_busy (h : List Call) (rs : List Read) (s : State) (b : Busy s) (hs : s.shuttingDown = false) : Busy (reads h s rs).1 ∧
    (reads h s rs).1.finished = s.finished ∧ .finished ∉ (reads h s rs).2 ∧ (reads h s rs).1.shuttingDown = false ∧
    (Asked s → Asked (reads h s rs).1) ∧ ((∃ r ∈ rs, .shutdown ∈ r.handler) → Asked (reads h s rs).1) := by
  induction rs generalizing s with
  | nil => exact ⟨b, rfl, by simp [reads], hs, id, by simp⟩
  | cons r rs ih =>
    obtain ⟨a1, a2, a3, a4, a5, a6⟩ := calls_busy h r.handler s b hs
    obtain ⟨b1, b2, b3, b4, b5, b6⟩ := ih (calls h s r.handler).1 a1 a4
    refine ⟨b1, b2.trans a2, ?_, b4, fun x => b5 (a5 x), ?_⟩
    · unfold reads
      dsimp only
      have := a3.1
      split <;> simp [this, b3]
    · rintro ⟨r', hr', hx⟩
      rcases List.mem_cons.mp hr' with e | hr'
      · subst e; exact b5 (a6 hx)
      · exact b6 ⟨r', hr', hx⟩

theorem busy_ok {s s' : State} {t : List Item} (hr : s.reader ≠ none) (hf : s'.finished = s.finished) (ht : .finished ∉ t) : Ok s t s' :=
  ⟨fun e => absurd e.2 hr, fun h => .inl ⟨hf.trans h, ht⟩⟩

/-- the event loop is in no callback -/
def Idle (s : State) : Prop := s.shuttingDown = false ∧ ∀ r, s.reader = some r → r.processing = false ∧ r.requested = false

theorem busy_processing (s : State) (hr : reading s = true) : Busy (onReader (fun r => { r with processing := true }) s) := by
  unfold reading at hr
  cases e : s.reader with
  | none => simp [e] at hr
  | some r => exact ⟨{ r with processing := true }, by simp [onReader, e], by simpa [e] using hr, .inl rfl⟩

theorem busy_requested (s : State) (hr : reading s = true) : Busy (onReader (fun r => { r with requested := true }) s) := by
  unfold reading at hr
  cases e : s.reader with
  | none => simp [e] at hr
  | some r => exact ⟨{ r with requested := true }, by simp [onReader, e], by simpa [e] using hr, .inr rfl⟩

theorem busy_reading {s : State} (b : Busy s) : reading s = true := by
  obtain ⟨r, e, w, _⟩ := b
  simp [reading, e, w]

theorem reading_some {s : State} (hr : reading s = true) : s.reader ≠ none := by
  intro e
  simp [reading, e] at hr

theorem asked_requested (s : State) (h : reading s = true) : Asked (onReader (fun r => { r with requested := true }) s) := by
  unfold reading at h
  cases e : s.reader with
  | none => simp [e] at h
  | some r => exact ⟨{ r with requested := true }, by simp [onReader, e], rfl⟩

theorem readable_ok (h : List Call) (s : State) (rs : List Read) (o : Outcome) (hh : .shutdown ∉ h) (hs : s.shuttingDown = false) (hr : reading s = true) :
    Ok s (readable h s rs o).2 (readable h s rs o).1 := by
  obtain ⟨a1, a2, a3, a4, _, _⟩ := reads_busy h rs _ (busy_processing s hr) hs
  have key : ∀ s1 : State, ∀ t : List Item, s1.finished = s.finished → .finished ∉ t →
      Ok s (t ++ (readerFinished h s1).2) (readerFinished h s1).1 := fun s1 t hf ht =>
    (busy_ok (reading_some hr) hf ht).trans (readerFinished_ok h s1 hh)
  have keep : ∀ s1 : State, ∀ t : List Item, s1.finished = s.finished → .finished ∉ t → Ok s t s1 :=
    fun s1 t hf ht => busy_ok (reading_some hr) hf ht
  unfold readable
  dsimp only
  cases o with
  | more =>
    dsimp only
    split
    · simpa using key _ _ a2 a3
    · exact keep _ _ a2 (by simpa using a3)
  | closed =>
    dsimp only
    simp only [Bool.true_or, if_true, List.append_nil]
    exact key _ _ a2 a3
  | failed handler =>
    dsimp only
    obtain ⟨b1, b2, b3, _⟩ := calls_busy h handler _ (busy_requested _ (busy_reading a1)) a4
    simp only [Bool.true_or, if_true]
    refine key _ _ (b2.trans a2) ?_
    simp [a3, b3.1]

theorem readerError_ok (h : List Call) (s : State) (hd : Option (List Call)) (hh : .shutdown ∉ h) (hs : s.shuttingDown = false) (hr : reading s = true) :
    Ok s (readerError h s hd).2 (readerError h s hd).1 := by
  unfold readerError
  dsimp only
  cases hd with
  | none =>
    dsimp only
    exact (readerFinished_ok h _ hh).before rfl (fun e => absurd e (reading_some hr))
  | some cs =>
    dsimp only
    obtain ⟨b1, b2, b3, _⟩ := calls_busy h cs _ (busy_requested s hr) hs
    have := (busy_ok (s := s) (t := .error :: (calls h (onReader (fun r => { r with requested := true }) s) cs).2) (reading_some hr) b2 (by simp [b3.1])).trans
      (readerFinished_ok h (calls h (onReader (fun r => { r with requested := true }) s) cs).1 hh)
    exact this

theorem error_calls_ok (h cs : List Call) (s : State) (x : Item) (hx : Quiet [x]) : Ok s (x :: (calls h s cs).2) (calls h s cs).1 :=
  (Ok.same (s := s) (s' := s) rfl id hx).trans (calls_ok h cs s)

theorem step_ok (h : List Call) (s : State) (e : Event) (hh : .shutdown ∉ h) (hs : s.shuttingDown = false) (he : ∀ p, e ≠ .setReader p) :
    Ok s (step h s e).2 (step h s e).1 := by
  cases e with
  | setLoop => exact Ok.same rfl id quiet_nil
  | setReader p => exact absurd rfl (he p)
  | setWriter p => exact Ok.same rfl id quiet_nil
  | call c => exact call_ok h s c
  | readable rs o =>
    unfold step; dsimp only; split
    · rename_i hr; exact readable_ok h s rs o hh hs hr
    · exact Ok.same rfl id quiet_nil
  | readerError hd =>
    unfold step; dsimp only; split
    · rename_i hr; exact readerError_ok h s hd hh hs hr
    · exact Ok.same rfl id quiet_nil
  | writerError hd =>
    unfold step; dsimp only; split
    · exact (error_calls_ok h hd s .error quiet_error).after rfl id
    · exact Ok.same rfl id quiet_nil
  | writeFailed hd =>
    unfold step; dsimp only; split
    · exact error_calls_ok h hd s .error quiet_error
    · exact Ok.same rfl id quiet_nil
  | writerFlushed hd =>
    unfold step; dsimp only; split
    · exact error_calls_ok h hd s .flushed quiet_flushed
    · exact Ok.same rfl id quiet_nil

theorem call_shuttingDown (h : List Call) (s : State) (c : Call) (hs : s.shuttingDown = false) : (call h s c).1.shuttingDown = false := by
  cases c with
  | start => exact (start_facts s).2.2.2.trans hs
  | shutdown => simp only [call, hs, Bool.false_eq_true, if_false]; rfl

theorem calls_shuttingDown (h cs : List Call) (s : State) (hs : s.shuttingDown = false) : (calls h s cs).1.shuttingDown = false := by
  induction cs generalizing s with
  | nil => exact hs
  | cons c cs ih => exact ih _ (call_shuttingDown h s c hs)

theorem reads_shuttingDown (h : List Call) (rs : List Read) (s : State) (hs : s.shuttingDown = false) : (reads h s rs).1.shuttingDown = false := by
  induction rs generalizing s with
  | nil => exact hs
  | cons r rs ih => exact ih _ (calls_shuttingDown h r.handler s hs)

theorem readerFinished_shuttingDown (h : List Call) (s : State) (hs : s.shuttingDown = false) : (readerFinished h s).1.shuttingDown = false := by
  unfold readerFinished
  dsimp only
  split
  · exact hs
  · exact calls_shuttingDown h h _ hs

theorem step_shuttingDown (h : List Call) (s : State) (e : Event) (hs : s.shuttingDown = false) : (step h s e).1.shuttingDown = false := by
  cases e with
  | setLoop => exact hs
  | setReader p => exact hs
  | setWriter p => exact hs
  | call c => exact call_shuttingDown h s c hs
  | readable rs o =>
    unfold step; dsimp only; split
    · unfold readable
      dsimp only
      have a := reads_shuttingDown h rs (onReader (fun r => { r with processing := true }) s) hs
      cases o with
      | more =>
        dsimp only
        split
        · exact readerFinished_shuttingDown h _ a
        · exact a
      | closed =>
        simp only [Bool.true_or, if_true]
        exact readerFinished_shuttingDown h _ a
      | failed hd =>
        simp only [Bool.true_or, if_true]
        exact readerFinished_shuttingDown h _ (calls_shuttingDown h hd _ a)
    · exact hs
  | readerError hd =>
    unfold step; dsimp only; split
    · unfold readerError
      dsimp only
      cases hd with
      | none => exact readerFinished_shuttingDown h _ hs
      | some cs => exact readerFinished_shuttingDown h _ (calls_shuttingDown h cs _ hs)
    · exact hs
  | writerError hd =>
    unfold step; dsimp only; split
    · exact calls_shuttingDown h hd s hs
    · exact hs
  | writeFailed hd =>
    unfold step; dsimp only; split
    · exact calls_shuttingDown h hd s hs
    · exact hs
  | writerFlushed hd =>
    unfold step; dsimp only; split
    · exact calls_shuttingDown h hd s hs
    · exact hs

theorem run_ok (h : List Call) (es : List Event) (s : State) (hh : .shutdown ∉ h) (hs : s.shuttingDown = false) (he : KeepsReader es) :
    Ok s (run h s es).2 (run h s es).1 := by
  induction es generalizing s with
  | nil => exact Ok.same rfl id quiet_nil
  | cons e es ih =>
    have h1 : ∀ p, e ≠ .setReader p := fun p x => he p (by simp [x])
    have h2 : KeepsReader es := fun p x => he p (by simp [x])
    exact (step_ok h s e hh hs h1).trans (ih _ (step_shuttingDown h s e hs) h2)

/-- **C87** (partial): once it has got its reader, whatever happens to it and whatever its handlers do, an agent says at most once that it has finished,
and decodes nothing after that - if the handlers of "finished" do not ask it to shut down.  -/
theorem C87_partial (h : List Call) (loop : Bool) (reader : Option Verif.Agent.Reader) (writer : Option Verif.Agent.Writer) (es : List Event) (hh : .shutdown ∉ h) (he : KeepsReader es) :
    OneEnd (run h { loop := loop, reader := reader, writer := writer } es).2 := by
  intro p q e
  rcases (run_ok h es { loop := loop, reader := reader, writer := writer } hh rfl he).2 rfl with ⟨_, n⟩ | ⟨_, p', q', e', np, qq⟩
  · rw [e] at n; simp at n
  · rw [e'] at e
    rcases List.append_eq_append_iff.mp e with ⟨a, e1, e2⟩ | ⟨c, e1, e2⟩
    · cases a with
      | nil => simp only [List.nil_append, List.cons.injEq, true_and] at e2; exact e2 ▸ qq
      | cons x a =>
        simp only [List.cons_append, List.cons.injEq] at e2
        exact absurd (by rw [e2.2]; simp) qq.1
    · cases c with
      | nil => simp only [List.nil_append, List.cons.injEq, true_and] at e2; exact e2 ▸ qq
      | cons x c =>
        simp only [List.cons_append, List.cons.injEq] at e2
        exact absurd (by rw [e1, e2.1]; simp) np

/-- the end is said if it has to be -/
theorem defaultFinished_finished (s : State) : (defaultFinished s).finished = true := rfl

theorem readerFinished_says (h : List Call) (s : State) (hf : s.finished = false) : .finished ∈ (readerFinished h s).2 ∧ (readerFinished h s).1.finished = true := by
  simp [readerFinished, hf, finish, defaultFinished]

/-- a shut down of an agent that does not wait in a callback says the end if it has not been said -/
theorem shutdown_says (h : List Call) (s : State) (hf : s.finished = false) (hr : reading s = true) (hi : Idle s) :
    .finished ∈ (shutdown h s).2 ∧ (shutdown h s).1.finished = true := by
  obtain ⟨loop, reader, writer, fin, sd⟩ := s
  cases reader with
  | none => simp [reading] at hr
  | some r =>
    obtain ⟨h1, h2⟩ := hi.2 r rfl
    obtain ⟨w, q, p⟩ := r
    simp only [reading] at hr
    simp only at h1 h2 hr hf
    subst h1 h2 hr hf
    simp [shutdown, shutdownReader, innerFinish, defaultFinished]

theorem idle_call_start (s : State) (hi : Idle s) : Idle (start s).1 := by
  unfold start
  split
  · exact hi
  · refine ⟨hi.1, fun r e => ?_⟩
    cases er : s.reader with
    | none => simp [er] at e
    | some r0 =>
      have := hi.2 r0 er
      simp only [er, Option.map_some, Option.some.injEq] at e
      subst e
      exact this

theorem start_reading (s : State) (hr : reading s = true) : reading (start s).1 = true := by
  unfold start
  split
  · exact hr
  · cases er : s.reader with
    | none => simp [reading, er] at hr
    | some r0 => simp [reading, startReader]

theorem calls_says (h cs : List Call) (s : State) (hf : s.finished = false) (hr : reading s = true) (hi : Idle s) (hc : .shutdown ∈ cs) :
    .finished ∈ (calls h s cs).2 ∧ (calls h s cs).1.finished = true := by
  induction cs generalizing s with
  | nil => simp at hc
  | cons c cs ih =>
    cases c with
    | start =>
      obtain ⟨a, b⟩ := ih (start s).1 ((start_facts s).1.trans hf) (start_reading s hr) (idle_call_start s hi) (by simpa using hc)
      exact ⟨by simp [calls, call, a], b⟩
    | shutdown =>
      obtain ⟨a, b⟩ := shutdown_says h s hf hr hi
      have e : call h s .shutdown = shutdown h s := by simp [call, hi.1]
      refine ⟨by simp [calls, e, a], ?_⟩
      have hk := (calls_ok h cs (shutdown h s).1)
      have : Ended (shutdown h s).1 := by
        rcases (shutdown_ok h s).2 hf with ⟨x, _⟩ | ⟨x, _⟩
        · rw [b] at x; cases x
        · exact x
      have := (hk.1 this).2.1
      simpa [calls, e] using this

/-- nobody waits in a callback after a call from outside -/
theorem shutdown_idle (h : List Call) (s : State) (hi : Idle s) : Idle (shutdown h s).1 := by
  obtain ⟨loop, reader, writer, fin, sd⟩ := s
  refine ⟨rfl, ?_⟩
  cases reader with
  | none =>
    intro r e
    have : (shutdown h { loop := loop, reader := none, writer := writer, finished := fin, shuttingDown := sd }).1.reader = none := by
      cases fin with
      | true => rfl
      | false =>
        have := (defaultFinished_ended _ ((innerCalls_facts h { loop := loop, writer := writer.map shutdownWriter, shuttingDown := true }).2.1 rfl)).2
        exact this
    rw [this] at e; cases e
  | some r =>
    obtain ⟨h1, h2⟩ := hi.2 r rfl
    obtain ⟨w, q, p⟩ := r
    simp only at h1 h2
    subst h1 h2
    intro r e
    cases w with
    | false =>
      simp only [shutdown, shutdownReader] at e
      simp at e
      subst e
      exact ⟨rfl, rfl⟩
    | true =>
      cases fin with
      | true => simp [shutdown, shutdownReader] at e
      | false =>
        have := (defaultFinished_ended _ ((innerCalls_facts h { loop := loop, writer := writer, shuttingDown := true }).2.1 rfl)).2
        have e2 : (shutdown h { loop := loop, reader := some { watching := true }, writer := writer, finished := false, shuttingDown := sd }).1.reader = none := this
        rw [e2] at e; cases e

theorem calls_idle (h cs : List Call) (s : State) (hi : Idle s) : Idle (calls h s cs).1 := by
  induction cs generalizing s with
  | nil => exact hi
  | cons c cs ih =>
    refine ih _ ?_
    cases c with
    | start => exact idle_call_start s hi
    | shutdown =>
      simp only [call, hi.1, Bool.false_eq_true, if_false]
      exact shutdown_idle h s hi

theorem calls_none (h cs : List Call) (s : State) (hr : s.reader = none) : (calls h s cs).1.reader = none := by
  induction cs generalizing s with
  | nil => exact hr
  | cons c cs ih =>
    refine ih _ ?_
    cases c with
    | start => exact (start_facts s).2.1 hr
    | shutdown =>
      unfold call
      dsimp only
      split
      · exact hr
      · obtain ⟨loop, reader, writer, fin, sd⟩ := s
        cases hr
        cases fin with
        | true => rfl
        | false => exact (defaultFinished_ended _ ((innerCalls_facts h { loop := loop, writer := writer.map shutdownWriter, shuttingDown := true }).2.1 rfl)).2

theorem readerFinished_none (h : List Call) (s : State) : (readerFinished h s).1.reader = none := by
  unfold readerFinished
  dsimp only
  split
  · rfl
  · exact (defaultFinished_ended _ (calls_none h h { s with reader := none } rfl)).2

theorem idle_of_none {s : State} (hs : s.shuttingDown = false) (hr : s.reader = none) : Idle s :=
  ⟨hs, fun r e => by rw [hr] at e; cases e⟩

theorem step_idle (h : List Call) (s : State) (e : Event) (hi : Idle s) : Idle (step h s e).1 := by
  have hs := step_shuttingDown h s e hi.1
  cases e with
  | setLoop => exact hi
  | setReader p =>
    refine ⟨hi.1, fun r e => ?_⟩
    cases p with
    | true => simp only [step, if_true, Option.some.injEq] at e; subst e; exact ⟨rfl, rfl⟩
    | false => simp [step] at e
  | setWriter p => exact hi
  | call c =>
    cases c with
    | start => exact idle_call_start s hi
    | shutdown =>
      simp only [step, call, hi.1, Bool.false_eq_true, if_false]
      exact shutdown_idle h s hi
  | readable rs o =>
    by_cases hr : reading s = true
    · obtain ⟨a1, a2, a3, a4, _, _⟩ := reads_busy h rs _ (busy_processing s hr) hi.1
      refine ⟨hs, ?_⟩
      simp only [step, hr, if_true]
      unfold readable
      dsimp only
      cases o with
      | more =>
        dsimp only
        split
        · intro r e; rw [readerFinished_none] at e; cases e
        · rename_i hn
          intro r e
          obtain ⟨r0, e0, _⟩ := a1
          simp only [e0, Bool.false_or] at hn
          have e1 : some { r0 with processing := false } = some r := by
            rw [← e]
            show _ = Option.map _ _
            rw [e0]; rfl
          cases e1
          exact ⟨rfl, by simpa using hn⟩
      | closed =>
        simp only [Bool.true_or, if_true]
        intro r e; rw [readerFinished_none] at e; cases e
      | failed hd =>
        simp only [Bool.true_or, if_true]
        intro r e; rw [readerFinished_none] at e; cases e
    · simpa [step, hr] using hi
  | readerError hd =>
    by_cases hr : reading s = true
    · refine idle_of_none hs ?_
      simp only [step, hr, if_true, readerError]
      cases hd with
      | none => exact readerFinished_none h _
      | some cs => exact readerFinished_none h _
    · simpa [step, hr] using hi
  | writerError hd =>
    unfold step; dsimp only; split
    · exact calls_idle h hd s hi
    · exact hi
  | writeFailed hd =>
    unfold step; dsimp only; split
    · exact calls_idle h hd s hi
    · exact hi
  | writerFlushed hd =>
    unfold step; dsimp only; split
    · exact calls_idle h hd s hi
    · exact hi

theorem run_idle (h : List Call) (es : List Event) (s : State) (hi : Idle s) : Idle (run h s es).1 := by
  induction es generalizing s with
  | nil => exact hi
  | cons e es ih => exact ih _ (step_idle h s e hi)

/-- what ends an agent that reads makes it say so -/
theorem step_ends (h : List Call) (s : State) (e : Event) (hf : s.finished = false) (hr : reading s = true) (hi : Idle s) (he : Ends (writing s) e) :
    .finished ∈ (step h s e).2 ∧ (step h s e).1.finished = true := by
  have rd : ∀ rs o, (o = .more → ∃ r ∈ rs, .shutdown ∈ r.handler) →
      .finished ∈ (step h s (.readable rs o)).2 ∧ (step h s (.readable rs o)).1.finished = true := by
    intro rs o ho
    obtain ⟨a1, a2, a3, a4, _, a6⟩ := reads_busy h rs _ (busy_processing s hr) hi.1
    simp only [step, hr, if_true]
    unfold readable
    dsimp only
    cases o with
    | more =>
      obtain ⟨r, e, q⟩ := a6 (ho rfl)
      obtain ⟨b1, b2⟩ := readerFinished_says h _ (a2.trans hf)
      simp only [e, q, Bool.or_true, if_true]
      exact ⟨by simp [b1], b2⟩
    | closed =>
      obtain ⟨b1, b2⟩ := readerFinished_says h _ (a2.trans hf)
      simp only [Bool.true_or, if_true]
      exact ⟨by simp [b1], b2⟩
    | failed hd =>
      obtain ⟨c1, c2, _⟩ := calls_busy h hd _ (busy_requested _ (busy_reading a1)) a4
      obtain ⟨b1, b2⟩ := readerFinished_says h _ (c2.trans (a2.trans hf))
      simp only [Bool.true_or, if_true]
      exact ⟨by simp [b1], b2⟩
  cases he with
  | asked =>
    have e : step h s (.call .shutdown) = shutdown h s := by simp [step, call, hi.1]
    rw [e]
    exact shutdown_says h s hf hr hi
  | closed rs => exact rd rs .closed (fun x => nomatch x)
  | failed rs hd => exact rd rs (.failed hd) (fun x => nomatch x)
  | handler rs o r h1 h2 => exact rd rs o (fun _ => ⟨r, h1, h2⟩)
  | error hd =>
    simp only [step, hr, if_true]
    cases hd with
    | none => exact readerFinished_says h _ hf
    | some cs =>
      obtain ⟨c1, c2, _⟩ := calls_busy h cs _ (busy_requested s hr) hi.1
      obtain ⟨b1, b2⟩ := readerFinished_says h _ (c2.trans hf)
      exact ⟨by simp [readerError, b1], b2⟩
  | writer hd hw hc =>
    simp only [step, hw, if_true]
    obtain ⟨a, b⟩ := calls_says h hd s hf hr hi hc
    exact ⟨by simp [writerError, a], b⟩
  | write hd hw hc =>
    simp only [step, hw, if_true]
    obtain ⟨a, b⟩ := calls_says h hd s hf hr hi hc
    exact ⟨by simp [writeFailed, a], b⟩
  | flushed hd hw hc =>
    simp only [step, hw, if_true]
    obtain ⟨a, b⟩ := calls_says h hd s hf hr hi hc
    exact ⟨by simp [writerFlushed, a], b⟩

/-- **C87**: whatever happened to an agent before, if it reads and has not finished, and is asked to shut down, by its owner or by a handler of any of its
signals, or its peer closes the connection, or reading fails, it says at once that it has finished. -/
theorem C87_ends (h : List Call) (es : List Event) (e : Event) (hf : (run h {} es).1.finished = false) (hr : reading (run h {} es).1 = true)
    (he : Ends (writing (run h {} es).1) e) : .finished ∈ (step h (run h {} es).1 e).2 :=
  (step_ends h _ e hf hr (run_idle h es {} ⟨rfl, fun _ x => nomatch x⟩) he).1

/-- an agent with a reader and a writer which was started -/
def started : State := { loop := true, reader := some { watching := true }, writer := some { watching := true } }

example : (run [] {} [.setLoop, .setReader true, .setWriter true, .call .start]).1 = started := by decide

example : started.finished = false ∧ reading started = true ∧ writing started = true ∧ Idle started :=
  ⟨rfl, rfl, rfl, rfl, by intro r h; cases h; exact ⟨rfl, rfl⟩⟩

/-- the agent of a filter that is told to quit: the handler of what is decoded asks for a shut down -/
example : (run [] started [.readable [{ bytes := [1] }] .more, .readable [{ bytes := [2], handler := [.shutdown] }] .more, .call .shutdown]).2 =
    [.decoded [1], .decoded [2], .finished] := by decide

/-- **C87** is violated: if the peer closes the connection and a handler of "finished" asks the agent to shut down, the end is said twice. -/
theorem C87_violated : ∃ h es, KeepsReader es ∧ (run h started es).2 = [.finished, .finished] :=
  ⟨[.shutdown], [.readable [] .closed], by intro p; simp, by decide⟩

/-- **C87** is violated: an agent which got its reader but was not started, or could not be, never says that it has finished, however often it is asked to
shut down. -/
theorem C87_unstarted_violated (h : List Call) (loop : Bool) (n : Nat) :
    (run h { loop := loop, reader := some {}, writer := some {} } (List.replicate n (.call .shutdown))).2 = [] := by
  induction n with
  | zero => rfl
  | succ n ih =>
    have e : step h { loop := loop, reader := some {}, writer := some {} } (.call .shutdown) = ({ loop := loop, reader := some {}, writer := some {} }, []) := rfl
    simp only [List.replicate_succ, run, e]
    simpa using ih

end Verif.Props.Agent
