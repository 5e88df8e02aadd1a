import Verif.Spec.ClientReport
import Verif.Client.LibMilterFacts
/-
C138: a milter is told once of each message with what became of it.
-/
namespace Verif.Props
open Verif Verif.Client Verif.Spec.ClientReport

namespace ClientReport

/-- an event after which the same reports are due -/
def neutral : Event → Bool
  | .got (.defineMacro _ _) | .got .quit | .wrote _ | .error | .called _ _ | .answeredNegotiate _ _ | .timedOut | .shutdown => true
  | .answered k _ => k != .endOfMessage
  | _ => false

theorem account_neutral {b : List Status × Bool} {e : Event} (h : neutral e = true) : account b e = b := by
  cases e with
  | got c => cases c <;> first | rfl | (cases h; done)
  | answered k v => cases k <;> first | rfl | (cases h; done)
  | _ => first | rfl | (cases h; done)

theorem reports_neutral {e : Event} (h : neutral e = true) : reports [e] = [] := by
  cases e with
  | processed v => cases h
  | _ => rfl

theorem reports_snoc (l : List Event) (e : Event) : reports (l ++ [e]) = reports l ++ reports [e] := by
  simp [reports]

/-- what is due, and whether something can become due -/
abbrev total (l : List Event) : List Status × Bool := l.foldl account ([], false)

theorem total_snoc (l : List Event) (e : Event) : total (l ++ [e]) = account (total l) e := by simp [total]

theorem kept {es : List Event} : ∀ {l : List Event}, (∀ e ∈ es, neutral e = true) →
    reports (l ++ es) = reports l ∧ total (l ++ es) = total l := by
  induction es with
  | nil => intro l _; simp
  | cons e es ih =>
    intro l h
    have he := h e List.mem_cons_self
    have : l ++ e :: es = (l ++ [e]) ++ es := by simp
    rw [this]
    obtain ⟨i1, i2⟩ := ih (l := l ++ [e]) fun x hx => h x (List.mem_cons_of_mem _ hx)
    rw [i1, i2, reports_snoc, total_snoc, reports_neutral he, account_neutral he, List.append_nil]
    exact ⟨rfl, rfl⟩

/-- the reports are those due -/
structure Told (s : State) : Prop where
  told : reports s.log = (total s.log).1
  result : s.result = (total s.log).2

/-- the reports are those due, and none can become due by the answer to the end of a message -/
structure Shut (s : State) : Prop where
  told : reports s.log = (total s.log).1
  shut : (total s.log).2 = false

theorem Told.more {s s' : State} (h : Told s) {es : List Event} (hl : s'.log = s.log ++ es) (hn : ∀ e ∈ es, neutral e = true)
    (hr : s'.result = s.result) : Told s' := by
  obtain ⟨k1, k2⟩ := kept (l := s.log) hn
  exact ⟨by rw [hl, k1, k2]; exact h.told, by rw [hr, hl, k2]; exact h.result⟩

theorem Shut.more {s s' : State} (h : Shut s) {es : List Event} (hl : s'.log = s.log ++ es) (hn : ∀ e ∈ es, neutral e = true) :
    Shut s' := by
  obtain ⟨k1, k2⟩ := kept (l := s.log) hn
  exact ⟨by rw [hl, k1, k2]; exact h.told, by rw [hl, k2]; exact h.shut⟩

theorem quiet_neutral {e : Event} (h : quietEvent e = true) : neutral e = true := by
  cases e <;> first | rfl | (cases h; done)

/-- what a call that is not the answer to the end of a message does -/
theorem call_log (order : Requests → Requests) (s : State) (c : Call) (hc : ∀ v, c ≠ .respond .endOfMessage v) :
    ∃ es, (callNoted order s c).log = s.log ++ es ∧ (∀ e ∈ es, neutral e = true) ∧ (callNoted order s c).result = s.result := by
  have noted : ∀ {c : Call}, callNoted order s c = (call order s c).2.note (.called c (call order s c).1) → writes c = true →
      ∃ es, (callNoted order s c).log = s.log ++ es ∧ (∀ e ∈ es, neutral e = true) ∧ (callNoted order s c).result = s.result := by
    intro c he hw
    have hq := call_quiet order s c hw
    obtain ⟨es, h1, h2⟩ := hq.log
    rw [he]
    refine ⟨es ++ [.called c (call order s c).1], ?_, ?_, hq.result⟩
    · show (call order s c).2.log ++ _ = _
      rw [h1, List.append_assoc]
    · intro e h
      rcases List.mem_append.mp h with h | h
      · exact quiet_neutral (h2 e h)
      · rw [List.mem_singleton.mp h]; rfl
  have single : ∀ e : Event, neutral e = true → ∀ x ∈ [e], neutral x = true := fun e h x hx => by
    rw [List.mem_singleton.mp hx]; exact h
  have answer : ∀ {s0 s1 : State} (e : Event), neutral e = true → s0.log = s.log ++ [e] → s0.result = s.result → Quiet s0 s1 →
      ∃ es, s1.log = s.log ++ es ∧ (∀ e ∈ es, neutral e = true) ∧ s1.result = s.result := by
    intro s0 s1 e he hl hr hq
    obtain ⟨es, h1, h2⟩ := hq.log
    refine ⟨e :: es, by rw [h1, hl]; simp, ?_, hq.result.trans hr⟩
    intro x hx
    rcases List.mem_cons.mp hx with rfl | hx
    · exact he
    · exact quiet_neutral (h2 x hx)
  cases c with
  | setReply code ext message => exact ⟨[_], rfl, single _ rfl, rfl⟩
  | quarantine reason => exact ⟨[_], rfl, single _ rfl, rfl⟩
  | setBufferSize n => exact ⟨[_], rfl, single _ rfl, rfl⟩
  | setShelf k v => exact ⟨[_], rfl, single _ rfl, rfl⟩
  | respondAbort v =>
    refine ⟨[.called (.respondAbort v) true], ?_, single _ rfl, ?_⟩
    · show ((respondAbort s v).note _).log = _
      unfold respondAbort
      dsimp only
      split <;> rfl
    · show ((respondAbort s v).note _).result = _
      unfold respondAbort
      dsimp only
      split <;> rfl
  | respondNegotiate o r v =>
    show ∃ es, (respondNegotiate order (s.note _) o r v).log = _ ∧ _ ∧ (respondNegotiate order (s.note _) o r v).result = _
    unfold respondNegotiate
    dsimp only
    have hset : ∀ t : State, (setSt t (.replied .negotiate)).log = t.log ∧ (setSt t (.replied .negotiate)).result = t.result :=
      fun _ => ⟨rfl, rfl⟩
    generalize hv : (if v = Status.default then Status.allOptions else v) = w
    obtain ⟨s0, hs0⟩ : ∃ s0, s0 = if w = .continue_ then
      { setSt { s.note (.answeredNegotiate o v) with status := w } (.replied .negotiate) with option := o } else
        setSt { s.note (.answeredNegotiate o v) with status := w } (.replied .negotiate) := ⟨_, rfl⟩
    have h0 : s0.log = s.log ++ [.answeredNegotiate o v] ∧ s0.result = s.result := by
      rw [hs0]; split <;> exact ⟨rfl, rfl⟩
    rw [← hs0]
    split
    · generalize Enc.pack _ = p
      exact answer _ rfl (s0 := { s0 with enc := p }) h0.1 h0.2 (writePacket_quiet { s0 with enc := p } p)
    · split
      · split
        · rename_i p s' hp
          have hq := packContent_quiet s0 [0x72]
          rw [hp] at hq
          exact answer _ rfl h0.1 h0.2 (hq.trans (writePacket_quiet s' p))
        · rename_i s' hp
          have hq := packContent_quiet s0 [0x72]
          rw [hp] at hq
          exact answer _ rfl h0.1 h0.2 hq
      · exact ⟨_, h0.1, single _ rfl, h0.2⟩
  | respond k v =>
    have hk : k ≠ .endOfMessage := fun h => hc v (by rw [h])
    have hn : neutral (.answered k v) = true := by simp [neutral, hk]
    show ∃ es, (respond order (s.note _) k v).log = _ ∧ _ ∧ (respond order (s.note _) k v).result = _
    unfold respond
    dsimp only
    split
    · exact ⟨[_], rfl, single _ hn, rfl⟩
    · exact absurd rfl hk
    · exact answer _ hn (s0 := setSt { s.note (.answered k v) with status := orContinue v } (.replied k)) rfl rfl (reply_quiet _ _)
  | _ => exact noted rfl rfl

theorem Told.answer {s : State} (h : Told s) (order : Requests → Requests) (v : Status) :
    Told (callNoted order s (.respond .endOfMessage v)) := by
  show Told (respond order (s.note _) .endOfMessage v)
  unfold respond
  dsimp only
  obtain ⟨s0, hs0⟩ : ∃ s0, s0 = setSt { s.note (.answered .endOfMessage v) with status := orContinue v } (.replied .endOfMessage) := ⟨_, rfl⟩
  rw [← hs0]
  have l0 : s0.log = s.log ++ [.answered .endOfMessage v] := by rw [hs0]; rfl
  have r0 : s0.result = s.result := by rw [hs0]; rfl
  have v0 : s0.status = orContinue v := by rw [hs0]; rfl
  have hq := replyOnEndOfMessage_quiet order s0 (orContinue v)
  obtain ⟨es, h1, h2⟩ := hq.log
  obtain ⟨k1, k2⟩ := kept (l := s0.log) fun e he => quiet_neutral (h2 e he)
  have k3 : reports s0.log = reports s.log := by rw [l0, reports_snoc]; simp [reports]
  have k4 : total s0.log = account (total s.log) (.answered .endOfMessage v) := by rw [l0, total_snoc]
  unfold messageProcessed
  split
  · rename_i hr
    rw [hq.result, r0, h.result] at hr
    have e1 : total s0.log = ((total s.log).1 ++ [orContinue v], false) := by
      rw [k4]
      show (if (total s.log).2 = true then _ else _) = _
      rw [if_pos hr]; rfl
    refine ⟨?_, ?_⟩
    · show reports (_ ++ [_]) = (total (_ ++ [_])).1
      rw [reports_snoc, total_snoc, h1, k1, k2, k3, e1, h.told, hq.status, v0]
      rfl
    · show false = (total (_ ++ [_])).2
      rw [total_snoc, h1, k2, e1]
      rfl
  · rename_i hr
    rw [hq.result, r0, h.result] at hr
    have e1 : total s0.log = total s.log := by
      rw [k4]
      show (if (total s.log).2 = true then _ else _) = _
      rw [if_neg hr]
    refine ⟨?_, ?_⟩
    · rw [h1, k1, k2, k3, e1, h.told]
    · rw [hq.result, r0, h1, k2, e1, h.result]

theorem Told.call {s : State} (h : Told s) (order : Requests → Requests) (c : Call) : Told (callNoted order s c) := by
  by_cases hc : ∃ v, c = .respond .endOfMessage v
  · obtain ⟨v, rfl⟩ := hc
    exact h.answer order v
  · obtain ⟨es, h1, h2, h3⟩ := call_log order s c fun v e => hc ⟨v, e⟩
    exact h.more h1 h2 h3

theorem Shut.call {s : State} (h : Shut s) (order : Requests → Requests) (c : Call) (hc : ∀ v, c ≠ .respond .endOfMessage v) :
    Shut (callNoted order s c) := by
  obtain ⟨es, h1, h2, h3⟩ := call_log order s c hc
  exact h.more h1 h2

theorem runCalls_keeps {P : State → Prop} {order : Requests → Requests} {calls : List Call} :
    (∀ c ∈ calls, ∀ s, P s → P (callNoted order s c)) → ∀ s, P s → P (runCalls order s calls) := by
  induction calls with
  | nil => exact fun _ _ h => h
  | cons c calls ih =>
    intro hP s h
    exact ih (fun x hx => hP x (List.mem_cons_of_mem _ hx)) _ (hP c List.mem_cons_self s h)

theorem emit_keeps {P : State → Prop} {order : Requests → Requests} {handlers : List Handler} :
    (∀ h ∈ handlers, ∀ c ∈ h.calls, ∀ s, P s → P (callNoted order s c)) → ∀ s acc, P s → P (emit order handlers s acc).1 := by
  induction handlers with
  | nil => exact fun _ _ _ h => h
  | cons x l ih =>
    intro hP s acc h
    have h1 := runCalls_keeps (hP x List.mem_cons_self) s h
    unfold emit
    dsimp only
    split
    · exact ih (fun y hy => hP y (List.mem_cons_of_mem _ hy)) _ _ h1
    · exact h1

theorem emitAll_keeps {P : State → Prop} {order : Requests → Requests} {handlers : List Handler} (own : Status)
    (hP : ∀ h ∈ handlers, ∀ c ∈ h.calls, ∀ s, P s → P (callNoted order s c)) (s : State) (h : P s) :
    P (emitAll order s handlers own).1 := by
  refine emit_keeps (fun x hx c hc => ?_) s _ h
  rcases List.mem_append.mp hx with hx | hx
  · exact hP x hx c hc
  · rw [List.mem_singleton.mp hx] at hc
    cases hc

theorem Told.enter {s : State} (h : Told s) (c : Cmd) (k : Kind) (context : Option Macros.Context) (hk : kindOf c = some (k, context)) :
    Told (Client.enter (s.note (.got c)) k context) := by
  have hl : (Client.enter (s.note (.got c)) k context).log = s.log ++ [.got c] := by
    unfold Client.enter
    cases context <;> dsimp only <;> split <;> rfl
  have hr : (Client.enter (s.note (.got c)) k context).result = true := by
    unfold Client.enter
    cases context <;> dsimp only <;> split <;> rfl
  have hd : account (total s.log) (.got c) = ((total s.log).1, true) := by
    cases c <;> first | rfl | (cases hk; done)
  refine ⟨?_, ?_⟩
  · rw [hl, reports_snoc, total_snoc, hd, h.told]; simp [reports]
  · rw [hr, hl, total_snoc, hd]

theorem Told.command {s : State} (h : Told s) (order : Requests → Requests) (c : Cmd) (handlers : List Handler) (o : Option Opt)
    (r : Option Requests) (hs : Sane (.command c handlers o r)) : Told (receive order s c handlers o r) := by
  have told : ∀ h ∈ handlers, ∀ c ∈ h.calls, ∀ s, Told s → Told (callNoted order s c) := fun _ _ c _ s h => h.call order c
  have single : ∀ e : Event, neutral e = true → ∀ x ∈ [e], neutral x = true := fun e h x hx => by
    rw [List.mem_singleton.mp hx]; exact h
  have rest : ∀ (c : Cmd) (k : Kind) (context : Option Macros.Context), kindOf c = some (k, context) →
      Told (if (emitAll order (Client.enter (s.note (.got c)) k context) handlers .notChange).2 = .progress then
        (emitAll order (Client.enter (s.note (.got c)) k context) handlers .notChange).1 else
        callNoted order (emitAll order (Client.enter (s.note (.got c)) k context) handlers .notChange).1
          (.respond k (emitAll order (Client.enter (s.note (.got c)) k context) handlers .notChange).2)) := by
    intro c k context hk
    have h1 := emitAll_keeps .notChange told _ (h.enter c k context hk)
    split
    · exact h1
    · exact h1.call order _
  cases c with
  | defineMacro context macros => exact h.more (es := [.got (.defineMacro context macros)]) rfl (single _ rfl) rfl
  | quit =>
    exact h.more (es := [.got .quit, .shutdown]) (by simp [receive, shutdown, setSt, State.note])
      (fun e he => by
        rcases List.mem_cons.mp he with rfl | he
        · rfl
        · rw [List.mem_singleton.mp he]; rfl) rfl
  | abort =>
    unfold receive
    dsimp only
    obtain ⟨s0, hs0⟩ : ∃ s0, s0 = { setSt (s.note (.got .abort)) .abort with timer := false } := ⟨_, rfl⟩
    rw [← hs0]
    have h0 : Shut s0 := by
      have l0 : s0.log = s.log ++ [.got .abort] := by rw [hs0]; rfl
      refine ⟨?_, ?_⟩
      · rw [l0, reports_snoc, total_snoc, h.told]; simp [reports, account]
      · rw [l0, total_snoc]; rfl
    have h1 : Shut (emitAll order s0 handlers .default).1 :=
      emitAll_keeps (P := Shut) .default (fun x hx c hc s hS => hS.call order c fun v e => hs x hx v (e ▸ hc)) s0 h0
    have h2 : Told (resetMessage (emitAll order s0 handlers .default).1) := ⟨h1.told, h1.shut.symm⟩
    split
    · exact h2
    · exact h2.call order _
  | negotiate offered =>
    have h0 : Told { Client.enter (s.note (.got (.negotiate offered))) .negotiate none with option := some offered } := by
      have := h.enter (.negotiate offered) .negotiate none rfl
      exact ⟨this.told, this.result⟩
    have h1 := emitAll_keeps .notChange told _ h0
    unfold receive
    dsimp only
    split
    · exact h1
    · exact h1.call order _
  | connect a b => exact rest (.connect a b) _ _ rfl
  | helo a => exact rest (.helo a) _ _ rfl
  | envelopeFrom a => exact rest (.envelopeFrom a) _ _ rfl
  | envelopeRecipient a => exact rest (.envelopeRecipient a) _ _ rfl
  | unknown a => exact rest (.unknown a) _ _ rfl
  | data => exact rest .data _ _ rfl
  | header a b => exact rest (.header a b) _ _ rfl
  | endOfHeader => exact rest .endOfHeader _ _ rfl
  | body a => exact rest (.body a) _ _ rfl
  | endOfMessage a => exact rest (.endOfMessage a) _ _ rfl

theorem Told.step {s : State} (h : Told s) (order : Requests → Requests) (op : Op) (hs : Sane op) : Told (step order s op) := by
  cases op with
  | command c handlers o r => exact h.command order c handlers o r hs
  | call c => exact h.call order c
  | timeout =>
    show Told (if s.timer = true then _ else _)
    split
    · exact h.more (es := [.timedOut, .shutdown]) (by simp [shutdown, setSt, State.note])
        (fun e he => by
          rcases List.mem_cons.mp he with rfl | he
          · rfl
          · rw [List.mem_singleton.mp he]; rfl) rfl
    · exact h
  | close =>
    show Told (if s.link = .ready then _ else _)
    split
    · exact ⟨h.told, h.result⟩
    · exact h

theorem Told.run {order : Requests → Requests} (ops : List Op) : ∀ {s : State}, Told s → (∀ op ∈ ops, Sane op) → Told (run order s ops) := by
  induction ops with
  | nil => exact fun h _ => h
  | cons op ops ih => exact fun h hs => ih (h.step order op (hs op List.mem_cons_self)) fun x hx => hs x (List.mem_cons_of_mem _ hx)

end ClientReport
open ClientReport

/-- **C138**: whatever commands come and whatever the milter does, the reports are: one for each end of a message that is
answered, with the answer, at most one until the next command. -/
theorem C138_partial (order : Requests → Requests) (s : State) (hl : s.log = []) (hr : s.result = false) (ops : List Op)
    (hs : ∀ op ∈ ops, Sane op) : reports (run order s ops).log = due (run order s ops).log :=
  (Told.run ops ⟨by rw [hl]; rfl, by rw [hr, hl]; rfl⟩ hs).told

/-! ### Concrete cases -/

/-- the handler of the milter returns this -/
def ClientReport.says (v : Status) : List Handler := [⟨[], v⟩]

/-- two messages in a session; the first one passes, the second one is refused at its end -/
def ClientReport.session : List Op :=
  [.command (.helo [1]) (says .continue_) none none,
   .command (.envelopeFrom [2]) (says .continue_) none none, .command (.endOfMessage []) (says .default) none none,
   .command (.envelopeFrom [3]) (says .continue_) none none, .command (.endOfMessage []) (says .progress) none none,
   .call (.respond .endOfMessage .reject), .command .abort [] none none, .command .quit [] none none]

example : (∀ op ∈ session, Sane op) ∧ reports (run id {} session).log = [.continue_, .reject] := by
  refine ⟨fun op h => ?_, by decide +kernel⟩
  simp only [session, List.mem_cons, List.not_mem_nil, or_false] at h
  rcases h with rfl | rfl | rfl | rfl | rfl | rfl | rfl | rfl <;> first | trivial | (intro x hx; cases hx)

/-! ### Where it fails -/

theorem ClientReport.due_none {l : List Event} : ∀ {b : List Status × Bool}, (∀ v, Event.answered .endOfMessage v ∉ l) →
    (l.foldl account b).1 = b.1 := by
  induction l with
  | nil => exact fun _ => rfl
  | cons e l ih =>
    intro b h
    rw [List.foldl_cons, ih fun v hv => h v (List.mem_cons_of_mem _ hv)]
    cases e with
    | got c => cases c <;> rfl
    | answered k v => cases k <;> first | rfl | exact absurd List.mem_cons_self (h v)
    | _ => rfl

/-- **C138 fails** for every message that is settled before its end, or given up: nothing is reported unless the end of
a message is answered. -/
theorem C138_refused_violated (order : Requests → Requests) (s : State) (hl : s.log = []) (hr : s.result = false) (ops : List Op)
    (hs : ∀ op ∈ ops, Sane op) (hn : ∀ v, Event.answered .endOfMessage v ∉ (run order s ops).log) :
    reports (run order s ops).log = [] := by
  rw [C138_partial order s hl hr ops hs]
  exact due_none hn

/-- a message refused at a recipient, one discarded at its header and one given up -/
example : let l : List Op :=
      [.command (.envelopeFrom [1]) (says .continue_) none none, .command (.envelopeRecipient [2]) (says .reject) none none,
       .command .abort [] none none,
       .command (.envelopeFrom [1]) (says .continue_) none none, .command (.header [2] [3]) (says .discard) none none,
       .command (.envelopeFrom [1]) (says .continue_) none none, .command .abort [] none none]
    (∀ op ∈ l, Sane op) ∧ (∀ v, Event.answered .endOfMessage v ∉ (run id {} l).log) ∧
    Event.answered .envelopeRecipient .reject ∈ (run id {} l).log ∧ Event.answered .header .discard ∈ (run id {} l).log := by
  refine ⟨fun op h => ?_, fun v => by cases v <;> decide +kernel, by decide +kernel, by decide +kernel⟩
  simp only [List.mem_cons, List.not_mem_nil, or_false] at h
  rcases h with rfl | rfl | rfl | rfl | rfl | rfl | rfl <;> first | trivial | (intro x hx; cases hx)

end Verif.Props
