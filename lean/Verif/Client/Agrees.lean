import Verif.Client.Facts
/-
The record of a session and the state of the context agree, whatever happens.
-/
namespace Verif.Client
open Verif Verif.Spec.Client

theorem Agrees.same {s s' : State} (h : Agrees s) (hst : s'.st = s.st) (ho : s'.option = s.option) (hc : s'.custom = s.custom)
    (hqr : s'.quarantine = s.quarantine) (hl : ∃ es, s'.log = s.log ++ es ∧ ∀ e ∈ es, quietEvent e = true) (hb : Clean s') : Agrees s' := by
  obtain ⟨es, he, hq⟩ := hl
  refine ⟨?_, ?_, ?_, ?_, hb⟩
  · rw [hst, he, atEnd_quiet hq]; exact h.atEnd
  · rw [ho, he, negotiated_quiet hq]; exact h.option
  · rw [hc, he, lastCustom_quiet hq]; exact h.custom
  · rw [hqr, he, quarantineReason_quiet hq]; exact h.quarantine

theorem Agrees.quiet {s s' : State} (h : Agrees s) (q : Quiet s s') (hb : Clean s') : Agrees s' :=
  h.same q.st q.option q.custom q.quarantine q.log hb

/-- a recorded event that says nothing about state, option or custom reply -/
theorem Agrees.noted {s : State} (h : Agrees s) (e : Event)
    (h1 : Spec.Client.atEnd (s.log ++ [e]) = Spec.Client.atEnd s.log) (h2 : negotiated (s.log ++ [e]) = negotiated s.log)
    (h3 : lastCustom (s.log ++ [e]) = lastCustom s.log) (h4 : quarantineReason (s.log ++ [e]) = quarantineReason s.log) :
    Agrees (s.note e) := by
  refine ⟨?_, ?_, ?_, ?_, h.buffer⟩
  · show s.st = _ ↔ Spec.Client.atEnd (s.log ++ [e]) = true
    rw [h1]; exact h.atEnd
  · show s.option = negotiated (s.log ++ [e])
    rw [h2]; exact h.option
  · show s.custom = match lastCustom (s.log ++ [e]) with
      | none => {}
      | some (code, ext, message) => ⟨code, ext, message⟩
    rw [h3]; exact h.custom
  · show s.quarantine = quarantineReason (s.log ++ [e])
    rw [h4]; exact h.quarantine

/-- the state moves on; the record says the end of the message is over -/
theorem Agrees.moved {s s' : State} (h : Agrees s) (e : Event) (hl : s'.log = s.log ++ [e]) (hst : s'.st ≠ .doing .endOfMessage)
    (h1 : Spec.Client.atEnd (s.log ++ [e]) = false) (ho : s'.option = negotiated (s.log ++ [e]))
    (hc : s'.custom = s.custom) (h3 : lastCustom (s.log ++ [e]) = lastCustom s.log)
    (hqr : s'.quarantine = s.quarantine) (h4 : quarantineReason (s.log ++ [e]) = quarantineReason s.log) (hb : Clean s') : Agrees s' := by
  refine ⟨?_, ?_, ?_, ?_, hb⟩
  · rw [hl, h1]
    exact ⟨fun h => absurd h hst, fun h => nomatch h⟩
  · rw [hl]; exact ho
  · rw [hl, h3, hc]; exact h.custom
  · rw [hl, h4, hqr]; exact h.quarantine

/-- calls that only write -/
def writes : Call → Bool
  | .addHeader _ _ | .insertHeader _ _ _ | .changeHeader _ _ _ | .deleteHeader _ _ | .changeFrom _ _ | .addRecipient _ _
  | .deleteRecipient _ | .replaceBody _ | .progress | .flush => true
  | _ => false

theorem call_quiet (order : Requests → Requests) (s : State) (c : Call) (hc : writes c = true) : Quiet s (call order s c).2 := by
  cases c with
  | addHeader n v =>
    unfold call
    cases n <;> cases v <;> first | exact .refl s | exact modify_quiet ..
  | insertHeader i n v =>
    unfold call
    cases n <;> cases v <;> first | exact .refl s | exact modify_quiet ..
  | changeHeader n i v =>
    unfold call
    cases n <;> first | exact .refl s | exact modify_quiet ..
  | deleteHeader n i =>
    unfold call
    cases n <;> first | exact .refl s | exact modify_quiet ..
  | changeFrom f p =>
    unfold call
    dsimp only
    split <;> first | exact .refl s | exact modify_quiet ..
  | addRecipient r p =>
    unfold call
    dsimp only
    split <;> first | exact .refl s | exact modify_quiet ..
  | deleteRecipient r =>
    unfold call
    dsimp only
    split <;> first | exact .refl s | exact modify_quiet ..
  | replaceBody b => exact replaceBody_quiet order s b
  | progress => exact (encode_quiet order s .progress).trans (writePacket_quiet (encode order s .progress).2 (encode order s .progress).1)
  | flush => exact flush_quiet s
  | _ => cases hc

theorem call_clean (order : Requests → Requests) {s : State} (c : Call) (h : Clean s) (hc : writes c = true) : Clean (call order s c).2 := by
  cases c with
  | addHeader n v =>
    unfold call
    cases n <;> cases v <;> first | exact h | exact modify_clean _ _ _ h
  | insertHeader i n v =>
    unfold call
    cases n <;> cases v <;> first | exact h | exact modify_clean _ _ _ h
  | changeHeader n i v =>
    unfold call
    cases n <;> first | exact h | exact modify_clean _ _ _ h
  | deleteHeader n i =>
    unfold call
    cases n <;> first | exact h | exact modify_clean _ _ _ h
  | changeFrom f p =>
    unfold call
    dsimp only
    split <;> first | exact h | exact modify_clean _ _ _ h
  | addRecipient r p =>
    unfold call
    dsimp only
    split <;> first | exact h | exact modify_clean _ _ _ h
  | deleteRecipient r =>
    unfold call
    dsimp only
    split <;> first | exact h | exact modify_clean _ _ _ h
  | replaceBody b => exact replaceBody_clean order b h
  | progress => exact writePacket_clean (encode order s .progress).1 (show Clean (encode order s .progress).2 from h)
  | flush => exact fun _ => (flush_clean h).2
  | _ => cases hc

theorem Agrees.writing {s : State} (order : Requests → Requests) (c : Call) (h : Agrees s) (hc : writes c = true) :
    Agrees (callNoted order s c) := by
  have h1 : Agrees (call order s c).2 := h.quiet (call_quiet order s c hc) (call_clean order c h.buffer hc)
  have h2 : ∀ ok, Agrees ((call order s c).2.note (.called c ok)) := fun ok => by
    refine h1.noted _ ?_ ?_ ?_ ?_
    · rw [atEnd_snoc]; cases c <;> first | rfl | cases hc
    · rw [negotiated_snoc]
    · rw [lastCustom_snoc]; cases c <;> first | rfl | cases hc
    · rw [quarantineReason_snoc]; cases c <;> first | rfl | cases hc
  cases c <;> first | exact h2 _ | cases hc

/-- a response: the state is that of the answer, then only writing -/
theorem Agrees.respond {s : State} (order : Requests → Requests) (k : Kind) (status : Status) (h : Agrees s) :
    Agrees (callNoted order s (.respond k status)) := by
  have h0 : Agrees (setSt { s.note (.answered k status) with status := orContinue status } (.replied k)) := by
    refine h.moved (.answered k status) rfl (fun h => nomatch h) (by rw [atEnd_snoc]) ?_ rfl ?_ rfl (by rw [quarantineReason_snoc]) h.buffer
    · rw [negotiated_snoc]; exact h.option
    · rw [lastCustom_snoc]
  show Agrees (Client.respond order (s.note (.answered k status)) k status)
  unfold Client.respond
  cases k with
  | negotiate => exact h0
  | endOfMessage =>
    have h1 := h0.quiet (replyOnEndOfMessage_quiet order _ (orContinue status)) (replyOnEndOfMessage_clean order (orContinue status) h0.buffer)
    dsimp only
    unfold messageProcessed
    split
    · refine (h1.noted (.processed _) ?_ ?_ ?_ ?_).same rfl rfl rfl rfl ⟨[], (List.append_nil _).symm, by simp⟩ h1.buffer
      · rw [atEnd_snoc]
      · rw [negotiated_snoc]
      · rw [lastCustom_snoc]
      · rw [quarantineReason_snoc]
    · exact h1
  | _ => exact h0.quiet (reply_quiet _ _) (reply_clean _ h0.buffer)

theorem Agrees.packet {s : State} (h : Agrees s) (enc p : Bytes) : Agrees (writePacket { s with enc := enc } p).2 :=
  h.quiet ((Quiet.inner s s.buffered s.buffering s.timer enc).trans (writePacket_quiet _ p)) (writePacket_clean p (show Clean { s with enc := enc } from h.buffer))

theorem Agrees.respondNegotiate {s : State} (order : Requests → Requests) (o : Option Opt) (r : Option Requests) (status : Status)
    (h : Agrees s) : Agrees (callNoted order s (.respondNegotiate o r status)) := by
  show Agrees (Client.respondNegotiate order (s.note (.answeredNegotiate o status)) o r status)
  have key : ∀ opt, opt = negotiated (s.log ++ [.answeredNegotiate o status]) → ∀ st : Status,
      Agrees { setSt { s.note (.answeredNegotiate o status) with status := st } (.replied .negotiate) with option := opt } := by
    intro opt ho st
    refine h.moved (.answeredNegotiate o status) rfl (fun h => nomatch h) (by rw [atEnd_snoc]) ho rfl ?_ rfl (by rw [quarantineReason_snoc]) h.buffer
    rw [lastCustom_snoc]
  unfold Client.respondNegotiate
  by_cases hc : status = .continue_
  · subst hc
    have h0 := key o (by rw [negotiated_snoc]) .continue_
    exact h0.packet _ _
  · have hn : s.option = negotiated (s.log ++ [.answeredNegotiate o status]) := by
      rw [negotiated_snoc]
      cases status <;> first | exact h.option | exact absurd rfl hc
    have hd : ∀ st : Status, Agrees (setSt { s.note (.answeredNegotiate o status) with status := st } (.replied .negotiate)) :=
      fun st => key s.option hn st
    have hw : ∀ (st : Status) (p : Bytes), Agrees (writePacket { setSt { s.note (.answeredNegotiate o status) with status := st } (.replied .negotiate) with
        enc := p } p).2 := fun st p => (hd st).packet p p
    cases status with
    | continue_ => exact absurd rfl hc
    | default => exact hw _ _
    | allOptions => exact hw _ _
    | reject => exact hw _ _
    | _ => exact hd _

theorem Agrees.called {s : State} (order : Requests → Requests) (c : Call) (h : Agrees s) : Agrees (callNoted order s c) := by
  cases c with
  | respond k status => exact h.respond order k status
  | respondNegotiate o r status => exact h.respondNegotiate order o r status
  | respondAbort status =>
    show Agrees ((Client.respondAbort s status).note (.called (.respondAbort status) true))
    have hl : ∀ s' : State, s' = Client.respondAbort s status → s'.log = s.log ∧ s'.option = s.option ∧ s'.custom = s.custom ∧
        s'.st = .abortReplied ∧ s'.buffering = s.buffering ∧ s'.buffered = s.buffered ∧ s'.quarantine = s.quarantine := by
      rintro s' rfl
      unfold Client.respondAbort
      dsimp only
      split <;> exact ⟨rfl, rfl, rfl, rfl, rfl, rfl, rfl⟩
    obtain ⟨h1, h2, h3, h4, h5, h6, h7⟩ := hl _ rfl
    refine h.moved (.called (.respondAbort status) true) ?_ ?_ (by rw [atEnd_snoc]) ?_ h3 (by rw [lastCustom_snoc]) h7 (by rw [quarantineReason_snoc]) ?_
    · show (Client.respondAbort s status).log ++ _ = _
      rw [h1]
    · show (Client.respondAbort s status).st ≠ _
      rw [h4]
      exact fun h => nomatch h
    · show (Client.respondAbort s status).option = _
      rw [h2, negotiated_snoc]
      exact h.option
    · intro hb
      exact h6.trans (h.buffer (h5 ▸ hb))
  | setReply code ext message =>
    show Agrees (({ s with custom := (SetReply.setReply s.custom code ext message).2 } : State).note
      (.called (.setReply code ext message) (SetReply.setReply s.custom code ext message).1))
    refine ⟨?_, ?_, ?_, ?_, h.buffer⟩
    · show s.st = _ ↔ Spec.Client.atEnd (s.log ++ [_]) = true
      rw [atEnd_snoc]
      exact h.atEnd
    · show s.option = negotiated (s.log ++ [_])
      rw [negotiated_snoc]
      exact h.option
    · show (SetReply.setReply s.custom code ext message).2 = match lastCustom (s.log ++ [_]) with
        | none => {}
        | some (code, ext, message) => ⟨code, ext, message⟩
      rw [lastCustom_snoc]
      unfold SetReply.setReply
      split
      · exact h.custom
      · split
        · exact h.custom
        · rfl
    · show s.quarantine = quarantineReason (s.log ++ [_])
      rw [quarantineReason_snoc]
      exact h.quarantine
  | quarantine reason =>
    show Agrees (({ s with quarantine := reason } : State).note (.called (.quarantine reason) true))
    refine ⟨?_, ?_, ?_, ?_, h.buffer⟩
    · show s.st = _ ↔ Spec.Client.atEnd (s.log ++ [_]) = true
      rw [atEnd_snoc]
      exact h.atEnd
    · show s.option = negotiated (s.log ++ [_])
      rw [negotiated_snoc]
      exact h.option
    · show s.custom = match lastCustom (s.log ++ [_]) with
        | none => {}
        | some (code, ext, message) => ⟨code, ext, message⟩
      rw [lastCustom_snoc]
      exact h.custom
    · show reason = quarantineReason (s.log ++ [_])
      rw [quarantineReason_snoc]
  | setBufferSize n =>
    refine Agrees.noted (s := { s with bufferSize := n }) ⟨h.atEnd, h.option, h.custom, h.quarantine, h.buffer⟩ _ ?_ ?_ ?_ ?_
    · rw [atEnd_snoc]
    · rw [negotiated_snoc]
    · rw [lastCustom_snoc]
    · rw [quarantineReason_snoc]
  | setShelf k v =>
    refine Agrees.noted (s := { s with shelf := (k, v) :: s.shelf.filter (fun e => e.1 != k) })
      ⟨h.atEnd, h.option, h.custom, h.quarantine, h.buffer⟩ _ ?_ ?_ ?_ ?_
    · rw [atEnd_snoc]
    · rw [negotiated_snoc]
    · rw [lastCustom_snoc]
    · rw [quarantineReason_snoc]
  | _ => exact h.writing order _ rfl

theorem Agrees.runCalls {order : Requests → Requests} (calls : List Call) : ∀ {s : State}, Agrees s → Agrees (runCalls order s calls) := by
  induction calls with
  | nil => exact fun h => h
  | cons c calls ih => exact fun h => ih (h.called order c)

theorem Agrees.emit {order : Requests → Requests} (hs : List Handler) : ∀ {s : State} (acc : Status), Agrees s → Agrees (emit order hs s acc).1 := by
  induction hs with
  | nil => exact fun _ h => h
  | cons x hs ih =>
    intro s acc h
    unfold Client.emit
    dsimp only
    split
    · exact ih _ (h.runCalls x.calls)
    · exact h.runCalls x.calls

/-- entering a command: the record has just said so -/
theorem Agrees.enter {s : State} (h : Agrees s) (c : Cmd) (k : Kind) (context : Option Macros.Context)
    (hk : kindOf c = some (k, context)) (o : Option Opt) (ho : o = negotiated (s.log ++ [.got c])) :
    Agrees { Client.enter (s.note (.got c)) k context with option := o } := by
  have hl : (Client.enter (s.note (.got c)) k context).log = s.log ++ [.got c] ∧ (Client.enter (s.note (.got c)) k context).st = .doing k ∧
      (Client.enter (s.note (.got c)) k context).custom = s.custom ∧ (Client.enter (s.note (.got c)) k context).buffering = s.buffering ∧
      (Client.enter (s.note (.got c)) k context).buffered = s.buffered ∧
      (Client.enter (s.note (.got c)) k context).quarantine = (if k = .endOfMessage then none else s.quarantine) := by
    unfold Client.enter
    cases context <;> (dsimp only; split <;> exact ⟨rfl, rfl, rfl, rfl, rfl, rfl⟩)
  obtain ⟨h1, h2, h3, h4, h5, h6⟩ := hl
  refine ⟨?_, ?_, ?_, ?_, ?_⟩
  · show (Client.enter (s.note (.got c)) k context).st = _ ↔ Spec.Client.atEnd (Client.enter (s.note (.got c)) k context).log = true
    rw [h1, h2, atEnd_snoc]
    cases c <;> simp only [kindOf, Option.some.injEq, Prod.mk.injEq, reduceCtorEq] at hk <;> obtain ⟨rfl, _⟩ := hk <;> simp
  · show o = negotiated (Client.enter (s.note (.got c)) k context).log
    rw [h1]; exact ho
  · show (Client.enter (s.note (.got c)) k context).custom = match lastCustom (Client.enter (s.note (.got c)) k context).log with
      | none => {}
      | some (code, ext, message) => ⟨code, ext, message⟩
    rw [h1, h3, lastCustom_snoc]
    exact h.custom
  · show (Client.enter (s.note (.got c)) k context).quarantine = quarantineReason (Client.enter (s.note (.got c)) k context).log
    rw [h1, h6, quarantineReason_snoc]
    cases c <;> simp only [kindOf, Option.some.injEq, Prod.mk.injEq, reduceCtorEq] at hk <;> obtain ⟨rfl, _⟩ := hk <;>
      first | exact h.quarantine | rfl
  · intro hb
    exact h5.trans (h.buffer (h4 ▸ hb))

theorem Agrees.entered {s : State} (h : Agrees s) (c : Cmd) (k : Kind) (context : Option Macros.Context)
    (hk : kindOf c = some (k, context)) (hn : ∀ o, c ≠ .negotiate o) : Agrees (Client.enter (s.note (.got c)) k context) := by
  have ho : (Client.enter (s.note (.got c)) k context).option = s.option := by
    unfold Client.enter
    cases context <;> (dsimp only; split <;> rfl)
  have := h.enter c k context hk s.option (by
    rw [negotiated_snoc]
    cases c <;> first | exact h.option | exact absurd rfl (hn _))
  rw [← ho] at this
  exact this

/-- the part of `receive` common to the commands with an ordinary answer -/
theorem receive_plain (order : Requests → Requests) (s : State) (c : Cmd) (handlers : List Handler) (chosen : Option Opt)
    (requests : Option Requests) (k : Kind) (context : Option Macros.Context) (hk : kindOf c = some (k, context))
    (hn : k ≠ .negotiate) :
    receive order s c handlers chosen requests =
      let r := emitAll order (Client.enter (s.note (.got c)) k context) handlers .notChange
      if r.2 = .progress then r.1 else callNoted order r.1 (.respond k r.2) := by
  cases c <;> simp only [kindOf, Option.some.injEq, Prod.mk.injEq, reduceCtorEq] at hk <;> obtain ⟨rfl, rfl⟩ := hk <;>
    first | exact absurd rfl hn | rfl

theorem Agrees.shutdown {s : State} (h : Agrees s) : Agrees (shutdown s) := by
  refine h.moved .shutdown rfl (fun h => nomatch h) (by rw [atEnd_snoc]) ?_ rfl (by rw [lastCustom_snoc]) rfl (by rw [quarantineReason_snoc]) h.buffer
  rw [negotiated_snoc]
  exact h.option

theorem Agrees.receive {order : Requests → Requests} {s : State} (c : Cmd) (handlers : List Handler) (chosen : Option Opt)
    (requests : Option Requests) (h : Agrees s) : Agrees (receive order s c handlers chosen requests) := by
  cases hk : kindOf c with
  | some kc =>
    obtain ⟨k, context⟩ := kc
    by_cases hn : k = .negotiate
    · subst hn
      cases c <;> simp only [kindOf, Option.some.injEq, Prod.mk.injEq, reduceCtorEq, false_and] at hk
      rename_i o
      unfold Client.receive
      dsimp only
      have h1 := (h.enter (.negotiate o) .negotiate none rfl (some o) (by rw [negotiated_snoc])).emit (order := order) (handlers ++ [⟨[], .notChange⟩]) .default
      unfold emitAll
      generalize Client.emit order _ _ _ = r at h1
      obtain ⟨s', status⟩ := r
      dsimp only at h1 ⊢
      split
      · exact h1
      · exact h1.called order _
    · rw [receive_plain order s c handlers chosen requests k context hk hn]
      have h1 := (h.entered c k context hk (fun o hc => by subst hc; cases hk; exact hn rfl)).emit (order := order) (handlers ++ [⟨[], .notChange⟩]) .default
      unfold emitAll
      generalize Client.emit order _ _ _ = r at h1
      obtain ⟨s', status⟩ := r
      dsimp only at h1 ⊢
      split
      · exact h1
      · exact h1.called order _
  | none =>
    cases c with
    | defineMacro context macros =>
      refine (h.noted (.got (.defineMacro context macros)) ?_ ?_ ?_ ?_).same rfl rfl rfl rfl ⟨[], (List.append_nil _).symm, by simp⟩ h.buffer
      · rw [atEnd_snoc]
      · rw [negotiated_snoc]
      · rw [lastCustom_snoc]
      · rw [quarantineReason_snoc]
    | quit =>
      refine Agrees.shutdown ?_
      refine h.moved (.got .quit) rfl (fun h => nomatch h) (by rw [atEnd_snoc]) ?_ rfl (by rw [lastCustom_snoc]) rfl (by rw [quarantineReason_snoc]) h.buffer
      rw [negotiated_snoc]
      exact h.option
    | abort =>
      have h0 : Agrees { setSt (s.note (.got .abort)) .abort with timer := false } := by
        refine h.moved (.got .abort) rfl (fun h => nomatch h) (by rw [atEnd_snoc]) ?_ rfl (by rw [lastCustom_snoc]) rfl (by rw [quarantineReason_snoc]) h.buffer
        rw [negotiated_snoc]
        exact h.option
      have h1 := h0.emit (order := order) (handlers ++ [⟨[], .default⟩]) .default
      unfold Client.receive
      dsimp only
      unfold emitAll
      generalize Client.emit order _ _ _ = r at h1
      obtain ⟨s', status⟩ := r
      dsimp only at h1 ⊢
      have h2 : Agrees (resetMessage s') := h1.same rfl rfl rfl rfl ⟨[], (List.append_nil _).symm, by simp⟩ h1.buffer
      split
      · exact h2
      · exact h2.called order _
    | _ => cases hk

theorem Agrees.step {order : Requests → Requests} {s : State} (op : Op) (h : Agrees s) : Agrees (step order s op) := by
  cases op with
  | command c handlers chosen requests => exact h.receive c handlers chosen requests
  | call c => exact h.called order c
  | timeout =>
    unfold Client.step
    dsimp only
    split
    · refine ⟨?_, ?_, ?_, ?_, h.buffer⟩
      · show St.finished = _ ↔ Spec.Client.atEnd (s.log ++ [.timedOut] ++ [.shutdown]) = true
        rw [atEnd_snoc]
        exact ⟨fun h => (nomatch h), fun h => (nomatch h)⟩
      · show s.option = negotiated (s.log ++ [.timedOut] ++ [.shutdown])
        rw [negotiated_snoc, negotiated_snoc]
        exact h.option
      · show s.custom = match lastCustom (s.log ++ [.timedOut] ++ [.shutdown]) with
          | none => {}
          | some (code, ext, message) => ⟨code, ext, message⟩
        rw [lastCustom_snoc, lastCustom_snoc]
        exact h.custom
      · show s.quarantine = quarantineReason (s.log ++ [.timedOut] ++ [.shutdown])
        rw [quarantineReason_snoc, quarantineReason_snoc]
        exact h.quarantine
    · exact h
  | close =>
    unfold Client.step
    dsimp only
    split
    · exact h.same rfl rfl rfl rfl ⟨[], (List.append_nil _).symm, by simp⟩ h.buffer
    · exact h

theorem Agrees.run {order : Requests → Requests} (ops : List Op) : ∀ {s : State}, Agrees s → Agrees (run order s ops) := by
  induction ops with
  | nil => exact fun h => h
  | cons op ops ih => exact fun h => ih (h.step op)

/-- a new context, with any size of buffer and any writer -/
def new (bufferSize : Nat) (link : Link) : State := { bufferSize := bufferSize, link := link }

theorem Agrees.new (n : Nat) (l : Link) : Agrees (new n l) := ⟨⟨fun h => (nomatch h), fun h => (nomatch h)⟩, rfl, rfl, rfl, fun _ => rfl⟩

end Verif.Client
