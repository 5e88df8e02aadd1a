import Verif.Client.Reply
/-
A session of commands, each answered before the next one comes.
-/
namespace Verif.Client
open Verif Verif.Spec.Client

/-- counted from here -/
theorem Sent.base {order : Requests → Requests} {w : Bytes} {s : State} {out held : List Reply} (h : Sent order w s out held) :
    Sent order (w ++ bytes order out) s [] held :=
  ⟨h.link, h.clean, by rw [bytes_nil, List.append_nil]; exact h.out, h.held⟩

theorem Sent.onto {order : Requests → Requests} {w : Bytes} {s : State} {out more held : List Reply}
    (h : Sent order (w ++ bytes order out) s more held) : Sent order w s (out ++ more) held :=
  ⟨h.link, h.clean, by rw [bytes_append, ← List.append_assoc]; exact h.out, h.held⟩

/-- a call that is no answer, away from the end of the message: no more than a report of progress is sent -/
theorem Sent.called_out {order : Requests → Requests} {w : Bytes} {s : State} {out : List Reply} (h : Sent order w s out [])
    (c : Call) (hs : s.st ≠ .doing .endOfMessage) (hn : answers c = false) (hf : recipientFlagsAgree s.option c = true) :
    ∃ more, Sent order w (callNoted order s c) (out ++ more) [] ∧ noProgress more = [] ∧
      (callNoted order s c).st = s.st ∧ (callNoted order s c).option = s.option := by
  have key : ∀ {s' : State} {ok : Bool} {more}, call order s c = (ok, s') → Sent order w s' (out ++ more) [] →
      noProgress more = [] → s'.st = s.st → s'.option = s.option →
      ∃ more, Sent order w (callNoted order s c) (out ++ more) [] ∧ noProgress more = [] ∧
      (callNoted order s c).st = s.st ∧ (callNoted order s c).option = s.option := by
    intro s' ok more h1 h2 h3 h5 h6
    have he : callNoted order s c = s'.note (.called c ok) := by
      cases c <;> first | (cases hn; done) | (unfold callNoted; dsimp only; rw [h1])
    rw [he]
    exact ⟨more, h2.note _ (fun _ h => nomatch h), h3, h5, h6⟩
  have h' : Sent order w s (out ++ []) [] := by rw [List.append_nil]; exact h
  by_cases hc : changes c = true
  · exact key (more := []) (call_refused order s c hc hf fun h => hs h.1) h' rfl rfl rfl
  · cases c with
    | setReply code ext message => exact key (more := []) rfl ⟨h'.link, h'.clean, h'.out, h'.held⟩ rfl rfl rfl
    | quarantine reason => exact key (more := []) rfl ⟨h'.link, h'.clean, h'.out, h'.held⟩ rfl rfl rfl
    | setBufferSize n => exact key (more := []) rfl ⟨h'.link, h'.clean, h'.out, h'.held⟩ rfl rfl rfl
    | setShelf k v => exact key (more := []) rfl ⟨h'.link, h'.clean, h'.out, h'.held⟩ rfl rfl rfl
    | flush =>
      have hq := flush_quiet s
      exact key (more := []) (show call order s .flush = ((Client.flush s).1, (Client.flush s).2) from rfl) h.flush.2 rfl hq.st hq.option
    | progress =>
      have hq := call_quiet order s .progress rfl
      have := ((encode_sent h .progress).packet [.progress] (encode order s .progress).1 (encode_bytes order s _ rfl)).2
      rw [List.append_nil] at this
      exact key (more := [.progress]) (show call order s .progress = (_, _) from rfl) this rfl hq.st hq.option
    | respond | respondNegotiate | respondAbort => cases hn
    | addRecipient r p => rcases p with _ | _ | _ <;> simp [changes, flagOf] at hc
    | _ => simp [changes, flagOf] at hc

theorem Sent.calls_out {order : Requests → Requests} {w : Bytes} (calls : List Call) :
    ∀ {s : State} {out : List Reply}, Sent order w s out [] → s.st ≠ .doing .endOfMessage →
    (∀ c ∈ calls, answers c = false ∧ recipientFlagsAgree s.option c = true) →
    ∃ more, Sent order w (runCalls order s calls) (out ++ more) [] ∧ noProgress more = [] ∧
      (runCalls order s calls).st = s.st ∧ (runCalls order s calls).option = s.option := by
  induction calls with
  | nil => intro s out h _ _; exact ⟨[], by rw [List.append_nil]; exact h, rfl, rfl, rfl⟩
  | cons c calls ih =>
    intro s out h hs hc
    obtain ⟨hn, hf⟩ := hc c List.mem_cons_self
    obtain ⟨more, h1, h2, h4, h5⟩ := h.called_out c hs hn hf
    obtain ⟨more', i1, i2, i4, i5⟩ := ih h1 (by rw [h4]; exact hs)
      (fun x hx => by rw [h5]; exact hc x (List.mem_cons_of_mem _ hx))
    refine ⟨more ++ more', ?_, ?_, i4.trans h4, i5.trans h5⟩
    · rw [← List.append_assoc]; exact i1
    · rw [noProgress_append, h2, i2]; rfl

theorem respond_st (order : Requests → Requests) (s : State) (k : Kind) (status : Status) :
    (callNoted order s (.respond k status)).st = .replied k ∧ (callNoted order s (.respond k status)).option = s.option ∧
      (callNoted order s (.respond k status)).link = s.link := by
  show (respond order (s.note _) k status).st = _ ∧ (respond order (s.note _) k status).option = _ ∧
    (respond order (s.note _) k status).link = _
  unfold respond
  dsimp only
  split
  · exact ⟨rfl, rfl, rfl⟩
  · have hq := replyOnEndOfMessage_quiet order (setSt { s.note (.answered .endOfMessage status) with status := orContinue status } (.replied .endOfMessage)) (orContinue status)
    unfold messageProcessed
    split <;> exact ⟨hq.st, hq.option, hq.link⟩
  · rename_i h1 h2
    have hq := reply_quiet (setSt { s.note (.answered k status) with status := orContinue status } (.replied k)) (orContinue status)
    exact ⟨hq.st, hq.option, hq.link⟩

theorem respond_empty (order : Requests → Requests) {s : State} (hl : s.link = .ready) (hc : Clean s) (k : Kind) (hk : k ≠ .negotiate)
    (status : Status) (p : Bytes) (hp : (createReplyPacket s (orContinue status)).1 = some p) :
    (callNoted order s (.respond k status)).buffered = [] := by
  obtain ⟨s0, hs0⟩ : ∃ s0 : State, s0 = setSt { s.note (.answered k status) with status := orContinue status } (.replied k) := ⟨_, rfl⟩
  have hl0 : s0.link = .ready := by rw [hs0]; exact hl
  have hc0 : Clean s0 := by rw [hs0]; exact hc
  have hp0 : (createReplyPacket s0 (orContinue status)).1 = some p := by
    refine Eq.trans (createReplyPacket_same (s := s) ?_ _) hp
    rw [hs0]; rfl
  by_cases he : k = .endOfMessage
  · subst he
    have : callNoted order s (.respond .endOfMessage status) = messageProcessed (replyOnEndOfMessage order s0 (orContinue status)) := by
      rw [hs0]; rfl
    rw [this]
    have h1 := replyOnEndOfMessage_empty order (orContinue status) hc0
    unfold messageProcessed
    split <;> exact h1
  · have : callNoted order s (.respond k status) = reply s0 (orContinue status) := by
      rw [hs0]
      cases k <;> first | rfl | exact absurd rfl hk | exact absurd rfl he
    rw [this]
    exact (reply_written hl0 hc0 (orContinue status) p hp0).2

/-- the answer, with everything that went before it -/
theorem Sent.respond {order : Requests → Requests} {w : Bytes} {s : State} {out held : List Reply} (h : Sent order w s out held)
    (ha : Agrees s) (hL : Legal s) (k : Kind) (hk : k ≠ .negotiate) (status : Status) (r : Reply)
    (hr : finalReply (lastCustom s.log) status = some r) :
    Sent order w (callNoted order s (.respond k status))
      (out ++ (if k = .endOfMessage then held ++ quarantineReply (quarantineReason s.log) ++ [r] else [r] ++ held)) [] := by
  have hp := create_final order ha hL status r hr
  have hw := respond_written order ha h.link k hk status _ hp
  have he := respond_empty order h.link h.clean k hk status _ hp
  refine ⟨(respond_st order s k status).2.2.trans h.link, fun _ => he, ?_, he⟩
  rw [hw, ha.quarantine, h.out, h.held]
  split
  · simp only [bytes_append, List.append_assoc]
  · simp only [bytes_append, List.append_assoc]

/-! ### Custom replies with their enhanced code -/

/-- a custom reply in force has an enhanced code -/
def Coded (s : State) : Prop := ∀ code message, lastCustom s.log ≠ some (code, none, message)

theorem Coded.same {s s' : State} (h : Coded s) (hc : lastCustom s'.log = lastCustom s.log) : Coded s' := by
  unfold Coded
  rw [hc]
  exact h

theorem Coded.quiet {s s' : State} (h : Coded s) (hq : Quiet s s') : Coded s' := by
  obtain ⟨es, he, hes⟩ := hq.log
  exact h.same (by rw [he, lastCustom_quiet hes])

theorem Coded.note {s : State} (h : Coded s) (e : Event) (he : ∀ c ok, e = .called c ok → hasCode c = true) : Coded (s.note e) := by
  intro code message
  show lastCustom (s.log ++ [e]) ≠ _
  rw [lastCustom_snoc]
  split
  · rename_i c ext m
    have := he _ _ rfl
    cases ext with
    | none => cases this
    | some x => exact fun h => nomatch h
  · exact h code message

theorem Coded.called {s : State} (order : Requests → Requests) (c : Call) (ha : answers c = false) (hn : hasCode c = true) (h : Coded s) :
    Coded (callNoted order s c) := by
  have he : callNoted order s c = (call order s c).2.note (.called c (call order s c).1) := by
    cases c <;> first | rfl | (cases ha; done)
  rw [he]
  refine Coded.note ?_ _ (fun c' ok' h' => by cases h'; exact hn)
  by_cases hw : writes c = true
  · exact h.quiet (call_quiet order s c hw)
  · cases c <;> first | (cases ha; done) | exact absurd rfl hw | exact h

theorem Coded.runCalls {order : Requests → Requests} (calls : List Call) (hc : ∀ c ∈ calls, answers c = false ∧ hasCode c = true) :
    ∀ {s : State}, Coded s → Coded (runCalls order s calls) := by
  induction calls with
  | nil => exact fun h => h
  | cons c calls ih =>
    exact fun h => ih (fun x hx => hc x (List.mem_cons_of_mem _ hx))
      (h.called order c (hc c List.mem_cons_self).1 (hc c List.mem_cons_self).2)

theorem Coded.respond {s : State} (order : Requests → Requests) (k : Kind) (status : Status) (h : Coded s) :
    Coded (callNoted order s (.respond k status)) := by
  have h0 : Coded (setSt { s.note (.answered k status) with status := orContinue status } (.replied k)) :=
    h.note _ (fun _ _ h => nomatch h)
  show Coded (Client.respond order (s.note _) k status)
  unfold Client.respond
  dsimp only
  split
  · exact h0
  · unfold messageProcessed
    have h1 := h0.quiet (replyOnEndOfMessage_quiet order _ (orContinue status))
    split
    · exact Coded.note h1 _ (fun _ _ h => nomatch h)
    · exact h1
  · exact h0.quiet (reply_quiet _ _)

/-- then every decision the MTA can be told has its reply -/
theorem Coded.reply {s : State} (h : Coded s) (status : Status) (hs : hasReply status = true) :
    ∃ r, finalReply (lastCustom s.log) status = some r ∧ isAnswer r = true := by
  unfold finalReply
  unfold Coded at h
  generalize lastCustom s.log = l at h
  rcases l with _ | ⟨code, _ | ext, message⟩
  · cases status <;> first | (cases hs; done) | exact ⟨_, rfl, rfl⟩
  · exact absurd rfl (h code message)
  · cases status <;> first | (cases hs; done) | exact ⟨_, rfl, rfl⟩

/-! ### One command -/

/-- between two commands -/
structure Between (order : Requests → Requests) (w : Bytes) (o : Option Opt) (s : State) (out : List Reply) : Prop where
  sent : Sent order w s out []
  agrees : Agrees s
  legal : Legal s
  coded : Coded s
  st : s.st ≠ .doing .endOfMessage
  option : s.option = o

theorem shows_answer {c : Call} {part : List Reply} (h : Shows c part) : ∀ r ∈ part, isAnswer r = false := by
  intro r hr
  unfold Shows at h
  split at h
  all_goals first
    | (obtain ⟨_, _, _, _, rfl⟩ := h; rw [List.mem_singleton] at hr; subst hr; rfl)
    | (obtain ⟨_, _, rfl⟩ := h; rw [List.mem_singleton] at hr; subst hr; rfl)
    | (obtain ⟨_, rfl, _⟩ := h; obtain ⟨_, _, rfl⟩ := List.mem_map.mp hr; rfl)
    | (subst h; cases hr)

theorem quarantine_answer (reason : Option Bytes) : ∀ r ∈ quarantineReply reason, isAnswer r = false := by
  intro r hr
  rcases reason with _ | _ | ⟨a, x⟩
  · cases hr
  · cases hr
  · rw [quarantineReply, List.mem_singleton] at hr
    · subst hr; rfl
    · exact fun h => nomatch h

/-- `clearing`: no negotiation among the replies -/
def clearing (rs : List Reply) : Prop := ∀ r ∈ rs, Enc.replyClears r = true

theorem clearing_progress {rs : List Reply} (h : noProgress rs = []) : clearing rs := by
  intro r hr
  by_cases hp : r = .progress
  · rw [hp]; rfl
  · have : r ∈ noProgress rs := List.mem_filter.mpr ⟨hr, by simpa using hp⟩
    rw [h] at this
    cases this

theorem clearing_of {rs qs : List Reply} (h : noProgress rs = qs) (hq : clearing qs) : clearing rs := by
  intro r hr
  by_cases hp : r = .progress
  · rw [hp]; rfl
  · refine hq r ?_
    rw [← h]
    exact List.mem_filter.mpr ⟨hr, by simpa using hp⟩

/-! ### The custom reply and the reason for the quarantine, from the calls -/

theorem customAfter_append (custom : Option (Nat × Option Bytes × Option Bytes)) (a b : List Call) :
    customAfter custom (a ++ b) = customAfter (customAfter custom a) b := List.foldl_append ..

theorem called_lastCustom (order : Requests → Requests) (s : State) (c : Call) (ha : answers c = false) :
    lastCustom (callNoted order s c).log = customAfter (lastCustom s.log) [c] := by
  have he : callNoted order s c = (call order s c).2.note (.called c (call order s c).1) := by
    cases c <;> first | rfl | (cases ha; done)
  rw [he]
  show lastCustom ((call order s c).2.log ++ [.called c (call order s c).1]) = _
  by_cases hw : writes c = true
  · obtain ⟨es, h1, h2⟩ := (call_quiet order s c hw).log
    rw [h1, lastCustom_snoc, lastCustom_quiet h2]
    cases c <;> first | rfl | (cases hw; done)
  · cases c with
    | setReply code ext message =>
      rw [show (call order s (.setReply code ext message)).2.log = s.log from rfl, lastCustom_snoc,
        show (call order s (.setReply code ext message)).1 = (SetReply.setReply s.custom code ext message).1 from rfl]
      have hl := Props.C10_accepts s.custom code ext message
      by_cases h : Spec.LegalReply code ext
      · rw [hl.mpr h]
        exact (if_pos h).symm
      · have : (SetReply.setReply s.custom code ext message).1 = false := by
          cases hx : (SetReply.setReply s.custom code ext message).1 with
          | false => rfl
          | true => exact absurd (hl.mp hx) h
        rw [this]
        exact (if_neg h).symm
    | quarantine | setBufferSize | setShelf => exact lastCustom_snoc ..
    | _ => first | (cases ha; done) | exact absurd rfl hw

theorem runCalls_lastCustom (order : Requests → Requests) (calls : List Call) (hc : ∀ c ∈ calls, answers c = false) :
    ∀ s : State, lastCustom (runCalls order s calls).log = customAfter (lastCustom s.log) calls := by
  induction calls with
  | nil => exact fun _ => rfl
  | cons c calls ih =>
    intro s
    refine (ih (fun x hx => hc x (List.mem_cons_of_mem _ hx)) _).trans ?_
    rw [called_lastCustom order s c (hc c List.mem_cons_self), ← customAfter_append]
    rfl

theorem respond_lastCustom (order : Requests → Requests) (s : State) (k : Kind) (status : Status) :
    lastCustom (callNoted order s (.respond k status)).log = lastCustom s.log := by
  have key : ∀ {a b : State}, Quiet a b → lastCustom b.log = lastCustom a.log := fun {a b} q => by
    obtain ⟨es, h1, h2⟩ := q.log
    rw [h1, lastCustom_quiet h2]
  have h0 : lastCustom (setSt { s.note (.answered k status) with status := orContinue status } (.replied k)).log = lastCustom s.log :=
    lastCustom_snoc s.log (.answered k status)
  show lastCustom (Client.respond order (s.note _) k status).log = _
  unfold Client.respond
  dsimp only
  split
  · exact h0
  · unfold messageProcessed
    have h1 := key (replyOnEndOfMessage_quiet order (setSt { s.note (.answered .endOfMessage status) with status := orContinue status }
      (.replied .endOfMessage)) (orContinue status))
    split
    · exact (lastCustom_snoc _ _).trans (h1.trans h0)
    · exact h1.trans h0
  · exact (key (reply_quiet _ _)).trans h0

theorem called_reason (order : Requests → Requests) (s : State) (c : Call) (ha : answers c = false) :
    quarantineReason (callNoted order s c).log = match c with | .quarantine x => x | _ => quarantineReason s.log := by
  have he : callNoted order s c = (call order s c).2.note (.called c (call order s c).1) := by
    cases c <;> first | rfl | (cases ha; done)
  rw [he]
  show quarantineReason ((call order s c).2.log ++ [.called c (call order s c).1]) = _
  rw [quarantineReason_snoc]
  by_cases hw : writes c = true
  · obtain ⟨es, h1, h2⟩ := (call_quiet order s c hw).log
    rw [h1, quarantineReason_quiet h2]
    cases c <;> first | rfl | (cases hw; done)
  · cases c <;> first | (cases ha; done) | exact absurd rfl hw | rfl

theorem runCalls_reason (order : Requests → Requests) (calls : List Call) (hc : ∀ c ∈ calls, answers c = false) :
    ∀ s : State, quarantineReason (runCalls order s calls).log = calls.foldl (fun reason c => match c with
      | .quarantine x => x
      | _ => reason) (quarantineReason s.log) := by
  induction calls with
  | nil => exact fun _ => rfl
  | cons c calls ih =>
    intro s
    refine (ih (fun x hx => hc x (List.mem_cons_of_mem _ hx)) _).trans ?_
    rw [called_reason order s c (hc c List.mem_cons_self), List.foldl_cons]
    cases c <;> rfl

/-- a command that is answered at once -/
theorem Between.command {order : Requests → Requests} {w : Bytes} {o : Option Opt} {s : State} {out : List Reply}
    (h : Between order w o s out) (c : Cmd) (handlers : List Handler) (chosen : Option Opt) (requests : Option Requests)
    (k : Kind) (context : Option Macros.Context) (hk : kindOf c = some (k, context)) (hn : k ≠ .negotiate)
    (hd : hasReply (Spec.Client.decide handlers) = true)
    (hc : ∀ x ∈ (ran handlers).flatMap (·.calls), answers x = false ∧ recipientFlagsAgree o x = true ∧ hasCode x = true) :
    ∃ more, Between order w o (receive order s c handlers chosen requests) (out ++ more) ∧ clearing more ∧
      Fits o (customAfter (lastCustom s.log) (callsFor c handlers)) c (callsFor c handlers) (Spec.Client.decide handlers) more ∧
      lastCustom (receive order s c handlers chosen requests).log = customAfter (lastCustom s.log) (callsFor c handlers) := by
  have hcf : callsFor c handlers = (ran handlers).flatMap (·.calls) := by cases c <;> first | rfl | (cases hk; done)
  have hex : expectsReply c = true := by
    cases c <;> first | rfl | (cases hk; done) | (exact absurd (Prod.mk.inj (Option.some.inj hk)).1.symm hn)
  rw [hcf]
  have hA := h.agrees.receive (order := order) c handlers chosen requests
  have hL := h.legal.receive (order := order) c handlers chosen requests
  obtain ⟨f1, f2, f3, f4, f5⟩ := enter_fields s c k context
  have hdp : Spec.Client.decide handlers ≠ .progress := fun h => by rw [h] at hd; cases hd
  rw [receive_eq order s c handlers chosen requests k context hk hn] at hA hL ⊢
  dsimp only at hA hL ⊢
  rw [if_neg hdp] at hA hL ⊢
  have hent : Agrees (enter (s.note (.got c)) k context) := h.agrees.entered c k context hk
    (fun o h => by subst h; cases hk; exact hn rfl)
  have hw : written (enter (s.note (.got c)) k context).log = written s.log := by
    rw [f1, written_append]
    exact List.append_nil _
  have hb : s.buffered = [] := h.sent.held
  have h0 : Sent order w (enter (s.note (.got c)) k context) out [] :=
    ⟨f4.trans h.sent.link, fun _ => f3.trans hb, by rw [hw, h.sent.out], f3.trans hb⟩
  have hcod0 : Coded (enter (s.note (.got c)) k context) :=
    h.coded.same (by rw [f1, lastCustom_snoc])
  have hLeg0 : Legal (enter (s.note (.got c)) k context) := h.legal.same (by rw [enter_custom]; rfl)
  obtain ⟨s1, hs1⟩ : ∃ s1, s1 = runCalls order (enter (s.note (.got c)) k context) ((ran handlers).flatMap (·.calls)) := ⟨_, rfl⟩
  have hA1 : Agrees s1 := hs1 ▸ hent.runCalls _
  have hL1 : Legal s1 := hs1 ▸ hLeg0.runCalls _
  have hC1 : Coded s1 := hs1 ▸ hcod0.runCalls _ (fun x hx => ⟨(hc x hx).1, (hc x hx).2.2⟩)
  rw [← hs1] at hA hL ⊢
  have hlast : lastCustom s1.log = customAfter (lastCustom s.log) ((ran handlers).flatMap (·.calls)) := by
    rw [hs1, runCalls_lastCustom order _ (fun x hx => (hc x hx).1), f1, lastCustom_snoc]
  have hlast' : lastCustom (callNoted order s1 (.respond k (Spec.Client.decide handlers))).log =
      customAfter (lastCustom s.log) ((ran handlers).flatMap (·.calls)) := (respond_lastCustom order s1 k _).trans hlast
  obtain ⟨r, hr, hra⟩ := hC1.reply _ hd
  have hrp : noProgress [r] = [r] := by
    have : r ≠ .progress := fun h => by rw [h] at hra; cases hra
    simp [noProgress, this]
  obtain ⟨g1, g2, _⟩ := respond_st order s1 k (Spec.Client.decide handlers)
  have hst : (callNoted order s1 (.respond k (Spec.Client.decide handlers))).st ≠ .doing .endOfMessage := by
    rw [g1]; exact fun h => nomatch h
  by_cases hke : k = .endOfMessage
  · subst hke
    have hq : quarantineReason s1.log = reasonOf ((ran handlers).flatMap (·.calls)) := by
      rw [hs1, runCalls_reason order _ (fun x hx => (hc x hx).1), f1, quarantineReason_snoc]
      cases c <;> first | rfl | (cases hk; done)
    obtain ⟨out', held', parts, h1, h2, h3, h4, h5⟩ := h0.base.calls ((ran handlers).flatMap (·.calls)) f2
      (fun x hx => ⟨(hc x hx).1, by rw [f5, h.option]; exact (hc x hx).2.1⟩)
    rw [← hs1] at h1 h4 h5
    have h6 := h1.respond hA1 hL1 .endOfMessage hn _ r hr
    rw [if_pos rfl] at h6
    have h7 : noProgress (out' ++ (held' ++ quarantineReply (quarantineReason s1.log) ++ [r])) =
        (parts.flatten ++ quarantineReply (quarantineReason s1.log)) ++ [r] := by
      rw [← List.append_assoc, ← List.append_assoc, noProgress_append, noProgress_append, h2, hrp, quarantine_noProgress]
      rfl
    refine ⟨_, ⟨h6.onto, hA, hL, hC1.respond order .endOfMessage _, hst, g2.trans (h5.trans (f5.trans h.option))⟩,
      clearing_of h7 ?_, ?_, hlast'⟩
    · intro x hx
      rcases List.mem_append.mp hx with hx | hx
      · rcases List.mem_append.mp hx with hx | hx
        · obtain ⟨part, hp, hxp⟩ := List.mem_flatten.mp hx
          obtain ⟨c, _, hc⟩ := pointwise_right h3 hp
          exact shows_clears hc x hxp
        · exact quarantine_clears _ x hx
      · rw [List.mem_singleton] at hx
        subst hx
        exact finalReply_clears hr
    · unfold Fits
      rw [if_pos hex]
      refine ⟨parts, r, by rw [← hlast]; exact hr, ?_⟩
      rw [f5, h.option] at h3
      have h8 := h7.trans (congrArg (fun q => parts.flatten ++ quarantineReply q ++ [r]) hq)
      cases c <;> first | (cases hk; done) | exact ⟨h3, h8⟩
  · obtain ⟨more, h1, h2, h4, h5⟩ := h0.calls_out ((ran handlers).flatMap (·.calls)) (by rw [f2]; exact fun h => hke (St.doing.inj h))
      (fun x hx => ⟨(hc x hx).1, by rw [f5, h.option]; exact (hc x hx).2.1⟩)
    rw [← hs1] at h1 h4 h5
    have h6 := h1.respond hA1 hL1 k hn _ r hr
    rw [if_neg hke, List.append_nil, List.append_assoc] at h6
    refine ⟨more ++ [r], ⟨h6, hA, hL, hC1.respond order k _, hst, g2.trans (h5.trans (f5.trans h.option))⟩, ?_,
      ?_, hlast'⟩
    · intro x hx
      rcases List.mem_append.mp hx with hx | hx
      · exact clearing_progress h2 x hx
      · rw [List.mem_singleton] at hx
        subst hx
        exact finalReply_clears hr
    · unfold Fits
      rw [if_pos hex]
      refine ⟨[], r, by rw [← hlast]; exact hr, ?_⟩
      have h7 : noProgress (more ++ [r]) = [r] := by rw [noProgress_append, h2, hrp]; rfl
      cases c <;> first | (cases hk; done) | exact h7 | exact absurd (Prod.mk.inj (Option.some.inj hk)).1.symm hke

/-- macros: nothing is sent -/
theorem Between.macros {order : Requests → Requests} {w : Bytes} {o : Option Opt} {s : State} {out : List Reply}
    (h : Between order w o s out) (x : Macros.Context) (t : MacroTable) (handlers : List Handler) (chosen : Option Opt)
    (requests : Option Requests) : Between order w o (receive order s (.defineMacro x t) handlers chosen requests) out := by
  have h1 := h.sent.note (.got (.defineMacro x t)) (fun _ h => nomatch h)
  have h2 := h.coded.note (.got (.defineMacro x t)) (fun _ _ h => nomatch h)
  exact ⟨⟨h1.link, h1.clean, h1.out, h1.held⟩, h.agrees.receive _ _ _ _, h.legal.receive _ _ _ _, h2, h.st, h.option⟩

/-- an abort, at any time: nothing but reports of progress is sent -/
theorem Between.aborted {order : Requests → Requests} {w : Bytes} {o : Option Opt} {s : State} {out : List Reply}
    (hsent : Sent order w s out []) (hagrees : Agrees s) (hlegal : Legal s) (hcoded : Coded s) (hoption : s.option = o)
    (handlers : List Handler) (chosen : Option Opt) (requests : Option Requests)
    (hc : ∀ x ∈ (ran handlers).flatMap (·.calls), answers x = false ∧ recipientFlagsAgree o x = true ∧ hasCode x = true) :
    ∃ more, Between order w o (receive order s .abort handlers chosen requests) (out ++ more) ∧ noProgress more = [] := by
  have hA := hagrees.receive (order := order) .abort handlers chosen requests
  have hL := hlegal.receive (order := order) .abort handlers chosen requests
  have h1 := hsent.note (.got .abort) (fun _ h => nomatch h)
  have h2 := hcoded.note (.got .abort) (fun _ _ h => nomatch h)
  obtain ⟨s0, hs0⟩ : ∃ s0 : State, s0 = { setSt (s.note (.got .abort)) .abort with timer := false } := ⟨_, rfl⟩
  have h3 : Sent order w s0 out [] := by rw [hs0]; exact ⟨h1.link, h1.clean, h1.out, h1.held⟩
  have h4 : Coded s0 := by rw [hs0]; exact h2
  have h5 : s0.st ≠ .doing .endOfMessage := by rw [hs0]; exact fun h => nomatch h
  have h6 : s0.option = o := by rw [hs0]; exact hoption
  obtain ⟨more, i1, i2, i4, i5⟩ := h3.calls_out ((ran handlers).flatMap (·.calls)) h5
    (fun x hx => ⟨(hc x hx).1, by rw [h6]; exact (hc x hx).2.1⟩)
  have i6 := h4.runCalls (order := order) _ (fun x hx => ⟨(hc x hx).1, (hc x hx).2.2⟩)
  have he : receive order s .abort handlers chosen requests =
      if (emitAll order s0 handlers .default).2 = .progress then resetMessage (emitAll order s0 handlers .default).1
      else callNoted order (resetMessage (emitAll order s0 handlers .default).1) (.respondAbort (emitAll order s0 handlers .default).2) := by
    rw [hs0]; rfl
  have he1 : (emitAll order s0 handlers .default).1 = runCalls order s0 ((ran handlers).flatMap (·.calls)) := by
    unfold emitAll
    rw [emit_eq order _ s0 .default rfl (fun h => nomatch h), ran_snoc handlers _ (.inr rfl)]
  rw [he1] at he
  rw [he] at hA hL ⊢
  generalize runCalls order s0 ((ran handlers).flatMap (·.calls)) = s1 at *
  generalize (emitAll order s0 handlers .default).2 = status at *
  have i7 : Sent order w (resetMessage s1) (out ++ more) [] := ⟨i1.link, i1.clean, i1.out, i1.held⟩
  refine ⟨more, ?_, i2⟩
  split
  · rename_i hp
    rw [if_pos hp] at hA hL
    exact ⟨i7, hA, hL, i6, by rw [show (resetMessage s1).st = s1.st from rfl, i4]; exact h5, i5.trans h6⟩
  · rename_i hp
    rw [if_neg hp] at hA hL
    have hf : ∀ (t : State) (status : Status), (respondAbort t status).log = t.log ∧ (respondAbort t status).buffered = t.buffered ∧
        (respondAbort t status).link = t.link ∧ (respondAbort t status).option = t.option ∧ (respondAbort t status).st = .abortReplied := by
      intro t status
      unfold respondAbort
      dsimp only
      split <;> exact ⟨rfl, rfl, rfl, rfl, rfl⟩
    obtain ⟨j1, j2, j3, j4, j5⟩ := hf (resetMessage s1) status
    refine ⟨?_, hA, hL, ?_, ?_, ?_⟩
    · have : Sent order w (respondAbort (resetMessage s1) status) (out ++ more) [] :=
        ⟨j3.trans i7.link, fun _ => j2.trans i7.held, by rw [j1]; exact i7.out, j2.trans i7.held⟩
      exact this.note _ (fun _ h => nomatch h)
    · exact Coded.note (i6.same (by rw [j1]; rfl)) _ (fun _ _ h => by cases h; rfl)
    · show (respondAbort (resetMessage s1) status).st ≠ _
      rw [j5]; exact fun h => nomatch h
    · exact j4.trans (i5.trans h6)

/-- an abort between two commands -/
theorem Between.abort {order : Requests → Requests} {w : Bytes} {o : Option Opt} {s : State} {out : List Reply}
    (h : Between order w o s out) (handlers : List Handler) (chosen : Option Opt) (requests : Option Requests)
    (hc : ∀ x ∈ (ran handlers).flatMap (·.calls), answers x = false ∧ recipientFlagsAgree o x = true ∧ hasCode x = true) :
    ∃ more, Between order w o (receive order s .abort handlers chosen requests) (out ++ more) ∧ noProgress more = [] :=
  Between.aborted h.sent h.agrees h.legal h.coded h.option handlers chosen requests hc

/-- any command but a negotiation and the end of the session -/
theorem Between.any {order : Requests → Requests} {w : Bytes} {o : Option Opt} {s : State} {out : List Reply}
    (h : Between order w o s out) (c : Cmd) (handlers : List Handler) (chosen : Option Opt) (requests : Option Requests)
    (h1 : ∀ off, c ≠ .negotiate off) (h2 : c ≠ .quit) (h3 : expectsReply c = true → hasReply (Spec.Client.decide handlers) = true)
    (h4 : ∀ x ∈ (ran handlers).flatMap (·.calls), answers x = false ∧ recipientFlagsAgree o x = true ∧ hasCode x = true) :
    ∃ more, Between order w o (receive order s c handlers chosen requests) (out ++ more) ∧ clearing more ∧
      Fits o (customAfter (lastCustom s.log) (callsFor c handlers)) c (callsFor c handlers) (Spec.Client.decide handlers) more ∧
      lastCustom (receive order s c handlers chosen requests).log = customAfter (lastCustom s.log) (callsFor c handlers) := by
  cases hk : kindOf c with
  | some kc =>
    obtain ⟨k, context⟩ := kc
    have hn : k ≠ .negotiate := by
      intro hn
      subst hn
      cases c <;> simp [kindOf] at hk
      exact h1 _ rfl
    have hex : expectsReply c = true := by cases c <;> first | rfl | (cases hk; done) | exact absurd rfl (h1 _)
    exact h.command c handlers chosen requests k context hk hn (h3 hex) h4
  | none =>
    cases c with
    | defineMacro y t =>
      exact ⟨[], by rw [List.append_nil]; exact h.macros y t handlers chosen requests, (fun _ h => nomatch h), rfl, lastCustom_snoc s.log _⟩
    | abort =>
      obtain ⟨more, i1, i2⟩ := h.abort handlers chosen requests h4
      refine ⟨more, i1, clearing_progress i2, i2, ?_⟩
      obtain ⟨s0, hs0⟩ : ∃ s0 : State, s0 = { setSt (s.note (.got .abort)) .abort with timer := false } := ⟨_, rfl⟩
      have he1 : (emitAll order s0 handlers .default).1 = runCalls order s0 ((ran handlers).flatMap (·.calls)) := by
        unfold emitAll
        rw [emit_eq order _ s0 .default rfl (fun h => nomatch h), ran_snoc handlers _ (.inr rfl)]
      have he : receive order s .abort handlers chosen requests =
          if (emitAll order s0 handlers .default).2 = .progress then resetMessage (emitAll order s0 handlers .default).1
          else callNoted order (resetMessage (emitAll order s0 handlers .default).1) (.respondAbort (emitAll order s0 handlers .default).2) := by
        rw [hs0]; rfl
      have hl : lastCustom (runCalls order s0 ((ran handlers).flatMap (·.calls))).log = customAfter (lastCustom s.log) ((ran handlers).flatMap (·.calls)) := by
        rw [runCalls_lastCustom order _ (fun x hx => (h4 x hx).1), hs0]
        exact congrArg (customAfter · _) (lastCustom_snoc s.log _)
      rw [he, he1]
      show _ = customAfter (lastCustom s.log) ((ran handlers).flatMap (·.calls))
      rw [← hl]
      generalize runCalls order s0 ((ran handlers).flatMap (·.calls)) = s1
      generalize (emitAll order s0 handlers .default).2 = status
      split
      · rfl
      · have : (respondAbort (resetMessage s1) status).log = s1.log := by
          unfold respondAbort
          dsimp only
          split <;> rfl
        show lastCustom ((respondAbort (resetMessage s1) status).log ++ [_]) = _
        rw [this]
        exact lastCustom_snoc ..
    | quit => exact absurd rfl h2
    | _ => cases hk

/-- A session in which every command is answered before the next: what the MTA reads, command by command. -/
theorem Between.session {order : Requests → Requests} {w : Bytes} {o : Option Opt}
    (cmds : List (Cmd × List Handler)) : ∀ {s : State} {out : List Reply}, Between order w o s out →
    (∀ x ∈ cmds, (∀ off, x.1 ≠ .negotiate off) ∧ x.1 ≠ .quit ∧ (expectsReply x.1 = true → hasReply (Spec.Client.decide x.2) = true) ∧
      ∀ c ∈ (ran x.2).flatMap (·.calls), answers c = false ∧ recipientFlagsAgree o c = true ∧ hasCode c = true) →
    ∃ groups : List (List Reply), Conversed o (lastCustom s.log) cmds groups ∧ clearing groups.flatten ∧
      Between order w o (run order s (cmds.map fun x => .command x.1 x.2 none none)) (out ++ groups.flatten) := by
  induction cmds with
  | nil => intro s out h _; exact ⟨[], True.intro, (fun _ h => nomatch h), by rw [List.flatten_nil, List.append_nil]; exact h⟩
  | cons x cmds ih =>
    intro s out h hc
    obtain ⟨h1, h2, h3, h4⟩ := hc x List.mem_cons_self
    have key := h.any x.1 x.2 none none h1 h2 h3 h4
    obtain ⟨more, i1, i2, i3, i4⟩ := key
    obtain ⟨groups, j1, j2, j3⟩ := ih i1 (fun y hy => hc y (List.mem_cons_of_mem _ hy))
    rw [i4] at j1
    refine ⟨more :: groups, ⟨i3, j1⟩, ?_, ?_⟩
    · intro r hr
      rw [List.flatten_cons] at hr
      rcases List.mem_append.mp hr with hr | hr
      · exact i2 r hr
      · exact j2 r hr
    · rw [List.flatten_cons, ← List.append_assoc]
      exact j3

end Verif.Client
