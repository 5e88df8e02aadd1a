import Verif.Client.Custom
/-
What the answer to a command writes.
-/
namespace Verif.Client
open Verif Verif.Spec.Client

theorem createReplyPacket_state (s : State) (status : Status) : ∃ enc, (createReplyPacket s status).2 = { s with enc := enc } := by
  unfold createReplyPacket
  split
  all_goals first
    | exact ⟨_, rfl⟩
    | (split <;> exact ⟨_, rfl⟩)

/-- only the custom reply matters for the packet -/
theorem createReplyPacket_same {s s' : State} (h : s'.custom = s.custom) (status : Status) :
    (createReplyPacket s' status).1 = (createReplyPacket s status).1 := by
  have hf : formatReply s' = formatReply s := by unfold formatReply; rw [h]
  unfold createReplyPacket
  cases status <;> first | rfl | (dsimp only; rw [hf]; cases formatReply s <;> rfl)

theorem reply_written {s : State} (hl : s.link = .ready) (hc : Clean s) (status : Status) (p : Bytes)
    (hp : (createReplyPacket s status).1 = some p) :
    written (reply s status).log = written s.log ++ p ++ s.buffered ∧ (reply s status).buffered = [] := by
  obtain ⟨enc, he⟩ := createReplyPacket_state s status
  unfold reply
  generalize createReplyPacket s status = r at hp he
  obtain ⟨x, s'⟩ := r
  dsimp only at hp he
  subst hp he
  obtain ⟨_, h1, h2⟩ := writePacket_ready (s := { s with enc := enc }) hl hc p
  exact ⟨h1, h2⟩

theorem reply_silent {s : State} (status : Status) (hp : (createReplyPacket s status).1 = none) : (reply s status).log = s.log := by
  obtain ⟨enc, he⟩ := createReplyPacket_state s status
  unfold reply
  generalize createReplyPacket s status = r at hp he
  obtain ⟨x, s'⟩ := r
  dsimp only at hp he
  subst hp he
  rfl

theorem quarantine_bytes (order : Requests → Requests) (reason : Bytes) :
    bytes order [.quarantine reason] = bytes order (quarantineReply (some reason)) := by
  cases reason <;> rfl

theorem replyOnEndOfMessage_written (order : Requests → Requests) {s : State} (hl : s.link = .ready) (hc : Clean s) (status : Status)
    (p : Bytes) (hp : (createReplyPacket s status).1 = some p) :
    written (replyOnEndOfMessage order s status).log =
      written s.log ++ s.buffered ++ bytes order (quarantineReply s.quarantine) ++ p := by
  obtain ⟨h1, h2, h3⟩ := flush_ready hl hc
  have hq := flush_quiet s
  have hcl := flush_clean hc
  have hp' := (createReplyPacket_same hq.custom status).trans hp
  unfold replyOnEndOfMessage
  generalize flush s = r at h1 h2 h3 hq hcl hp'
  obtain ⟨ok, s1⟩ := r
  dsimp only at h1 h2 h3 hq hcl hp'
  subst h1
  obtain ⟨enc, he⟩ := createReplyPacket_state s1 status
  dsimp only
  generalize createReplyPacket s1 status = r at hp' he
  obtain ⟨x, s2⟩ := r
  dsimp only at hp' he
  subst hp' he
  dsimp only
  have hl1 : s1.link = .ready := hq.link.trans hl
  have hqq : s1.quarantine = s.quarantine := hq.quarantine
  cases hreason : s.quarantine with
  | none =>
    rw [hreason] at hqq
    simp only [hqq]
    obtain ⟨_, g1, _⟩ := writePacket_ready (s := { s1 with enc := enc }) hl1 (fun _ => h3) p
    simp only [hqq] at g1
    rw [g1]
    show written s1.log ++ p ++ s1.buffered = _
    rw [h2, h3]
    simp [quarantineReply, bytes_nil]
  | some reason =>
    rw [hreason] at hqq
    simp only [hqq]
    have hb := encode_bytes order ({ s1 with enc := enc, quarantine := some reason } : State) (.quarantine reason) rfl
    rw [hb]
    obtain ⟨_, g1, _⟩ := writePacket_ready (s := (encode order ({ s1 with enc := enc, quarantine := some reason } : State) (.quarantine reason)).2)
      hl1 (fun _ => h3) (bytes order [.quarantine reason] ++ p)
    rw [g1]
    show written s1.log ++ (bytes order [.quarantine reason] ++ p) ++ s1.buffered = _
    rw [h2, h3, quarantine_bytes, List.append_nil, List.append_assoc, List.append_assoc, List.append_assoc]

/-- the answer to a command -/
theorem respond_written (order : Requests → Requests) {s : State} (ha : Agrees s) (hl : s.link = .ready) (k : Kind) (hk : k ≠ .negotiate)
    (status : Status) (p : Bytes) (hp : (createReplyPacket s (orContinue status)).1 = some p) :
    written (callNoted order s (.respond k status)).log = written s.log ++
      (if k = .endOfMessage then s.buffered ++ bytes order (quarantineReply s.quarantine) ++ p else p ++ s.buffered) := by
  obtain ⟨s0, hs0⟩ : ∃ s0 : State, s0 = setSt { s.note (.answered k status) with status := orContinue status } (.replied k) := ⟨_, rfl⟩
  have hw : written s0.log = written s.log := by
    rw [hs0]
    show written (s.log ++ [.answered k status]) = _
    rw [written_append]
    exact List.append_nil _
  have hb : s0.buffered = s.buffered := by rw [hs0]; rfl
  have hq : s0.quarantine = s.quarantine := by rw [hs0]; rfl
  have hl0 : s0.link = .ready := by rw [hs0]; exact hl
  have hc0 : Clean s0 := by rw [hs0]; exact ha.buffer
  have hp0 : (createReplyPacket s0 (orContinue status)).1 = some p := (createReplyPacket_same (by rw [hs0]; rfl) _).trans hp
  by_cases hk' : k = .endOfMessage
  · rw [if_pos hk']
    have he : callNoted order s (.respond k status) = messageProcessed (replyOnEndOfMessage order s0 (orContinue status)) := by
      rw [hs0]; subst hk'; rfl
    rw [he]
    have h1 := replyOnEndOfMessage_written order hl0 hc0 (orContinue status) p hp0
    have h2 : written (messageProcessed (replyOnEndOfMessage order s0 (orContinue status))).log =
        written (replyOnEndOfMessage order s0 (orContinue status)).log := by
      unfold messageProcessed
      split
      · show written (_ ++ [Event.processed _]) = _
        rw [written_append]
        exact List.append_nil _
      · rfl
    rw [h2, h1, hw, hb, hq]
    simp only [List.append_assoc]
  · rw [if_neg hk']
    have he : callNoted order s (.respond k status) = reply s0 (orContinue status) := by
      rw [hs0]
      cases k <;> first | rfl | exact absurd rfl hk | exact absurd rfl hk'
    rw [he, (reply_written hl0 hc0 _ p hp0).1, hw, hb, List.append_assoc]

/-- a decision without reply -/
theorem respond_silent (order : Requests → Requests) {s : State} (k : Kind) (hk : k ≠ .endOfMessage)
    (status : Status) (hp : (createReplyPacket s (orContinue status)).1 = none) :
    written (callNoted order s (.respond k status)).log = written s.log := by
  have hw : written (s.log ++ [.answered k status]) = written s.log := by
    rw [written_append]
    exact List.append_nil _
  by_cases hn : k = .negotiate
  · subst hn; exact hw
  have he : callNoted order s (.respond k status) =
      reply (setSt { s.note (.answered k status) with status := orContinue status } (.replied k)) (orContinue status) := by
    cases k <;> first | rfl | exact absurd rfl hk | exact absurd rfl hn
  rw [he, reply_silent]
  · exact hw
  · refine Eq.trans (createReplyPacket_same (s := s) ?_ _) hp
    rfl

/-! ### Handlers -/

theorem runCalls_append (order : Requests → Requests) (s : State) (a b : List Call) :
    runCalls order s (a ++ b) = runCalls order (runCalls order s a) b := List.foldl_append

theorem accumulate_stop (acc returned : Status) (h : final acc = false) (hn : acc ≠ .notChange) :
    (accumulate acc returned).2 = !final returned ∧
      (accumulate acc returned).1 = (if returned = .notChange then acc else returned) := by
  cases returned <;> cases acc <;> first | exact ⟨rfl, rfl⟩ | (cases h; done) | exact absurd rfl hn

theorem emit_eq (order : Requests → Requests) (hs : List Handler) : ∀ (s : State) (acc : Status), final acc = false → acc ≠ .notChange →
    emit order hs s acc = (runCalls order s ((ran hs).flatMap (·.calls)),
      (((ran hs).map (·.returns)).filter (· ≠ .notChange)).getLast?.getD acc) := by
  induction hs with
  | nil => intro s acc _ _; rfl
  | cons h hs ih =>
    intro s acc hacc hacn
    obtain ⟨h1, h2⟩ := accumulate_stop acc h.returns hacc hacn
    unfold emit
    dsimp only
    by_cases hf : final h.returns = true
    · rw [hf] at h1
      have hn : h.returns ≠ .notChange := fun h' => by rw [h'] at hf; cases hf
      rw [h1, h2, if_neg hn]
      simp [ran, hf, hn]
    · have hf : final h.returns = false := by simpa using hf
      rw [hf] at h1
      have hacc' : final (if h.returns = .notChange then acc else h.returns) = false := by split <;> assumption
      have hacn' : (if h.returns = .notChange then acc else h.returns) ≠ .notChange := by split <;> assumption
      rw [h1, h2, Bool.not_false, if_pos rfl, ih _ _ hacc' hacn']
      have hr : ran (h :: hs) = h :: ran hs := by simp [ran, hf]
      rw [hr]
      simp only [List.flatMap_cons, List.map_cons, List.filter_cons]
      rw [runCalls_append]
      congr 1
      by_cases hn : h.returns = .notChange
      · simp [hn]
      · simp only [hn, if_false]
        rw [if_pos (by simpa using hn)]
        cases hx : (((ran hs).map (·.returns)).filter (· ≠ .notChange)) with
        | nil => simp
        | cons y ys => simp [List.getLast?_cons]

theorem ran_snoc (hs : List Handler) (own : Status) (ho : own = .notChange ∨ own = .default) :
    (ran (hs ++ [⟨[], own⟩])).flatMap (·.calls) = (ran hs).flatMap (·.calls) := by
  induction hs with
  | nil => rcases ho with rfl | rfl <;> rfl
  | cons h hs ih =>
    rw [List.cons_append]
    unfold ran
    split
    · rfl
    · rw [List.flatMap_cons, List.flatMap_cons, ih]

theorem decide_snoc (hs : List Handler) : decide (hs ++ [⟨[], .notChange⟩]) = decide hs := by
  unfold Spec.Client.decide
  suffices h : ((ran (hs ++ [⟨[], .notChange⟩])).map (·.returns)).filter (· ≠ .notChange) = ((ran hs).map (·.returns)).filter (· ≠ .notChange) by
    rw [h]
  induction hs with
  | nil => rfl
  | cons h hs ih =>
    rw [List.cons_append]
    unfold ran
    split
    · rfl
    · rw [List.map_cons, List.map_cons, List.filter_cons, List.filter_cons, ih]

theorem emitAll_eq (order : Requests → Requests) (s : State) (hs : List Handler) :
    emitAll order s hs .notChange = (runCalls order s ((ran hs).flatMap (·.calls)), Spec.Client.decide hs) := by
  unfold emitAll
  rw [emit_eq order _ s .default rfl (fun h => nomatch h), ran_snoc hs _ (.inl rfl)]
  congr 1
  exact decide_snoc hs

/-- a command with an ordinary answer: the handlers that run make their calls, then the decision is answered -/
theorem receive_eq (order : Requests → Requests) (s : State) (c : Cmd) (handlers : List Handler) (chosen : Option Opt)
    (requests : Option Requests) (k : Kind) (context : Option Macros.Context) (hk : kindOf c = some (k, context))
    (hn : k ≠ .negotiate) :
    receive order s c handlers chosen requests =
      let s1 := runCalls order (enter (s.note (.got c)) k context) ((ran handlers).flatMap (·.calls))
      if Spec.Client.decide handlers = .progress then s1 else callNoted order s1 (.respond k (Spec.Client.decide handlers)) := by
  rw [receive_plain order s c handlers chosen requests k context hk hn, emitAll_eq]

/-! ### The packets as the reply encoder makes them -/

theorem bytes_encode (order : Requests → Requests) (rs : List Reply) (h : ∀ r ∈ rs, Enc.replyClears r = true) :
    bytes order rs = (Enc.encodeReplies order [] rs).flatten := by
  have key : ∀ buf, bytes order rs = (Enc.encodeReplies order buf rs).flatten := by
    induction rs with
    | nil => intro buf; rfl
    | cons r rs ih =>
      intro buf
      have hr := h r List.mem_cons_self
      rw [Enc.encodeReplies, show r :: rs = [r] ++ rs from rfl, bytes_append, bytes_one]
      have ih := ih fun x hx => h x (List.mem_cons_of_mem _ hx)
      unfold Enc.encodeReply
      cases Enc.replyContent order r with
      | none => simpa using ih buf
      | some c => simp [hr, ← ih]
  exact key []

/-- replies for modifications are no negotiation -/
theorem shows_clears {c : Call} {part : List Reply} (h : Shows c part) : ∀ r ∈ part, Enc.replyClears r = true := by
  intro r hr
  unfold Shows at h
  split at h
  all_goals first
    | (obtain ⟨_, _, _, _, rfl⟩ := h; rw [List.mem_singleton] at hr; subst hr; rfl)
    | (obtain ⟨_, _, rfl⟩ := h; rw [List.mem_singleton] at hr; subst hr; rfl)
    | (obtain ⟨_, rfl, _⟩ := h; obtain ⟨_, _, rfl⟩ := List.mem_map.mp hr; rfl)
    | (subst h; cases hr)

theorem quarantine_clears (r : Option Bytes) : ∀ x ∈ quarantineReply r, Enc.replyClears x = true := by
  intro x hx
  rcases r with _ | _ | ⟨a, r⟩
  · cases hx
  · cases hx
  · rw [quarantineReply, List.mem_singleton] at hx
    · subst hx; rfl
    · exact fun h => nomatch h

theorem finalReply_clears {custom : Option (Nat × Option Bytes × Option Bytes)} {status : Status} {r : Reply}
    (h : finalReply custom status = some r) : Enc.replyClears r = true := by
  unfold finalReply at h
  split at h <;> first
    | (cases h; rfl)
    | (split at h <;> cases h <;> rfl)
    | (cases h; done)

theorem finalReply_progress {custom : Option (Nat × Option Bytes × Option Bytes)} {status : Status} {r : Reply}
    (h : finalReply custom status = some r) : r ≠ .progress := by
  unfold finalReply at h
  split at h <;> first
    | (cases h; exact fun h => nomatch h)
    | (split at h <;> cases h <;> exact fun h => nomatch h)
    | (cases h; done)

theorem quarantine_noProgress (r : Option Bytes) : noProgress (quarantineReply r) = quarantineReply r := by
  rcases r with _ | _ | ⟨a, r⟩ <;> rfl

theorem pointwise_right {α β : Type} {R : α → β → Prop} {as : List α} {bs : List β} (h : Spec.Pointwise R as bs) {b : β}
    (hb : b ∈ bs) : ∃ a ∈ as, R a b := by
  induction h with
  | nil => cases hb
  | cons h _ ih =>
    rcases List.mem_cons.mp hb with rfl | hb
    · exact ⟨_, List.mem_cons_self, h⟩
    · obtain ⟨a, ha, hr⟩ := ih hb
      exact ⟨a, List.mem_cons_of_mem _ ha, hr⟩

theorem param_ok (p : Option Bytes) (h : ∀ x, p = some x → IsCStr x ∧ x ≠ []) : Spec.ParamOk p := by
  cases p with
  | none => trivial
  | some x => exact h x rfl

/-- arguments the protocol can carry make replies it can carry -/
theorem shows_ok {c : Call} {part : List Reply} (h : Shows c part) (hc : CallOk c) : ∀ r ∈ part, Spec.ReplyOk r := by
  intro r hr
  unfold Shows at h
  split at h
  · obtain ⟨_, _, rfl, rfl, rfl⟩ := h
    rw [List.mem_singleton] at hr; subst hr; exact hc
  · obtain ⟨_, _, rfl, rfl, rfl⟩ := h
    rw [List.mem_singleton] at hr; subst hr; exact hc
  · obtain ⟨_, rfl, rfl⟩ := h
    rw [List.mem_singleton] at hr; subst hr; exact hc
  · obtain ⟨_, rfl, rfl⟩ := h
    rw [List.mem_singleton] at hr; subst hr; exact hc
  · obtain ⟨_, rfl, rfl⟩ := h
    rw [List.mem_singleton] at hr; subst hr; exact hc
  · obtain ⟨_, rfl, rfl⟩ := h
    rw [List.mem_singleton] at hr; subst hr
    exact ⟨hc.1, hc.2.1, param_ok _ hc.2.2⟩
  · obtain ⟨_, rfl, rfl⟩ := h
    rw [List.mem_singleton] at hr; subst hr
    exact ⟨hc.1, hc.2.1, param_ok _ hc.2.2⟩
  · obtain ⟨_, rfl, rfl⟩ := h
    rw [List.mem_singleton] at hr; subst hr; exact hc
  · obtain ⟨chunks, rfl, _, h2⟩ := h
    obtain ⟨x, hx, rfl⟩ := List.mem_map.mp hr
    exact h2 x hx
  · subst h; cases hr

theorem sameReplies_eq {a b : List Reply} (h : Spec.Pointwise Spec.SameReply a b) (hn : ∀ x ∈ a, ∀ o q, x ≠ .negotiate o q) : a = b := by
  induction h with
  | nil => rfl
  | @cons x y as bs h _ ih =>
    rw [ih fun z hz => hn z (List.mem_cons_of_mem _ hz)]
    have : x = y := by
      cases x <;> first
        | exact absurd rfl (hn _ List.mem_cons_self _ _)
        | exact h
    rw [this]

end Verif.Client
