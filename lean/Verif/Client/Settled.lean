import Verif.Client.Message
/-
Nothing stays buffered when a message is answered.
-/
namespace Verif.Client
open Verif Verif.Spec.Client

theorem writePacket_empty {s : State} (p : Bytes) (h : s.buffered = []) : (writePacket s p).2.buffered = [] := by
  unfold writePacket
  dsimp only
  split
  · exact h
  · have h1 := writerWrite_inner { s with timer := true } p
    generalize writerWrite { s with timer := true } p = r at h1
    obtain ⟨ok, s'⟩ := r
    dsimp only at h1 ⊢
    have h2 : s'.buffered = [] := h1.2.trans h
    split
    · have h3 := (flush_clean (s := s') fun _ => h2).2
      generalize flush s' = r at h3
      obtain ⟨ok, s''⟩ := r
      dsimp only at h3 ⊢
      split <;> exact h3
    · exact h2

theorem createReplyPacket_empty {s : State} (status : Status) (h : s.buffered = []) : (createReplyPacket s status).2.buffered = [] := by
  unfold createReplyPacket
  split
  all_goals first
    | exact h
    | (split <;> exact h)

theorem reply_empty {s : State} (status : Status) (h : s.buffered = []) : (reply s status).buffered = [] := by
  have := createReplyPacket_empty status h
  unfold reply
  generalize createReplyPacket s status = r at this
  obtain ⟨p, s'⟩ := r
  cases p with
  | none => exact this
  | some p => exact writePacket_empty p this

theorem replyOnEndOfMessage_empty (order : Requests → Requests) {s : State} (status : Status) (h : Clean s) :
    (replyOnEndOfMessage order s status).buffered = [] := by
  have h0 := (flush_clean h).2
  unfold replyOnEndOfMessage
  generalize flush s = r at h0
  obtain ⟨ok, s'⟩ := r
  dsimp only at h0
  cases ok
  · exact h0
  · dsimp only
    have h1 := createReplyPacket_empty status h0
    generalize createReplyPacket s' status = r at h1
    obtain ⟨p, s''⟩ := r
    dsimp only at h1
    cases p with
    | none => exact h1
    | some p =>
      dsimp only
      split
      · exact writePacket_empty _ h1
      · exact writePacket_empty _ (show (encode order s'' _).2.buffered = [] from h1)

/-- outside the end of the message no call buffers anything -/
theorem call_empty (order : Requests → Requests) {s : State} (c : Call) (hc : writes c = true) (hs : s.st ≠ .doing .endOfMessage)
    (h : s.buffered = []) : (call order s c).2.buffered = [] := by
  have key : ∀ flag r, (modify order s flag r).2.buffered = [] := fun flag r => by
    rw [modify_refused order s flag r fun h => hs h.1]; exact h
  cases c with
  | addHeader n v =>
    unfold call
    cases n <;> cases v <;> first | exact h | exact key _ _
  | insertHeader i n v =>
    unfold call
    cases n <;> cases v <;> first | exact h | exact key _ _
  | changeHeader n i v =>
    unfold call
    cases n <;> first | exact h | exact key _ _
  | deleteHeader n i =>
    unfold call
    cases n <;> first | exact h | exact key _ _
  | changeFrom f p =>
    unfold call
    dsimp only
    split <;> first | exact h | exact key _ _
  | addRecipient r p =>
    unfold call
    dsimp only
    split <;> first | exact h | exact key _ _
  | deleteRecipient r =>
    unfold call
    dsimp only
    split <;> first | exact h | exact key _ _
  | replaceBody b =>
    show (replaceBody order s b).2.buffered = []
    rw [replaceBody_refused order s b fun h => hs h.1]; exact h
  | progress => exact writePacket_empty (encode order s .progress).1 (show (encode order s .progress).2.buffered = [] from h)
  | flush => exact (flush_clean (s := s) fun _ => h).2
  | _ => cases hc

/-! ### Interruptions -/

theorem snocInduction {P : List Event → Prop} (nil : P []) (snoc : ∀ l e, P l → P (l ++ [e])) (l : List Event) : P l := by
  rw [← List.reverse_reverse l]
  induction l.reverse with
  | nil => exact nil
  | cons e l ih => rw [List.reverse_cons]; exact snoc _ e ih

theorem respondNegotiate_shape (order : Requests → Requests) (s : State) (o : Option Opt) (r : Option Requests) (status : Status) :
    ∃ s' : State, s'.log = s.log ∧ s'.buffered = s.buffered ∧
      (respondNegotiate order s o r status = s' ∨ ∃ p, respondNegotiate order s o r status = (writePacket s' p).2) := by
  unfold respondNegotiate
  dsimp only
  generalize (if status = .default then Status.allOptions else status) = st
  obtain ⟨s1, hs1⟩ : ∃ s1 : State, s1 = (if st = .continue_ then
    ({ setSt { s with status := st } (.replied .negotiate) with option := o } : State) else setSt { s with status := st } (.replied .negotiate)) := ⟨_, rfl⟩
  have h1 : s1.log = s.log ∧ s1.buffered = s.buffered := by
    rw [hs1]
    split <;> exact ⟨rfl, rfl⟩
  rw [← hs1]
  by_cases h2 : st = .continue_ ∨ st = .allOptions
  · rw [if_pos h2]
    refine ⟨_, ?_, ?_, .inr ⟨_, rfl⟩⟩
    · exact h1.1
    · exact h1.2
  · rw [if_neg h2]
    by_cases h3 : st = .reject
    · rw [if_pos h3]
      exact ⟨(packContent s1 [0x72]).2, h1.1, h1.2, .inr ⟨_, rfl⟩⟩
    · rw [if_neg h3]
      exact ⟨s1, h1.1, h1.2, .inl rfl⟩

/-- leaving the end of the message otherwise than by its answer -/
def leaves : Event → Bool
  | .got (.defineMacro _ _) => false
  | .got _ => true
  | .answered .endOfMessage _ => false
  | .answered _ _ | .answeredNegotiate _ _ | .called (.respondAbort _) _ | .timedOut | .shutdown => true
  | _ => false

theorem interrupted_snoc (l : List Event) (e : Event) :
    interrupted (l ++ [e]) = (interrupted l || (Spec.Client.atEnd l && leaves e)) := by
  have h : ∀ l : List Event, (l.foldl (fun (b : Bool × Bool) e => match e with
    | .got (.endOfMessage _) => (true, b.2 || b.1)
    | .got (.defineMacro _ _) => b
    | .got _ => (false, b.2 || b.1)
    | .answered .endOfMessage _ => (false, b.2)
    | .answered _ _ | .answeredNegotiate _ _ | .called (.respondAbort _) _ | .timedOut | .shutdown => (false, b.2 || b.1)
    | _ => b) (false, false)).1 = Spec.Client.atEnd l := by
    intro l
    induction l using snocInduction with
    | nil => rfl
    | snoc l e ih =>
      rw [List.foldl_append, atEnd_snoc, ← ih]
      generalize List.foldl _ (false, false) l = b
      cases e with
      | got c => cases c <;> rfl
      | answered k s => cases k <;> rfl
      | called c ok => cases c <;> rfl
      | _ => rfl
  have h1 := h l
  unfold interrupted
  rw [List.foldl_append, ← h1]
  generalize List.foldl _ (false, false) l = b
  cases e with
  | got c => cases c <;> first | rfl | simp [leaves, List.foldl]
  | answered k s => cases k <;> first | rfl | simp [leaves, List.foldl]
  | called c ok => cases c <;> first | rfl | simp [leaves, List.foldl]
  | _ => first | rfl | simp [leaves, List.foldl]

theorem interrupted_quiet {l es : List Event} (h : ∀ e ∈ es, quietEvent e = true) : interrupted (l ++ es) = interrupted l := by
  induction es using snocInduction with
  | nil => rw [List.append_nil]
  | snoc es e ih =>
    rw [← List.append_assoc, interrupted_snoc, ih fun x hx => h x (List.mem_append_left _ hx)]
    have := h e (List.mem_append_right _ (List.mem_singleton.mpr rfl))
    cases e <;> first | (cases this; done) | simp [leaves]

/-- the record and the state agree, and nothing is left over from a message that was answered -/
structure Settled (s : State) : Prop where
  agrees : Agrees s
  empty : interrupted s.log = false → s.st ≠ .doing .endOfMessage → s.buffered = []

theorem Settled.called {s : State} (order : Requests → Requests) (c : Call) (h : Settled s) : Settled (callNoted order s c) := by
  refine ⟨h.agrees.called order c, ?_⟩
  by_cases hw : writes c = true
  · have hq := call_quiet order s c hw
    have he : callNoted order s c = (call order s c).2.note (.called c (call order s c).1) := by
      cases c <;> first | rfl | (cases hw; done)
    rw [he]
    intro h1 h2
    have h2' : s.st ≠ .doing .endOfMessage := by
      rw [← hq.st]; exact h2
    refine call_empty order c hw h2' (h.empty ?_ h2')
    obtain ⟨es, hl, hes⟩ := hq.log
    have h1' : interrupted ((call order s c).2.log ++ [.called c (call order s c).1]) = false := h1
    rw [interrupted_snoc, hl, interrupted_quiet hes] at h1'
    exact (Bool.or_eq_false_iff.mp h1').1
  · cases c with
    | setReply | quarantine | setBufferSize | setShelf =>
      intro h1 h2
      refine h.empty ?_ h2
      have h1 : interrupted (s.log ++ [_]) = false := h1
      rw [interrupted_snoc] at h1
      exact (Bool.or_eq_false_iff.mp h1).1
    | respond k status =>
      intro h1 _
      have hst : ∀ s' : State, Quiet (setSt { s.note (.answered k status) with status := orContinue status } (.replied k)) s' →
          s'.log = (callNoted order s (.respond k status)).log ∨ (∃ x, (callNoted order s (.respond k status)).log = s'.log ++ [.processed x]) →
          interrupted (s.log ++ [.answered k status]) = false := by
        intro s' hq hl
        obtain ⟨es, hl', hes⟩ := hq.log
        have hl' : s'.log = s.log ++ [.answered k status] ++ es := hl'
        have : interrupted s'.log = false := by
          rcases hl with hl | ⟨x, hl⟩
          · rw [hl]; exact h1
          · rw [hl, interrupted_snoc] at h1
            exact (Bool.or_eq_false_iff.mp h1).1
        rw [hl', interrupted_quiet hes] at this
        exact this
      have hEnd : k = .endOfMessage → (callNoted order s (.respond k status)).buffered = [] := by
        intro hk
        subst hk
        show (messageProcessed _).buffered = []
        unfold messageProcessed
        split <;> exact replyOnEndOfMessage_empty order _ h.agrees.buffer
      by_cases hk : k = .endOfMessage
      · exact hEnd hk
      have hb : k ≠ .negotiate → (callNoted order s (.respond k status)).buffered = [] := by
        intro hk'
        have he : callNoted order s (.respond k status) =
            reply (setSt { s.note (.answered k status) with status := orContinue status } (.replied k)) (orContinue status) := by
          cases k <;> first | rfl | exact absurd rfl hk | exact absurd rfl hk'
        rw [he]
        have h3 := hst _ (reply_quiet _ (orContinue status)) (.inl (by rw [he]))
        rw [interrupted_snoc, Bool.or_eq_false_iff] at h3
        refine reply_empty _ (h.empty h3.1 fun hx => ?_)
        rw [h.agrees.atEnd.mp hx] at h3
        cases k <;> first | exact absurd rfl hk | exact absurd h3.2 (by simp [leaves])
      by_cases hk' : k = .negotiate
      · subst hk'
        have h3 := hst _ (Quiet.refl _) (.inl rfl)
        rw [interrupted_snoc, Bool.or_eq_false_iff] at h3
        refine h.empty h3.1 fun hx => ?_
        rw [h.agrees.atEnd.mp hx] at h3
        exact absurd h3.2 (by simp [leaves])
      · exact hb hk'
    | respondNegotiate o r status =>
      intro h1 _
      have hb : interrupted (s.log ++ [.answeredNegotiate o status]) = false → s.buffered = [] := by
        intro h3
        rw [interrupted_snoc, Bool.or_eq_false_iff] at h3
        refine h.empty h3.1 fun hx => ?_
        rw [h.agrees.atEnd.mp hx] at h3
        exact absurd h3.2 (by simp [leaves])
      obtain ⟨s', e1, e2, e3⟩ := respondNegotiate_shape order (s.note (.answeredNegotiate o status)) o r status
      have e1 : s'.log = s.log ++ [.answeredNegotiate o status] := e1
      have e2 : s'.buffered = s.buffered := e2
      have h1 : interrupted (respondNegotiate order (s.note (.answeredNegotiate o status)) o r status).log = false := h1
      show (respondNegotiate order (s.note (.answeredNegotiate o status)) o r status).buffered = []
      rcases e3 with e3 | ⟨p, e3⟩
      · rw [e3, e1] at h1
        rw [e3, e2]
        exact hb h1
      · obtain ⟨es, hl, hes⟩ := (writePacket_quiet s' p).log
        rw [e3, hl, interrupted_quiet hes, e1] at h1
        rw [e3]
        exact writePacket_empty p (e2.trans (hb h1))
    | respondAbort status =>
      intro h1 _
      have hl : (callNoted order s (.respondAbort status)).log = s.log ++ [.called (.respondAbort status) true] ∧
          (callNoted order s (.respondAbort status)).buffered = s.buffered := by
        show (((respondAbort s status)).note _).log = _ ∧ ((respondAbort s status)).buffered = _
        unfold respondAbort
        dsimp only
        split <;> exact ⟨rfl, rfl⟩
      rw [hl.2]
      rw [hl.1, interrupted_snoc, Bool.or_eq_false_iff] at h1
      refine h.empty h1.1 fun hx => ?_
      rw [h.agrees.atEnd.mp hx] at h1
      exact absurd h1.2 (by simp [leaves])
    | _ => exact absurd rfl hw

theorem Settled.runCalls {order : Requests → Requests} (calls : List Call) : ∀ {s : State}, Settled s → Settled (runCalls order s calls) := by
  induction calls with
  | nil => exact fun h => h
  | cons c calls ih => exact fun h => ih (h.called order c)

theorem Settled.emit {order : Requests → Requests} (hs : List Handler) : ∀ {s : State} (acc : Status), Settled s → Settled (emit order hs s acc).1 := by
  induction hs with
  | nil => exact fun _ h => h
  | cons x hs ih =>
    intro s acc h
    unfold Client.emit
    dsimp only
    split
    · exact ih _ (h.runCalls x.calls)
    · exact h.runCalls x.calls

/-- a state with the same buffer, after an event -/
theorem Settled.moved {s s' : State} (h : Settled s) (e : Event) (ha : Agrees s') (hl : s'.log = s.log ++ [e])
    (hb : s'.buffered = s.buffered) (hs : s'.st ≠ .doing .endOfMessage → s.st = .doing .endOfMessage → leaves e = true) : Settled s' := by
  refine ⟨ha, fun h1 h2 => ?_⟩
  rw [hb]
  rw [hl, interrupted_snoc, Bool.or_eq_false_iff] at h1
  refine h.empty h1.1 fun hx => ?_
  rw [h.agrees.atEnd.mp hx, hs h2 hx] at h1
  exact absurd h1.2 (by simp)

theorem enter_fields (s : State) (c : Cmd) (k : Kind) (context : Option Macros.Context) :
    (Client.enter (s.note (.got c)) k context).log = s.log ++ [.got c] ∧ (Client.enter (s.note (.got c)) k context).st = .doing k ∧
      (Client.enter (s.note (.got c)) k context).buffered = s.buffered ∧ (Client.enter (s.note (.got c)) k context).link = s.link ∧
      (Client.enter (s.note (.got c)) k context).option = s.option := by
  unfold Client.enter
  cases context <;> (dsimp only; split <;> exact ⟨rfl, rfl, rfl, rfl, rfl⟩)

theorem Settled.receive {order : Requests → Requests} {s : State} (c : Cmd) (handlers : List Handler) (chosen : Option Opt)
    (requests : Option Requests) (h : Settled s) : Settled (receive order s c handlers chosen requests) := by
  cases hk : kindOf c with
  | some kc =>
    obtain ⟨k, context⟩ := kc
    have hlv : leaves (.got c) = true := by cases c <;> first | rfl | (cases hk; done)
    by_cases hn : k = .negotiate
    · subst hn
      cases c <;> simp only [kindOf, Option.some.injEq, Prod.mk.injEq, reduceCtorEq, false_and] at hk
      rename_i o
      unfold Client.receive
      dsimp only
      have h0 : Settled { Client.enter (s.note (.got (.negotiate o))) .negotiate none with option := some o } :=
        h.moved (.got (.negotiate o)) (h.agrees.enter (.negotiate o) .negotiate none rfl (some o) (by rw [negotiated_snoc])) rfl rfl (fun _ _ => rfl)
      have h1 := h0.emit (order := order) (handlers ++ [⟨[], .notChange⟩]) .default
      unfold emitAll
      generalize Client.emit order _ _ _ = r at h1
      obtain ⟨s', status⟩ := r
      dsimp only at h1 ⊢
      split
      · exact h1
      · exact h1.called order _
    · rw [receive_plain order s c handlers chosen requests k context hk hn]
      obtain ⟨f1, _, f3, _⟩ := enter_fields s c k context
      have h0 : Settled (Client.enter (s.note (.got c)) k context) :=
        h.moved (.got c) (h.agrees.entered c k context hk (fun o hc => by subst hc; cases hk; exact hn rfl)) f1 f3 (fun _ _ => hlv)
      have h1 := h0.emit (order := order) (handlers ++ [⟨[], .notChange⟩]) .default
      unfold emitAll
      generalize Client.emit order _ _ _ = r at h1
      obtain ⟨s', status⟩ := r
      dsimp only at h1 ⊢
      split
      · exact h1
      · exact h1.called order _
  | none =>
    have ha := h.agrees.receive (order := order) c handlers chosen requests
    cases c with
    | defineMacro context macros =>
      exact h.moved (.got (.defineMacro context macros)) ha rfl rfl (fun h1 h2 => absurd h2 h1)
    | quit =>
      have h1 : Settled (setSt (s.note (.got .quit)) .quit) := by
        refine h.moved (.got .quit) ?_ rfl rfl (fun _ _ => rfl)
        refine h.agrees.moved (.got .quit) rfl (fun h => nomatch h) (by rw [atEnd_snoc]) ?_ rfl (by rw [lastCustom_snoc]) rfl (by rw [quarantineReason_snoc]) h.agrees.buffer
        rw [negotiated_snoc]
        exact h.agrees.option
      exact h1.moved .shutdown ha rfl rfl (fun _ _ => rfl)
    | abort =>
      have h0 : Settled { setSt (s.note (.got .abort)) .abort with timer := false } := by
        refine h.moved (.got .abort) ?_ rfl rfl (fun _ _ => rfl)
        refine h.agrees.moved (.got .abort) rfl (fun h => nomatch h) (by rw [atEnd_snoc]) ?_ rfl (by rw [lastCustom_snoc]) rfl (by rw [quarantineReason_snoc]) h.agrees.buffer
        rw [negotiated_snoc]
        exact h.agrees.option
      have h1 := h0.emit (order := order) (handlers ++ [⟨[], .default⟩]) .default
      unfold Client.receive
      dsimp only
      unfold emitAll
      generalize Client.emit order _ _ _ = r at h1
      obtain ⟨s', status⟩ := r
      dsimp only at h1 ⊢
      have h2 : Settled (resetMessage s') :=
        ⟨h1.agrees.same rfl rfl rfl rfl ⟨[], (List.append_nil _).symm, by simp⟩ h1.agrees.buffer, h1.empty⟩
      split
      · exact h2
      · exact h2.called order _
    | _ => cases hk

theorem Settled.step {order : Requests → Requests} {s : State} (op : Op) (h : Settled s) : Settled (step order s op) := by
  have ha := h.agrees.step (order := order) op
  cases op with
  | command c handlers chosen requests => exact h.receive c handlers chosen requests
  | call c => exact h.called order c
  | timeout =>
    revert ha
    unfold Client.step
    dsimp only
    split
    · intro ha
      refine ⟨ha, fun h1 _ => ?_⟩
      have h1 : interrupted (s.log ++ [.timedOut] ++ [.shutdown]) = false := h1
      rw [interrupted_snoc, interrupted_snoc, Bool.or_eq_false_iff, Bool.or_eq_false_iff] at h1
      refine h.empty h1.1.1 fun hx => ?_
      rw [h.agrees.atEnd.mp hx] at h1
      exact absurd h1.1.2 (by simp [leaves])
    · exact fun _ => h
  | close =>
    revert ha
    unfold Client.step
    dsimp only
    split
    · exact fun ha => ⟨ha, h.empty⟩
    · exact fun _ => h

theorem Settled.run {order : Requests → Requests} (ops : List Op) : ∀ {s : State}, Settled s → Settled (run order s ops) := by
  induction ops with
  | nil => exact fun h => h
  | cons op ops ih => exact fun h => ih (h.step op)

theorem Settled.new (n : Nat) (l : Link) : Settled (new n l) := ⟨.new n l, fun _ _ => rfl⟩

end Verif.Client
