import Verif.Client.Stream
/-
Calls of the milter at the end of the message.
-/
namespace Verif.Client
open Verif Verif.Spec.Client

theorem validAction_eq (s : State) (flag : UInt32) : validAction s flag = hasFlag s.option flag := by
  unfold validAction hasFlag
  cases s.option <;> rfl

theorem modify_refused (order : Requests → Requests) (s : State) (flag : UInt32) (r : Reply)
    (h : ¬ (s.st = .doing .endOfMessage ∧ hasFlag s.option flag = true)) : modify order s flag r = (false, s) := by
  unfold modify
  split
  · rfl
  · split
    · rfl
    · rename_i h1 h2
      refine absurd ⟨?_, ?_⟩ h
      · simpa [validState] using h1
      · rw [← validAction_eq]; simpa using h2

theorem replaceBody_refused (order : Requests → Requests) (s : State) (body : Bytes)
    (h : ¬ (s.st = .doing .endOfMessage ∧ hasFlag s.option 0x02 = true)) : replaceBody order s body = (false, s) := by
  unfold replaceBody
  split
  · rfl
  · split
    · rfl
    · rename_i h1 h2
      refine absurd ⟨?_, ?_⟩ h
      · simpa [validState] using h1
      · rw [show (0x02 : UInt32) = changeBodyFlag from rfl, ← validAction_eq]; simpa using h2

/-- a modification that may not be made: nothing happens -/
theorem call_refused (order : Requests → Requests) (s : State) (c : Call) (hc : changes c = true)
    (hf : recipientFlagsAgree s.option c = true)
    (h : ¬ (s.st = .doing .endOfMessage ∧ accepted s.option c = true)) : call order s c = (false, s) := by
  cases c with
  | addHeader n v =>
    cases n <;> cases v <;> first | rfl | skip
    refine modify_refused order s _ _ fun h' => h ⟨h'.1, ?_⟩
    have h2 : hasFlag s.option 0x01 = true := h'.2
    simpa [accepted, flagOf, argumentsGiven] using h2
  | insertHeader i n v =>
    cases n <;> cases v <;> first | rfl | skip
    refine modify_refused order s _ _ fun h' => h ⟨h'.1, ?_⟩
    have h2 : hasFlag s.option 0x01 = true := h'.2
    simpa [accepted, flagOf, argumentsGiven] using h2
  | changeHeader n i v =>
    cases n <;> first | rfl | skip
    refine modify_refused order s _ _ fun h' => h ⟨h'.1, ?_⟩
    have h2 : hasFlag s.option 0x10 = true := h'.2
    simpa [accepted, flagOf, argumentsGiven] using h2
  | deleteHeader n i =>
    cases n <;> first | rfl | skip
    refine modify_refused order s _ _ fun h' => h ⟨h'.1, ?_⟩
    have h2 : hasFlag s.option 0x10 = true := h'.2
    simpa [accepted, flagOf, argumentsGiven] using h2
  | changeFrom f p =>
    rcases f with _ | _ | ⟨a, f⟩ <;> first | rfl | skip
    refine modify_refused order s changeFromFlag (.changeFrom (a :: f) p) fun h' => h ⟨h'.1, ?_⟩
    have h2 : hasFlag s.option 0x40 = true := h'.2
    simpa [accepted, flagOf, argumentsGiven] using h2
  | addRecipient r p =>
    rcases r with _ | _ | ⟨a, r⟩ <;> first | rfl | skip
    refine modify_refused order s addRecipientFlag (.addRecipient (a :: r) p) fun h' => h ⟨h'.1, ?_⟩
    have h2 : hasFlag s.option 0x04 = true := h'.2
    rcases p with _ | _ | ⟨b, p⟩
    · simpa [accepted, flagOf, argumentsGiven] using h2
    · simpa [accepted, flagOf, argumentsGiven] using h2
    · simp only [recipientFlagsAgree, beq_iff_eq] at hf
      rw [hf] at h2
      simpa [accepted, flagOf, argumentsGiven] using h2
  | deleteRecipient r =>
    rcases r with _ | _ | ⟨a, r⟩ <;> first | rfl | skip
    refine modify_refused order s deleteRecipientFlag (.deleteRecipient (a :: r)) fun h' => h ⟨h'.1, ?_⟩
    have h2 : hasFlag s.option 0x08 = true := h'.2
    simpa [accepted, flagOf, argumentsGiven] using h2
  | replaceBody b =>
    refine replaceBody_refused order s _ fun h' => h ⟨h'.1, ?_⟩
    have h2 : hasFlag s.option 0x02 = true := h'.2
    simpa [accepted, flagOf, argumentsGiven] using h2
  | _ => cases hc

theorem Gathers.modify {order : Requests → Requests} {P : State → List Reply → Prop} (g : Gathers order P) {s : State} {rs : List Reply}
    (h : P s rs) (flag : UInt32) (r : Reply) (hr : Enc.replyClears r = true) (hs : s.st = .doing .endOfMessage)
    (hf : hasFlag s.option flag = true) :
    (modify order s flag r).1 = true ∧ P (modify order s flag r).2 (rs ++ [r]) := by
  have h1 : validState s = true := by simp [validState, hs]
  have h2 : validAction s flag = true := by rw [validAction_eq]; exact hf
  unfold Client.modify
  rw [h1, h2]
  simp only [Bool.not_true, Bool.false_eq_true, if_false]
  exact g.more (encode order s r).2 rs r (encode order s r).1 (g.enc s rs _ h) (encode_bytes order s r hr)

theorem Gathers.replace {order : Requests → Requests} {P : State → List Reply → Prop} (g : Gathers order P) {s : State} {rs : List Reply}
    (h : P s rs) (body : Bytes) (hs : s.st = .doing .endOfMessage) (hf : hasFlag s.option 0x02 = true) :
    (replaceBody order s body).1 = true ∧ ∃ part, P (replaceBody order s body).2 (rs ++ part) ∧ Shows (.replaceBody body) part := by
  have h1 : validState s = true := by simp [validState, hs]
  have h2 : validAction s changeBodyFlag = true := by rw [validAction_eq]; exact hf
  unfold Client.replaceBody
  rw [h1, h2]
  simp only [Bool.not_true, Bool.false_eq_true, if_false]
  obtain ⟨chunks, h3, h4, h5⟩ := Props.C07_replace_body order s.enc body
  rw [h3]
  obtain ⟨h6, h7⟩ := g.body chunks h5 h
  exact ⟨h6, _, h7, chunks, rfl, h4, h5⟩

/-- a modification that may be made -/
theorem Gathers.change {order : Requests → Requests} {P : State → List Reply → Prop} (g : Gathers order P) {s : State} {rs : List Reply}
    (h : P s rs) (c : Call) (hs : s.st = .doing .endOfMessage) (ha : accepted s.option c = true) (hf : recipientFlagsAgree s.option c = true) :
    (call order s c).1 = true ∧ ∃ part, P (call order s c).2 (rs ++ part) ∧ Shows c part := by
  cases c with
  | addHeader n v =>
    rcases n with _ | n <;> rcases v with _ | v <;> simp [accepted, flagOf, argumentsGiven] at ha
    obtain ⟨h1, h2⟩ := g.modify h addHeadersFlag (.addHeader n v) rfl hs ha
    exact ⟨h1, _, h2, _, _, rfl, rfl, rfl⟩
  | insertHeader i n v =>
    rcases n with _ | n <;> rcases v with _ | v <;> simp [accepted, flagOf, argumentsGiven] at ha
    obtain ⟨h1, h2⟩ := g.modify h addHeadersFlag (.insertHeader i n (some v)) rfl hs ha
    exact ⟨h1, _, h2, _, _, rfl, rfl, rfl⟩
  | changeHeader n i v =>
    rcases n with _ | n <;> rcases v with _ | v <;> simp [accepted, flagOf, argumentsGiven] at ha
    · obtain ⟨h1, h2⟩ := g.modify h changeHeadersFlag (.deleteHeader n i) rfl hs ha
      exact ⟨h1, _, h2, _, rfl, rfl⟩
    · obtain ⟨h1, h2⟩ := g.modify h changeHeadersFlag (.changeHeader n i v) rfl hs ha
      exact ⟨h1, _, h2, _, rfl, rfl⟩
  | deleteHeader n i =>
    rcases n with _ | n <;> simp [accepted, flagOf, argumentsGiven] at ha
    obtain ⟨h1, h2⟩ := g.modify h changeHeadersFlag (.deleteHeader n i) rfl hs ha
    exact ⟨h1, _, h2, _, rfl, rfl⟩
  | changeFrom f p =>
    rcases f with _ | _ | ⟨a, f⟩ <;> simp [accepted, flagOf, argumentsGiven] at ha
    obtain ⟨h1, h2⟩ := g.modify h changeFromFlag (.changeFrom (a :: f) p) rfl hs ha
    exact ⟨h1, _, h2, _, rfl, rfl⟩
  | addRecipient r p =>
    have ha' : hasFlag s.option 0x04 = true ∧ ∃ a r', r = some (a :: r') := by
      rcases r with _ | _ | ⟨a, r⟩ <;> rcases p with _ | _ | ⟨b, p⟩ <;> simp [accepted, flagOf, argumentsGiven] at ha
      · exact ⟨ha, _, _, rfl⟩
      · exact ⟨ha, _, _, rfl⟩
      · simp only [recipientFlagsAgree, beq_iff_eq] at hf
        exact ⟨hf.trans ha, _, _, rfl⟩
    obtain ⟨ha', a, r', rfl⟩ := ha'
    obtain ⟨h1, h2⟩ := g.modify h addRecipientFlag (.addRecipient (a :: r') p) rfl hs ha'
    exact ⟨h1, _, h2, _, rfl, rfl⟩
  | deleteRecipient r =>
    rcases r with _ | _ | ⟨a, r⟩ <;> simp [accepted, flagOf, argumentsGiven] at ha
    obtain ⟨h1, h2⟩ := g.modify h deleteRecipientFlag (.deleteRecipient (a :: r)) rfl hs ha
    exact ⟨h1, _, h2, _, rfl, rfl⟩
  | replaceBody b =>
    simp [accepted, flagOf, argumentsGiven] at ha
    exact g.replace h b hs ha
  | _ => simp [accepted, flagOf] at ha

/-- what is shown of a modification is no report of progress -/
theorem shows_noProgress {c : Call} {part : List Reply} (h : Shows c part) : noProgress part = part := by
  unfold noProgress
  rw [List.filter_eq_self]
  intro r hr
  unfold Shows at h
  split at h
  all_goals first
    | (obtain ⟨_, _, _, _, rfl⟩ := h; rw [List.mem_singleton] at hr; subst hr; simp)
    | (obtain ⟨_, _, rfl⟩ := h; rw [List.mem_singleton] at hr; subst hr; simp)
    | (obtain ⟨_, rfl, _⟩ := h; obtain ⟨_, _, rfl⟩ := List.mem_map.mp hr; simp)
    | (subst h; cases hr)

/-- any call that is no answer, at the end of the message -/
theorem Sent.called {order : Requests → Requests} {w : Bytes} {s : State} {out held : List Reply} (h : Sent order w s out held)
    (c : Call) (hs : s.st = .doing .endOfMessage) (hn : answers c = false) (hf : recipientFlagsAgree s.option c = true) :
    ∃ out' held' part, Sent order w (callNoted order s c) out' held' ∧
      noProgress (out' ++ held') = noProgress (out ++ held) ++ part ∧
      (if accepted s.option c then Shows c part else part = []) ∧
      (callNoted order s c).st = s.st ∧ (callNoted order s c).option = s.option := by
  have key : ∀ {s' : State} {ok : Bool} {out' held' part}, call order s c = (ok, s') → Sent order w s' out' held' →
      noProgress (out' ++ held') = noProgress (out ++ held) ++ part →
      (if accepted s.option c then Shows c part else part = []) → s'.st = s.st → s'.option = s.option →
      ∃ out' held' part, Sent order w (callNoted order s c) out' held' ∧
      noProgress (out' ++ held') = noProgress (out ++ held) ++ part ∧
      (if accepted s.option c then Shows c part else part = []) ∧
      (callNoted order s c).st = s.st ∧ (callNoted order s c).option = s.option := by
    intro s' ok out' held' part h1 h2 h3 h4 h5 h6
    have he : callNoted order s c = s'.note (.called c ok) := by
      cases c <;> first | (cases hn; done) | (unfold callNoted; dsimp only; rw [h1])
    rw [he]
    exact ⟨out', held', part, h2.note _ (fun _ h => nomatch h), h3, h4, h5, h6⟩
  by_cases hc : changes c = true
  · by_cases ha : accepted s.option c = true
    · obtain ⟨h1, part, ⟨out', held', h2, h3⟩, h4⟩ := (Sent.gathers order w).change ⟨out, held, h, rfl⟩ c hs ha hf
      have hq : Quiet s (call order s c).2 := by
        cases c <;> first | exact call_quiet order s _ rfl | cases hc
      refine key (part := part) (show call order s c = (_, _) from rfl) h2 ?_ ?_ hq.st hq.option
      · rw [h3, noProgress_append, shows_noProgress h4]
      · rw [if_pos ha]; exact h4
    · refine key (part := []) (call_refused order s c hc hf fun h => ha h.2) h (by rw [List.append_nil]) ?_ rfl rfl
      rw [if_neg ha]
  · have hna : accepted s.option c = false := by
      cases c <;> first | rfl | (simp [changes, flagOf] at hc; done) | skip
      rename_i r p
      rcases p with _ | _ | _ <;> simp [changes, flagOf] at hc
    have hif : ∀ part, part = [] → (if accepted s.option c then Shows c part else part = []) := by
      intro part hp
      rw [hna]
      exact hp
    cases c with
    | setReply code ext message => exact key (part := []) rfl ⟨h.link, h.clean, h.out, h.held⟩ (by rw [List.append_nil]) (hif _ rfl) rfl rfl
    | quarantine reason => exact key (part := []) rfl ⟨h.link, h.clean, h.out, h.held⟩ (by rw [List.append_nil]) (hif _ rfl) rfl rfl
    | setBufferSize n => exact key (part := []) rfl ⟨h.link, h.clean, h.out, h.held⟩ (by rw [List.append_nil]) (hif _ rfl) rfl rfl
    | setShelf k v => exact key (part := []) rfl ⟨h.link, h.clean, h.out, h.held⟩ (by rw [List.append_nil]) (hif _ rfl) rfl rfl
    | flush =>
      have hq := flush_quiet s
      refine key (part := []) (show call order s .flush = ((Client.flush s).1, (Client.flush s).2) from rfl) h.flush.2 (by simp) (hif _ rfl) hq.st hq.option
    | progress =>
      have hq := call_quiet order s .progress rfl
      refine key (part := []) (show call order s .progress = (_, _) from rfl)
        ((encode_sent h .progress).packet [.progress] (encode order s .progress).1 (encode_bytes order s _ rfl)).2 ?_ (hif _ rfl) hq.st hq.option
      simp [noProgress]
    | respond | respondNegotiate | respondAbort => cases hn
    | addRecipient r p => rcases p with _ | _ | _ <;> simp [changes, flagOf] at hc
    | _ => simp [changes, flagOf] at hc

/-- a list of such calls -/
theorem Sent.calls {order : Requests → Requests} {w : Bytes} (calls : List Call) :
    ∀ {s : State} {out held : List Reply}, Sent order w s out held → s.st = .doing .endOfMessage →
    (∀ c ∈ calls, answers c = false ∧ recipientFlagsAgree s.option c = true) →
    ∃ (out' held' : List Reply) (parts : List (List Reply)), Sent order w (runCalls order s calls) out' held' ∧
      noProgress (out' ++ held') = noProgress (out ++ held) ++ parts.flatten ∧
      Spec.Pointwise Shows (calls.filter (accepted s.option)) parts ∧
      (runCalls order s calls).st = s.st ∧ (runCalls order s calls).option = s.option := by
  induction calls with
  | nil => intro s out held h _ _; exact ⟨out, held, [], h, by simp, .nil, rfl, rfl⟩
  | cons c calls ih =>
    intro s out held h hs hc
    obtain ⟨hn, hf⟩ := hc c List.mem_cons_self
    obtain ⟨out1, held1, part, h1, h2, h3, h4, h5⟩ := h.called c hs hn hf
    obtain ⟨out', held', parts, i1, i2, i3, i4, i5⟩ := ih h1 (h4.trans hs)
      (fun x hx => by rw [h5]; exact hc x (List.mem_cons_of_mem _ hx))
    rw [h5] at i3 i5
    rw [h4] at i4
    show ∃ (out' held' : List Reply) (parts : List (List Reply)), Sent order w (runCalls order (callNoted order s c) calls) out' held' ∧ _
    by_cases ha : accepted s.option c = true
    · rw [if_pos ha] at h3
      refine ⟨out', held', part :: parts, i1, ?_, ?_, i4, i5⟩
      · rw [i2, h2, List.flatten_cons, List.append_assoc]
      · rw [List.filter_cons, if_pos ha]; exact .cons h3 i3
    · rw [if_neg ha] at h3
      refine ⟨out', held', parts, i1, ?_, ?_, i4, i5⟩
      · rw [i2, h2, h3, List.append_nil]
      · rw [List.filter_cons, if_neg ha]; exact i3

end Verif.Client
