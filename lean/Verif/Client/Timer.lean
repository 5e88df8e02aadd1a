import Verif.Client.Session
/-
The timeout for the next command, and the data of a message.
-/
namespace Verif.Client
open Verif Verif.Spec.Client

/-- calls that write nothing leave the timer -/
theorem called_timer (order : Requests → Requests) {s : State} (c : Call) (hn : answers c = false) (hp : c ≠ .progress)
    (hf : c ≠ .flush) (hs : changes c = true → s.st ≠ .doing .endOfMessage) :
    (callNoted order s c).timer = s.timer ∧ (callNoted order s c).st = s.st := by
  have he : callNoted order s c = (call order s c).2.note (.called c (call order s c).1) := by
    cases c <;> first | rfl | (cases hn; done)
  rw [he]
  have hm : ∀ flag r, s.st ≠ .doing .endOfMessage → (modify order s flag r).2 = s := fun flag r h => by
    rw [modify_refused order s flag r (fun h' => h h'.1)]
  cases c with
  | setReply | quarantine | setBufferSize | setShelf => exact ⟨rfl, rfl⟩
  | progress => exact absurd rfl hp
  | flush => exact absurd rfl hf
  | respond | respondNegotiate | respondAbort => cases hn
  | addHeader n v =>
    show (call order s _).2.timer = _ ∧ (call order s _).2.st = _
    unfold call
    cases n <;> cases v <;> first | exact ⟨rfl, rfl⟩ | (dsimp only; rw [hm _ _ (hs rfl)]; exact ⟨rfl, rfl⟩)
  | insertHeader i n v =>
    show (call order s _).2.timer = _ ∧ (call order s _).2.st = _
    unfold call
    cases n <;> cases v <;> first | exact ⟨rfl, rfl⟩ | (dsimp only; rw [hm _ _ (hs rfl)]; exact ⟨rfl, rfl⟩)
  | changeHeader n i v =>
    show (call order s _).2.timer = _ ∧ (call order s _).2.st = _
    unfold call
    cases n <;> first | exact ⟨rfl, rfl⟩ | (dsimp only; rw [hm _ _ (hs rfl)]; exact ⟨rfl, rfl⟩)
  | deleteHeader n i =>
    show (call order s _).2.timer = _ ∧ (call order s _).2.st = _
    unfold call
    cases n <;> first | exact ⟨rfl, rfl⟩ | (dsimp only; rw [hm _ _ (hs rfl)]; exact ⟨rfl, rfl⟩)
  | changeFrom a p =>
    show (call order s _).2.timer = _ ∧ (call order s _).2.st = _
    unfold call
    rcases a with _ | _ | ⟨x, a⟩ <;> first | exact ⟨rfl, rfl⟩ | (dsimp only [nonEmpty]; rw [hm _ _ (hs rfl)]; exact ⟨rfl, rfl⟩)
  | addRecipient a p =>
    have hch : changes (.addRecipient a p) = true := by rcases p with _ | _ | ⟨y, p⟩ <;> rfl
    show (call order s _).2.timer = _ ∧ (call order s _).2.st = _
    unfold call
    rcases a with _ | _ | ⟨x, a⟩ <;> first | exact ⟨rfl, rfl⟩ | (dsimp only [nonEmpty]; rw [hm _ _ (hs hch)]; exact ⟨rfl, rfl⟩)
  | deleteRecipient a =>
    show (call order s _).2.timer = _ ∧ (call order s _).2.st = _
    unfold call
    rcases a with _ | _ | ⟨x, a⟩ <;> first | exact ⟨rfl, rfl⟩ | (dsimp only [nonEmpty]; rw [hm _ _ (hs rfl)]; exact ⟨rfl, rfl⟩)
  | replaceBody b =>
    show (call order s _).2.timer = _ ∧ (call order s _).2.st = _
    unfold call
    dsimp only
    rw [replaceBody_refused order s b (fun h' => hs rfl h'.1)]
    exact ⟨rfl, rfl⟩

theorem calls_timer (order : Requests → Requests) (calls : List Call) : ∀ {s : State},
    (∀ c ∈ calls, answers c = false ∧ c ≠ .progress ∧ c ≠ .flush ∧ (changes c = true → s.st ≠ .doing .endOfMessage)) →
    (runCalls order s calls).timer = s.timer := by
  induction calls with
  | nil => intro s _; rfl
  | cons c calls ih =>
    intro s hc
    obtain ⟨h1, h2, h3, h4⟩ := hc c List.mem_cons_self
    obtain ⟨i1, i2⟩ := called_timer order c h1 h2 h3 h4
    refine (ih (s := callNoted order s c) fun x hx => ?_).trans i1
    rw [i2]
    exact hc x (List.mem_cons_of_mem _ hx)

theorem working_timer (order : Requests → Requests) (s : State) (c : Cmd) (hc : expectsReply c = true) (handlers : List Handler)
    (hd : Spec.Client.decide handlers = .progress) (chosen : Option Opt) (requests : Option Requests) (calls : List Call)
    (hcalls : ∀ x ∈ (ran handlers).flatMap (·.calls) ++ calls, answers x = false ∧ x ≠ .progress ∧ x ≠ .flush ∧
      (changes x = true → ∀ chunk, c ≠ .endOfMessage chunk)) :
    (run order s (.command c handlers chosen requests :: calls.map .call)).timer = false := by
  obtain ⟨k, context, hk⟩ : ∃ k context, kindOf c = some (k, context) := by
    cases c <;> first | (cases hc; done) | exact ⟨_, _, rfl⟩
  have hn : k ≠ .negotiate := by rintro rfl; cases c <;> first | (cases hc; done) | cases hk
  have h1 : run order s (.command c handlers chosen requests :: calls.map .call) =
      runCalls order (enter (s.note (.got c)) k context) ((ran handlers).flatMap (·.calls) ++ calls) := by
    show run order (receive order s c handlers chosen requests) (calls.map .call) = _
    rw [receive_eq order s c handlers chosen requests k context hk hn, runCalls_append]
    dsimp only
    rw [if_pos hd]
    unfold run runCalls
    rw [List.foldl_map]
    rfl
  rw [h1, calls_timer]
  · unfold enter
    cases context <;> (dsimp only; split <;> rfl)
  · intro x hx
    obtain ⟨i1, i2, i3, i4⟩ := hcalls x hx
    refine ⟨i1, i2, i3, fun h => ?_⟩
    rw [(enter_fields s c k context).2.1]
    intro h'
    have hke : k = .endOfMessage := St.doing.inj h'
    subst hke
    cases c <;> first | (cases hk; done) | exact i4 h _ rfl

theorem writerWrite_timer (s : State) (p : Bytes) : (writerWrite s p).2.timer = s.timer := by
  unfold writerWrite
  split
  · dsimp only
    split <;> rfl
  · rfl

theorem flush_timer {s : State} (h : s.timer = true) : (flush s).2.timer = true := by
  unfold flush
  split
  · have h1 : (writeInner { s with buffering := false } s.buffered).2.timer = true := by
      unfold writeInner
      dsimp only
      split
      · rfl
      · have h1 := writerWrite_timer { s with buffering := false, timer := true } s.buffered
        generalize writerWrite { s with buffering := false, timer := true } s.buffered = r at h1
        obtain ⟨ok, s'⟩ := r
        dsimp only at h1 ⊢
        split <;> exact h1
    generalize writeInner { s with buffering := false } s.buffered = r at h1
    obtain ⟨ok, s'⟩ := r
    cases ok <;> exact h1
  · exact h

theorem writePacket_timer (s : State) (p : Bytes) : (writePacket s p).2.timer = true := by
  unfold writePacket
  dsimp only
  split
  · rfl
  · have h1 := writerWrite_timer { s with timer := true } p
    generalize writerWrite { s with timer := true } p = r at h1
    obtain ⟨ok, s'⟩ := r
    dsimp only at h1 ⊢
    split
    · have h2 := flush_timer h1
      generalize flush s' = r at h2
      obtain ⟨ok, s''⟩ := r
      cases ok <;> exact h2
    · exact h1

/-- a reply that is written starts the timer -/
theorem respond_timer (order : Requests → Requests) {s : State} (hl : s.link = .ready) (hc : Clean s) (k : Kind) (hk : k ≠ .negotiate)
    (status : Status) (p : Bytes) (hp : (createReplyPacket s (orContinue status)).1 = some p) :
    (callNoted order s (.respond k status)).timer = true := by
  obtain ⟨s0, hs0⟩ : ∃ s0 : State, s0 = setSt { s.note (.answered k status) with status := orContinue status } (.replied k) := ⟨_, rfl⟩
  have hl0 : s0.link = .ready := by rw [hs0]; exact hl
  have hc0 : Clean s0 := by rw [hs0]; exact hc
  have hp0 : (createReplyPacket s0 (orContinue status)).1 = some p := by
    refine Eq.trans (createReplyPacket_same (s := s) ?_ _) hp
    rw [hs0]; rfl
  by_cases he : k = .endOfMessage
  · subst he
    have : callNoted order s (.respond .endOfMessage status) = messageProcessed (replyOnEndOfMessage order s0 (orContinue status)) := by
      rw [hs0]; rfl
    rw [this]
    have h1 : (replyOnEndOfMessage order s0 (orContinue status)).timer = true := by
      obtain ⟨h1, _, _⟩ := flush_ready hl0 hc0
      have hp' := (createReplyPacket_same (flush_quiet s0).custom (orContinue status)).trans hp0
      unfold replyOnEndOfMessage
      generalize flush s0 = r at h1 hp'
      obtain ⟨ok, s1⟩ := r
      dsimp only at h1 hp'
      subst h1
      dsimp only
      generalize createReplyPacket s1 (orContinue status) = r at hp'
      obtain ⟨x, s2⟩ := r
      dsimp only at hp'
      subst hp'
      dsimp only
      split <;> exact writePacket_timer _ _
    unfold messageProcessed
    split <;> exact h1
  · have : callNoted order s (.respond k status) = reply s0 (orContinue status) := by
      rw [hs0]
      cases k <;> first | rfl | exact absurd rfl hk | exact absurd rfl he
    rw [this]
    unfold reply
    generalize createReplyPacket s0 (orContinue status) = r at hp0
    obtain ⟨x, s2⟩ := r
    dsimp only at hp0
    subst hp0
    exact writePacket_timer _ _

/-! ### The data of a message -/

theorem respondNegotiate_agent (order : Requests → Requests) (s : State) (o : Option Opt) (r : Option Requests) (status : Status) :
    (respondNegotiate order s o r status).agent = s.agent := by
  unfold respondNegotiate
  dsimp only
  generalize (if status = .default then Status.allOptions else status) = st
  obtain ⟨s1, hs1⟩ : ∃ s1 : State, s1 = (if st = .continue_ then
    ({ setSt { s with status := st } (.replied .negotiate) with option := o } : State) else setSt { s with status := st } (.replied .negotiate)) := ⟨_, rfl⟩
  have h1 : s1.agent = s.agent := by
    rw [hs1]
    split <;> rfl
  rw [← hs1]
  by_cases h2 : st = .continue_ ∨ st = .allOptions
  · rw [if_pos h2]
    exact (writePacket_quiet _ _).agent.trans h1
  · rw [if_neg h2]
    by_cases h3 : st = .reject
    · rw [if_pos h3]
      exact (writePacket_quiet _ _).agent.trans h1
    · rw [if_neg h3]
      exact h1

theorem called_agent (order : Requests → Requests) (s : State) (c : Call) : (callNoted order s c).agent = s.agent := by
  by_cases hw : writes c = true
  · have he : callNoted order s c = (call order s c).2.note (.called c (call order s c).1) := by
      cases c <;> first | rfl | (cases hw; done)
    rw [he]
    exact (call_quiet order s c hw).agent
  · cases c with
    | respond k status =>
      show (respond order (s.note _) k status).agent = _
      unfold respond
      dsimp only
      split
      · rfl
      · have h1 := (replyOnEndOfMessage_quiet order (setSt { s.note (.answered .endOfMessage status) with status := orContinue status } (.replied .endOfMessage)) (orContinue status)).agent
        unfold messageProcessed
        split <;> exact h1
      · exact (reply_quiet _ _).agent
    | respondNegotiate o r status => exact respondNegotiate_agent order (s.note _) o r status
    | respondAbort status =>
      show (respondAbort s status).agent = _
      unfold respondAbort
      dsimp only
      split <;> rfl
    | setReply | quarantine | setBufferSize | setShelf => rfl
    | _ => exact absurd rfl hw

theorem calls_agent (order : Requests → Requests) (calls : List Call) : ∀ s : State, (runCalls order s calls).agent = s.agent := by
  induction calls with
  | nil => intro s; rfl
  | cons c calls ih => intro s; exact (ih (callNoted order s c)).trans (called_agent order s c)

theorem emit_agent (order : Requests → Requests) (hs : List Handler) : ∀ (s : State) (acc : Status), (emit order hs s acc).1.agent = s.agent := by
  induction hs with
  | nil => intro s acc; rfl
  | cons h hs ih =>
    intro s acc
    unfold emit
    dsimp only
    split
    · exact (ih _ _).trans (calls_agent order _ s)
    · exact calls_agent order _ s

theorem abort_resets (order : Requests → Requests) (s : State) (handlers : List Handler) (chosen : Option Opt)
    (requests : Option Requests) :
    (receive order s .abort handlers chosen requests).shelf = [] ∧
      (receive order s .abort handlers chosen requests).agent = s.agent.clearMessage := by
  unfold receive
  dsimp only
  have h1 := emit_agent order (handlers ++ [⟨[], .default⟩])
    ({ setSt (s.note (.got .abort)) .abort with timer := false } : State) .default
  unfold emitAll
  generalize emit order (handlers ++ [⟨[], .default⟩]) ({ setSt (s.note (.got .abort)) .abort with timer := false } : State) .default = r at h1
  obtain ⟨s1, status⟩ := r
  dsimp only at h1 ⊢
  have h2 : (resetMessage s1).agent = s.agent.clearMessage := by
    show s1.agent.clearMessage = _
    rw [h1]
    rfl
  split
  · exact ⟨rfl, h2⟩
  · refine ⟨?_, (called_agent order _ _).trans h2⟩
    show (respondAbort (resetMessage s1) status).shelf = []
    unfold respondAbort
    dsimp only
    split <;> rfl

end Verif.Client
