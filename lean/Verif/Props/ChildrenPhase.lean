import Verif.Manager.ChildrenPhaseStart
import Verif.Spec.Rounds
import Verif.Props.ChildrenChain
import Verif.Props.Options
/-
C23, C24, C49: commands that go to all milters at once.
-/
namespace Verif.Props
open Verif Verif.Children Verif.Spec.Children Verif.Spec.Phase
open Verif.Server (St)
open Cases

theorem conversed (n : Nat) {s : Sys} {e : Event} {cmd : Cmd} {st : St} (ha : asks e = some (cmd, st))
    (hc : Calm s (addressees s e) st) (hf : ∀ i ∈ addressees s e, Children.Phase.Proper (s.kids i).fallback)
    {es : List Event} {t : Talk} (ht : (Talk.start s (addressees s e) st).moves s (addressees s e) st es = some t) :
    ∃ s', run (n + 2) s (quietly (e :: es)) = some s' ∧
      Children.Phase.Inv s (commands s.out ++ opening s e cmd st) (addressees s e) st t s' := by
  obtain ⟨u, h1, h2⟩ := Children.Phase.command_begin (n := n + 1) ha hc hf
  obtain ⟨u', h3, h4⟩ := Children.Phase.conversation (n := n) h2 ht
  refine ⟨u', ?_, h4⟩
  simp only [quietly, List.map_cons, run, h1]
  exact h3

theorem isFallback_proper {v : Status} (h : isFallback v = true) : Children.Phase.Proper v := by
  unfold Children.Phase.Proper
  simpa [isFallback, or_assoc] using h

theorem proper_decision {v : Status} (h : Children.Phase.Proper v) : IsDecision v := by
  unfold Children.Phase.Proper at h
  rcases h with rfl | rfl | rfl | rfl | rfl <;> decide

theorem report_decision {v : Status} (h : Children.Phase.Proper v) (code : Option (Nat × Bytes × Option Bytes)) :
    decisionOf (report v code) = some v := by
  unfold Children.Phase.Proper at h
  unfold report
  rcases code with _ | ⟨c, x, m⟩
  · rcases h with rfl | rfl | rfl | rfl | rfl <;> rfl
  · dsimp only
    split
    · rename_i hc
      rcases hc with ⟨h4, rfl⟩ | ⟨h5, rfl⟩
      · simp [decisionOf, h4]
      · simp [decisionOf, h5]
    · rcases h with rfl | rfl | rfl | rfl | rfl <;> rfl

/-- **C23**: `s` is at rest, and the MTA's command `e` arrives.  Whatever then happens in any order and
as far as it may go - commands going out, milters answering, failing, disconnecting - the command is
sent once to each milter it is meant for and that did not decline it, and to nobody else; as long as
somebody has not answered the MTA is told nothing, and when everybody has, exactly one reply. -/
theorem C23_partial (n : Nat) (s : Sys) (e : Event) (cmd : Cmd) (st : St) (ha : asks e = some (cmd, st))
    (hcalm : Calm s (addressees s e) st) (hfallback : ∀ i ∈ addressees s e, isFallback (s.kids i).fallback = true)
    (es : List Event) (t : Talk) (ht : (Talk.start s (addressees s e) st).moves s (addressees s e) st es = some t) :
    ∃ s', run (n + 2) s (quietly (e :: es)) = some s' ∧
      (t.isOpen (addressees s e) = true → told s'.out = told s.out) ∧
      (t.isOpen (addressees s e) = false → ∃ r, told s'.out = told s.out ++ [.reply r]) ∧
      ∃ later, commands s'.out = commands s.out ++ opening s e cmd st ++ later ∧ ∀ p ∈ later, p.2 = .quit ∨ p.2 = .abort := by
  obtain ⟨s', h1, h2⟩ := conversed n ha hcalm (fun i hi => isFallback_proper (hfallback i hi)) ht
  refine ⟨s', h1, fun ho => (h2.undecided ho).1.told, fun ho => ⟨_, (h2.settled ho).told⟩, ?_⟩
  cases ho : t.isOpen (addressees s e) with
  | true =>
    refine ⟨_, (h2.undecided ho).1.sent, fun p hp => ?_⟩
    obtain ⟨i, _, rfl⟩ := List.mem_map.mp hp
    exact .inl rfl
  | false =>
    have hs := h2.settled ho
    cases he : ends st (Children.Phase.worst t) with
    | false =>
      refine ⟨_, (hs.going he).2.2, fun p hp => ?_⟩
      obtain ⟨i, _, rfl⟩ := List.mem_map.mp hp
      exact .inl rfl
    | true =>
      obtain ⟨_, x, hx, ha, _⟩ := hs.over he
      refine ⟨t.dismissed.map (·, .quit) ++ x, by rw [hx]; simp, fun p hp => ?_⟩
      rcases List.mem_append.mp hp with hp | hp
      · obtain ⟨i, _, rfl⟩ := List.mem_map.mp hp
        exact .inl rfl
      · exact .inr (ha p hp)

theorem votes_ne (n : Nat) {s : Sys} {e : Event} {cmd : Cmd} {st : St} (ha : asks e = some (cmd, st))
    (hc : Calm s (addressees s e) st) (hf : ∀ i ∈ addressees s e, Children.Phase.Proper (s.kids i).fallback)
    {es : List Event} {t : Talk} (ht : (Talk.start s (addressees s e) st).moves s (addressees s e) st es = some t)
    (ho : t.isOpen (addressees s e) = false) : t.votes ≠ [] ∧ ∀ v ∈ t.votes, Children.Phase.Proper v := by
  obtain ⟨s', _, h2⟩ := conversed n ha hc hf ht
  refine ⟨?_, h2.core.proper⟩
  obtain ⟨i, hi⟩ := List.exists_mem_of_ne_nil _ hc.some
  refine h2.core.spoken i hi ?_
  have hin := h2.core.inside i hi
  have hcl : (t.pos i).isOpen = false := by
    have := List.any_eq_false.mp ho i hi
    simpa using this
  revert hin hcl
  cases t.pos i <;> simp [Pos.isOpen, Children.Phase.spokeAt]

/-- **C24**: the reply is one of the decisions of the milters - where a milter that failed stands for its
configured fallback, and one in evaluation mode does not refuse - and none of them is more severe. -/
theorem C24_partial (n : Nat) (s : Sys) (e : Event) (cmd : Cmd) (st : St) (ha : asks e = some (cmd, st))
    (hcalm : Calm s (addressees s e) st) (hfallback : ∀ i ∈ addressees s e, isFallback (s.kids i).fallback = true)
    (es : List Event) (t : Talk) (ht : (Talk.start s (addressees s e) st).moves s (addressees s e) st es = some t)
    (hover : t.isOpen (addressees s e) = false) :
    ∃ v ∈ t.votes, (∀ w ∈ t.votes, severity w ≤ severity v) ∧
      decisionOf (report v t.code) = some v ∧
      ∃ s', run (n + 2) s (quietly (e :: es)) = some s' ∧ told s'.out = told s.out ++ [.reply (report v t.code)] := by
  have hf : ∀ i ∈ addressees s e, Children.Phase.Proper (s.kids i).fallback := fun i hi => isFallback_proper (hfallback i hi)
  obtain ⟨s', h1, h2⟩ := conversed n ha hcalm hf ht
  obtain ⟨hne, hp⟩ := votes_ne n ha hcalm hf ht hover
  obtain ⟨m1, m2⟩ := C13_max t.votes hne fun v hv => proper_decision (hp v hv)
  exact ⟨_, m1, m2, report_decision (hp _ m1) _, s', h1, (h2.settled hover).told⟩

/-- **C24**: the decision does not depend on the order in which the milters answered, nor on how often a
decision was made. -/
theorem C24_order_partial (n : Nat) (s : Sys) (e : Event) (cmd : Cmd) (st : St) (ha : asks e = some (cmd, st))
    (hcalm : Calm s (addressees s e) st) (hfallback : ∀ i ∈ addressees s e, isFallback (s.kids i).fallback = true)
    (es es' : List Event) (t t' : Talk)
    (ht : (Talk.start s (addressees s e) st).moves s (addressees s e) st es = some t)
    (ht' : (Talk.start s (addressees s e) st).moves s (addressees s e) st es' = some t')
    (hover : t.isOpen (addressees s e) = false) (hover' : t'.isOpen (addressees s e) = false)
    (hsame : ∀ v, v ∈ t.votes ↔ v ∈ t'.votes) :
    ∃ r r' v, decisionOf r = some v ∧ decisionOf r' = some v ∧
      ((run (n + 2) s (quietly (e :: es))).map fun s' => told s'.out) = some (told s.out ++ [.reply r]) ∧
      ((run (n + 2) s (quietly (e :: es'))).map fun s' => told s'.out) = some (told s.out ++ [.reply r']) := by
  have hf : ∀ i ∈ addressees s e, Children.Phase.Proper (s.kids i).fallback := fun i hi => isFallback_proper (hfallback i hi)
  obtain ⟨s1, h1, h2⟩ := conversed n ha hcalm hf ht
  obtain ⟨s1', h1', h2'⟩ := conversed n ha hcalm hf ht'
  obtain ⟨hne, hp⟩ := votes_ne n ha hcalm hf ht hover
  obtain ⟨m1, _⟩ := C13_max t.votes hne fun v hv => proper_decision (hp v hv)
  have heq : Children.Phase.worst t' = Children.Phase.worst t :=
    (C13_order_free t.votes t'.votes hne (fun v hv => proper_decision (hp v hv)) hsame).symm
  refine ⟨report (Children.Phase.worst t) t.code, report (Children.Phase.worst t) t'.code, Children.Phase.worst t,
    report_decision (hp _ m1) _, report_decision (hp _ m1) _, ?_, ?_⟩
  · rw [h1, Option.map_some, (h2.settled hover).told]
  · rw [h1', Option.map_some, (h2'.settled hover').told, heq]

/-- **C49**: when the milters refuse the sender or DATA, or one of them discards the message, the
message is over for everybody: who had answered and would have gone on is told so, and no milter
follows it any more.  Refusing a recipient is not the end of the message, and neither is anything
else: everybody who wants to go on does, those who do not care about the rest of the message are out of it, and
nobody is told that it is over. -/
theorem C49_partial (n : Nat) (s : Sys) (e : Event) (cmd : Cmd) (st : St) (ha : asks e = some (cmd, st))
    (hcalm : Calm s (addressees s e) st) (hfallback : ∀ i ∈ addressees s e, isFallback (s.kids i).fallback = true)
    (es : List Event) (t : Talk) (ht : (Talk.start s (addressees s e) st).moves s (addressees s e) st es = some t)
    (hover : t.isOpen (addressees s e) = false) :
    ∃ s' r v, run (n + 2) s (quietly (e :: es)) = some s' ∧
      told s'.out = told s.out ++ [.reply r] ∧ decisionOf r = some v ∧
      (ends st v = false →
        commands s'.out = commands s.out ++ opening s e cmd st ++ t.dismissed.map (·, .quit) ∧
        (st = .envelopeFrom ∨ st = .envelopeRecipient ∨ st = .data →
          ∀ i ∈ addressees s e, t.pos i = .answered → inMessage (s'.kids i) = true) ∧
        ∀ i ∈ addressees s e, t.pos i = .settled → inMessage (s'.kids i) = false) ∧
      (ends st v = true → (∀ i < s.count, inMessage (s'.kids i) = false) ∧
        (st = .envelopeFrom ∨ st = .envelopeRecipient ∨ st = .data →
          ∀ i ∈ addressees s e, t.pos i = .answered → (i, .abort) ∈ (commands s'.out).drop (commands s.out ++ opening s e cmd st).length)) := by
  have hf : ∀ i ∈ addressees s e, Children.Phase.Proper (s.kids i).fallback := fun i hi => isFallback_proper (hfallback i hi)
  obtain ⟨s', h1, h2⟩ := conversed n ha hcalm hf ht
  obtain ⟨hne, hp⟩ := votes_ne n ha hcalm hf ht hover
  obtain ⟨m1, _⟩ := C13_max t.votes hne fun v hv => proper_decision (hp v hv)
  have hs := h2.settled hover
  refine ⟨s', _, Children.Phase.worst t, h1, hs.told, report_decision (hp _ m1) _, fun he => ?_, fun he => ?_⟩
  · obtain ⟨g1, _, g2⟩ := hs.going he
    exact ⟨g2, fun hm i hi hp => (g1 i hi (by rw [hp]; rfl)).message hp hm, fun i hi hp => by
      simp [inMessage, (g1 i hi (by rw [hp]; rfl)).apart hp]⟩
  · obtain ⟨o1, x, o2, _, o3⟩ := hs.over he
    refine ⟨o1, fun hst i hi hpos => ?_⟩
    rw [o2, List.append_assoc, List.drop_left]
    exact List.mem_append_right _ (o3 hst i hi hpos)

/-- **C36**, the milter's share in the message: when DATA comes, a milter none of whose recipients is left is
told that the message is over and is not sent DATA, whatever happens while the others answer. -/
theorem C36_data_partial (n : Nat) (s : Sys) (hcalm : Calm s (addressees s .data) .data)
    (hfallback : ∀ i ∈ addressees s .data, isFallback (s.kids i).fallback = true)
    (es : List Event) (t : Talk) (ht : (Talk.start s (addressees s .data) .data).moves s (addressees s .data) .data es = some t)
    (i : Nat) (hi : i < s.count) (hin : inMessage (s.kids i) = true) (hnone : Server.hasAcceptedRecipient (s.kids i).ctx = false) :
    ∃ s' new, run (n + 2) s (quietly (.data :: es)) = some s' ∧ commands s'.out = commands s.out ++ new ∧
      (i, .abort) ∈ new ∧ ∀ c, (i, c) ∈ new → c = .abort ∨ c = .quit := by
  obtain ⟨s', h1, _, _, later, h2, h3⟩ := C23_partial n s .data .data .data rfl hcalm hfallback es t ht
  refine ⟨s', opening s .data .data .data ++ later, h1, by rw [h2, List.append_assoc], ?_, fun c hc => ?_⟩
  · refine List.mem_append_left _ (List.mem_append_left _ (List.mem_map.mpr ⟨i, List.mem_filter.mpr ⟨List.mem_range.mpr hi, ?_⟩, rfl⟩))
    simp [hin, hnone]
  · rcases List.mem_append.mp hc with hc | hc
    · rcases List.mem_append.mp hc with hc | hc
      · obtain ⟨j, _, hj⟩ := List.mem_map.mp hc
        cases hj
        exact .inl rfl
      · obtain ⟨j, hj, he⟩ := List.mem_map.mp hc
        cases he
        have := (List.mem_filter.mp (List.mem_filter.mp hj).1).2
        rw [hnone] at this
        simp at this
    · exact (h3 _ hc).symm

/-! ### Concrete cases -/

namespace Cases

def idleB (k : Kid) (st : St) : Bool :=
  k.linked && decide (k.tryRetry = none) && isAlive k && decide (k.ctx.nextStates = []) && decide (k.ctx.timer = none) &&
  k.ctx.option.any fun o => decide (o.step &&& Server.noReplyFlag st = 0)

def calmB (s : Sys) (who : List Nat) (st : St) : Bool :=
  decide (s.oracle = []) && decide (s.pending = none) && !s.allExpired && decide (who ≠ []) &&
  who.all fun i => idleB (s.kids i) st && isFallback (s.kids i).fallback

theorem calmB_calm {s : Sys} {who : List Nat} {st : St} (h : calmB s who st = true) :
    Calm s who st ∧ ∀ i ∈ who, isFallback (s.kids i).fallback = true := by
  simp only [calmB, Bool.and_eq_true, decide_eq_true_eq, List.all_eq_true, Bool.not_eq_eq_eq_not, Bool.not_true] at h
  obtain ⟨⟨⟨⟨h1, h2⟩, h3⟩, h4⟩, h5⟩ := h
  refine ⟨⟨h1, h2, h3, h4, fun i hi => ?_⟩, fun i hi => (h5 i hi).2⟩
  have := (h5 i hi).1
  simp only [idleB, Bool.and_eq_true, decide_eq_true_eq] at this
  obtain ⟨⟨⟨⟨⟨a, b⟩, c⟩, d⟩, f⟩, g⟩ := this
  refine ⟨a, b, c, d, f, ?_⟩
  cases ho : (s.kids i).ctx.option with
  | none => rw [ho] at g; cases g
  | some o =>
    rw [ho] at g
    exact ⟨o, rfl, by simpa using g⟩

/-- `e` arrives after `before`, `es` follows; `p` is said about the state `e` finds and the conversation -/
def meets (kids : List Kid) (before : List Event) (e : Event) (st : St) (es : List Event) (p : Sys → Talk → Bool) : Bool :=
  (run 20 (init kids 4) (plain before)).any fun s =>
    calmB s (addressees s e) st &&
    ((Talk.start s (addressees s e) st).moves s (addressees s e) st es).any fun t => p s t

end Cases

open Cases

/-- three milters at MAIL FROM, the third one in evaluation mode: the first one fails, the second one
accepts, the third one would reject.  Nothing but the configured fallback is left, and the milters
are done with the message. -/
example : meets [{ fallback := .temporaryFailure }, {}, { evaluation := true }] (upToConnect 3) (.envelopeFrom [1]) .envelopeFrom
    [.flushed 2, .flushed 0, .reply 2 .reject, .timeout 0, .flushed 1, .reply 1 .accept] (fun s t =>
      decide (addressees s (.envelopeFrom [1]) = [0, 1, 2]) && !t.isOpen [0, 1, 2] &&
      decide (t.votes = [.accept, .temporaryFailure, .accept]) && ends .envelopeFrom .temporaryFailure) = true := by decide +kernel

/-- the same before the last answer -/
example : meets [{ fallback := .temporaryFailure }, {}, { evaluation := true }] (upToConnect 3) (.envelopeFrom [1]) .envelopeFrom
    [.flushed 2, .flushed 0, .reply 2 .reject, .timeout 0, .flushed 1] (fun s t =>
      t.isOpen (addressees s (.envelopeFrom [1]))) = true := by decide +kernel

/-- a recipient is refused with a reply code by one of two milters; both go on -/
example : meets [{}, {}] (upToConnect 2 ++ [.envelopeFrom [1]] ++ answers 2) (.envelopeRecipient [2]) .envelopeRecipient
    [.flushed 1, .flushed 0, .reply 0 (.replyCode 550 [5] (some [6])), .reply 1 .cont] (fun _ t =>
      !t.isOpen [0, 1] && decide (t.pos 0 = .answered) && decide (t.pos 1 = .answered) &&
      decide (t.votes = [.reject, .continue_]) && decide (t.code = some (550, [5], some [6])) &&
      !ends .envelopeRecipient .reject) = true := by decide +kernel

/-- HELO: one milter has declined it, one accepts and leaves, one disconnects -/
example : meets [{}, {}, {}] (Cases.negotiation 3 (fun i => if i = 0 then ⟨6, 0x1ff, 0x2⟩ else everything) ++ [.connect [] .unspec] ++ answers 3)
    (.helo [1]) .helo [.flushed 1, .reply 1 .accept, .flushed 2, .flushed 1, .finished 2, .finished 1] (fun s t =>
      decide (addressees s (.helo [1]) = [0, 1, 2]) && declines (s.kids 0) .helo && !t.isOpen [0, 1, 2] &&
      decide (t.votes = [.continue_, .accept, .accept]) && decide (t.dismissed = [1])) = true := by decide +kernel

/-- DATA goes only to the milter that has not refused the only recipient -/
example : meets [{}, {}] (upToConnect 2 ++ [.envelopeFrom [1]] ++ answers 2 ++
      [.envelopeRecipient [2], .flushed 0, .flushed 1, .reply 0 .reject, .reply 1 .cont]) .data .data [] (fun s t =>
      decide (addressees s .data = [1]) && decide (abandoned s .data = [0]) && t.isOpen [1]) = true := by decide +kernel

/-! ### Where it fails -/

namespace Cases

/-- what the MTA is told in a session -/
def toldIn (kids : List Kid) (h : History) : Option (List Emit) :=
  (run 20 (init kids 4) h).map fun s => (told s.out).drop 1

end Cases

/-- **C23 fails** when the manager itself stops a milter at DATA: the MTA is told "accept" at once, although another
milter has just been sent DATA. -/
theorem C23_stop_violated :
    toldIn [{}, {}] (plain (upToConnect 2 ++ [.envelopeFrom [1]] ++ answers 2 ++ [.envelopeRecipient [2]] ++ answers 2) ++
      [(.data, [(true, true)])]) = some [.reply .cont, .reply .cont, .reply .cont, .reply .accept] := by decide +kernel

/-- **C23 fails** for a milter that wants no CONNECT and would not answer it: two replies to one command -/
theorem C23_declined_violated :
    toldIn [{}] (plain (Cases.negotiation 1 (fun _ => ⟨6, 0x1ff, 0x1001⟩) ++ [.connect [] .unspec])) =
      some [.reply .cont, .reply .cont] := by decide +kernel

/-- **C23 fails** when a milter disconnects after the reply: there is another one -/
theorem C23_disconnect_violated :
    toldIn [{}, {}] (plain (upToConnect 2 ++ [.helo [1]] ++ answers 2 ++ [.finished 1])) =
      some [.reply .cont, .reply .cont, .reply .cont] := by decide +kernel

/-- **C23 fails** when one of two milters does not answer MAIL FROM (and the MTA was told that there are
answers): at the second message there is no reply although the other one has answered -/
theorem C23_no_reply_violated :
    ((run 20 (init [{}, {}] 4) (plain (Cases.negotiation 2 (fun i => if i = 0 then ⟨6, 0x1ff, 0x4000⟩ else everything) ++
        [.connect [] .unspec] ++ answers 2 ++ [.envelopeFrom [1], .flushed 0, .flushed 1, .reply 1 .cont, .envelopeRecipient [2]] ++
        answers 2 ++ [.data] ++ answers 2 ++ [.endOfMessage [], .flushed 0, .reply 0 .cont, .flushed 1, .reply 1 .cont]))).any fun s =>
      decide ((told s.out).head? = some (.negotiateReply ⟨6, 0x1ff, 0⟩)) &&
      (run 20 s (plain [.envelopeFrom [3], .flushed 0, .flushed 1, .reply 1 .cont])).any fun s' =>
        decide (told s'.out = told s.out)) = true := by decide +kernel

/-- **C23 and C24 fail** when a milter fails before it has got the command: there is no reply at all -/
theorem C24_writing_timeout_violated :
    toldIn [{}] (plain (upToConnect 1 ++ [.helo [1], .timeout 0])) = some [.reply .cont] ∧
    toldIn [{}] (plain (upToConnect 1 ++ [.helo [1], .flushed 0, .timeout 0])) = some [.reply .cont, .reply .accept] := by
  decide +kernel

/-- **C24 fails**: a reply code that lost against a more severe decision is kept, and used for a later
message for which nobody has given a code -/
theorem C24_stale_code_violated :
    toldIn [{}, {}] (plain (upToConnect 2 ++
      [.envelopeFrom [1], .flushed 0, .flushed 1, .reply 0 (.replyCode 451 [] (some [7])), .reply 1 .reject, .flushed 0, .flushed 1,
       .envelopeFrom [2], .flushed 0, .flushed 1, .reply 0 .temporaryFailure, .reply 1 .cont])) =
      some [.reply .cont, .reply .reject, .reply (.replyCode 451 [] (some [7]))] := by decide +kernel

/-- **C24 fails**: two of the replies are no decisions for the manager, but are passed on at once -/
theorem C24_shutdown_violated :
    toldIn [{}, {}] (plain (Cases.negotiation 2 (fun _ => everything) ++
      [.connect [] .unspec, .flushed 0, .flushed 1, .reply 0 .shutdown, .reply 1 .connectionFailure])) =
      some [.reply .shutdown, .reply .connectionFailure] := by decide +kernel

end Verif.Props
