import Verif.Manager.ChildrenStop
import Verif.Props.ChildrenPhase
/-
C108: milters that a condition keeps away from a command.
-/
namespace Verif.Props
open Verif Verif.Children Verif.Spec.Children Verif.Spec.Phase
open Verif.Server (St)

theorem stop_conversed (n : Nat) {s : Sys} {e : Event} {cmd : Cmd} {st : St} (ha : asks e = some (cmd, st)) (hst : Spec.Stop.Stoppable st)
    (hc : Calm s (addressees s e) st) (hf : ∀ i ∈ addressees s e, isFallback (s.kids i).fallback = true)
    {stop : Nat → Bool} (hfresh : ∀ i ∈ addressees s e, stop i = true → Spec.Stop.Fresh (s.kids i) st)
    {es : List Event} {t : Talk} (ht : (Spec.Stop.start s (addressees s e) st stop).moves s (addressees s e) st es = some t) :
    ∃ s', run (n + 2) s ((e, Spec.Stop.wishes s st stop (addressees s e)) :: quietly es) = some s' ∧
      Children.Phase.Inv s (commands s.out ++ (addressees s e).flatMap (Spec.Stop.sends s st stop cmd)) (addressees s e) st t s' := by
  obtain ⟨u, h1, h2⟩ := Children.Phase.stop_begin (n := n) (stop := stop) ha hst hc (fun i hi => isFallback_proper (hf i hi)) hfresh
  obtain ⟨u', h3, h4⟩ := Children.Phase.conversation (n := n) h2 ht
  exact ⟨u', by simp only [run, h1]; exact h3, h4⟩

/-- from these positions nothing but leaving is left -/
structure OnlyLeaves (q : Pos → Prop) : Prop where
  asked : ¬ q .asked
  written : ¬ q .written
  left : q .leaving → q .left
  lost : q .lost

theorem leaves_put {q : Pos → Prop} {t : Talk} {i j : Nat} {p : Pos} (h : q (t.pos i)) (hp : j = i → q p) :
    q ((t.put j p).pos i) := by
  show q (if i = j then p else t.pos i)
  split
  · rename_i e; exact hp e.symm
  · exact h

theorem leaves_move {q : Pos → Prop} (hq : OnlyLeaves q) {s : Sys} {who : List Nat} {st : St} {t t' : Talk} {e : Event} {i : Nat}
    (h : t.move s who st e = some t') (hl : q (t.pos i)) : q (t'.pos i) := by
  have nasked : ∀ j, j = i → t.pos j ≠ .asked := by
    rintro j rfl h; rw [h] at hl; exact hq.asked hl
  cases e <;> simp only [Talk.move, reduceCtorEq] at h
  case flushed j =>
    split at h
    · rename_i hw
      simp only [Option.some.injEq] at h; subst h
      refine leaves_put hl fun e => absurd hl ?_
      rw [← e, hw]; exact hq.written
    · rename_i hw
      simp only [Option.some.injEq] at h; subst h
      refine leaves_put hl fun e => hq.left ?_
      rw [← hw, e]; exact hl
    · cases h
  case reply j r =>
    split at h
    · rename_i hp
      have : j ≠ i := fun e => nasked j e hp
      split at h
      · simp only [Option.some.injEq] at h; subst h
        exact leaves_put hl fun e => absurd e this
      · split at h
        · simp only [Option.some.injEq] at h; subst h
          exact leaves_put hl fun _ => hq.lost
        · cases h
    · cases h
  case timeout j =>
    split at h
    · simp only [Option.some.injEq] at h; subst h
      exact leaves_put hl fun _ => hq.lost
    · cases h
  case error j =>
    split at h
    · simp only [Option.some.injEq] at h; subst h
      exact leaves_put hl fun _ => hq.lost
    · cases h
  case finished j =>
    have fin : ∀ v, q (((t.put j .lost).vote v).pos i) := fun v => leaves_put hl fun _ => hq.lost
    have fin' : q ((t.put j .lost).pos i) := leaves_put hl fun _ => hq.lost
    split at h
    · simp only [Option.some.injEq] at h; subst h; exact fin _
    · simp only [Option.some.injEq] at h; subst h; exact fin'
    · simp only [Option.some.injEq] at h; subst h; exact fin'
    · split at h
      · simp only [Option.some.injEq] at h; subst h; exact fin'
      · cases h
    · split at h
      · simp only [Option.some.injEq] at h; subst h; exact fin'
      · cases h
    · simp only [Option.some.injEq] at h; subst h; exact hl
    · cases h

theorem leaves_moves {q : Pos → Prop} (hq : OnlyLeaves q) {s : Sys} {who : List Nat} {st : St} {i : Nat} {es : List Event} :
    ∀ {t t' : Talk}, t.moves s who st es = some t' → q (t.pos i) → q (t'.pos i) := by
  induction es with
  | nil => intro t t' h hl; simp only [Talk.moves, Option.some.injEq] at h; exact h ▸ hl
  | cons e es ih =>
    intro t t' h hl
    simp only [Talk.moves] at h
    cases hm : t.move s who st e with
    | none => rw [hm] at h; cases h
    | some t1 => rw [hm] at h; exact ih h (leaves_move hq hm hl)

theorem votes_said {s : Sys} {base : List (Nat × Cmd)} {who : List Nat} {st : St} {t : Talk} {u : Sys}
    (h : Children.Phase.Inv s base who st t u) (ho : t.isOpen who = false) : t.votes ≠ [] := by
  obtain ⟨i, hi⟩ := List.exists_mem_of_ne_nil _ h.core.nonempty
  refine h.core.spoken i hi ?_
  have hin := h.core.inside i hi
  have hcl : (t.pos i).isOpen = false := by
    have := List.any_eq_false.mp ho i hi
    simpa using this
  revert hin hcl
  cases t.pos i <;> simp [Pos.isOpen, Children.Phase.spokeAt]

/-- **C108**: conditions keep the milters of `stop` away from a connection, a greeting, a sender or a recipient.
Whatever then happens in any order and as far as it may go, the command is sent once to each other milter that did not
decline it, and to nobody else; those kept away are told to leave if there is no message yet, and nothing else.
As long as somebody else has not answered the MTA is told nothing, and when everybody has, exactly one reply: one
of the decisions (to which a milter kept away adds none that is worse than to go on), and none of them is more severe. -/
theorem C108_partial (n : Nat) (s : Sys) (e : Event) (cmd : Cmd) (st : St) (ha : asks e = some (cmd, st)) (hst : Spec.Stop.Stoppable st)
    (hcalm : Calm s (addressees s e) st) (hfallback : ∀ i ∈ addressees s e, isFallback (s.kids i).fallback = true)
    (stop : Nat → Bool) (hfresh : ∀ i ∈ addressees s e, stop i = true → Spec.Stop.Fresh (s.kids i) st)
    (es : List Event) (t : Talk) (ht : (Spec.Stop.start s (addressees s e) st stop).moves s (addressees s e) st es = some t) :
    ∃ s', run (n + 2) s ((e, Spec.Stop.wishes s st stop (addressees s e)) :: quietly es) = some s' ∧
      (t.isOpen (addressees s e) = true → told s'.out = told s.out) ∧
      (t.isOpen (addressees s e) = false → ∃ v ∈ t.votes, (∀ w ∈ t.votes, severity w ≤ severity v) ∧
        decisionOf (report v t.code) = some v ∧ told s'.out = told s.out ++ [.reply (report v t.code)]) ∧
      ∃ later, commands s'.out = commands s.out ++ (addressees s e).flatMap (Spec.Stop.sends s st stop cmd) ++ later ∧
        ∀ p ∈ later, p.2 = .quit ∨ p.2 = .abort := by
  obtain ⟨s', h1, h2⟩ := stop_conversed n ha hst hcalm hfallback hfresh ht
  refine ⟨s', h1, fun ho => (h2.undecided ho).1.told, fun ho => ?_, ?_⟩
  · have hne := votes_said h2 ho
    obtain ⟨m1, m2⟩ := C13_max t.votes hne fun v hv => proper_decision (h2.core.proper v hv)
    exact ⟨_, m1, m2, report_decision (h2.core.proper _ m1) _, (h2.settled ho).told⟩
  cases ho : t.isOpen (addressees s e) with
  | true =>
    refine ⟨_, (h2.undecided ho).1.sent, fun p hp => ?_⟩
    obtain ⟨i, _, rfl⟩ := List.mem_map.mp hp
    exact .inl rfl
  | false =>
    have hs := h2.settled ho
    cases he : ends st (Children.Phase.worst t) with
    | false =>
      refine ⟨_, (hs.going he).2.2, fun p hp => ?_⟩
      obtain ⟨i, _, rfl⟩ := List.mem_map.mp hp
      exact .inl rfl
    | true =>
      obtain ⟨_, x, hx, ha, _⟩ := hs.over he
      refine ⟨t.dismissed.map (·, .quit) ++ x, by rw [hx]; simp, fun p hp => ?_⟩
      rcases List.mem_append.mp hp with hp | hp
      · obtain ⟨i, _, rfl⟩ := List.mem_map.mp hp
        exact .inl rfl
      · exact .inr (ha p hp)

/-- **C108**, what being kept away leads to: a milter kept away from the sender has no part in the message, and one kept
away from the connection or the greeting, as soon as the MTA has been told, none in the session: none of the commands
that may follow is meant for it.  One kept away from a recipient still follows the message. -/
theorem C108_after_partial (n : Nat) (s : Sys) (e : Event) (cmd : Cmd) (st : St) (ha : asks e = some (cmd, st)) (hst : Spec.Stop.Stoppable st)
    (hcalm : Calm s (addressees s e) st) (hfallback : ∀ i ∈ addressees s e, isFallback (s.kids i).fallback = true)
    (stop : Nat → Bool) (hfresh : ∀ i ∈ addressees s e, stop i = true → Spec.Stop.Fresh (s.kids i) st)
    (es : List Event) (t : Talk) (ht : (Spec.Stop.start s (addressees s e) st stop).moves s (addressees s e) st es = some t)
    (i : Nat) (hi : i ∈ addressees s e) (hi' : stop i = true) :
    ∃ s', run (n + 2) s ((e, Spec.Stop.wishes s st stop (addressees s e)) :: quietly es) = some s' ∧
      (st = .envelopeFrom → ∀ r, i ∉ addressees s' (.envelopeRecipient r) ∧ i ∉ addressees s' .data) ∧
      (Spec.Stop.dismisses st = true → t.isOpen (addressees s e) = false → ∀ e' x, asks e' = some x → i ∉ addressees s' e') ∧
      (st = .envelopeRecipient → t.pos i = .answered → (∀ v ∈ t.votes, v ≠ .discard) → inMessage (s'.kids i) = true) := by
  obtain ⟨s', h1, h2⟩ := stop_conversed n ha hst hcalm hfallback hfresh ht
  have hstart : (Spec.Stop.start s (addressees s e) st stop).pos i = Spec.Stop.place st := by
    simp [Spec.Stop.start, hi, hi']
  have hcl : t.isOpen (addressees s e) = false → (t.pos i).isOpen = false := by
    intro ho
    have := List.any_eq_false.mp ho i hi
    simpa using this
  have gone : t.pos i = .lost → isAlive (s'.kids i) = false := by
    intro hp
    have := h2.core.at' i hi
    rw [hp] at this
    simp [isAlive, this.2]
  refine ⟨s', h1, fun hs r => ?_, fun hd ho e' x hx => ?_, fun hs hp hv => ?_⟩
  · have hq : OnlyLeaves fun p => p = .settled ∨ p = .lost := ⟨by simp, by simp, by simp, by simp⟩
    have hl := leaves_moves hq ht (i := i) (by rw [hstart, hs]; exact .inl rfl)
    have hout : inMessage (s'.kids i) = false := by
      rcases hl with hp | hp
      · cases ho : t.isOpen (addressees s e) with
        | true =>
          have := ((h2.undecided ho).2 i hi (by rw [hp]; rfl)).apart hp
          simp [inMessage, this]
        | false =>
          cases he : ends st (Children.Phase.worst t) with
          | true => exact ((h2.settled ho).over he).1 i (h2.core.range i hi)
          | false =>
            have := (((h2.settled ho).going he).1 i hi (by rw [hp]; rfl)).apart hp
            simp [inMessage, this]
      · simp [inMessage, gone hp]
    constructor <;> intro hm <;> have := (List.mem_filter.mp hm).2 <;> rw [hout] at this <;> cases this
  · have hq : OnlyLeaves fun p => p = .leaving ∨ p = .left ∨ p = .lost := ⟨by simp, by simp, by simp, by simp⟩
    have hl := leaves_moves hq ht (i := i) (by rw [hstart]; unfold Spec.Stop.place; rw [hd]; exact .inl rfl)
    have hcl := hcl ho
    have hp : t.pos i = .lost := by
      rcases hl with hp | hp | hp
      · rw [hp] at hcl; cases hcl
      · rw [hp] at hcl; cases hcl
      · exact hp
    have hg := gone hp
    intro hm
    cases e' <;> simp only [asks, reduceCtorEq] at hx <;> have := (List.mem_filter.mp hm).2 <;>
      simp [inMessage, hg] at this
  · have hst' : Children.Phase.inMsg st := by rw [hs]; exact .inr (.inl rfl)
    cases ho : t.isOpen (addressees s e) with
    | true => exact ((h2.undecided ho).2 i hi (by rw [hp]; rfl)).message hp hst'
    | false =>
      have hne := votes_said h2 ho
      obtain ⟨m1, _⟩ := C13_max t.votes hne fun v hv => proper_decision (h2.core.proper v hv)
      have he : ends st (Children.Phase.worst t) = false := by
        have := hv _ m1
        unfold ends
        rw [hs]
        simp only [ne_eq, not_true_eq_false, decide_false, Bool.and_false, Bool.or_false, decide_eq_false_iff_not]
        exact this
      exact (((h2.settled ho).going he).1 i hi (by rw [hp]; rfl)).message hp hst'

/-! ### Concrete cases -/

namespace Cases

/-- nothing speaks against keeping the milter away -/
def freshB (k : Kid) (st : St) : Bool :=
  (decide (st ≠ .envelopeFrom) || !k.ctx.processingMessage) && (!Spec.Stop.dismisses st || decide (k.ctx.result = none))

theorem freshB_fresh {k : Kid} {st : St} (h : freshB k st = true) : Spec.Stop.Fresh k st := by
  simp only [freshB, Bool.and_eq_true, Bool.or_eq_true, decide_eq_true_eq, Bool.not_eq_eq_eq_not, Bool.not_true] at h
  exact ⟨fun e => h.1.resolve_left fun h => h e, fun e => h.2.resolve_left fun h => by rw [e] at h; cases h⟩

/-- `e` arrives after `before` and conditions stop the milters of `l`, `es` follows; `p` is said about the state `e`
finds and the conversation -/
def meetsStopping (kids : List Kid) (before : List Event) (e : Event) (st : St) (l : List Nat) (es : List Event)
    (p : Sys → Talk → Bool) : Bool :=
  (run 20 (init kids 4) (plain before)).any fun s =>
    calmB s (addressees s e) st && (addressees s e).all (fun i => !l.contains i || freshB (s.kids i) st) &&
    ((Spec.Stop.start s (addressees s e) st l.contains).moves s (addressees s e) st es).any fun t => p s t

end Cases

open Cases

/-- three milters at a connection, the first one is stopped: the others are asked, one of them leaves; the MTA has to wait until
the first one has gone -/
example : meetsStopping [{}, {}, {}] (Cases.negotiation 3 (fun _ => everything)) (.connect [] .unspec) .connect [0]
    [.flushed 2, .flushed 1, .reply 2 .cont, .flushed 0, .reply 1 .accept, .finished 1, .finished 0] (fun s t =>
      decide (addressees s (.connect [] .unspec) = [0, 1, 2]) && !t.isOpen [0, 1, 2] && decide (t.pos 0 = .lost) &&
      decide (t.votes = [.accept, .continue_, .accept]) &&
      decide ((addressees s (.connect [] .unspec)).flatMap (Spec.Stop.sends s .connect [0].contains (.connect [] .unspec)) =
        [(0, .abort), (0, .quit), (1, .connect [] .unspec), (2, .connect [] .unspec)])) = true := by decide +kernel

/-- three milters at MAIL FROM, the first and the last one are stopped -/
example : meetsStopping [{}, {}, {}] (upToConnect 3) (.envelopeFrom [1]) .envelopeFrom [0, 2]
    [.flushed 1, .reply 1 .cont] (fun s t =>
      decide (addressees s (.envelopeFrom [1]) = [0, 1, 2]) && !t.isOpen [0, 1, 2] && decide (t.pos 0 = .settled) &&
      decide (t.votes = [.continue_, .continue_, .continue_]) &&
      decide ((addressees s (.envelopeFrom [1])).flatMap (Spec.Stop.sends s .envelopeFrom [0, 2].contains (.envelopeFrom [1])) =
        [(1, .envelopeFrom [1])])) = true := by decide +kernel

/-- the same, and the second one has not answered yet -/
example : meetsStopping [{}, {}, {}] (upToConnect 3) (.envelopeFrom [1]) .envelopeFrom [0, 2] [.flushed 1] (fun _ t =>
      t.isOpen [0, 1, 2]) = true := by decide +kernel

/-- two milters at RCPT TO, the second one is stopped; both still follow the message -/
example : meetsStopping [{}, {}] (upToConnect 2 ++ [.envelopeFrom [1]] ++ answers 2) (.envelopeRecipient [2]) .envelopeRecipient [1]
    [.flushed 0, .reply 0 .reject] (fun s t =>
      decide (addressees s (.envelopeRecipient [2]) = [0, 1]) && !t.isOpen [0, 1] && decide (t.pos 1 = .answered) &&
      decide (t.votes = [.continue_, .reject])) = true := by decide +kernel

namespace Cases

/-- what the MTA is told in a session, and what is sent to the milters, the negotiation aside -/
def exchanged (n : Nat) (h : History) : Option (List Emit × List (Nat × Cmd)) :=
  (run 20 (init (List.replicate n {}) 4) h).map fun s => ((told s.out).drop 1, (commands s.out).drop n)

end Cases

/-- a milter stopped at a header is told that the message is over, and the next one gets what has arrived -/
example : (exchanged 2 (plain (upToData 2 ++ [.header [3] [4], .flushed 0, .reply 0 .cont]) ++
      [(.header [5] [6], [(true, true)])] ++ plain [.flushed 0, .flushed 1, .reply 1 .cont, .flushed 1, .reply 1 .cont])).map
      (fun x => (x.1.drop 4, x.2.drop 8)) =
    some ([.reply .cont, .reply .cont], [(0, .header [3] [4]), (0, .abort), (1, .header [3] [4]), (1, .header [5] [6])]) := by
  decide +kernel

/-! ### Where it fails -/

/-- **C108 fails** at DATA: one of two milters is stopped there and told that the message is over; the MTA is told "accept"
although the other one has just been sent DATA, and does not learn that it rejects the message. -/
theorem C108_data_violated :
    (exchanged 2 (plain (upToConnect 2 ++ [.envelopeFrom [1]] ++ answers 2 ++ [.envelopeRecipient [2]] ++ answers 2) ++
      [(.data, [(true, true)])] ++ plain [.flushed 0, .flushed 1, .reply 1 .reject])).map (fun x => (x.1.drop 3, x.2.drop 6)) =
    some ([.reply .accept], [(0, .abort), (1, .data)]) := by decide +kernel

/-- **C108 fails** for the second message of a session: a milter stopped at its sender after it has passed the first
message is nonetheless sent the recipients. -/
theorem C108_second_violated :
    (exchanged 1 (plain (upToData 1 ++ [.endOfMessage [], .flushed 0, .reply 0 .cont]) ++
      [(.envelopeFrom [9], [(true, true)])] ++ plain [.envelopeRecipient [8]])).map (fun x => (x.1.drop 5, x.2.drop 5)) =
    some ([.reply .cont], [(0, .envelopeRecipient [8])]) := by decide +kernel

/-- **C108 fails** for a milter that is alone: it is stopped at the sender, and the recipient is an error that the MTA is told
instead of "continue". -/
theorem C108_alone_violated :
    (exchanged 1 (plain (upToConnect 1) ++ [(.envelopeFrom [1], [(true, true)])] ++ plain [.envelopeRecipient [2]])).map (·.1) =
    some [.reply .cont, .reply .cont, .error true] := by decide +kernel

end Verif.Props
