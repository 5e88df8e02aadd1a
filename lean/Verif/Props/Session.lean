import Verif.Manager.SessionFacts
import Verif.Spec.Session
import Verif.Props.ChildrenPhase
/-
C53: what the MTA reads in answer to a command that goes to all milters at once.
-/
namespace Verif.Props
open Verif Verif.Session Verif.Spec.Phase Verif.Spec.Children
open Verif.Leader (Front)
open Verif.Children (Sys Emit)
open Verif.Server (St)

/-- what an event of a conversation is -/
theorem move_fromMilter {s : Sys} {who : List Nat} {st : St} {t t' : Talk} {e : Children.Event} (h : t.move s who st e = some t') :
    fromMilter e = true := by
  cases e <;> first | rfl | cases h

theorem inv_told {s u : Sys} {base : List (Nat × Cmd)} {who : List Nat} {st : St} {t : Talk} (h : Children.Phase.Inv s base who st t u) :
    told u.out = told s.out ++ (if t.isOpen who then [] else [.reply (report (Children.Phase.worst t) t.code)]) := by
  cases ho : t.isOpen who with
  | true => rw [(h.undecided ho).1.told]; exact (List.append_nil _).symm
  | false => exact (h.settled ho).told

theorem hears_attached (order : Requests → Requests) {es : List Emit} (h : ∀ e ∈ es, e ≠ .abort ∧ e ≠ .finished) (f : Front) :
    (es.foldl (Front.hear order) f).attached = f.attached := by
  rw [hears_plain es h]

/-- a conversation with the milters, heard by the leader -/
theorem conversation_heard {order : Requests → Requests} {n : Nat} {s : Sys} {base : List (Nat × Cmd)} {who : List Nat} {st : St} {t' : Talk}
    {es : List Children.Event} : ∀ {u : Sys} {t : Talk} {f : Front}, Children.Phase.Inv s base who st t u → t.moves s who st es = some t' →
      f.attached = true →
      ∃ u', Session.run order (n + 2) ⟨f, u⟩ (es.map fun e => .milter e []) = some ⟨(toldSince u u').foldl (Front.hear order) f, u'⟩ ∧
        Children.Phase.Inv s base who st t' u' ∧ told u'.out = told u.out ++ toldSince u u' := by
  induction es with
  | nil =>
    intro u t f h ht _
    cases ht
    have : toldSince u u = [] := toldSince_eq (List.append_nil _).symm
    exact ⟨u, by rw [this]; rfl, h, by rw [this, List.append_nil]⟩
  | cons e es ih =>
    intro u t f h ht hat
    simp only [Talk.moves, Option.bind_eq_some_iff] at ht
    obtain ⟨t1, h1, h2⟩ := ht
    obtain ⟨u1, h3, h4⟩ := Children.Phase.event_step (n := n) h h1
    have hx := next_told h3
    have hpl : ∀ x ∈ toldSince u u1, x ≠ .abort ∧ x ≠ .finished := by
      intro x hm
      have : x ∈ told s.out ++ (if t1.isOpen who then [] else [.reply (report (Children.Phase.worst t1) t1.code)]) := by
        rw [← inv_told h4, hx]
        exact List.mem_append_right _ hm
      have hs : toldSince u u1 = (if t1.isOpen who then [] else [.reply (report (Children.Phase.worst t1) t1.code)]).drop
          (if t.isOpen who then [] else [Emit.reply (report (Children.Phase.worst t) t.code)]).length := by
        unfold toldSince
        rw [inv_told h4, inv_told h, List.length_append, List.drop_append]
        simp
      rw [hs] at hm
      have hm := List.mem_of_mem_drop hm
      split at hm
      · cases hm
      · rw [List.mem_singleton.mp hm]
        exact ⟨fun h => (nomatch h), fun h => (nomatch h)⟩
    obtain ⟨u2, h5, h6, h7⟩ := ih (f := (toldSince u u1).foldl (Front.hear order) f) h4 h2 ((hears_attached order hpl f).trans hat)
    refine ⟨u2, ?_, h6, ?_⟩
    · rw [toldSince_trans hx h7, List.foldl_append, ← h5]
      show (Session.step order (n + 2) ⟨f, u⟩ (.milter e [])).bind _ = _
      unfold Session.step consult
      dsimp only
      rw [hat, move_fromMilter h1, h3]
      rfl
    · rw [h7, hx, toldSince_trans hx h7, List.append_assoc]

/-- the command as it reaches the leader -/
theorem asks_event {e : Children.Event} {cmd : Cmd} {st : St} (ha : asks e = some (cmd, st)) :
    eventOf cmd = some e ∧ (∃ k context, Client.kindOf cmd = some (k, context) ∧ k ≠ .negotiate ∧ k ≠ .endOfMessage ∧
      ∀ l, (Leader.begin l cmd).st = .doing k) := by
  cases e <;> simp only [asks, Option.some.injEq, Prod.mk.injEq, reduceCtorEq] at ha <;> obtain ⟨rfl, rfl⟩ := ha <;>
    exact ⟨rfl, _, _, rfl, fun h => (nomatch h), fun h => (nomatch h), fun _ => rfl⟩

/-- **C53**: `s` is any state a session can get into in which the MTA is connected and has negotiated, no message has ended without an
answer, and the milters the command is meant for are at rest.  The MTA sends a command that goes to all milters at once.  Whatever then
happens in any order and as far as it may go, nothing is written to the MTA as long as a milter has not answered; when
all have, exactly one reply packet is written since the command, and it says the most severe of their decisions.  Missing: a reply
code of the milters must be one the MTA's context accepts (`C53_code_violated`), and none may have been passed on before a plain
refusal (`C53_stale_code_violated`); what C23 excludes is excluded here. -/
theorem C53_partial (order : Requests → Requests) (fallback atDisconnect : Status) (size : Nat) (kids : List Children.Kid) (chunk : Nat)
    (depth : Nat) (history : List Session.Event) (s : Session.Session)
    (hs : Session.run order depth (Session.new fallback atDisconnect size kids chunk) history = some s)
    (hat : s.front.attached = true) (hl : s.front.client.link = .ready)
    (hneg : ∃ o, Client.Event.got (.negotiate o) ∈ s.front.client.log)
    (hi : Spec.Client.interrupted s.front.client.log = false) (he : Spec.Client.atEnd s.front.client.log = false)
    (n : Nat) (e : Children.Event) (cmd : Cmd) (st : St) (ha : asks e = some (cmd, st))
    (hcalm : Calm s.milters (addressees s.milters e) st)
    (hfallback : ∀ i ∈ addressees s.milters e, isFallback (s.milters.kids i).fallback = true)
    (es : List Children.Event) (t : Talk)
    (ht : (Talk.start s.milters (addressees s.milters e) st).moves s.milters (addressees s.milters e) st es = some t) :
    ∃ s', Session.run order (n + 2) s (.command cmd [] :: es.map fun x => .milter x []) = some s' ∧
      (t.isOpen (addressees s.milters e) = true → Spec.Client.written s'.front.client.log = Spec.Client.written s.front.client.log) ∧
      (t.isOpen (addressees s.milters e) = false → ∃ v ∈ t.votes, (∀ w ∈ t.votes, severity w ≤ severity v) ∧
        decisionOf (report v t.code) = some v ∧
        (Spec.Leader.Valid (.reply (report v t.code)) →
          (report v t.code = .reject ∨ report v t.code = .temporaryFailure → Spec.Client.lastCustom s.front.client.log = none) →
          Spec.Client.written s'.front.client.log =
            Spec.Client.written s.front.client.log ++ (Enc.encodeReplies order [] [report v t.code]).flatten)) := by
  obtain ⟨ops, hops⟩ := run_front history hs
  have hg : Good s.front := by rw [hops]; exact (Good.new fallback atDisconnect size .ready).run ops
  have hch : s.front.leader.hasChildren = true := by
    have : Parented s.front := by rw [hops]; exact (Parented.new fallback atDisconnect size .ready).run ops
    exact this hat hneg
  have hst : s.front.client.st ≠ .doing .endOfMessage := fun h => by rw [hg.settled.agrees.atEnd.mp h] at he; cases he
  have hb := hg.settled.empty hi hst
  obtain ⟨hev, k, context, hk, hkn, hke, hbegin⟩ := asks_event ha
  have hf : ∀ i ∈ addressees s.milters e, Children.Phase.Proper (s.milters.kids i).fallback := fun i hi => isFallback_proper (hfallback i hi)
  have ho : { s.milters with oracle := [] } = s.milters := by
    have := hcalm.oracle
    revert this
    cases s.milters
    rintro ⟨⟩
    rfl
  obtain ⟨u, h1, h2⟩ := Children.Phase.command_asked (n := n + 1) ha hcalm hf
  have hu : told u.out = told s.milters.out ++ toldSince s.milters u :=
    next_told (command_next (answers := []) (by rw [ho]; exact h1))
  have hpl : ∀ (m : Sys) (t : Talk), told m.out = told s.milters.out ++
      (if t.isOpen (addressees s.milters e) then [] else [.reply (report (Children.Phase.worst t) t.code)]) →
      toldSince s.milters m = (if t.isOpen (addressees s.milters e) then [] else [.reply (report (Children.Phase.worst t) t.code)]) :=
    fun m t h => toldSince_eq h
  have hdur : ∀ x ∈ toldSince s.milters u, x ≠ .abort ∧ x ≠ .finished := by
    rw [hpl u _ (inv_told h2)]
    intro x hx
    split at hx
    · cases hx
    · rw [List.mem_singleton.mp hx]
      exact ⟨fun h => (nomatch h), fun h => (nomatch h)⟩
  obtain ⟨f1, hf1⟩ : ∃ f1 : Front, f1 = { s.front with leader := Leader.begin s.front.leader cmd, client := Client.enter (s.front.client.note (.got cmd)) k context } := ⟨_, rfl⟩
  have hcmd := command_taken (order := order) s.front cmd (toldSince s.milters u) hk hkn hat hch hdur
  rw [← hf1] at hcmd
  have hat1 : ((toldSince s.milters u).foldl (Front.hear order) f1).attached = true := by
    rw [hears_attached order hdur, hf1]
    exact hat
  obtain ⟨u', h3, h4, h5⟩ := conversation_heard (order := order) (n := n) h2 ht hat1
  have hstep : Session.step order (n + 2) s (.command cmd []) = some ⟨(toldSince s.milters u).foldl (Front.hear order) f1, u⟩ := by
    rw [← hcmd]
    unfold Session.step
    dsimp only
    rw [hat, hev, ho]
    cases e <;> simp only [asks, Option.some.injEq, Prod.mk.injEq, reduceCtorEq] at ha <;> obtain ⟨rfl, rfl⟩ := ha <;>
      simp only [Bool.not_true, Bool.false_eq_true, if_false] <;> rw [h1] <;> rfl
  have hall : (toldSince u u').foldl (Front.hear order) ((toldSince s.milters u).foldl (Front.hear order) f1) =
      (toldSince s.milters u').foldl (Front.hear order) f1 := by
    rw [toldSince_trans hu h5, List.foldl_append]
  refine ⟨⟨(toldSince s.milters u').foldl (Front.hear order) f1, u'⟩, ?_, ?_, ?_⟩
  · show (Session.step order (n + 2) s (.command cmd [])).bind _ = _
    rw [hstep, ← hall]
    exact h3
  · intro hopen
    rw [hpl u' t (inv_told h4), hopen]
    show Spec.Client.written f1.client.log = _
    rw [hf1]
    show Spec.Client.written (Client.enter (s.front.client.note (.got cmd)) k context).log = _
    rw [Leader.enter_log]
    show Spec.Client.written (s.front.client.log ++ [.got cmd]) = _
    rw [Client.written_append]
    exact List.append_nil _
  · intro hover
    obtain ⟨hne, hp⟩ := votes_ne n ha hcalm hf ht hover
    obtain ⟨m1, m2⟩ := C13_max t.votes hne fun v hv => proper_decision (hp v hv)
    refine ⟨_, m1, m2, report_decision (hp _ m1) _, fun hv hc => ?_⟩
    rw [hpl u' t (inv_told h4), hover]
    have hgf : Good f1 := by
      have := command_taken (order := order) s.front cmd [] hk hkn hat hch (fun _ h => (nomatch h))
      rw [← hf1] at this
      rw [show f1 = Leader.step order s.front (.command cmd [] true none none) from this.symm]
      exact hg.step _
    have hlog : f1.client.log = s.front.client.log ++ [.got cmd] := by
      rw [hf1]
      exact Leader.enter_log _ _ _
    have hw : Spec.Client.written f1.client.log = Spec.Client.written s.front.client.log := by
      rw [hlog, Client.written_append]
      exact List.append_nil _
    have hcl : Spec.Client.lastCustom f1.client.log = Spec.Client.lastCustom s.front.client.log := by rw [hlog, Client.lastCustom_snoc]
    have hkeep : f1.client.link = s.front.client.link ∧ f1.client.buffered = s.front.client.buffered := by
      rw [hf1]
      show (Client.enter _ _ _).link = _ ∧ (Client.enter _ _ _).buffered = _
      unfold Client.enter Client.setSt
      dsimp only
      split <;> split <;> exact ⟨rfl, rfl⟩
    rw [← hw]
    refine answer_written hgf (hkeep.1.trans hl) (by rw [hf1]; exact hbegin _) hkn hke (hkeep.2.trans hb) (v := Children.Phase.worst t) ?_ hv
      (fun h => hcl.trans (hc h))
    have hd := report_decision (hp _ m1) t.code
    revert hd
    show decisionOf (report (Children.Phase.worst t) t.code) = some (Children.Phase.worst t) → _
    generalize report (Children.Phase.worst t) t.code = r
    cases r <;> intro hd <;> first | exact hd | cases hd

/-! ### Concrete cases -/

namespace SessionCases
open Cases Spec.Session

/-- the session up to `before`, and what is written by `es` -/
def writesAfter (kids : List Children.Kid) (before es : List Children.Event) : Option Bytes :=
  (Session.run id 20 (Session.new .accept .temporaryFailure 0 kids 4) (before.map whole)).bind fun s =>
    (Session.run id 20 s (es.map whole)).map fun s' =>
      (Spec.Client.written s'.front.client.log).drop (Spec.Client.written s.front.client.log).length

/-- packet without arguments -/
def one (c : UInt8) : Bytes := [0, 0, 0, 1, c]

end SessionCases
open SessionCases Cases Spec.Session

/-- three milters at MAIL FROM as in C23: the hypotheses are met -/
example : ((Session.run id 20 (Session.new .accept .temporaryFailure 0 [{ fallback := .temporaryFailure }, {}, { evaluation := true }] 4)
      ((upToConnect 3).map whole)).any fun s =>
    let e := Children.Event.envelopeFrom [1]
    let es : List Children.Event := [.flushed 2, .flushed 0, .reply 2 .reject, .timeout 0, .flushed 1, .reply 1 .accept]
    s.front.attached && decide (s.front.client.link = .ready) && !Spec.Client.interrupted s.front.client.log &&
    !Spec.Client.atEnd s.front.client.log && s.front.client.log.any (fun x => match x with | .got (.negotiate _) => true | _ => false) &&
    decide (Spec.Client.lastCustom s.front.client.log = none) &&
    calmB s.milters (addressees s.milters e) .envelopeFrom &&
    ((Talk.start s.milters (addressees s.milters e) .envelopeFrom).moves s.milters (addressees s.milters e) .envelopeFrom es).any fun t =>
      !t.isOpen (addressees s.milters e) && decide (t.votes = [.accept, .temporaryFailure, .accept])) = true := by decide +kernel

/-- and the MTA reads a temporary failure -/
example : writesAfter [{ fallback := .temporaryFailure }, {}, { evaluation := true }] (upToConnect 3)
    [.envelopeFrom [1], .flushed 2, .flushed 0, .reply 2 .reject, .timeout 0, .flushed 1, .reply 1 .accept] = some (one 116) := by
  decide +kernel

/-- **C53 fails** when no milter is left: the fallback status is written twice in answer to one command. -/
theorem C53_nobody_violated :
    writesAfter [{}] (upToConnect 1 ++ [.finished 0]) [.helo [1]] = some (one 97 ++ one 97) := by decide +kernel

/-- **C53 fails** when no milter is configured: every command after the negotiation is answered twice. -/
theorem C53_no_milter_violated :
    writesAfter [] [.negotiate ⟨6, 0x1ff, 0x1fffff⟩, .idleReply] [.helo [1]] = some (one 97 ++ one 97) := by decide +kernel

/-- **C53 fails** when a milter refuses with a reply code but without an enhanced status code ("550 no such user"): the MTA gets no
answer at all. -/
theorem C53_code_violated :
    writesAfter [{}] (upToConnect 1) [.helo [1], .flushed 0, .reply 0 (.replyCode 550 [110, 111] (some [117, 115, 101, 114]))] = some [] := by
  decide +kernel

/-- **C53 fails** when a milter refuses a recipient with "450 4.2.1" and another one plainly later: the MTA gets the reply code of
the first in answer to the second, a temporary failure instead of a rejection. -/
theorem C53_stale_code_violated :
    writesAfter [{}] (upToConnect 1 ++ [.envelopeFrom [1], .flushed 0, .reply 0 .cont, .envelopeRecipient [2], .flushed 0,
        .reply 0 (.replyCode 450 [52, 46, 50, 46, 49] (some [120]))])
      [.envelopeRecipient [3], .flushed 0, .reply 0 .reject] =
    some [0, 0, 0, 13, 121, 52, 53, 48, 32, 52, 46, 50, 46, 49, 32, 120, 0] := by decide +kernel

end Verif.Props
