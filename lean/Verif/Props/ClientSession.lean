import Verif.Client.Session
import Verif.Client.Timer
import Verif.Props.Client
import Verif.Spec.Macros
/-
Sessions on the context a milter talks to the MTA through: C40 (where it fails), C50, C51, C52.
-/
namespace Verif.Props
open Verif Verif.Client Verif.Spec Verif.Spec.Client Verif.Enc Verif.Decoder

/-! ## C40 -/

/-- the hypotheses of C40: two modifications with a packet buffer of 4096 bytes, one of them not negotiated, and a
quarantine request -/
example :
    let s := run id (new 4096 .ready) ((upToEnd 0x01 []).take 9)
    let calls : List Call := [.addHeader (some (ascii "X")) (some (ascii "v")), .replaceBody (ascii "new"), .quarantine (some (ascii "virus"))]
    let s2 := run id s (.command (.endOfMessage []) [⟨[.progress], .progress⟩] none none :: calls.map .call)
    let s3 := step id s2 (.call (.respond .endOfMessage .accept))
    s.link = .ready ∧ interrupted s.log = false ∧ Spec.Client.atEnd s.log = false ∧
      (calls.all fun c => answers c == false && recipientFlagsAgree (negotiated s.log) c) = true ∧
      finalReply (lastCustom s2.log) .accept = some .accept ∧
      written s3.log = written s.log ++ pack [0x70] ++ pack (0x68 :: (ascii "X" ++ 0 :: (ascii "v" ++ [0]))) ++
        pack (0x71 :: (ascii "virus" ++ [0])) ++ pack [0x61] := by
  decide +kernel

/-- **C40 is violated** by a message that is aborted after its end was announced: what was buffered for it is written after
the reply to the next command. -/
theorem C40_aborted_violated :
    let s := run id (new 4096 .ready) (upToEnd 0x01 [⟨[], .progress⟩] ++
      [.call (.addHeader (some (ascii "X")) (some (ascii "v"))), .command .abort [] none none])
    let s' := step id s (.command (.envelopeFrom (ascii "<g@h>")) [] none none)
    written s'.log = written s.log ++ pack [0x63] ++ pack (0x68 :: (ascii "X" ++ 0 :: (ascii "v" ++ [0]))) := by
  decide +kernel

/-- **C40 is violated** by a body that is replaced by an empty one: the call succeeds, nothing is sent for it. -/
theorem C40_empty_body_violated :
    let s := run id (new 0 .ready) (upToEnd 0x02 [⟨[], .progress⟩])
    let s' := run id s [.call (.replaceBody []), .call (.respond .endOfMessage .continue_)]
    (call id s (.replaceBody [])).1 = true ∧ written s'.log = written s.log ++ pack [0x63] := by
  decide +kernel

/-- **C40 is violated** by a header without a name: the call succeeds, nothing is sent for it. -/
theorem C40_empty_name_violated :
    let s := run id (new 0 .ready) (upToEnd 0x01 [⟨[], .progress⟩])
    let s' := run id s [.call (.addHeader (some []) (some (ascii "v"))), .call (.respond .endOfMessage .continue_)]
    (call id s (.addHeader (some []) (some (ascii "v")))).1 = true ∧ written s'.log = written s.log ++ pack [0x63] := by
  decide +kernel

/-! ## C50 -/

/-- **C50**: whatever commands come, each is answered by exactly one reply, the one for the milter's decision with the custom reply in force, before the
reply to the next; at the end of a message the modifications of that message come first, in the order of the calls.  `groups` are the replies the MTA reads, command by command.
Missing: decisions that are no reply, handlers that answer by themselves, answers given later (these: `C40_partial`,
`C38_reply_partial`), custom replies without an enhanced code. -/
theorem C50_partial (order : Requests → Requests) (n : Nat) (l : Link) (ops : List Op) (s : State) (hs : s = run order (new n l) ops)
    (hl : s.link = .ready) (hi : interrupted s.log = false) (he : Spec.Client.atEnd s.log = false)
    (hcode : ∀ code message, lastCustom s.log ≠ some (code, none, message))
    (cmds : List (Cmd × List Handler))
    (hc : ∀ x ∈ cmds, (∀ off, x.1 ≠ .negotiate off) ∧ x.1 ≠ .quit ∧
      (expectsReply x.1 = true → hasReply (Spec.Client.decide x.2) = true) ∧
      ∀ c ∈ (ran x.2).flatMap (·.calls), answers c = false ∧ recipientFlagsAgree (negotiated s.log) c = true ∧ hasCode c = true) :
    ∃ groups : List (List Reply), Conversed (negotiated s.log) (lastCustom s.log) cmds groups ∧
      written (run order s (cmds.map fun x => .command x.1 x.2 none none)).log =
        written s.log ++ (encodeReplies order [] groups.flatten).flatten := by
  have hS : Settled s := hs ▸ (Settled.new n l).run ops
  have hL : Legal s := hs ▸ (Legal.new n l).run ops
  have hst : s.st ≠ .doing .endOfMessage := fun h => by rw [hS.agrees.atEnd.mp h] at he; cases he
  have hb := hS.empty hi hst
  have h0 : Between order (written s.log) (negotiated s.log) s [] :=
    ⟨⟨hl, fun _ => hb, by rw [bytes_nil, List.append_nil], hb⟩, hS.agrees, hL, hcode, hst, hS.agrees.option⟩
  obtain ⟨groups, h1, h2, h3⟩ := h0.session cmds hc
  refine ⟨groups, h1, ?_⟩
  rw [h3.sent.out, List.nil_append, bytes_encode order _ h2]

/-- a session that meets the hypotheses -/
example :
    let s := run id (new 0 .ready) (opening 0x01)
    let cmds : List (Cmd × List Handler) := [(.envelopeFrom (ascii "<a@b>"), []),
      (.envelopeRecipient (ascii "<c@d>"), [⟨[.setReply 450 (some (ascii "4.7.1")) (some (ascii "later"))], .temporaryFailure⟩]),
      (.defineMacro 0x52 [(ascii "x", some (ascii "1"))], []),
      (.envelopeRecipient (ascii "<e@f>"), []), (.endOfHeader, []),
      (.endOfMessage [], [⟨[.progress, .addHeader (some (ascii "X")) (some (ascii "v"))], .accept⟩])]
    s.link = .ready ∧ interrupted s.log = false ∧ Spec.Client.atEnd s.log = false ∧ lastCustom s.log = none ∧
      (cmds.all fun x => x.1 != .quit && (!expectsReply x.1 || hasReply (Spec.Client.decide x.2)) &&
        ((ran x.2).flatMap (·.calls)).all fun c => answers c == false && recipientFlagsAgree (negotiated s.log) c && hasCode c) = true ∧
      written (run id s (cmds.map fun x => .command x.1 x.2 none none)).log = written s.log ++ pack [0x63] ++
        pack (0x79 :: (ascii "450 4.7.1 later" ++ [0])) ++ pack [0x63] ++ pack [0x63] ++
        pack [0x70] ++ pack (0x68 :: (ascii "X" ++ 0 :: (ascii "v" ++ [0]))) ++ pack [0x61] := by
  decide +kernel

/-- **C50 is violated** by decisions that are no reply: the MTA waits in vain. -/
theorem C50_no_reply_violated (order : Requests → Requests) (s : State) (k : Kind) (hk : k ≠ .endOfMessage) (status : Status)
    (hs : hasReply status = false) :
    written (step order s (.call (.respond k status))).log = written s.log := by
  refine respond_silent order k hk status ?_
  cases status <;> first | rfl | cases hs

/-- **C50 is violated** by a milter that answers twice: nothing stops the second reply. -/
theorem C50_twice_violated :
    let s := run id (new 0 .ready) (opening 0 ++ [.command (.envelopeFrom (ascii "<a@b>")) [⟨[], .progress⟩] none none])
    let s' := run id s [.call (.respond .envelopeFrom .continue_), .call (.respond .envelopeFrom .reject)]
    written s'.log = written s.log ++ pack [0x63] ++ pack [0x72] := by
  decide +kernel

/-! ## C51 -/

/-- **C51** after an abort: nothing the milter kept for the message is left, no macro of the message either, and those of the
connection are as they were. -/
theorem C51_partial (order : Requests → Requests) (s : State) (handlers : List Handler) (chosen : Option Opt)
    (requests : Option Requests) :
    let s' := step order s (.command .abort handlers chosen requests)
    s'.shelf = [] ∧ ∀ stage name,
      (stage ∈ Spec.Macros.messageStages → s'.agent.ensure stage name = none) ∧
      (stage ∉ Spec.Macros.messageStages → s'.agent.ensure stage name = s.agent.ensure stage name) := by
  intro s'
  obtain ⟨h1, h2⟩ := abort_resets order s handlers chosen requests
  refine ⟨h1, fun stage name => ?_⟩
  have h3 : s'.agent = s.agent.clearMessage := h2
  rw [h3]
  refine ⟨fun h => ?_, fun h => ?_⟩
  · have : Macros.messageContexts.contains stage = true := by
      have h' : stage ∈ Macros.messageContexts := h
      simpa using h'
    simp only [Macros.Agent.ensure, Macros.Agent.clearMessage, Macros.Agent.invalidate, this]
    rfl
  · have : Macros.messageContexts.contains stage = false := by
      have h' : stage ∉ Macros.messageContexts := h
      simpa using h'
    simp only [Macros.Agent.ensure, Macros.Agent.clearMessage, Macros.Agent.invalidate, this]
    rfl

/-- a message with something kept and a macro, before the abort -/
example :
    let s := run id (new 0 .ready) (opening 0 ++ [.command (.defineMacro 0x4d [(ascii "i", some (ascii "1"))]) [] none none,
      .command (.envelopeFrom (ascii "<a@b>")) [⟨[.setShelf (ascii "k") (ascii "v")], .continue_⟩] none none])
    s.shelf = [(ascii "k", ascii "v")] ∧ s.agent.ensure 0x4d (ascii "i") = some (ascii "1") := by
  decide +kernel

/-- **C51 is violated** by a message that ends normally: when the next one starts, what the milter kept for the first one and
the macros of its end are still there. -/
theorem C51_violated :
    let s := run id (new 0 .ready) (opening 0 ++ [
      .command (.envelopeFrom (ascii "<a@b>")) [⟨[.setShelf (ascii "k") (ascii "v")], .continue_⟩] none none,
      .command (.envelopeRecipient (ascii "<c@d>")) [] none none, .command .endOfHeader [] none none,
      .command (.defineMacro 0x45 [(ascii "i", some (ascii "1"))]) [] none none,
      .command (.endOfMessage []) [] none none, .command (.envelopeFrom (ascii "<e@f>")) [] none none])
    s.shelf = [(ascii "k", ascii "v")] ∧ s.agent.ensure 0x45 (ascii "i") = some (ascii "1") := by
  decide +kernel

/-! ## C52 -/

/-- **C52**: while the milter works on a command the session does not time out, whatever it calls that writes nothing.
Missing: reports of progress, flushing, and modifications at the end of the message (see below). -/
theorem C52_partial (order : Requests → Requests) (s : State) (c : Cmd) (hc : expectsReply c = true) (handlers : List Handler)
    (hd : Spec.Client.decide handlers = .progress) (chosen : Option Opt) (requests : Option Requests) (calls : List Call)
    (hcalls : ∀ x ∈ (ran handlers).flatMap (·.calls) ++ calls, answers x = false ∧ x ≠ .progress ∧ x ≠ .flush ∧
      (changes x = true → ∀ chunk, c ≠ .endOfMessage chunk)) :
    let s' := run order s (.command c handlers chosen requests :: calls.map .call)
    step order s' .timeout = s' := by
  intro s'
  show (if s'.timer then _ else _) = _
  rw [working_timer order s c hc handlers hd chosen requests calls hcalls]
  rfl

/-- **C52**, the other way round: once the reply is written the wait for the next command is limited. -/
theorem C52_waits (order : Requests → Requests) (n : Nat) (l : Link) (ops : List Op) (s : State) (hs : s = run order (new n l) ops)
    (hl : s.link = .ready) (k : Kind) (hk : k ≠ .negotiate) (status : Status) (r : Reply)
    (hr : finalReply (lastCustom s.log) status = some r) :
    let s' := step order s (.call (.respond k status))
    (step order s' .timeout).log = s'.log ++ [.timedOut, .shutdown] ∧ (step order s' .timeout).link = .absent := by
  intro s'
  have hA : Agrees s := hs ▸ (Agrees.new n l).run ops
  have hL : Legal s := hs ▸ (Legal.new n l).run ops
  have h1 : s'.timer = true := respond_timer order hl hA.buffer k hk status _ (create_final order hA hL status r hr)
  have h2 : step order s' .timeout = shutdown { s'.note .timedOut with timer := false } := by
    show (if s'.timer then _ else _) = _
    rw [h1]
    rfl
  rw [h2]
  exact ⟨by simp [shutdown, setSt, State.note], rfl⟩

/-- a milter at work on the sender, with a long list of calls -/
example :
    let s := run id (new 0 .ready) (opening 0 ++ [.command (.envelopeFrom (ascii "<a@b>")) [⟨[], .progress⟩] none none,
      .call (.setShelf (ascii "k") (ascii "v")), .call (.addHeader (some (ascii "X")) (some (ascii "v")))])
    (step id s .timeout).log = s.log ∧ s.link = .ready ∧
      (step id (step id s (.call (.respond .envelopeFrom .accept))) .timeout).link = .absent := by
  decide +kernel

/-- **C52 is violated** by a modification: the milter adds a header and goes on working; the session times out and is shut
down under its hands. -/
theorem C52_modification_violated :
    let s := run id (new 0 .ready) (upToEnd 0x01 [⟨[], .progress⟩] ++ [.call (.addHeader (some (ascii "X")) (some (ascii "v"))), .timeout])
    s.link = .absent ∧ s.log.drop (s.log.length - 2) = [.timedOut, .shutdown] := by
  decide +kernel

/-- **C52 is violated** by a report of progress, made to be given more time. -/
theorem C52_progress_violated :
    let s := run id (new 0 .ready) (upToEnd 0 [⟨[.progress], .progress⟩] ++ [.timeout])
    s.link = .absent ∧ s.log.drop (s.log.length - 2) = [.timedOut, .shutdown] := by
  decide +kernel

end Verif.Props
