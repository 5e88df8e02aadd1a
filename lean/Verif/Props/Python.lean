import Verif.Client.PythonFacts
import Verif.Props.Ruby
/-
Milters written in Python: what they are called with and what the MTA reads (C142), what they negotiate (C143).
-/
namespace Verif.Props.Python
open Verif Verif.Python Verif.Spec.Python Verif.Client Verif.Spec.Client
open Verif.Ruby (Value Options Modification Act Prog Callback Part Said Ran Outcome Object Session Result removeStep)
open Verif.Spec.Ruby (Called plain doings Decides leavesOut)
open Verif.Enc (encodeReplies pack)
open Verif.Props.Ruby (keep_bit drop_bit keep_mask drop_mask)

variable {σ : Type}

/-! ## C142: callbacks and answers -/

theorem object_none (order : Requests → Requests) (m : Class σ) {what : Callback} (hw : what ≠ .body []) (h : m.callback what = none) : (m.object order).callback what = none := by
  show (m.calls what).map _ = none
  have e : m.calls what = m.callback what := by
    unfold Class.calls
    split
    · exact absurd rfl hw
    · rfl
  rw [e, h]
  rfl

theorem object_some (order : Requests → Requests) (m : Class σ) {what : Callback} (hw : what ≠ .body []) {p : Prog σ} (h : m.callback what = some p) :
    ∃ g, (m.object order).callback what = some g ∧ ∀ s v x, ∃ part : Part, (g s v x).parts = [part] ∧ part.who = 0 := by
  have e : m.calls what = m.callback what := by
    unfold Class.calls
    split
    · exact absurd rfl hw
    · rfl
  refine ⟨_, (congrArg (Option.map _) (e.trans h)), fun s v x => ?_⟩
  have key : ∀ what, ∃ part : Part, (m.event order what p s v x).parts = [part] ∧ part.who = 0 := by
    intro what
    unfold Class.event
    dsimp only
    split <;> exact ⟨_, rfl, rfl⟩
  cases what with
  | abort st => exact ⟨_, rfl, rfl⟩
  | _ => exact key _

theorem one_called (order : Requests → Requests) (fallback : Value) (m : Class σ) (x : Session σ) (s : State) (what : Callback) (hw : what ≠ .body []) :
    if (m.callback what).isSome then ∃ p, (one fallback (m.object order) x s what).seen = [⟨what, [p]⟩] ∧ p.who = 0
    else (one fallback (m.object order) x s what).seen = [] := by
  unfold one
  cases h : m.callback what with
  | none => rw [object_none order m hw h]; rfl
  | some p =>
    obtain ⟨g, h1, h2⟩ := object_some order m hw h
    rw [h1]
    obtain ⟨part, h3, h4⟩ := h2 s x.status x.own
    refine ⟨part, ?_, h4⟩
    show [_] = _
    rw [h3]

/-- **C142**, callbacks: whatever a milter does, and in whatever state a session is, for each command the MTA sends the milter is called once, with what the MTA sent, if it has the callback for it, and
not otherwise.  In an abort `abort` is called, at the end of the session `finished`.
Missing: body chunks of no bytes, `C142_empty_chunk_violated`, and what comes with the end of the message, `C142_last_chunk_violated`. -/
theorem C142_called_partial (order : Requests → Requests) (fallback : Value) (m : Class σ) (x : Session σ) (c : Cmd) (hc : c ≠ .body []) :
    ∃ said, (receive order fallback (m.object order) x c).seen = x.seen ++ said ∧ Called m.toClass c said := by
  cases c with
  | quit =>
    unfold Verif.Python.receive
    dsimp only
    unfold finish
    show ∃ said, _ ∧ (if (m.callback .finished).isSome then _ else _)
    cases h : m.callback .finished with
    | none =>
      rw [object_none order m (what := .finished) (fun h => nomatch h) h]
      refine ⟨[], ?_, rfl⟩
      show x.seen ++ [] = _
      rfl
    | some p =>
      obtain ⟨g, h1, h2⟩ := object_some order m (what := .finished) (fun h => nomatch h) h
      rw [h1]
      obtain ⟨part, h3, h4⟩ := h2 (Client.receive order x.context .quit (handle fallback (m.object order) x .quit).handlers none (some []))
        (handle fallback (m.object order) x .quit).status (handle fallback (m.object order) x .quit).own
      refine ⟨[⟨.finished, [part]⟩], ?_, ⟨part, rfl, h4⟩⟩
      rw [← h3]
      show (x.seen ++ []) ++ _ = _
      rw [List.append_nil]
  | negotiate o => exact ⟨[], rfl, rfl⟩
  | defineMacro a b => exact ⟨[], rfl, rfl⟩
  | abort =>
    refine ⟨_, rfl, ?_⟩
    show if m.abort.isSome then _ else _
    show if m.abort.isSome then ∃ state p, (onAbort (m.object order) x).seen = [⟨.abort state, [p]⟩] ∧ p.who = 0 else (onAbort (m.object order) x).seen = []
    unfold onAbort
    have e : (m.object order).callback (.abort x.context.st) = (m.abort.map fun g => g x.context.st).map fun p s v own =>
      let r := exec order m.reset p s v own
      (⟨[⟨0, r.did, r.raised⟩], r.calls, r.context, r.status, r.own, r.raised⟩ : Outcome σ) := rfl
    rw [e]
    cases m.abort with
    | none => rfl
    | some p =>
      rw [if_pos (show (some p).isSome = true from rfl)]
      dsimp only [Option.map_some]
      split <;> exact ⟨_, _, rfl, rfl⟩
  | body chunk => exact ⟨_, rfl, one_called order fallback m x _ _ (fun h => hc (by cases h; rfl))⟩
  | _ => exact ⟨_, rfl, one_called order fallback m x _ _ (fun h => nomatch h)⟩

/-- **C142**, answers: whatever a milter does in its callbacks, the MTA reads for each command exactly what the milter said in the callback for it: one answer, the one for its last decision, with the custom
reply it has set last; if an exception left the callback, the fallback status, whatever the callback or `on_error` said besides; if there is no callback or it decided nothing, "continue"; at the end of a
message first the modifications it made, in order.
Missing: exceptions in `abort` (`C142_abort_violated`), `_delay_response`, recipients with parameters, decisions that are no answer (C38), the negotiation (C143).  The custom reply set last may be
one of an earlier command, as in C104. -/
theorem C142_partial (order : Requests → Requests) (fallback : Value) (hfb : fallback.toStatus ≠ .progress) (m : Class σ) (hm : Keeps plain m) (ha : QuietAbort m) (n : Nat) (l : Link)
    (cmds : List Cmd) (hq : Cmd.quit ∉ cmds) (x : Session σ) (hx : x = run order fallback (m.object order) (.start (m.object order) (new n l)) cmds)
    (hl : x.context.link = .ready) (c : Cmd) (hc : ∀ o, c ≠ .negotiate o) (hc' : c ≠ .quit) (x' : Session σ) (hx' : x' = receive order fallback (m.object order) x c) :
    ∃ said, x'.seen = x.seen ++ said ∧ ∃ d, (expectsReply c = true → Decides fallback.toStatus (meaning said) d) ∧
      ((expectsReply c = true → hasReply d = true) →
        ∃ read, Fits (negotiated x.context.log) (customAfter none (doings (meaning x'.seen))) c (doings (meaning said)) d read ∧
          written x'.context.log = written x.context.log ++ (encodeReplies order [] read).flatten) := by
  have hstart : cast (Session.start (m.object order) (new n l)) = Session.start (shadow (m.object order)) (new n l) := rfl
  have e1 : cast x = Ruby.run order fallback (shadow (m.object order)) (.start (shadow (m.object order)) (new n l)) cmds := by
    rw [hx, run_eq order fallback m ha, ← shadow_run order fallback _ cmds _ hq, hstart]
  have hg : Ruby.Good (cast x) := by
    rw [e1]
    exact (Ruby.Good.start _ n l).run (fun _ h => h.2) hfb (honest order none fallback hfb m hm) cmds hq
  have e2 : cast x' = Ruby.receive order fallback (shadow (m.object order)) (cast x) c := by
    rw [hx', receive_eq order fallback m ha, shadow_receive order fallback _ x c hc']
  have hsaid : x'.seen = x.seen ++ (handle fallback (m.object order) x c).seen := by
    rw [hx', receive_eq order fallback m ha, Ruby.receive_eq order fallback _ x c hc', handle_eq order fallback m ha]
  refine ⟨_, hsaid, ?_⟩
  obtain ⟨said, h1, h2⟩ := hg.read hfb (honest order _ fallback hfb m hm) hl c hc hc'
  rw [← e2] at h1 h2
  have : said = meaning (handle fallback (m.object order) x c).seen := by
    have h3 : meaning x'.seen = meaning x.seen ++ said := h1
    rw [hsaid, meaning_append] at h3
    exact (List.append_cancel_left h3).symm
  rw [this] at h2
  exact h2

/-- a milter that says different things -/
def speaker : Class Unit where
  start := ()
  reset := id
  envelopeFrom := some fun _ => .act (.reject { code := some 0, reason := some (ascii "no") }) fun _ => .done
  envelopeRecipient := some fun a => if a = ascii "<x@y>" then .act .continue_ fun _ => .raise else .act (.temporaryFailure {}) fun _ => .done
  endOfMessage := some (.act (.modify (.addHeader (ascii "X") (ascii "v"))) fun ok => if ok then .act (.quarantine (ascii "q")) fun _ => .done else .raise)
  onError := fun _ => .act .discard fun _ => .raise

theorem speaker_plain : Keeps plain speaker := by
  refine ⟨?_, fun _ => ⟨rfl, fun _ => True.intro⟩⟩
  intro what p h
  cases what <;> first | (cases h; done) | skip
  · cases h; exact ⟨rfl, fun _ => True.intro⟩
  · rename_i a
    have h : (if a = ascii "<x@y>" then Prog.act .continue_ fun _ => Prog.raise else Prog.act (.temporaryFailure {}) fun _ => Prog.done) = p := Option.some.inj h
    rw [← h]
    split <;> exact ⟨rfl, fun _ => True.intro⟩
  · cases h
    refine ⟨rfl, fun b => ?_⟩
    cases b with
    | true => exact ⟨rfl, fun _ => True.intro⟩
    | false => exact True.intro

/-- the hypotheses of C142, and what is written -/
example : Keeps plain speaker ∧ QuietAbort speaker ∧
    let m := speaker.object id
    let x := run id (.name .reject false) m (.start m (new 0 .ready)) [.negotiate ⟨6, 0x1ff, 0⟩]
    x.context.link = .ready ∧
    written (receive id (.name .reject false) m x (.envelopeFrom (ascii "<a@b>"))).context.log = written x.context.log ++ pack (0x79 :: (ascii "550 5.7.1 no" ++ [0])) ∧
    written (receive id (.name .reject false) m x (.envelopeRecipient (ascii "<c@d>"))).context.log = written x.context.log ++ pack [0x74] ∧
    written (receive id (.name .reject false) m x (.envelopeRecipient (ascii "<x@y>"))).context.log = written x.context.log ++ pack [0x72] ∧
    written (receive id (.name .reject false) m x (.endOfMessage [])).context.log = written x.context.log ++
      pack (0x68 :: (ascii "X" ++ 0 :: (ascii "v" ++ [0]))) ++ pack (0x71 :: (ascii "q" ++ [0])) ++ pack [0x61] := by
  refine ⟨speaker_plain, (fun _ h => nomatch h), by decide +kernel⟩

/-- a milter that keeps the recipients, and forgets them at the end of a message; it rejects every body -/
def watcher : Class (List Bytes) where
  start := []
  reset := fun _ => []
  connect := some fun _ _ => .done
  envelopeRecipient := some fun a => .own (· ++ [a]) fun _ => .done
  body := some fun _ => .act (.reject {}) fun _ => .done
  endOfMessage := some (.act .accept fun _ => .done)
  abort := some fun _ => .done
  finished := some .done

/-- what it is called with -/
example : (run id (.name .accept false) (watcher.object id) (.start (watcher.object id) (new 0 .ready))
    [.negotiate ⟨6, 0x1ff, 0x1fffff⟩, .connect (ascii "h") .unspec, .envelopeFrom (ascii "<a@b>"), .envelopeRecipient (ascii "<c@d>"), .body (ascii "one"),
      .endOfMessage [], .envelopeFrom (ascii "<a@b>"), .abort, .quit]).seen.map (·.what) =
    [.connect (ascii "h") .unspec, .envelopeRecipient (ascii "<c@d>"), .body (ascii "one"), .endOfMessage, .abort (.replied .envelopeFrom), .finished] := by
  decide +kernel

/-- **C142 is violated**: for a body chunk of no bytes the milter is not called, and the MTA reads the fallback status.  A milter that rejects every body accepts the message. -/
theorem C142_empty_chunk_violated :
    let m := watcher.object id
    let x := run id (.name .accept false) m (.start m (new 0 .ready)) [.negotiate ⟨6, 0x1ff, 0⟩, .envelopeFrom (ascii "<a@b>")]
    (receive id (.name .accept false) m x (.body [])).seen.map (·.parts.map (·.did)) = [[[]]] ∧
    written (receive id (.name .accept false) m x (.body [])).context.log = written x.context.log ++ pack [0x61] ∧
    written (receive id (.name .accept false) m x (.body (ascii "a"))).context.log = written x.context.log ++ pack [0x72] := by
  decide +kernel

/-- **C142 is violated**: the part of the body that comes with the end of the message is not shown to the milter. -/
theorem C142_last_chunk_violated :
    let x := run id (.name .accept false) (watcher.object id) (.start (watcher.object id) (new 0 .ready))
      [.envelopeFrom (ascii "<a@b>"), .body (ascii "one"), .endOfMessage (ascii "two")]
    x.seen.flatMap (fun s => Spec.Ruby.bodyGiven s.what) = ascii "one" := by
  decide +kernel

/-- **C142**, an abort: without an exception in `abort` the milter has been reset after it. -/
theorem C142_abort_resets (order : Requests → Requests) (fallback : Value) (m : Class σ) (ha : QuietAbort m) (x : Session σ) :
    ∃ y, (receive order fallback (m.object order) x .abort).own = m.reset y := by
  rw [receive_eq order fallback m ha]
  show ∃ y, (Ruby.handle fallback (m.object order) x .abort).own = _
  unfold Ruby.handle
  dsimp only
  have e : (m.object order).reset = some m.reset := rfl
  rw [e]
  exact ⟨_, rfl⟩

/-- **C142 is violated**: an exception in `abort` leaves what the milter keeps of the message, and what it decided, for the next: its recipients are among those of the next message, whose
sender is accepted. -/
theorem C142_abort_violated :
    let m := { watcher with abort := some fun _ => .act (.status (some (.constant .accept))) fun _ => .raise, envelopeFrom := some fun _ => .done : Class (List Bytes) }.object id
    let x := run id (.name .temporaryFailure false) m (.start m (new 0 .ready)) [.negotiate ⟨6, 0x1ff, 0⟩, .envelopeFrom (ascii "<a@b>"), .envelopeRecipient (ascii "<c@d>"), .abort]
    x.own = [ascii "<c@d>"] ∧
    written (receive id (.name .temporaryFailure false) m x (.envelopeFrom (ascii "<e@f>"))).context.log = written x.context.log ++ pack [0x61] := by
  decide +kernel

/-- **C142 is violated**: if a session cannot be made, the MTA reads "continue" for everything, whatever the fallback status. -/
theorem C142_no_session_violated :
    let s := noSession id (new 0 .ready) [.negotiate ⟨6, 0x1ff, 0⟩]
    written (noSession id s [.connect (ascii "h") .unspec, .envelopeFrom (ascii "<a@b>"), .endOfMessage []]).log =
      written s.log ++ pack [0x63] ++ pack [0x63] ++ pack [0x63] := by
  decide +kernel

/-! ## C143: negotiation -/

/-- Python's order of the steps makes no difference -/
theorem choose_eq (m : Class σ) (o : Opt) : m.choose o = { m.toClass with needsLeadingSpace := !m.needsLeadingSpace : Ruby.Class σ }.choose o := by
  have key : ∀ (b : Bool) (step : UInt32) (o : Opt), (if b then removeStep o step else o) = ⟨o.version, o.action, o.step &&& (if b then ~~~step else 0xffffffff)⟩ := by
    intro b step o
    cases b with
    | true => rfl
    | false =>
      show o = ⟨o.version, o.action, o.step &&& 0xffffffff⟩
      rw [show (0xffffffff : UInt32) = -1 from rfl, UInt32.and_neg_one]
  unfold Class.choose Ruby.Class.choose
  simp only [key]
  refine congrArg (fun st => removeStep ⟨o.version, o.action, st⟩ Opt.noReplyMask) ?_
  generalize (if m.connect.isSome = true then ~~~(1 : UInt32) else 4294967295) = a1
  generalize (if m.helo.isSome = true then ~~~(2 : UInt32) else 4294967295) = a2
  generalize (if m.envelopeFrom.isSome = true then ~~~(4 : UInt32) else 4294967295) = a3
  generalize (if m.envelopeRecipient.isSome = true then ~~~(8 : UInt32) else 4294967295) = a4
  generalize (if m.data.isSome = true then ~~~(512 : UInt32) else 4294967295) = a5
  generalize (if m.header.isSome = true then ~~~(32 : UInt32) else 4294967295) = a6
  generalize (if m.endOfHeader.isSome = true then ~~~(64 : UInt32) else 4294967295) = a7
  generalize (if m.body.isSome = true then ~~~(16 : UInt32) else 4294967295) = a8
  generalize (if m.unknown.isSome = true then ~~~(256 : UInt32) else 4294967295) = a9
  rw [show (!(!m.needsLeadingSpace)) = m.needsLeadingSpace from Bool.not_not _]
  ac_rfl

/-- **C143**: in the negotiation a milter asks the MTA to leave out exactly the steps it has no callback for, as far as the MTA offers that; it wants replies for all; and it takes all the actions
offered.  This is what the MTA reads.
Missing: the leading space of header values, `C143_leading_space_violated`. -/
theorem C143_partial (order : Requests → Requests) (fallback : Value) (m : Class σ) (n : Nat) (o : Opt) :
    ∃ answer : Opt, written (receive order fallback (m.object order) (.start (m.object order) (new n .ready)) (.negotiate o)).context.log =
        (encodeReplies order [] [.negotiate answer (some [])]).flatten ∧
      answer.version = o.version ∧ answer.action = o.action ∧
      (∀ bit ∈ [0x001, 0x002, 0x004, 0x008, 0x010, 0x020, 0x040, 0x100, 0x200], answer.step &&& bit = if leavesOut m.toClass bit then o.step &&& bit else 0) ∧
      (∀ bit ∈ [0x80, 0x1000, 0x2000, 0x4000, 0x8000, 0x10000, 0x20000, 0x40000, 0x80000], answer.step &&& bit = 0) ∧
      (∀ bit ∈ [0x400, 0x800], answer.step &&& bit = o.step &&& bit) := by
  obtain ⟨answer, h1, h2, h3, h4, h5, _, h6⟩ := Props.Ruby.C106_negotiate order fallback { m.toClass with needsLeadingSpace := !m.needsLeadingSpace : Ruby.Class σ } n o
  refine ⟨answer, ?_, h2, h3, h4, h5, h6⟩
  rw [← h1]
  show written (Client.receive order (new n .ready) (.negotiate o) [⟨[], .continue_⟩] (some (m.choose o)) (some [])).log = _
  rw [choose_eq]
  rfl

/-- the answer of `watcher`, to an MTA that offers everything -/
example : written (receive id (.name .accept false) (watcher.object id) (.start (watcher.object id) (new 0 .ready)) (.negotiate ⟨6, 0x1ff, 0x1fffff⟩)).context.log =
    (encodeReplies id [] [.negotiate ⟨6, 0x1ff, 0x100f66⟩ (some [])]).flatten := by
  decide +kernel

/-- **C143 is violated**: header values keep their leading space just if the milter does not need it. -/
theorem C143_leading_space_violated (order : Requests → Requests) (fallback : Value) (m : Class σ) (n : Nat) (o : Opt) :
    ∃ answer : Opt, written (receive order fallback (m.object order) (.start (m.object order) (new n .ready)) (.negotiate o)).context.log =
        (encodeReplies order [] [.negotiate answer (some [])]).flatten ∧
      answer.step &&& 0x100000 = if m.needsLeadingSpace then 0 else o.step &&& 0x100000 := by
  obtain ⟨answer, h1, _, _, _, _, h2, _⟩ := Props.Ruby.C106_negotiate order fallback { m.toClass with needsLeadingSpace := !m.needsLeadingSpace : Ruby.Class σ } n o
  refine ⟨answer, ?_, ?_⟩
  · rw [← h1]
    show written (Client.receive order (new n .ready) (.negotiate o) [⟨[], .continue_⟩] (some (m.choose o)) (some [])).log = _
    rw [choose_eq]
    rfl
  · rw [h2]
    show (if (!m.needsLeadingSpace) = true then _ else _) = _
    cases m.needsLeadingSpace <;> rfl

end Verif.Props.Python
