import Verif.Manager.ChildrenPass
import Verif.Spec.Phase
/-
Commands that go to all milters at once, followed answer by answer.
-/
namespace Verif.Children
namespace Phase
open Verif
open Verif.Server (St)
open Verif.Spec.Children
open Verif.Spec.Phase

/-! ## The context -/

/-- commands about a message -/
def inMsg (st : St) : Prop := st = .envelopeFrom ∨ st = .envelopeRecipient ∨ st = .data

/-- the states of commands to all -/
def Parallel (st : St) : Prop :=
  st = .connect ∨ st = .helo ∨ st = .unknown ∨ inMsg st

theorem asks_parallel {e : Event} {cmd : Cmd} {st : St} (h : asks e = some (cmd, st)) : Parallel st := by
  unfold Parallel inMsg
  cases e <;> simp only [asks, Option.some.injEq, Prod.mk.injEq, reduceCtorEq] at h <;> simp [← h.2]

/-- the command was written -/
structure Written (c : Server.State) (st : St) : Prop where
  nextStates : c.nextStates = [st]
  quitted : c.quitted = false
  negotiated : c.negotiated = true
  recipient : st = .envelopeRecipient → c.currentRecipient ≠ none
  following : inMsg st → c.processingMessage = true

/-- it has gone out -/
structure Asked (c : Server.State) (st : St) : Prop where
  state : c.state = st
  nextStates : c.nextStates = []
  timer : c.timer = some .reading
  quitted : c.quitted = false
  negotiated : c.negotiated = true
  recipient : st = .envelopeRecipient → c.currentRecipient ≠ none
  following : inMsg st → c.processingMessage = true

/-- it was answered -/
structure Spoke (c : Server.State) (st : St) : Prop where
  state : c.state = st
  nextStates : c.nextStates = []
  timer : c.timer = none
  quitted : c.quitted = false
  negotiated : c.negotiated = true
  following : inMsg st → c.processingMessage = true

theorem idle_fields {k : Kid} {st : St} (h : Idle k st) : k.ctx.negotiated = true ∧ k.ctx.quitted = false := by
  have := h.alive
  simpa [isAlive] using this

theorem not_enabled {k : Kid} {st : St} (hd : declines k st = false) (ho : ∃ o, k.ctx.option = some o) :
    Server.isEnableStep k.ctx.option (declineFlag st) = false := by
  obtain ⟨o, ho⟩ := ho
  simp only [declines, ho, Bool.or_eq_false_iff] at hd
  simp [Server.isEnableStep, ho, hd.1]

theorem enabled {k : Kid} {st : St} (hd : declines k st = true) (hst : st ≠ .data) :
    Server.isEnableStep k.ctx.option (declineFlag st) = true := by
  unfold declines at hd
  cases ho : k.ctx.option with
  | none => rw [ho] at hd; cases hd
  | some o =>
    rw [ho] at hd
    simpa [Server.isEnableStep, hst] using hd

/-- DATA makes no difference to the recipients -/
theorem told_data {c : Server.State} {c' : Server.State} (h : Server.hasAcceptedRecipient c = true)
    (hr : c'.result = some (Server.Result.told .data (c.result.getD {})) := by rfl) : Server.hasAcceptedRecipient c' = true := by
  unfold Server.hasAcceptedRecipient at h ⊢
  rw [hr]
  cases hx : c.result with
  | none => rfl
  | some r => rw [hx] at h; exact h

theorem command_written {e : Event} {cmd : Cmd} {st : St} {k : Kid} (ha : asks e = some (cmd, st)) (h : Idle k st)
    (hd : declines k st = false) (hm : st = .envelopeRecipient ∨ st = .data → k.ctx.processingMessage = true) :
    ∃ c', Server.command k.ctx cmd false true = (c', [.wrote cmd, .ret true]) ∧ Written c' st ∧
      c'.stack = k.ctx.stack ∧ c'.option = k.ctx.option ∧ (MsgBlank k.ctx → MsgBlank c') ∧
      (st = .data → Server.hasAcceptedRecipient k.ctx = true → Server.hasAcceptedRecipient c' = true) := by
  obtain ⟨o, ho, hw⟩ := h.option
  have hen := not_enabled hd ⟨o, ho⟩
  obtain ⟨hn, hq⟩ := idle_fields h
  have ht := h.timer
  have hnx := h.nextStates
  cases e <;> simp only [asks, Option.some.injEq, Prod.mk.injEq, reduceCtorEq] at ha <;> obtain ⟨rfl, rfl⟩ := ha <;>
    simp only [declineFlag] at hen
  case connect =>
    refine ⟨{ k.ctx with timer := some .writing, nextStates := [.connect] }, ?_, ⟨rfl, hq, hn, (fun h => nomatch h), ?_⟩, rfl, rfl, id, fun h => nomatch h⟩
    · simp [Server.command, hen, Server.returning, Server.writePacket, Server.isProcessing, ht, Server.andThen, Server.go,
        Server.exec, hnx]
    · intro h; simp [inMsg] at h
  case helo =>
    refine ⟨{ k.ctx with timer := some .writing, nextStates := [.helo] }, ?_, ⟨rfl, hq, hn, (fun h => nomatch h), ?_⟩, rfl, rfl, id, fun h => nomatch h⟩
    · simp [Server.command, hen, Server.returning, Server.writePacket, Server.isProcessing, ht, Server.andThen, Server.go,
        Server.exec, hnx]
    · intro h; simp [inMsg] at h
  case envelopeFrom f =>
    refine ⟨{ Server.ensureResult { k.ctx with status := .notChange } (Server.Result.told (.envelopeFrom f)) with
      processingMessage := true, timer := some .writing, nextStates := [.envelopeFrom] }, ?_,
      ⟨rfl, hq, hn, (fun h => nomatch h), fun _ => rfl⟩, rfl, rfl, id, fun h => nomatch h⟩
    simp [Server.command, hen, Server.ensureResult, Server.returning, Server.writePacket, Server.isProcessing, ht, Server.andThen,
      Server.go, Server.exec, hnx]
  case envelopeRecipient r =>
    refine ⟨{ k.ctx with
      currentRecipient := some r
      result := some (Server.Result.told (.envelopeRecipient r) (k.ctx.result.getD {}))
      timer := some .writing, nextStates := [.envelopeRecipient] }, ?_,
      ⟨rfl, hq, hn, (fun _ h => nomatch h), fun _ => hm (.inl rfl)⟩, rfl, rfl, id, fun h => nomatch h⟩
    simp [Server.command, hen, Server.ensureResult, Server.returning, Server.writePacket, Server.isProcessing, ht, Server.andThen,
      Server.go, Server.exec, hnx]
  case data =>
    have hv : ¬ o.version < 4 := by
      simp only [declines, ho, Bool.or_eq_false_iff] at hd
      simpa using hd.2
    rw [ho] at hen
    refine ⟨{ Server.ensureResult k.ctx (Server.Result.told .data) with timer := some .writing, nextStates := [.data] }, ?_,
      ⟨rfl, hq, hn, (fun h => nomatch h), fun _ => hm (.inr rfl)⟩, rfl, rfl, id, fun _ => told_data⟩
    simp [Server.command, Server.ensureResult, ho, hv, hen, Server.returning, Server.writePacket, Server.isProcessing, ht,
      Server.andThen, Server.go, Server.exec, hnx]
  case unknown =>
    refine ⟨{ k.ctx with timer := some .writing, nextStates := [.unknown] }, ?_, ⟨rfl, hq, hn, (fun h => nomatch h), ?_⟩, rfl, rfl, id, fun h => nomatch h⟩
    · simp [Server.command, hen, Server.returning, Server.writePacket, Server.isProcessing, ht, Server.andThen, Server.go,
        Server.exec, hnx]
    · intro h; simp [inMsg] at h

theorem command_declined {e : Event} {cmd : Cmd} {st : St} {k : Kid} (ha : asks e = some (cmd, st)) (h : Idle k st)
    (hd : declines k st = true) (hm : st = .envelopeRecipient ∨ st = .data → k.ctx.processingMessage = true) :
    ∃ c', Server.command k.ctx cmd false true =
        ({ c' with stack := [] :: c'.stack }, [.emit (.reply .cont), .ret true]) ∧
      Spoke c' st ∧ c'.option = k.ctx.option ∧ (MsgBlank k.ctx → MsgBlank c') ∧
      (st = .data → Server.hasAcceptedRecipient k.ctx = true → Server.hasAcceptedRecipient c' = true) := by
  obtain ⟨o, ho, hw⟩ := h.option
  obtain ⟨hn, hq⟩ := idle_fields h
  have ht := h.timer
  have hnx := h.nextStates
  by_cases hdata : st = .data
  · subst hdata
    cases e <;> simp only [asks, Option.some.injEq, Prod.mk.injEq, reduceCtorEq] at ha <;> obtain ⟨rfl, h2⟩ := ha
    case data =>
      refine ⟨Server.setState (Server.ensureResult k.ctx (Server.Result.told .data)) .data, ?_, ⟨rfl, hnx, ht, hq, hn, fun _ => hm (.inr rfl)⟩, rfl, id, fun _ => told_data⟩
      have hv : o.version < 4 ∨ Server.isEnableStep (some o) 512 = true := by
        simp only [declines, ho, Bool.or_eq_true, declineFlag, decide_true, Bool.true_and, decide_eq_true_eq] at hd
        exact hd.symm
      simp only [Server.command, Server.ensureResult, ho]
      simp [hv, Server.answer, Server.returning, Server.andThen, Server.pause, Server.setState]
    all_goals cases h2
  · have hen := enabled hd hdata
    cases e <;> simp only [asks, Option.some.injEq, Prod.mk.injEq, reduceCtorEq] at ha <;> obtain ⟨rfl, rfl⟩ := ha <;>
      simp only [declineFlag] at hen
    case connect =>
      refine ⟨Server.setState k.ctx .connect, ?_, ⟨rfl, hnx, ht, hq, hn, fun h => by simp [inMsg] at h⟩, rfl, id, fun h => nomatch h⟩
      simp [Server.command, hen, Server.answer, Server.returning, Server.andThen, Server.pause, Server.setState]
    case helo =>
      refine ⟨Server.setState k.ctx .helo, ?_, ⟨rfl, hnx, ht, hq, hn, fun h => by simp [inMsg] at h⟩, rfl, id, fun h => nomatch h⟩
      simp [Server.command, hen, Server.answer, Server.returning, Server.andThen, Server.pause, Server.setState]
    case envelopeFrom f =>
      refine ⟨Server.setState { Server.ensureResult { k.ctx with status := .notChange } (Server.Result.told (.envelopeFrom f)) with processingMessage := true } .envelopeFrom,
        ?_, ⟨rfl, hnx, ht, hq, hn, fun _ => rfl⟩, rfl, id, fun h => nomatch h⟩
      simp [Server.command, Server.ensureResult, hen, Server.answer, Server.returning, Server.andThen, Server.pause, Server.setState]
    case envelopeRecipient r =>
      refine ⟨Server.setState { k.ctx with
        currentRecipient := some r
        result := some (Server.Result.told (.envelopeRecipient r) (k.ctx.result.getD {})) }
          .envelopeRecipient, ?_, ⟨rfl, hnx, ht, hq, hn, fun _ => hm (.inl rfl)⟩, rfl, id, fun h => nomatch h⟩
      simp [Server.command, Server.ensureResult, hen, Server.answer, Server.returning, Server.andThen, Server.pause, Server.setState]
    case data => exact absurd rfl hdata
    case unknown =>
      refine ⟨Server.setState k.ctx .unknown, ?_, ⟨rfl, hnx, ht, hq, hn, fun h => by simp [inMsg] at h⟩, rfl, id, fun h => nomatch h⟩
      simp [Server.command, hen, Server.answer, Server.returning, Server.andThen, Server.pause, Server.setState]

theorem flushed_asked {c : Server.State} {st : St} (h : Written c st) (hst : Parallel st)
    (ho : ∃ o, c.option = some o ∧ o.step &&& Server.noReplyFlag st = 0) :
    ∃ c', Server.flushed c true = ({ c' with stack := [] :: c'.stack }, [.emit (.stateTransited st)]) ∧
      Asked c' st ∧ c'.stack = c.stack ∧ c'.option = c.option ∧ (MsgBlank c → MsgBlank c') ∧ c'.result = c.result := by
  obtain ⟨o, ho, hw⟩ := ho
  have hr : Server.needReply c.option st = some true := by simp [Server.needReply, ho, hw]
  have hf := h.following
  unfold Parallel inMsg at hst
  unfold inMsg at hf
  rcases hst with rfl | rfl | rfl | rfl | rfl | rfl
  · refine ⟨{ Server.setState { c with nextStates := [], timer := none } .connect with timer := some .reading }, ?_,
      ⟨rfl, rfl, rfl, h.quitted, h.negotiated, h.recipient, h.following⟩, rfl, rfl, id, rfl⟩
    simp [Server.flushed, h.nextStates, Server.flushActions, Server.exec, Server.act, Server.enter, Server.setState, hr, Server.go,
      Server.pause]
  · refine ⟨{ Server.setState { c with nextStates := [], timer := none } .helo with timer := some .reading }, ?_,
      ⟨rfl, rfl, rfl, h.quitted, h.negotiated, h.recipient, h.following⟩, rfl, rfl, id, rfl⟩
    simp [Server.flushed, h.nextStates, Server.flushActions, Server.exec, Server.act, Server.enter, Server.setState, hr, Server.go,
      Server.pause]
  · refine ⟨{ Server.setState { c with nextStates := [], timer := none } .unknown with timer := some .reading }, ?_,
      ⟨rfl, rfl, rfl, h.quitted, h.negotiated, h.recipient, h.following⟩, rfl, rfl, id, rfl⟩
    simp [Server.flushed, h.nextStates, Server.flushActions, Server.exec, Server.act, Server.enter, Server.setState, hr, Server.go,
      Server.pause]
  · refine ⟨{ Server.setState { c with nextStates := [], timer := none, processingMessage := true } .envelopeFrom with
        timer := some .reading }, ?_,
      ⟨rfl, rfl, rfl, h.quitted, h.negotiated, h.recipient, fun _ => rfl⟩, rfl, rfl, id, rfl⟩
    simp [Server.flushed, h.nextStates, Server.flushActions, Server.exec, Server.act, Server.enter, Server.setState, hr, Server.go,
      Server.pause]
  · refine ⟨{ Server.setState { c with nextStates := [], timer := none } .envelopeRecipient with timer := some .reading }, ?_,
      ⟨rfl, rfl, rfl, h.quitted, h.negotiated, h.recipient, h.following⟩, rfl, rfl, id, rfl⟩
    simp [Server.flushed, h.nextStates, Server.flushActions, Server.exec, Server.act, Server.enter, Server.setState, hr, Server.go,
      Server.pause]
  · refine ⟨{ Server.setState { c with nextStates := [], timer := none } .data with timer := some .reading }, ?_,
      ⟨rfl, rfl, rfl, h.quitted, h.negotiated, h.recipient, h.following⟩, rfl, rfl, id, rfl⟩
    simp [Server.flushed, h.nextStates, Server.flushActions, Server.exec, Server.act, Server.enter, Server.setState, hr, Server.go,
      Server.pause]

theorem parallel_ne {st : St} (h : Parallel st) :
    st ≠ .body ∧ st ≠ .endOfMessage ∧ st ≠ .negotiate ∧ st ≠ .header ∧ st ≠ .endOfHeader ∧ Server.answerable st = true := by
  unfold Parallel inMsg at h
  rcases h with rfl | rfl | rfl | rfl | rfl | rfl <;> simp [Server.answerable]

/-- the frames left behind by replies -/
def IsFrame (f : List Server.Action) : Prop := ∃ c g, f = .processed c :: g ∧ (g = [] ∨ g = [.clearIfBody])

theorem refuse_spoke {c : Server.State} {st : St} {v : Status} (h : Asked c st) :
    ∃ c', Server.refuse c v = (c', []) ∧ c'.state = st ∧ c'.nextStates = [] ∧ c'.quitted = false ∧ c'.negotiated = true ∧
      (inMsg st → c'.processingMessage = true) ∧ c'.stack = c.stack ∧ c'.option = c.option ∧ (MsgBlank c → MsgBlank c') ∧
      (st ≠ .envelopeRecipient → c'.result = c.result) := by
  unfold Server.refuse
  split
  · rename_i hs
    rw [h.state] at hs
    subst hs
    have hr := h.recipient rfl
    have hne : ¬ (c.currentRecipient = none ∧ (c.result.getD {}).recipients ≠ []) := fun x => hr x.1
    unfold Server.refuseRecipient
    dsimp only [Server.ensureResult, id]
    rw [if_neg hne]
    exact ⟨_, rfl, h.state, h.nextStates, h.quitted, h.negotiated, h.following, rfl, rfl, id, fun h => absurd rfl h⟩
  · exact ⟨_, rfl, h.state, h.nextStates, h.quitted, h.negotiated, h.following, rfl, rfl, id, fun _ => rfl⟩

theorem reply_spoke {c : Server.State} {st : St} {r : Reply} {v : Status} (h : Asked c st) (hst : Parallel st)
    (hr : decisionOf r = some v) :
    ∃ c' f, Server.reply c r true = ({ c' with stack := f :: c'.stack }, [.emit (.reply r)]) ∧ Spoke c' st ∧ IsFrame f ∧
      c'.stack = c.stack ∧ c'.option = c.option ∧ (MsgBlank c → MsgBlank c') ∧
      (st ≠ .envelopeRecipient → c'.result = c.result) := by
  obtain ⟨n1, n2, n3, n4, n5, ha⟩ := parallel_ne hst
  have hs := h.state
  have hq := h.quitted
  cases r <;> simp only [decisionOf, reduceCtorEq] at hr
  case cont =>
    refine ⟨{ c with timer := none }, _, ?_, ⟨hs, h.nextStates, rfl, hq, h.negotiated, h.following⟩,
      ⟨.atEndOfMessage, [], rfl, .inl rfl⟩, rfl, rfl, id, fun _ => rfl⟩
    simp [Server.reply, hs, n1, ha, Server.report, hq, Server.andThen, Server.pause]
  case replyCode code x m =>
    obtain ⟨c', h1, h2, h3, h4, h5, h6, h7, h8, h9, h11⟩ := refuse_spoke (v := Server.codeStatus code) h
    refine ⟨{ c' with timer := none }, _, ?_, ⟨h2, h3, rfl, h4, h5, h6⟩, ⟨.inMessageNotRecipient, [], rfl, .inl rfl⟩, h7, h8, h9, h11⟩
    simp [Server.reply, h1, h2, n1, ha, Server.report, h4, Server.andThen, Server.pause]
  case temporaryFailure =>
    obtain ⟨c', h1, h2, h3, h4, h5, h6, h7, h8, h9, h11⟩ := refuse_spoke (v := .temporaryFailure) h
    refine ⟨{ c' with timer := none }, _, ?_, ⟨h2, h3, rfl, h4, h5, h6⟩,
      ⟨.inMessageNotRecipient, [.clearIfBody], rfl, .inr rfl⟩, h7, h8, h9, h11⟩
    simp [Server.reply, h1, Server.report, h4, Server.andThen, Server.pause]
  case reject =>
    obtain ⟨c', h1, h2, h3, h4, h5, h6, h7, h8, h9, h11⟩ := refuse_spoke (v := .reject) h
    refine ⟨{ c' with timer := none }, _, ?_, ⟨h2, h3, rfl, h4, h5, h6⟩,
      ⟨.inMessageNotRecipient, [.clearIfBody], rfl, .inr rfl⟩, h7, h8, h9, h11⟩
    simp [Server.reply, h1, Server.report, h4, Server.andThen, Server.pause]
  case accept =>
    refine ⟨{ c with status := .accept, timer := none }, _, ?_, ⟨hs, h.nextStates, rfl, hq, h.negotiated, h.following⟩,
      ⟨.inMessage, [.clearIfBody], rfl, .inr rfl⟩, rfl, rfl, id, fun _ => rfl⟩
    simp [Server.reply, Server.report, hq, Server.andThen, Server.pause]
  case discard =>
    refine ⟨{ c with status := .discard, timer := none }, _, ?_, ⟨hs, h.nextStates, rfl, hq, h.negotiated, h.following⟩,
      ⟨.inMessage, [.clearIfBody], rfl, .inr rfl⟩, rfl, rfl, id, fun _ => rfl⟩
    simp [Server.reply, Server.report, hq, Server.andThen, Server.pause]

theorem reply_senseless {c : Server.State} {st : St} {r : Reply} (h : Asked c st) (hst : Parallel st)
    (hr : isSenseless r = true) :
    ∃ c' : Server.State, Server.reply c r true = ({ c' with stack := [] :: c'.stack }, [.emit (.error .invalidState)]) ∧
      c'.state = st ∧ c'.stack = c.stack ∧ c'.option = c.option ∧ (MsgBlank c → MsgBlank c') ∧ c'.result = c.result := by
  obtain ⟨n1, n2, n3, n4, n5, ha⟩ := parallel_ne hst
  have hs := h.state
  cases r <;> simp only [isSenseless, reduceCtorEq] at hr
  case quarantine q =>
    refine ⟨{ c with status := .quarantine }, ?_, hs, rfl, rfl, id, rfl⟩
    simp [Server.reply, Server.modification, hs, n2, Server.invalidState, Server.andThen, Server.pause]
  case skip =>
    refine ⟨{ c with timer := none }, ?_, hs, rfl, rfl, id, rfl⟩
    simp [Server.reply, hs, n1, Server.invalidState, Server.andThen, Server.pause]
  all_goals
    refine ⟨c, ?_, hs, rfl, rfl, id, rfl⟩
    simp [Server.reply, Server.modification, hs, n2, Server.invalidState, Server.andThen, Server.pause]

theorem timeout_asked {c : Server.State} {st : St} (h : Asked c st) :
    Server.timeout c = ({ c with timer := some .fired, stack := [.shutdownAgent] :: c.stack }, [.emit .readingTimeout]) := by
  simp [Server.timeout, h.timer, Server.andThen, Server.pause]

theorem quit_flushed {c : Server.State} (h : c.nextStates = [.quit]) :
    ∃ c' : Server.State, Server.flushed c true = ({ c' with stack := [] :: c'.stack }, [.shutdown, .emit (.stateTransited .quit)]) ∧
      c'.timer = none ∧ c'.stack = c.stack ∧ c'.option = c.option ∧ (MsgBlank c → MsgBlank c') ∧ c'.result = c.result := by
  refine ⟨Server.setState { c with nextStates := [], timer := none } .quit, ?_, rfl, rfl, rfl, id, rfl⟩
  simp [Server.flushed, h, Server.flushActions, Server.exec, Server.act, Server.enter, Server.setState, Server.go, Server.pause]

theorem quit_written (c : Server.State) :
    Server.command c .quit false true =
      ({ c with quitted := true, nextStates := c.nextStates ++ [.quit] }, [.wrote .quit, .ret true]) := by
  simp [Server.command, Server.returning, Server.writePacket, Server.andThen, Server.go, Server.exec]

theorem abort_written (c : Server.State) :
    Server.command c .abort false true =
      ({ c with nextStates := c.nextStates ++ [.abort], processingMessage := false }, [.wrote .abort, .ret true]) := by
  simp [Server.command, Server.returning, Server.writePacket, Server.andThen, Server.go, Server.exec, Server.act]

end Phase
end Verif.Children
