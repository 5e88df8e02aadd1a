import Verif.Spec.Report
import Verif.Props.ServerRecipients
/-
C109: each message is reported once, with what became of it.
-/
namespace Verif.Props
open Verif Verif.Server Verif.Spec.Server Verif.Spec.Report

namespace ServerReport
open ServerRecipients

/-- a message is under way and nothing is outstanding -/
structure During (s : State) (st : St) (refusal : Status) (x : Result) : Prop where
  timer : s.timer = none
  nextStates : s.nextStates = []
  stack : s.stack = []
  quitted : s.quitted = false
  option : ∃ o, s.option = some o ∧ o.step = 0 ∧ 4 ≤ o.version
  result : s.result = some x
  refusal : s.rcptStatus = refusal
  body : s.body = []
  awaited : s.bodyQueue = []
  count : s.processBodyCount = 0
  sentEom : s.sentEom = false
  status : s.status = .notChange
  state : s.state = st

theorem reports_append (a b : List Line) : reports (a ++ b) = reports a ++ reports b := by
  simp [reports]

/-- the state a command of a message leads to -/
abbrev stateOf : Cmd → St := phaseOf

/-- the result after the command has gone out -/
def given (x : Result) (c : Cmd) : Result := Result.told c x

/-- the answers to pieces of the body that are awaited -/
def awaits : Cmd → List Nat
  | .body _ => [1]
  | _ => []

/-- the state when a command has gone out -/
structure Given (s : State) (c : Cmd) (refusal w : Status) (x : Result) : Prop where
  nextStates : s.nextStates = []
  stack : s.stack = []
  quitted : s.quitted = false
  option : ∃ o, s.option = some o ∧ o.step = 0 ∧ 4 ≤ o.version
  result : s.result = some x
  refusal : s.rcptStatus = refusal
  body : s.body = []
  awaited : s.bodyQueue = awaits c
  count : s.processBodyCount = 0
  sentEom : s.sentEom = false
  status : s.status = w
  state : s.state = stateOf c
  recipient : ∀ r, c = .envelopeRecipient r → s.currentRecipient = some r

theorem step_zero (v a : UInt32) (f : UInt32) : isEnableStep (some ⟨v, a, 0⟩) f = false := by simp [isEnableStep]

theorem reply_zero (v a : UInt32) (st : St) : needReply (some ⟨v, a, 0⟩) st = some true := by simp [needReply]

theorem packed {b : Bytes} (h : b.length ≤ Enc.chunkSize) : Enc.bodyPackedSize b = b.length := by
  unfold Enc.bodyPackedSize
  split <;> omega

theorem gives {s : State} {st : St} {v : Status} {x : Result} {c : Cmd} (h : During s st v x)
    (hc : isPart c = true ∨ (∃ b, c = .endOfMessage b)) :
    reports (run s [.command c false true, .flushed true, .handlerReturns true]).2 = [] ∧
    Given (run s [.command c false true, .flushed true, .handlerReturns true]).1 c v .notChange (given x c) := by
  obtain ⟨h1, h2, h3, h4, ⟨o, h5, hz, hv⟩, h6, h7, h8, h9, h10, h11, h12, h13⟩ := h
  obtain ⟨ov, oa, os⟩ := o
  simp only at hz hv
  have hv' : ¬ ov < 4 := by simpa using hv
  cases s
  simp only at h1 h2 h3 h4 h5 h6 h7 h8 h9 h10 h11 h12 h13
  subst h1 h2 h3 h4 h5 h6 h7 h8 h9 h10 h11 h12 h13 hz
  cases c <;> simp only [isPart, Bool.false_eq_true, false_or, reduceCtorEq, exists_false, or_false, Bool.and_eq_true, decide_eq_true_eq] at hc
  case body b =>
    constructor
    · simp [reports, run, step, command, ensureResult, step_zero, flushBody, writePacket, isProcessing, appendBodyQueue,
        incrementBodyQueue, go, returning, andThen, exec, flushed, flushActions, act, enter, setState, reply_zero, pause, packed hc.2]
    · simp [run, step, command, ensureResult, step_zero, flushBody, writePacket, isProcessing, appendBodyQueue,
        incrementBodyQueue, go, returning, andThen, exec, flushed, flushActions, act, enter, setState, reply_zero, pause, packed hc.2]
      constructor <;> simp [given, stateOf, phaseOf, awaits, hv]
  all_goals
    constructor
    · simp [reports, run, step, command, ensureResult, step_zero, writePacket, isProcessing, hv',
        go, returning, andThen, exec, flushed, flushActions, act, enter, setState, reply_zero, pause]
    · simp [run, step, command, ensureResult, step_zero, writePacket, isProcessing, hv',
        go, returning, andThen, exec, flushed, flushActions, act, enter, setState, reply_zero, pause]
      constructor <;> simp [given, stateOf, phaseOf, awaits, hv]

theorem begins {s : State} (h : Free s) (f : Bytes) :
    reports (run s (goesOut (.envelopeFrom f))).2 = [] ∧
    Given (run s (goesOut (.envelopeFrom f))).1 (.envelopeFrom f) .default .notChange (given {} (.envelopeFrom f)) := by
  obtain ⟨h1, h2, h3, h4, ⟨o, h5, hz, hv⟩, h6, h7, h8, h9, h10, h11⟩ := h
  obtain ⟨ov, oa, os⟩ := o
  simp only at hz hv
  cases s
  simp only at h1 h2 h3 h4 h5 h6 h7 h8 h9 h10 h11
  subst h1 h2 h3 h4 h5 h6 h7 h8 h9 h10 h11 hz
  constructor
  · simp [goesOut, reports, run, step, command, ensureResult, step_zero, writePacket, isProcessing,
      go, returning, andThen, exec, flushed, flushActions, act, enter, setState, reply_zero, pause]
  · simp [goesOut, run, step, command, ensureResult, step_zero, writePacket, isProcessing,
      go, returning, andThen, exec, flushed, flushActions, act, enter, setState, reply_zero, pause]
    constructor <;> simp [given, stateOf, phaseOf, awaits, hv]

/-- what is known of the recipients after an answer -/
def answered (x : Result) (p : Cmd × Reply) : Result :=
  match p.1 with
  | .envelopeRecipient r => match verdict p.2 with
    | some .temporaryFailed => { x with
        recipients := x.recipients.erase (some r), temporaryFailed := x.temporaryFailed ++ [some r] }
    | some .rejected => { x with
        recipients := x.recipients.erase (some r), rejected := x.rejected ++ [some r] }
    | _ => x
  | _ => x

/-- what is known after a command and the answer to it -/
def after (x : Result) (p : Cmd × Reply) : Result := answered (given x p.1) p

def refusalAfter (v : Status) (p : Cmd × Reply) : Status :=
  match p.1 with
  | .envelopeRecipient _ => match verdict p.2 with
    | some .temporaryFailed => .temporaryFailure
    | some .rejected => .reject
    | _ => v
  | _ => v

theorem code_eq (code : Nat) : codeStatus code = if code / 100 = 4 then .temporaryFailure else .reject := by
  unfold codeStatus
  by_cases h : code / 100 = 4
  · rw [if_pos h, if_pos (by omega)]
  · rw [if_neg h, if_neg (by omega)]

theorem continues {s : State} {v : Status} {x : Result} {c : Cmd} {r : Reply} (h : Given s c v .notChange x)
    (hc : isPart c = true ∨ ∃ f, c = .envelopeFrom f) (hr : goesOn (c, r)) :
    reports (run s [.reply r true, .handlerReturns true]).2 = [] ∧
    During (run s [.reply r true, .handlerReturns true]).1 (stateOf c) (refusalAfter v (c, r)) (answered x (c, r)) := by
  obtain ⟨h2, h3, h4, ⟨o, h5, hz, hv⟩, h6, h7, h8, h9, h10, h11, h12, h13, h14⟩ := h
  cases s
  simp only at h2 h3 h4 h5 h6 h7 h8 h9 h10 h11 h12 h13 h14
  cases c <;> simp only [isPart, Bool.false_eq_true, false_or, reduceCtorEq, exists_false, or_false, Bool.and_eq_true, decide_eq_true_eq] at hc
  case envelopeRecipient a =>
    have ha := h14 a rfl
    clear h14
    simp only [goesOn] at hr
    subst h2 h3 h4 h5 h6 h7 h8 h9 h10 h11 h12 h13 ha
    cases r <;> simp only [verdict, ne_eq, not_true_eq_false, reduceCtorEq, not_false_eq_true] at hr
    case replyCode =>
      rename_i code e m
      by_cases h : code / 100 = 4
      all_goals
        constructor
        · simp [reports, run, step, reply, code_eq, h, refuse, stateOf, phaseOf, refuseRecipient, removeRecipient, ensureResult, answerable, report,
            andThen, pause, exec, act, go, Cond.holds, given, awaits]
        · simp [run, step, reply, code_eq, h, refuse, stateOf, phaseOf, refuseRecipient, removeRecipient, ensureResult, answerable, report,
            andThen, pause, exec, act, go, Cond.holds, given, awaits, answered, refusalAfter, verdict]
          constructor <;> simp [stateOf, phaseOf, hz, hv]
    all_goals
      constructor
      · simp [reports, run, step, reply, refuse, stateOf, phaseOf, refuseRecipient, removeRecipient, ensureResult, answerable, report,
          andThen, pause, exec, act, go, Cond.holds, given, awaits]
      · simp [run, step, reply, refuse, stateOf, phaseOf, refuseRecipient, removeRecipient, ensureResult, answerable, report,
          andThen, pause, exec, act, go, Cond.holds, given, awaits, answered, refusalAfter, verdict]
        constructor <;> simp [stateOf, phaseOf, hz, hv]
  all_goals
    simp only [goesOn] at hr
    subst h2 h3 h4 h5 h6 h7 h8 h9 h10 h11 h12 h13 hr
    constructor
    · simp [reports, run, step, reply, stateOf, phaseOf, answerable, report, continueBody, andThen, pause, exec, act, go, Cond.holds, given, awaits]
    · simp [run, step, reply, stateOf, phaseOf, answerable, report, continueBody, andThen, pause, exec, act, go, Cond.holds, given, awaits, answered, refusalAfter]
      constructor <;> simp [stateOf, phaseOf, hz, hv]

theorem decided {s : State} {v w w0 : Status} {x : Result} {c : Cmd} {r : Reply} (h : Given s c v w0 x)
    (hc : isPart c = true ∨ (∃ f, c = .envelopeFrom f) ∨ ∃ b, c = .endOfMessage b) (hr : decides c r = some w) :
    reports (run s [.reply r true, .handlerReturns true, .handlerReturns true]).2 = [(w, x.reported (stateOf c))] := by
  obtain ⟨h2, h3, h4, ⟨o, h5, hz, hv⟩, h6, h7, h8, h9, h10, h11, h12, h13, h14⟩ := h
  cases s
  simp only at h2 h3 h4 h5 h6 h7 h8 h9 h10 h11 h12 h13 h14
  subst h2 h3 h4 h5 h6 h7 h8 h9 h10 h11 h12 h13
  cases c <;> simp only [isPart, Bool.false_eq_true, false_or, reduceCtorEq, exists_false, or_false, Bool.and_eq_true, decide_eq_true_eq] at hc <;>
    cases r <;> simp only [decides, reduceCtorEq, Option.some.injEq] at hr
  all_goals
    subst hr
    simp [reports, run, step, reply, code_eq, stateOf, phaseOf, answerable, refuse, report, clearBody, andThen, pause, exec, act, go, Cond.holds, given,
      awaits, St.rank, Result.reported]

theorem passed {s : State} {v w0 : Status} {x : Result} {b : Bytes} (h : Given s (.endOfMessage b) v w0 x) :
    reports (run s [.reply .cont true, .handlerReturns true, .handlerReturns true]).2 = [(w0, x.reported .endOfMessage)] := by
  obtain ⟨h2, h3, h4, ⟨o, h5, hz, hv⟩, h6, h7, h8, h9, h10, h11, h12, h13, h14⟩ := h
  cases s
  simp only at h2 h3 h4 h5 h6 h7 h8 h9 h10 h11 h12 h13 h14
  subst h2 h3 h4 h5 h6 h7 h8 h9 h10 h11 h12 h13
  simp [reports, run, step, reply, stateOf, phaseOf, answerable, report, andThen, pause, exec, act, go, Cond.holds, given, Result.reported]

theorem changed {s : State} {v w0 : Status} {x : Result} {b : Bytes} {r : Reply} (h : Given s (.endOfMessage b) v w0 x)
    (hr : isChange r = true) :
    reports (run s [.reply r true, .handlerReturns true]).2 = [] ∧
    Given (run s [.reply r true, .handlerReturns true]).1 (.endOfMessage b) v (if isQuarantine r then .quarantine else w0) (x.noted r) := by
  obtain ⟨h2, h3, h4, ⟨o, h5, hz, hv⟩, h6, h7, h8, h9, h10, h11, h12, h13, h14⟩ := h
  cases s
  simp only at h2 h3 h4 h5 h6 h7 h8 h9 h10 h11 h12 h13 h14
  subst h2 h3 h4 h5 h6 h7 h8 h9 h10 h11 h12 h13
  cases r <;> simp only [isChange, Bool.false_eq_true] at hr
  all_goals
    constructor
    · simp [reports, run, step, reply, modification, stateOf, phaseOf, report, andThen, pause, exec, act, go, ensureResult, given]
    · simp [run, step, reply, modification, stateOf, phaseOf, report, andThen, pause, exec, act, go, ensureResult, isQuarantine, Result.noted]
      constructor <;> simp [given, stateOf, phaseOf, awaits, hz, hv]

theorem aborted {s : State} {st : St} {v : Status} {x : Result} (h : During s st v x)
    (hst : ∃ c, st = stateOf c ∧ (isPart c = true ∨ ∃ f, c = .envelopeFrom f)) :
    reports (run s End.abort.events).2 =
      [(if st = .envelopeRecipient ∧ v ≠ .default then v else .abort, x)] := by
  obtain ⟨h1, h2, h3, h4, ⟨o, h5, hz, hv⟩, h6, h7, h8, h9, h10, h11, h12, h13⟩ := h
  obtain ⟨c, rfl, hc⟩ := hst
  cases s
  simp only at h1 h2 h3 h4 h5 h6 h7 h8 h9 h10 h11 h12 h13
  subst h1 h2 h3 h4 h5 h6 h7 h8 h9 h10 h11 h12 h13
  cases c <;> simp only [isPart, Bool.false_eq_true, false_or, reduceCtorEq, exists_false, or_false, Bool.and_eq_true, decide_eq_true_eq] at hc
  case envelopeRecipient =>
    rename_i v _ _ _ _ _ _
    cases v <;>
    simp [End.events, reports, run, step, command, writePacket, go, returning, andThen, exec, flushed, flushActions, act, abortFlushed,
      setState, pause, stateOf, phaseOf, Status.isPass, St.rank, Cond.holds, resetMessage, Result.reported]
  all_goals
    simp [End.events, reports, run, step, command, writePacket, go, returning, andThen, exec, flushed, flushActions, act, abortFlushed,
      setState, pause, stateOf, phaseOf, Status.isPass, St.rank, Cond.holds, resetMessage, Result.reported]

theorem decided_gone {s : State} {v w w0 : Status} {x : Result} {c : Cmd} {r : Reply} (h : Given s c v w0 x)
    (hc : isPart c = true ∨ (∃ f, c = .envelopeFrom f)) (hr : decides c r = some w) (hw : w = .reject ∨ w = .temporaryFailure) :
    reports (run s ([.reply r true, .handlerReturns true, .handlerReturns true] ++ End.abort.events)).2 = [(w, x.reported (stateOf c))] ∧
    (run s ([.reply r true, .handlerReturns true, .handlerReturns true] ++ End.abort.events)).1.status = w := by
  obtain ⟨h2, h3, h4, ⟨o, h5, hz, hv⟩, h6, h7, h8, h9, h10, h11, h12, h13, h14⟩ := h
  cases s
  simp only at h2 h3 h4 h5 h6 h7 h8 h9 h10 h11 h12 h13 h14
  subst h2 h3 h4 h5 h6 h7 h8 h9 h10 h11 h12 h13
  cases c <;> simp only [isPart, Bool.false_eq_true, false_or, reduceCtorEq, exists_false, or_false, Bool.and_eq_true, decide_eq_true_eq] at hc <;>
    cases r <;> simp only [decides, reduceCtorEq, Option.some.injEq] at hr
  all_goals
    subst hr
    rcases hw with hw | hw <;>
    first
      | (cases hw; done)
      | (simp [End.events, reports, run, step, reply, code_eq, hw, stateOf, phaseOf, answerable, refuse, report, clearBody, andThen, pause, exec, act, go, Cond.holds, given,
      awaits, St.rank, Result.reported, command, writePacket, returning, flushed, flushActions, abortFlushed, setState, Status.isPass, resetMessage])

theorem run_reports (s : State) (a b : List Event) :
    reports (run s (a ++ b)).2 = reports (run s a).2 ++ reports (run (run s a).1 b).2 := by
  rw [ServerBody.run_append]
  simp [reports]

theorem run_state (s : State) (a b : List Event) : (run s (a ++ b)).1 = (run (run s a).1 b).1 := by
  rw [ServerBody.run_append]

theorem exchanged_eq (p : Cmd × Reply) : exchanged p = goesOut p.1 ++ [.reply p.2 true, .handlerReturns true] := rfl

theorem gives_out {s : State} {st : St} {v : Status} {x : Result} {c : Cmd} (h : During s st v x)
    (hc : isPart c = true ∨ (∃ b, c = .endOfMessage b)) :
    reports (run s (goesOut c)).2 = [] ∧ Given (run s (goesOut c)).1 c v .notChange (given x c) := gives h hc

theorem exchange_during {s : State} {st : St} {v : Status} {x : Result} {p : Cmd × Reply} (h : During s st v x)
    (hp : isPart p.1 = true ∧ goesOn p) :
    reports (run s (exchanged p)).2 = [] ∧
    During (run s (exchanged p)).1 (stateOf p.1) (refusalAfter v p) (after x p) := by
  obtain ⟨c, r⟩ := p
  obtain ⟨g1, g2⟩ := gives h (.inl hp.1)
  obtain ⟨g3, g4⟩ := continues g2 (.inl hp.1) hp.2
  rw [exchanged_eq, run_reports, run_state]
  exact ⟨by rw [show reports (run s (goesOut c)).2 = [] from g1]; exact g3, g4⟩

/-- the state after the commands -/
def stateAfter (st : St) (l : List (Cmd × Reply)) : St := l.foldl (fun _ p => stateOf p.1) st

theorem exchanges_during {l : List (Cmd × Reply)} : ∀ {s : State} {st : St} {v : Status} {x : Result}, During s st v x →
    (∀ p ∈ l, isPart p.1 = true ∧ goesOn p) →
    reports (run s (l.flatMap exchanged)).2 = [] ∧
    During (run s (l.flatMap exchanged)).1 (stateAfter st l) (l.foldl refusalAfter v) (l.foldl after x) := by
  induction l with
  | nil => intro s st v x h _; exact ⟨rfl, h⟩
  | cons p l ih =>
    intro s st v x h hl
    obtain ⟨g1, g2⟩ := exchange_during h (hl p List.mem_cons_self)
    obtain ⟨g3, g4⟩ := ih g2 fun q hq => hl q (List.mem_cons_of_mem _ hq)
    rw [List.flatMap_cons, run_reports, run_state]
    exact ⟨by rw [g1]; exact g3, g4⟩

theorem changes_given {l : List Reply} : ∀ {s : State} {v w0 : Status} {x : Result} {b : Bytes},
    Given s (.endOfMessage b) v w0 x → (∀ r ∈ l, isChange r = true) →
    reports (run s (changesEvents l)).2 = [] ∧
    Given (run s (changesEvents l)).1 (.endOfMessage b) v (if l.any isQuarantine then .quarantine else w0)
      (l.foldl (fun x r => Result.noted r x) x) := by
  induction l with
  | nil => intro s v w0 x b h _; exact ⟨rfl, h⟩
  | cons r l ih =>
    intro s v w0 x b h hl
    obtain ⟨g1, g2⟩ := changed h (hl r List.mem_cons_self)
    obtain ⟨g3, g4⟩ := ih g2 fun q hq => hl q (List.mem_cons_of_mem _ hq)
    have e : changesEvents (r :: l) = [.reply r true, .handlerReturns true] ++ changesEvents l := rfl
    rw [e, run_reports, run_state]
    refine ⟨by rw [g1]; exact g3, ?_⟩
    have : (if (r :: l).any isQuarantine = true then Status.quarantine else w0) =
        if l.any isQuarantine = true then .quarantine else if isQuarantine r = true then .quarantine else w0 := by
      rw [List.any_cons]
      cases isQuarantine r <;> cases l.any isQuarantine <;> rfl
    rw [this]
    exact g4

theorem erase_perm (l : List (Option Bytes)) (a : Option Bytes) : ((l ++ [a]).erase a).Perm l := by
  have h1 : (l ++ [a]).Perm (a :: l) := List.perm_append_singleton _ _
  have := h1.erase a
  simpa using this

theorem after_names {l : List (Cmd × Reply)} : ∀ {x : Result}, (∀ p ∈ l, goesOn p) →
    (l.foldl after x).recipients.Perm (x.recipients ++ (withVerdict .accepted (recipients l)).map some) ∧
    (l.foldl after x).temporaryFailed = x.temporaryFailed ++ (withVerdict .temporaryFailed (recipients l)).map some ∧
    (l.foldl after x).rejected = x.rejected ++ (withVerdict .rejected (recipients l)).map some := by
  induction l with
  | nil => intro x _; simp [recipients, withVerdict]
  | cons p l ih =>
    intro x hl
    have hp := hl p List.mem_cons_self
    obtain ⟨i1, i2, i3⟩ := ih (x := after x p) fun q hq => hl q (List.mem_cons_of_mem _ hq)
    rw [List.foldl_cons]
    obtain ⟨c, r⟩ := p
    cases c
    case envelopeRecipient a =>
      have e : recipients ((.envelopeRecipient a, r) :: l) = (a, r) :: recipients l := rfl
      simp only [goesOn] at hp
      cases hv : verdict r with
      | none => exact absurd hv hp
      | some v =>
        rw [e]
        cases v
        · have e1 : after x (.envelopeRecipient a, r) = { given x (.envelopeRecipient a) with recipients := x.recipients ++ [some a] } := by
            simp [after, answered, given, Result.told, hv]
          rw [e1] at i1 i2 i3 ⊢
          dsimp only [given, Result.told] at i1 i2 i3 ⊢
          refine ⟨?_, ?_, ?_⟩
          · simpa [withVerdict, List.filter_cons, hv] using i1
          · simpa [withVerdict, List.filter_cons, hv] using i2
          · simpa [withVerdict, List.filter_cons, hv] using i3
        · have e1 : after x (.envelopeRecipient a, r) = { given x (.envelopeRecipient a) with
              recipients := (x.recipients ++ [some a]).erase (some a), temporaryFailed := x.temporaryFailed ++ [some a] } := by
            simp [after, answered, given, Result.told, hv]
          rw [e1] at i1 i2 i3 ⊢
          dsimp only [given, Result.told] at i1 i2 i3 ⊢
          refine ⟨?_, ?_, ?_⟩
          · refine i1.trans ?_
            simpa [withVerdict, List.filter_cons, hv] using (erase_perm x.recipients (some a)).append_right _
          · simpa [withVerdict, List.filter_cons, hv] using i2
          · simpa [withVerdict, List.filter_cons, hv] using i3
        · have e1 : after x (.envelopeRecipient a, r) = { given x (.envelopeRecipient a) with
              recipients := (x.recipients ++ [some a]).erase (some a), rejected := x.rejected ++ [some a] } := by
            simp [after, answered, given, Result.told, hv]
          rw [e1] at i1 i2 i3 ⊢
          dsimp only [given, Result.told] at i1 i2 i3 ⊢
          refine ⟨?_, ?_, ?_⟩
          · refine i1.trans ?_
            simpa [withVerdict, List.filter_cons, hv] using (erase_perm x.recipients (some a)).append_right _
          · simpa [withVerdict, List.filter_cons, hv] using i2
          · simpa [withVerdict, List.filter_cons, hv] using i3
    all_goals exact ⟨i1, i2, i3⟩

/-- the refusal an answer is -/
def refusalOf (p : Bytes × Reply) : Option Status :=
  match verdict p.2 with
  | some .temporaryFailed => some Status.temporaryFailure
  | some .rejected => some .reject
  | _ => none

theorem lastRefusal_eq (l : List (Cmd × Reply)) : lastRefusal l = ((recipients l).filterMap refusalOf).getLast? := rfl

theorem refusal_fold {l : List (Cmd × Reply)} : ∀ (v : Status), l.foldl refusalAfter v = (lastRefusal l).getD v := by
  induction l with
  | nil => intro v; rfl
  | cons p l ih =>
    intro v
    rw [List.foldl_cons, ih, lastRefusal_eq, lastRefusal_eq]
    obtain ⟨c, r⟩ := p
    cases c
    case envelopeRecipient a =>
      have e : recipients ((.envelopeRecipient a, r) :: l) = (a, r) :: recipients l := rfl
      rw [e, List.filterMap_cons]
      cases hv : verdict r with
      | none => simp [refusalAfter, refusalOf, hv]
      | some w => cases w <;> simp [refusalAfter, refusalOf, hv, List.getLast?_cons]
    all_goals rfl

theorem lastRefusal_ne {l : List (Cmd × Reply)} {v : Status} (h : lastRefusal l = some v) : v ≠ .default := by
  rw [lastRefusal_eq] at h
  obtain ⟨p, _, hp⟩ := List.mem_filterMap.mp (List.mem_of_getLast? h)
  unfold refusalOf at hp
  split at hp
  · cases hp; exact fun h => nomatch h
  · cases hp; exact fun h => nomatch h
  · cases hp

theorem state_fold {l : List (Cmd × Reply)} (hl : ∀ p ∈ l, isPart p.1 = true) (f : Bytes) :
    (decide (stateAfter .envelopeFrom l = .envelopeRecipient) = atRecipient l) ∧
    ∃ c, stateAfter .envelopeFrom l = stateOf c ∧ (isPart c = true ∨ ∃ f, c = .envelopeFrom f) := by
  rcases List.eq_nil_or_concat l with rfl | ⟨a, p, rfl⟩
  · exact ⟨rfl, .envelopeFrom f, rfl, .inr ⟨f, rfl⟩⟩
  · have hp := hl p (by simp)
    unfold stateAfter atRecipient
    rw [List.concat_eq_append, List.foldl_append, List.getLast?_concat]
    refine ⟨?_, p.1, rfl, .inl hp⟩
    obtain ⟨c, r⟩ := p
    cases c <;> simp only [isPart, Bool.false_eq_true] at hp <;> rfl

theorem add_perm (l : List Header) (n : Bytes) (v : Option Bytes) : (Headers.add l n v).Perm (l ++ [⟨n, v⟩]) := by
  induction l with
  | nil => exact .refl _
  | cons a l ih =>
    unfold Headers.add
    split
    · exact (List.perm_append_singleton (⟨n, v⟩ : Header) (a :: l)).symm
    · exact ih.cons a

/-- a command describes the message further -/
theorem describes_given {f : Bytes} {l : List Cmd} {ch : List Reply} {x : Result} {c : Cmd} (h : Describes f l ch false x)
    (hc : isPart c = true ∨ ∃ b, c = .endOfMessage b) : Describes f (l ++ [c]) ch false (given x c) := by
  obtain ⟨h1, h2, h3, h4, h5, h6, h7, h8⟩ := h
  cases c <;> simp only [isPart, Bool.false_eq_true, false_or, reduceCtorEq, exists_false, or_false] at hc
  case header n v =>
    refine ⟨h1, ?_, ?_, h4, h5, h6, ?_, rfl⟩
    · refine (add_perm _ _ _).trans ?_
      rw [headersOf, List.filterMap_append]
      exact h2.append_right _
    · simpa [given, Result.told, bodySizeOf] using h3
    · simp [given, Result.told, phaseOf]
  all_goals
    refine ⟨h1, ?_, ?_, h4, h5, h6, ?_, rfl⟩
    · rw [headersOf, List.filterMap_append]
      simpa [given, Result.told, headersOf] using h2
    · simpa [given, Result.told, bodySizeOf] using h3
    · simp [given, Result.told, phaseOf]

/-- an answer does not change the description -/
theorem describes_answered {f : Bytes} {l : List Cmd} {ch : List Reply} {b : Bool} {x : Result} (p : Cmd × Reply)
    (h : Describes f l ch b x) : Describes f l ch b (answered x p) := by
  obtain ⟨h1, h2, h3, h4, h5, h6, h7, h8⟩ := h
  unfold answered
  split
  · split
    all_goals exact ⟨h1, h2, h3, h4, h5, h6, h7, h8⟩
  · exact ⟨h1, h2, h3, h4, h5, h6, h7, h8⟩

theorem describes_fold {f : Bytes} {l : List (Cmd × Reply)} : ∀ {cs : List Cmd} {x : Result}, Describes f cs [] false x →
    (∀ p ∈ l, isPart p.1 = true) → Describes f (cs ++ l.map (·.1)) [] false (l.foldl after x) := by
  induction l with
  | nil => intro cs x h _; simpa using h
  | cons p l ih =>
    intro cs x h hl
    have := ih (describes_answered p (describes_given h (.inl (hl p List.mem_cons_self)))) fun q hq => hl q (List.mem_cons_of_mem _ hq)
    rw [List.append_assoc] at this
    exact this

theorem describes_noted {f : Bytes} {l : List Cmd} {ch : List Reply} {b : Bool} {x : Result} {r : Reply} (h : Describes f l ch b x)
    (hr : isChange r = true) : Describes f l (ch ++ [r]) b (x.noted r) := by
  obtain ⟨h1, h2, h3, h4, h5, h6, h7, h8⟩ := h
  cases r <;> simp only [isChange, Bool.false_eq_true] at hr
  all_goals
    refine ⟨h1, h2, h3, ?_, ?_, ?_, h7, h8⟩
    · rw [addedOf, List.filterMap_append]
      first
        | exact (add_perm _ _ _).trans (h4.append_right _)
        | simpa [Result.noted, addedOf] using h4
    · rw [removedOf, List.filterMap_append]
      first
        | exact (add_perm _ _ _).trans (h5.append_right _)
        | simpa [Result.noted, removedOf] using h5
    · simp [Result.noted, isQuarantine, h6]

theorem describes_changes {f : Bytes} {l : List Cmd} {b : Bool} {rs : List Reply} : ∀ {ch : List Reply} {x : Result},
    Describes f l ch b x → (∀ r ∈ rs, isChange r = true) →
    Describes f l (ch ++ rs) b (rs.foldl (fun x r => Result.noted r x) x) := by
  induction rs with
  | nil => intro ch x h _; simpa using h
  | cons r rs ih =>
    intro ch x h hl
    have := ih (describes_noted h (hl r List.mem_cons_self)) fun q hq => hl q (List.mem_cons_of_mem _ hq)
    rw [List.append_assoc] at this
    exact this

theorem describes_reported {f : Bytes} {l : List Cmd} {ch : List Reply} {x : Result} {c : Cmd} (h : Describes f (l ++ [c]) ch false x)
    (hc : isPart c = true ∨ ∃ b, c = .endOfMessage b) : Describes f (l ++ [c]) ch true (x.reported (stateOf c)) := by
  obtain ⟨h1, h2, h3, h4, h5, h6, h7, h8⟩ := h
  cases c <;> simp only [isPart, Bool.false_eq_true, false_or, reduceCtorEq, exists_false, or_false] at hc
  all_goals exact ⟨h1, h2, h3, h4, h5, h6, by simp [stateOf, phaseOf, Result.reported], rfl⟩

theorem names_noted {rs : List Reply} : ∀ {x : Result} {l : List (Cmd × Reply)}, Names l x →
    Names l (rs.foldl (fun x r => Result.noted r x) x) := by
  induction rs with
  | nil => intro x l h; exact h
  | cons r rs ih =>
    intro x l h
    refine ih ?_
    cases r <;> exact h

theorem names_reported {x : Result} {l : List (Cmd × Reply)} {st : St} (h : Names l x) : Names l (x.reported st) := by
  cases st <;> exact h

theorem names_given {x : Result} {l : List (Cmd × Reply)} {b : Bytes} (h : Names l x) : Names l (given x (.endOfMessage b)) := h

/-- what is known after the sender -/
def sender (f : Bytes) : Result := { from_ := some f, state := .envelopeFrom }

theorem describes_sender (f : Bytes) : Describes f [] [] false (sender f) :=
  ⟨rfl, .refl _, rfl, .refl _, .refl _, rfl, rfl, rfl⟩

end ServerReport
open ServerReport

/-- **C109**: a message is given to a milter; it answers each command such that the message goes on, possibly
refusing recipients, until it decides, lets the message pass at its end or the MTA gives up.  The message is reported
exactly once, with that outcome, with each recipient under what became of it, and with the sender, the header fields, the
size of the body, and the changes that are wanted. -/
theorem C109_partial (s : State) (h : Free s) (f : Bytes) (l : List (Cmd × Reply))
    (hl : ∀ p ∈ l, isPart p.1 = true ∧ goesOn p) (e : End) (he : e.Allowed) :
    ∃ r, reports (run s (exchanged (.envelopeFrom f, .cont) ++ l.flatMap exchanged ++ e.events)).2 = [(e.status l, r)] ∧
      Names (e.named l) r ∧ Describes f (e.commands l) e.changes (e matches .decision _ _ | .pass _ _ | .verdict _ _ _) r := by
  obtain ⟨b1, b2⟩ := begins h f
  obtain ⟨b3, b4⟩ := continues (r := .cont) b2 (.inr ⟨f, rfl⟩) rfl
  have b5 : reports (run s (exchanged (.envelopeFrom f, .cont))).2 = [] := by
    rw [exchanged_eq, run_reports, b1]; exact b3
  rw [← run_state, ← exchanged_eq (.envelopeFrom f, .cont)] at b4
  obtain ⟨g1, g2⟩ := exchanges_during b4 hl
  rw [← run_state] at g2
  have g3 : reports (run s (exchanged (.envelopeFrom f, .cont) ++ l.flatMap exchanged)).2 = [] := by
    rw [run_reports, b5]; exact g1
  rw [run_reports, g3, List.nil_append]
  have hn := after_names (l := l) (x := sender f) fun p hp => (hl p hp).2
  simp only [sender, List.nil_append] at hn
  change Names l (l.foldl after (sender f)) at hn
  have hd := describes_fold (l := l) (describes_sender f) fun p hp => (hl p hp).1
  rw [List.nil_append] at hd
  have hs := state_fold (fun p hp => (hl p hp).1) f
  have hv : refusalAfter .default (.envelopeFrom f, .cont) = .default := rfl
  rw [hv] at g2
  change During _ (stateAfter .envelopeFrom l) _ (l.foldl after (sender f)) at g2
  cases e with
  | decision c r =>
    obtain ⟨hc, hr⟩ := he
    obtain ⟨w, hw⟩ := Option.ne_none_iff_exists'.1 hr
    obtain ⟨k1, k2⟩ := gives_out g2 (.inl hc)
    refine ⟨(given (l.foldl after (sender f)) c).reported (stateOf c), ?_, names_reported ?_,
      describes_reported (describes_given hd (.inl hc)) (.inl hc)⟩
    · show reports (run _ (goesOut c ++ _)).2 = _
      rw [run_reports, show reports (run _ (goesOut c)).2 = [] from k1, List.nil_append]
      rw [decided k2 (.inl hc) hw]
      simp [End.status, hw]
    · have := after_names (l := l ++ [(c, .cont)]) (x := sender f) (fun p hp => by
        rcases List.mem_append.mp hp with hp | hp
        · exact (hl p hp).2
        · rw [List.mem_singleton.mp hp]
          cases c <;> first | rfl | exact fun h => nomatch h)
      rw [List.foldl_append] at this
      have e1 : [(c, Reply.cont)].foldl after (l.foldl after (sender f)) = given (l.foldl after (sender f)) c := by cases c <;> rfl
      rw [e1] at this
      simpa [Names, End.named, sender] using this
  | pass b changes =>
    obtain ⟨k1, k2⟩ := gives_out (c := .endOfMessage b) g2 (.inr ⟨b, rfl⟩)
    obtain ⟨k3, k4⟩ := changes_given k2 he
    refine ⟨_, ?_, names_reported (names_noted (names_given hn)),
      describes_reported (describes_changes (describes_given hd (.inr ⟨b, rfl⟩)) he) (.inr ⟨b, rfl⟩)⟩
    show reports (run _ (goesOut (.endOfMessage b) ++ changesEvents changes ++ _)).2 = _
    rw [List.append_assoc, run_reports, show reports (run _ (goesOut (.endOfMessage b))).2 = [] from k1, List.nil_append, run_reports]
    rw [show reports (run (run _ (goesOut _)).1 (changesEvents _)).2 = [] from k3, List.nil_append]
    rw [passed k4]
    rfl
  | verdict b changes r =>
    obtain ⟨hc, hr⟩ := he
    obtain ⟨w, hw⟩ := Option.ne_none_iff_exists'.1 hr
    obtain ⟨k1, k2⟩ := gives_out (c := .endOfMessage b) g2 (.inr ⟨b, rfl⟩)
    obtain ⟨k3, k4⟩ := changes_given k2 hc
    refine ⟨_, ?_, names_reported (names_noted (names_given hn)),
      describes_reported (describes_changes (describes_given hd (.inr ⟨b, rfl⟩)) hc) (.inr ⟨b, rfl⟩)⟩
    show reports (run _ (goesOut (.endOfMessage b) ++ changesEvents changes ++ _)).2 = _
    rw [List.append_assoc, run_reports, show reports (run _ (goesOut (.endOfMessage b))).2 = [] from k1, List.nil_append, run_reports]
    rw [show reports (run (run _ (goesOut _)).1 (changesEvents _)).2 = [] from k3, List.nil_append]
    rw [decided k4 (.inr (.inr ⟨b, rfl⟩)) hw]
    simp [End.status, hw]
  | abort =>
    refine ⟨l.foldl after (sender f), ?_, hn, hd⟩
    rw [aborted g2 hs.2, refusal_fold]
    have e1 : (if stateAfter .envelopeFrom l = .envelopeRecipient ∧ (lastRefusal l).getD .default ≠ .default
        then (lastRefusal l).getD .default else .abort) = End.abort.status l := by
      unfold End.status
      rw [← hs.1]
      cases hr : lastRefusal l with
      | none => simp
      | some v => simp [lastRefusal_ne hr]
    rw [e1]

/-- **C109**, a milter that decides about the sender: reported once, with the sender and nothing else. -/
theorem C109_sender (s : State) (h : Free s) (f : Bytes) (r : Reply) (w : Status) (hr : decides (.envelopeFrom f) r = some w) :
    reports (run s (End.decision (.envelopeFrom f) r).events).2 = [(w, { from_ := some f, state := .envelopeFrom, replied := true })] := by
  obtain ⟨b1, b2⟩ := begins h f
  show reports (run s (goesOut (.envelopeFrom f) ++ _)).2 = _
  rw [run_reports, b1, List.nil_append, decided b2 (.inr (.inl ⟨f, rfl⟩)) hr]
  rfl

/-- **C109**, a message a milter refused: when the MTA gives it up afterwards, it is not reported again, and its outcome
remains the refusal. -/
theorem C109_kept (s : State) (h : Free s) (f : Bytes) (l : List (Cmd × Reply)) (hl : ∀ p ∈ l, isPart p.1 = true ∧ goesOn p)
    (c : Cmd) (hc : isPart c = true) (r : Reply) (w : Status) (hr : decides c r = some w) (hw : w = .reject ∨ w = .temporaryFailure) :
    (∃ x, reports (run s (exchanged (.envelopeFrom f, .cont) ++ l.flatMap exchanged ++ (End.decision c r).events ++ End.abort.events)).2 = [(w, x)]) ∧
      (run s (exchanged (.envelopeFrom f, .cont) ++ l.flatMap exchanged ++ (End.decision c r).events ++ End.abort.events)).1.status = w := by
  obtain ⟨b1, b2⟩ := begins h f
  obtain ⟨b3, b4⟩ := continues (r := .cont) b2 (.inr ⟨f, rfl⟩) rfl
  have b5 : reports (run s (exchanged (.envelopeFrom f, .cont))).2 = [] := by
    rw [exchanged_eq, run_reports, b1]; exact b3
  rw [← run_state, ← exchanged_eq (.envelopeFrom f, .cont)] at b4
  obtain ⟨g1, g2⟩ := exchanges_during b4 hl
  rw [← run_state] at g2
  have g3 : reports (run s (exchanged (.envelopeFrom f, .cont) ++ l.flatMap exchanged)).2 = [] := by
    rw [run_reports, b5]; exact g1
  obtain ⟨d1, d2⟩ := gives_out g2 (.inl hc)
  obtain ⟨d3, d4⟩ := decided_gone d2 (.inl hc) hr hw
  have e : (End.decision c r).events ++ End.abort.events =
      goesOut c ++ ([.reply r true, .handlerReturns true, .handlerReturns true] ++ End.abort.events) := by
    simp [End.events]
  generalize hp : exchanged (.envelopeFrom f, .cont) ++ l.flatMap exchanged = before at *
  rw [List.append_assoc, e, run_reports, run_state, run_reports, run_state, g3, d1, d3]
  exact ⟨⟨_, rfl⟩, d4⟩

/-! ### Concrete cases -/

/-- a message refused at its header, then given up -/
example : decides (.header [1] [2]) (.replyCode 451 [52, 46, 48, 46, 48] none) = some .temporaryFailure ∧ isPart (.header [1] [2]) = true := by
  decide

/-- a context after negotiation is free -/
example : Free (run State.init (negotiation plainOption)).1 :=
  ⟨by decide +kernel, by decide +kernel, by decide +kernel, by decide +kernel, ⟨plainOption, by decide +kernel, by decide +kernel, by decide +kernel⟩,
    by decide +kernel, by decide +kernel, by decide +kernel, by decide +kernel, by decide +kernel, by decide +kernel⟩

/-- three recipients, one refused; then the MTA gives up after the header -/
example : let l : List (Cmd × Reply) := [(.envelopeRecipient [1], .cont), (.envelopeRecipient [2], .replyCode 550 [] none),
      (.envelopeRecipient [3], .cont), (.data, .cont), (.header [4] [5], .cont), (.body [6], .cont)]
    (∀ p ∈ l, isPart p.1 = true ∧ goesOn p) ∧ End.abort.status l = .abort ∧ End.abort.status (l.take 3) = .reject ∧
    (End.pass [7] [.addHeader [] [], .quarantine []]).status l = .quarantine ∧
    withVerdict .accepted (recipients l) = [[1], [3]] ∧ withVerdict .rejected (recipients l) = [[2]] := by
  refine ⟨fun p hp => ?_, by decide, by decide, by decide, by decide, by decide⟩
  simp only [List.mem_cons, List.not_mem_nil, or_false] at hp
  rcases hp with rfl | rfl | rfl | rfl | rfl | rfl <;>
    first
      | exact ⟨rfl, rfl⟩
      | exact ⟨rfl, by simp [goesOn, verdict]⟩
      | exact ⟨by simp [isPart, Enc.chunkSize_eq], rfl⟩

/-! ### Where it fails -/

/-- **C109 fails** for a later message of a session: a recipient was refused in the first message, which passed.  The MTA
gives up the second message, of which no recipient was refused, and it is reported as rejected. -/
theorem C109_stale_violated :
    (reports (run State.init (negotiation plainOption ++
      exchanged (.envelopeFrom [1], .cont) ++ exchanged (.envelopeRecipient [2], .reject) ++ exchanged (.envelopeRecipient [3], .cont) ++
      (End.pass [] []).events ++
      exchanged (.envelopeFrom [1], .cont) ++ exchanged (.envelopeRecipient [4], .cont) ++ End.abort.events)).2).map (·.1) =
      [.notChange, .reject] := by decide +kernel

theorem ServerReport.passed_whole (s : State) (h : Free s) (f : Bytes) (l : List (Cmd × Reply))
    (hl : ∀ p ∈ l, isPart p.1 = true ∧ goesOn p) :
    reports (run s (exchanged (.envelopeFrom f, .cont) ++ l.flatMap exchanged ++ (End.pass [] []).events)).2 =
      [(.notChange, (given (l.foldl after (sender f)) (.endOfMessage [])).reported .endOfMessage)] := by
  obtain ⟨b1, b2⟩ := begins h f
  obtain ⟨b3, b4⟩ := continues (r := .cont) b2 (.inr ⟨f, rfl⟩) rfl
  have b5 : reports (run s (exchanged (.envelopeFrom f, .cont))).2 = [] := by
    rw [exchanged_eq, run_reports, b1]; exact b3
  rw [← run_state, ← exchanged_eq (.envelopeFrom f, .cont)] at b4
  obtain ⟨g1, g2⟩ := exchanges_during b4 hl
  rw [← run_state] at g2
  have g3 : reports (run s (exchanged (.envelopeFrom f, .cont) ++ l.flatMap exchanged)).2 = [] := by
    rw [run_reports, b5]; exact g1
  rw [run_reports, g3, List.nil_append]
  obtain ⟨k1, k2⟩ := gives_out (c := .endOfMessage []) g2 (.inr ⟨[], rfl⟩)
  show reports (run _ (goesOut (.endOfMessage []) ++ _)).2 = _
  rw [run_reports, show reports (run _ (goesOut (.endOfMessage []))).2 = [] from k1, List.nil_append]
  exact passed k2

/-- **C109 fails** for the order of the header fields: a field of a message is reported before one of the same name
that came before it, whatever the name and the values are. -/
theorem C109_order_violated (s : State) (h : Free s) (f n v v' : Bytes) (e : v ≠ v') :
    ∃ r, reports (run s (exchanged (.envelopeFrom f, .cont) ++ [(.header n v, .cont), (.header n v', .cont)].flatMap exchanged ++
        (End.pass [] []).events)).2 = [(.notChange, r)] ∧
      r.headers = [⟨n, some v'⟩, ⟨n, some v⟩] ∧ r.headers ≠ headersOf [.header n v, .header n v'] := by
  obtain ⟨l, hl⟩ : ∃ l : List (Cmd × Reply), l = [(.header n v, .cont), (.header n v', .cont)] := ⟨_, rfl⟩
  have hp : ∀ p ∈ l, isPart p.1 = true ∧ goesOn p := by
    rw [hl]
    intro p hp
    rcases List.mem_cons.mp hp with rfl | hp
    · exact ⟨rfl, rfl⟩
    · rcases List.mem_cons.mp hp with rfl | hp
      · exact ⟨rfl, rfl⟩
      · cases hp
  have hr := passed_whole s h f l hp
  rw [← hl]
  refine ⟨_, hr, ?_⟩
  have e1 : Headers.sameNameCI n n = true := by simp [Headers.sameNameCI]
  have e2 : ((given (l.foldl after (sender f)) (.endOfMessage [])).reported .endOfMessage).headers = [⟨n, some v'⟩, ⟨n, some v⟩] := by
    rw [hl]
    show Headers.add (Headers.add [] n (some v)) n (some v') = _
    simp [Headers.add, e1]
  refine ⟨e2, ?_⟩
  rw [e2]
  intro h
  simp only [headersOf, List.filterMap_cons, List.filterMap_nil, List.cons.injEq, Header.mk.injEq, Option.some.injEq] at h
  exact e h.1.2.symm

end Verif.Props
