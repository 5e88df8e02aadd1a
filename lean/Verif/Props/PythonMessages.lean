import Verif.Props.Python
/-
Milters written in Python: what they keep from one message to the next (C145).
-/
namespace Verif.Props.Python
open Verif Verif.Python Verif.Spec.Python Verif.Client Verif.Spec.Client
open Verif.Ruby (Value Options Modification Act Prog Callback Part Said Ran Outcome Object Session Result removeStep)
open Verif.Spec.Ruby (next orderly)
open Verif.Enc (pack)

variable {σ : Type}

theorem refuse_closed (order : Requests → Requests) (reset : σ → σ) (s : State) (v : Option Value) (x : σ) (o : Options) (status : Status) (code : Nat) (ext reason : Bytes)
    (ho : anyGiven o = false) (hs : s.st ≠ .doing .envelopeRecipient) :
    (refuse order reset s v x o status code ext reason).ok = true ∧ (refuse order reset s v x o status code ext reason).own = reset x := by
  unfold refuse
  dsimp only
  rw [if_neg (show ¬ anyGiven o = true by rw [ho]; exact fun h => nomatch h)]
  rw [if_pos ⟨rfl, hs⟩]
  exact ⟨rfl, rfl⟩

theorem none_given {o : Options} (h : Spec.Ruby.closes (.reject (given o)) = true) : anyGiven o = false := by
  cases hg : anyGiven o with
  | false => rfl
  | true =>
    have h1 := (anyGiven_eq o).mp hg
    generalize given o = g at h h1
    obtain ⟨a, b, c⟩ := g
    cases a <;> cases b <;> cases c <;> first | (cases h; done) | (exfalso; revert h1; simp)

theorem perform_closed (order : Requests → Requests) (reset : σ → σ) (s : State) (v : Option Value) (x : σ) (a : Act) (ha : closes a = true)
    (hs : s.st ≠ .doing .envelopeRecipient) : (perform order reset s v x a).ok = true ∧ (perform order reset s v x a).own = reset x := by
  cases a with
  | accept => exact ⟨rfl, rfl⟩
  | discard => exact ⟨rfl, rfl⟩
  | quarantine r => exact ⟨rfl, rfl⟩
  | reject o => exact refuse_closed order reset s v x o _ _ _ _ (none_given ha) hs
  | temporaryFailure o =>
    refine refuse_closed order reset s v x o _ _ _ _ (none_given ?_) hs
    have ha : Spec.Ruby.closes (.temporaryFailure (given o)) = true := ha
    generalize given o = g at ha
    obtain ⟨a, b, c⟩ := g
    cases a <;> cases b <;> cases c <;> first | (cases ha; done) | rfl
  | status w => cases w <;> cases ha
  | _ => cases ha

theorem perform_st (order : Requests → Requests) (reset : σ → σ) (s : State) (v : Option Value) (x : σ) (a : Act) :
    (perform order reset s v x a).context.st = s.st := by
  have key : ∀ (o : Options) (status : Status) (code : Nat) (ext reason : Bytes), (refuse order reset s v x o status code ext reason).context.st = s.st := by
    intro o status code ext reason
    have h1 : (setReply order s v x (orNumber o.code code) (orText o.extendedCode ext) (orText o.reason reason)).context.st = s.st := LibMilter.called_st order s _ rfl
    unfold refuse
    dsimp only
    cases anyGiven o with
    | true =>
      rw [if_pos rfl]
      split <;> exact h1
    | false =>
      rw [if_neg (show ¬ (false = true) from fun h => nomatch h)]
      split <;> rfl
  cases a with
  | reject o => exact key ..
  | temporaryFailure o => exact key ..
  | quarantine r => exact LibMilter.called_st order s _ rfl
  | setReply code ext reason => exact LibMilter.called_st order s _ rfl
  | modify m => exact LibMilter.called_st order s _ (by cases m <;> rfl)
  | progress => exact LibMilter.called_st order s _ rfl
  | status w => cases w <;> rfl
  | _ => rfl

theorem exec_st (order : Requests → Requests) (reset : σ → σ) (p : Prog σ) : ∀ (s : State) (v : Option Value) (x : σ), (exec order reset p s v x).context.st = s.st := by
  induction p with
  | done => exact fun _ _ _ => rfl
  | raise => exact fun _ _ _ => rfl
  | act a k ih => exact fun s v x => (ih _ _ _ _).trans (perform_st order reset s v x a)
  | own f k ih => exact fun s v x => ih _ _ _ _
  | symbol n k ih => exact fun s v x => ih _ _ _ _

theorem exec_closing (order : Requests → Requests) (reset : σ → σ) (error : Prop) (p : Prog σ) : Closing error p → ∀ (s : State) (v : Option Value) (x : σ),
    s.st ≠ .doing .envelopeRecipient →
    ((exec order reset p s v x).raised = true ∧ error) ∨ ((exec order reset p s v x).raised = false ∧ ∃ y, (exec order reset p s v x).own = reset y) := by
  induction p with
  | done => exact fun h => h.elim
  | raise => exact fun h s v x hs => .inl ⟨rfl, h⟩
  | act a k ih =>
    intro h s v x hs
    unfold Closing at h
    have hst := perform_st order reset s v x a
    unfold exec
    dsimp only
    by_cases ha : closes a = true
    · rw [if_pos ha] at h
      obtain ⟨h1, h2⟩ := perform_closed order reset s v x a ha hs
      rw [h1]
      rcases h with h | h
      · rw [h]
        exact .inr ⟨rfl, x, h2⟩
      · exact ih true h _ _ _ (hst ▸ hs)
    · rw [if_neg ha] at h
      exact ih _ (h _) _ _ _ (hst ▸ hs)
  | own f k ih => exact fun h s v x hs => ih _ (h _) s v _ hs
  | symbol n k ih => exact fun h s v x hs => ih _ (h _) s v x hs

theorem event_leaves (order : Requests → Requests) (m : Class σ) (what : Callback) (p : Prog σ) (s : State) (v : Option Value) (x : σ) (q : σ → Prop) (h0 : q x)
    (h1 : Leaves m.reset q p) (h2 : Leaves m.reset q (m.onError what)) : q (m.event order what p s v x).own := by
  unfold Class.event
  dsimp only
  split
  · exact h2 _ _ _ _ (h1 _ _ _ _ h0)
  · exact h1 _ _ _ _ h0

/-- **C145**: what a milter keeps for a message is gone when the next begins.  Let `clean` be what `reset` makes true of the instance variables, and what `connect` and `helo` leave true, with the
`on_error` after them.  If at the end of each message, on every path, the last the milter does is to accept, discard, reject, put off or quarantine it, or `on_error` does after an exception, then the instance
variables are clean whenever no message is under way: after its end as after an abort, whatever the callbacks in between did.
Missing: milters that end a message with `continue`, or with an exception and the `on_error` they have from the library, or whose `abort` raises: `C145_continue_violated`, `C145_exception_violated`,
`C142_abort_violated`. -/
theorem C145_partial (order : Requests → Requests) (fallback : Value) (m : Class σ) (clean : σ → Prop) (hr : ∀ x, clean (m.reset x)) (h0 : clean m.start)
    (hconnect : ∀ g, m.connect = some g → ∀ host address, Leaves m.reset clean (g host address) ∧ Leaves m.reset clean (m.onError (.connect host address)))
    (hhelo : ∀ g, m.helo = some g → ∀ fqdn, Leaves m.reset clean (g fqdn) ∧ Leaves m.reset clean (m.onError (.helo fqdn)))
    (hend : ∃ p, m.endOfMessage = some p ∧ Closing (Closing False (m.onError .endOfMessage)) p) (ha : QuietAbort m)
    (context : State) (cmds : List Cmd) (ho : orderly false cmds = true) (hout : cmds.foldl next false = false) :
    clean (run order fallback (m.object order) (.start (m.object order) context) cmds).own := by
  have key : ∀ (cmds : List Cmd) (begun : Bool) (x : Session σ), (begun = false → clean x.own) → orderly begun cmds = true → cmds.foldl next begun = false →
      clean (run order fallback (m.object order) x cmds).own := by
    intro cmds
    induction cmds with
    | nil => exact fun begun x h _ hb => h hb
    | cons c cmds ih =>
      intro begun x h ho hb
      unfold orderly at ho
      rw [Bool.and_eq_true] at ho
      refine ih (next begun c) _ ?_ ho.2 hb
      intro hn
      have ho1 := ho.1
      cases c with
      | quit => cases ho1
      | negotiate o => exact h (by cases begun <;> first | rfl | cases ho1)
      | connect a b =>
        have hc := h (by cases begun <;> first | rfl | cases ho1)
        show clean (one fallback (m.object order) x _ (.connect a b)).own
        unfold one
        have e : (m.object order).callback (.connect a b) = (m.connect.map fun g => g a b).map fun p s v own => m.event order (.connect a b) p s v own := rfl
        rw [e]
        cases hg : m.connect with
        | none => exact hc
        | some g => exact event_leaves order m _ _ _ _ _ clean hc (hconnect g hg a b).1 (hconnect g hg a b).2
      | helo a =>
        have hc := h (by cases begun <;> first | rfl | cases ho1)
        show clean (one fallback (m.object order) x _ (.helo a)).own
        unfold one
        have e : (m.object order).callback (.helo a) = (m.helo.map fun g => g a).map fun p s v own => m.event order (.helo a) p s v own := rfl
        rw [e]
        cases hg : m.helo with
        | none => exact hc
        | some g => exact event_leaves order m _ _ _ _ _ clean hc (hhelo g hg a).1 (hhelo g hg a).2
      | defineMacro a b => exact h hn
      | envelopeFrom a => cases hn
      | endOfMessage a =>
        obtain ⟨p, h1, h2⟩ := hend
        show clean (one fallback (m.object order) x (enter (x.context.note (.got (.endOfMessage a))) .endOfMessage (some 0x45)) .endOfMessage).own
        generalize hs : enter (x.context.note (.got (.endOfMessage a))) .endOfMessage (some 0x45) = s
        have hst : s.st ≠ .doing .envelopeRecipient := by
          rw [← hs]
          exact fun h => nomatch h
        unfold one
        have e : (m.object order).callback .endOfMessage = m.endOfMessage.map fun p s v own => m.event order .endOfMessage p s v own := rfl
        rw [e, h1]
        show clean (m.event order .endOfMessage p s x.status x.own).own
        unfold Class.event
        dsimp only
        rcases exec_closing order m.reset _ p h2 s x.status x.own hst with ⟨hr1, he⟩ | ⟨hr1, y, hy⟩
        · rw [if_pos hr1]
          rcases exec_closing order m.reset _ _ he _ (exec order m.reset p s x.status x.own).status (exec order m.reset p s x.status x.own).own
            ((exec_st order m.reset p s x.status x.own) ▸ hst) with ⟨_, hf⟩ | ⟨_, y, hy⟩
          · exact hf.elim
          · refine (?_ : clean (exec order m.reset (m.onError .endOfMessage) _ _ _).own)
            rw [hy]
            exact hr y
        · rw [if_neg (by rw [hr1]; exact fun h => nomatch h)]
          refine (?_ : clean (exec order m.reset p s x.status x.own).own)
          rw [hy]
          exact hr y
      | abort =>
        obtain ⟨y, hy⟩ := C142_abort_resets order fallback m ha x
        show clean (Python.receive order fallback (m.object order) x .abort).own
        rw [hy]
        exact hr y
      | _ =>
        -- the message goes on
        cases begun <;> first | (cases ho1; done) | cases hn
  exact key cmds false _ (fun _ => h0) ho hout

/-- a milter that keeps the recipients, does something at the end, and something after an exception -/
def keeper (p error : Prog (List Bytes)) : Class (List Bytes) := { watcher with endOfMessage := some p, onError := fun _ => error }

/-- the hypotheses of C145, for a milter that keeps the recipients of a message, and puts off a message after an exception; and two messages, with exceptions at their ends -/
example :
    let m := keeper (.own id fun rs => if rs = [] then .act .accept fun _ => .done else .raise) (.act (.temporaryFailure { code := some 0 }) fun _ => .done)
    (∀ x, m.reset x = []) ∧ m.start = [] ∧
    (∀ g, m.connect = some g → ∀ host address, Leaves m.reset (· = []) (g host address) ∧ Leaves m.reset (· = []) (m.onError (.connect host address))) ∧
    (∀ g, m.helo = some g → ∀ fqdn, Leaves m.reset (· = []) (g fqdn) ∧ Leaves m.reset (· = []) (m.onError (.helo fqdn))) ∧
    (∃ p, m.endOfMessage = some p ∧ Closing (Closing False (m.onError .endOfMessage)) p) ∧ QuietAbort m ∧
    let cmds : List Cmd := [.connect (ascii "h") .unspec, .envelopeFrom (ascii "<a@b>"), .envelopeRecipient (ascii "<c@d>"), .body (ascii "one"), .endOfMessage [],
      .envelopeFrom (ascii "<a@b>"), .envelopeRecipient (ascii "<e@f>"), .abort]
    orderly false cmds = true ∧ cmds.foldl next false = false ∧
    (run id (.name .accept false) (m.object id) (.start (m.object id) (new 0 .ready)) (cmds.take 3)).own = [ascii "<c@d>"] ∧
    (run id (.name .accept false) (m.object id) (.start (m.object id) (new 0 .ready)) cmds).own = [] := by
  refine ⟨fun _ => rfl, rfl, ?_, (fun g h => nomatch h), ⟨_, rfl, ?_⟩, ?_, by decide +kernel⟩
  · intro g h a b
    cases h
    refine ⟨fun _ _ _ _ h => h, fun order s v x h => ?_⟩
    show (refuse order (fun _ => []) s v x { code := some 0 } _ _ _ _).own = []
    unfold refuse
    dsimp only
    rw [if_neg (show ¬ anyGiven { code := some 0 } = true from fun h => nomatch h)]
    split
    · rfl
    · exact h
  · intro rs
    show Closing _ (if rs = [] then _ else _)
    split
    · exact .inl rfl
    · exact .inl rfl
  · intro g h st
    cases h
    exact True.intro

/-- **C145 is violated** by a milter that lets a message pass with `continue` (or says nothing): `reset` is not called, and what it keeps of this message is there in the next. -/
theorem C145_continue_violated :
    let m := (keeper (.act .continue_ fun _ => .done) .done).object id
    (run id (.name .accept false) m (.start m (new 0 .ready))
      [.envelopeFrom (ascii "<a@b>"), .envelopeRecipient (ascii "<c@d>"), .endOfMessage [], .envelopeFrom (ascii "<a@b>"), .envelopeRecipient (ascii "<e@f>")]).own =
      [ascii "<c@d>", ascii "<e@f>"] := by
  decide +kernel

/-- **C145 is violated** by an exception at the end of a message, with the `on_error` of the library: the message is accepted, the fallback status, and `reset` is not called. -/
theorem C145_exception_violated :
    let m := (keeper .raise .done).object id
    (run id (.name .accept false) m (.start m (new 0 .ready))
      [.envelopeFrom (ascii "<a@b>"), .envelopeRecipient (ascii "<c@d>"), .endOfMessage [], .envelopeFrom (ascii "<a@b>"), .envelopeRecipient (ascii "<e@f>")]).own =
      [ascii "<c@d>", ascii "<e@f>"] := by
  decide +kernel

/-- **C145 is violated** by a milter that refuses a message with a reply of its own that cannot be sent (a code of 5 with the enhanced code there is for 4):
`set_reply` raises, the message is accepted, the fallback status, and `reset` is not called. -/
theorem C145_reply_violated :
    let m := (keeper (.act (.temporaryFailure { code := some 550 }) fun ok => if ok then .done else .raise) .done).object id
    let x := run id (.name .accept false) m (.start m (new 0 .ready)) [.negotiate ⟨6, 0x1ff, 0⟩, .envelopeFrom (ascii "<a@b>"), .envelopeRecipient (ascii "<c@d>")]
    let y := receive id (.name .accept false) m x (.endOfMessage [])
    written y.context.log = written x.context.log ++ pack [0x61] ∧ y.own = [ascii "<c@d>"] := by
  decide +kernel

end Verif.Props.Python
