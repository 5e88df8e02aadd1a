import Verif.Client.RubyFacts
/-
Milters written in Ruby: what they are called with (C103), what the MTA reads (C104), what they keep from one message to the next (C105), what they
negotiate (C106), and several of them as one (C107).
-/
namespace Verif.Props.Ruby
open Verif Verif.Ruby Verif.Spec.Ruby Verif.Client Verif.Spec.Client
open Verif.Enc (encodeReplies pack)

variable {σ : Type}

/-! ## C103: callbacks -/

theorem one_called (order : Requests → Requests) (fallback : Value) (m : Class σ) (x : Session σ) (s : State) (what : Callback) :
    if (m.callback what).isSome then ∃ p, (one fallback (m.object order) x s what).seen = [⟨what, [p]⟩] ∧ p.who = 0
    else (one fallback (m.object order) x s what).seen = [] := by
  unfold one
  have e : (m.object order).callback what = (m.callback what).map fun p s v own =>
    let r := p.exec order m.reset s v own
    (⟨[⟨0, r.did, r.raised⟩], r.calls, r.context, r.status, r.own, r.raised⟩ : Outcome σ) := rfl
  rw [e]
  cases m.callback what with
  | none => rfl
  | some p => exact ⟨_, rfl, rfl⟩

/-- **C103**: whatever a milter does, and in whatever state a session is, for each command the MTA sends the milter is called once, with what the MTA sent, if it has the callback
for it, and not otherwise.  In an abort `abort` is called, at the end of the session `finished`.
(What comes with the end of the message: `C103_last_chunk_violated`.) -/
theorem C103_partial (order : Requests → Requests) (fallback : Value) (m : Class σ) (x : Session σ) (c : Cmd) :
    ∃ said, (receive order fallback (m.object order) x c).seen = x.seen ++ said ∧ Called m c said := by
  cases c with
  | quit =>
    unfold Verif.Ruby.receive
    dsimp only
    unfold finish
    have e : (m.object order).callback .finished = m.finished.map fun p s v own =>
      let r := p.exec order m.reset s v own
      (⟨[⟨0, r.did, r.raised⟩], r.calls, r.context, r.status, r.own, r.raised⟩ : Outcome σ) := rfl
    rw [e]
    show ∃ said, _ ∧ (if m.finished.isSome then _ else _)
    cases m.finished with
    | none => exact ⟨[], rfl, rfl⟩
    | some p =>
      obtain ⟨part, hpart, hseen⟩ : ∃ part : Part, part.who = 0 ∧ ∀ r : Ran σ, r = p.exec order m.reset
          (Client.receive order x.context .quit (handle fallback (m.object order) x .quit).handlers none (some []))
          (handle fallback (m.object order) x .quit).status (handle fallback (m.object order) x .quit).own → part = ⟨0, r.did, r.raised⟩ :=
        ⟨_, rfl, fun r h => by rw [h]⟩
      refine ⟨[⟨.finished, [part]⟩], ?_, ⟨part, rfl, hpart⟩⟩
      rw [hseen _ rfl]
      show (x.seen ++ []) ++ _ = _
      rw [List.append_nil]
  | negotiate o => exact ⟨[], rfl, rfl⟩
  | defineMacro a b => exact ⟨[], rfl, rfl⟩
  | abort =>
    refine ⟨_, rfl, ?_⟩
    show if m.abort.isSome then _ else _
    unfold handle
    dsimp only
    have e : (m.object order).callback (.abort x.context.st) = (m.abort.map fun g => g x.context.st).map fun p s v own =>
      let r := p.exec order m.reset s v own
      (⟨[⟨0, r.did, r.raised⟩], r.calls, r.context, r.status, r.own, r.raised⟩ : Outcome σ) := rfl
    rw [e]
    cases m.abort with
    | none => rfl
    | some p => exact ⟨_, _, rfl, rfl⟩
  | _ => exact ⟨_, rfl, one_called order fallback m x _ _⟩

/-- a milter that only watches: it keeps the recipients, and forgets them at the end of a message -/
def watcher : Class (List Bytes) where
  start := []
  reset := fun _ => []
  connect := some fun _ _ => .done
  envelopeRecipient := some fun a => .own (· ++ [a]) fun _ => .done
  body := some fun _ => .done
  endOfMessage := some (.act .accept fun _ => .done)
  abort := some fun _ => .done
  finished := some .done

/-- what it is called with -/
example : (run id (.name .accept false) (watcher.object id) (.start (watcher.object id) (new 0 .ready))
    [.negotiate ⟨6, 0x1ff, 0x1fffff⟩, .connect (ascii "h") .unspec, .envelopeFrom (ascii "<a@b>"), .envelopeRecipient (ascii "<c@d>"), .body (ascii "one"),
      .endOfMessage [], .envelopeFrom (ascii "<a@b>"), .abort, .quit]).seen.map (·.what) =
    [.connect (ascii "h") .unspec, .envelopeRecipient (ascii "<c@d>"), .body (ascii "one"), .endOfMessage, .abort (.replied .envelopeFrom), .finished] := by
  decide +kernel

/-- **C103 is violated**: the part of the body that comes with the end of the message is not shown to the milter. -/
theorem C103_last_chunk_violated :
    let x := run id (.name .accept false) (watcher.object id) (.start (watcher.object id) (new 0 .ready))
      [.envelopeFrom (ascii "<a@b>"), .body (ascii "one"), .endOfMessage (ascii "two")]
    x.seen.flatMap (fun s => bodyGiven s.what) = ascii "one" := by
  decide +kernel

/-! ## C104: what the MTA reads -/

/-- **C104**: whatever a milter does in its callbacks, the MTA reads for each command exactly what the milter said in the callback for it: one answer, the one for its last decision, with the
custom reply it has set last; if an exception left the callback, the fallback status; if there is no callback or it decided nothing, "continue"; at the end of a message first the modifications it made, in order.
Missing: `delay_response`, recipients with parameters, decisions that are no answer (C38), the negotiation (C106).  The custom reply set last may be one of an earlier command:
`C104_stale_reply_violated`. -/
theorem C104_partial (order : Requests → Requests) (fallback : Value) (hfb : fallback.toStatus ≠ .progress) (m : Class σ) (hm : Keeps plain m) (n : Nat) (l : Link)
    (cmds : List Cmd) (hq : Cmd.quit ∉ cmds) (x : Session σ) (hx : x = run order fallback (m.object order) (.start (m.object order) (new n l)) cmds)
    (hl : x.context.link = .ready) (c : Cmd) (hc : ∀ o, c ≠ .negotiate o) (hc' : c ≠ .quit) (x' : Session σ) (hx' : x' = receive order fallback (m.object order) x c) :
    ∃ said, x'.seen = x.seen ++ said ∧ ∃ d, (expectsReply c = true → Decides fallback.toStatus said d) ∧
      ((expectsReply c = true → hasReply d = true) →
        ∃ read, Fits (negotiated x.context.log) (customAfter none (doings x'.seen)) c (doings said) d read ∧
          written x'.context.log = written x.context.log ++ (encodeReplies order [] read).flatten) := by
  have hg : Good x := by
    rw [hx]
    exact (Good.start (m.object order) n l).run (fun _ h => h.2) hfb (m.honest order none fallback hfb hm) cmds hq
  rw [hx']
  exact hg.read hfb (m.honest order _ fallback hfb hm) hl c hc hc'

/-- a milter that says different things -/
def speaker : Class Unit where
  start := ()
  reset := id
  envelopeFrom := some fun _ => .act (.reject { reason := some (ascii "no") }) fun _ => .done
  envelopeRecipient := some fun a => if a = ascii "<x@y>" then .act .continue_ fun _ => .raise else .act (.temporaryFailure {}) fun _ => .done
  endOfMessage := some (.act (.modify (.addHeader (ascii "X") (ascii "v"))) fun ok => if ok then .act (.quarantine (ascii "q")) fun _ => .done else .raise)

theorem speaker_plain : Keeps plain speaker := by
  intro what p h
  cases what <;> first | (cases h; done) | skip
  · cases h; exact ⟨rfl, fun _ => True.intro⟩
  · rename_i a
    have h : (if a = ascii "<x@y>" then Prog.act .continue_ fun _ => Prog.raise else Prog.act (.temporaryFailure {}) fun _ => Prog.done) = p := Option.some.inj h
    rw [← h]
    split <;> exact ⟨rfl, fun _ => True.intro⟩
  · cases h
    refine ⟨rfl, fun b => ?_⟩
    cases b with
    | true => exact ⟨rfl, fun _ => True.intro⟩
    | false => exact True.intro

/-- the hypotheses of C104, and what is written -/
example : Keeps plain speaker ∧
    let m := speaker.object id
    let x := run id (.name .reject false) m (.start m (new 0 .ready)) [.negotiate ⟨6, 0x1ff, 0⟩]
    x.context.link = .ready ∧
    written (receive id (.name .reject false) m x (.envelopeFrom (ascii "<a@b>"))).context.log = written x.context.log ++ pack (0x79 :: (ascii "550 5.7.1 no" ++ [0])) ∧
    written (receive id (.name .reject false) m x (.envelopeRecipient (ascii "<c@d>"))).context.log = written x.context.log ++ pack [0x74] ∧
    written (receive id (.name .reject false) m x (.envelopeRecipient (ascii "<x@y>"))).context.log = written x.context.log ++ pack [0x72] ∧
    written (receive id (.name .reject false) m x (.endOfMessage [])).context.log = written x.context.log ++
      pack (0x68 :: (ascii "X" ++ 0 :: (ascii "v" ++ [0]))) ++ pack (0x71 :: (ascii "q" ++ [0])) ++ pack [0x61] := by
  refine ⟨speaker_plain, by decide +kernel⟩

/-- **C104**, sessions that cannot be made: if `new` raises, the MTA reads the fallback status when it connects. -/
theorem C104_no_session (order : Requests → Requests) (fallback : Value) (hfb : hasReply fallback.toStatus = true) (n : Nat) (o : Opt) (host : Bytes) (address : Addr) :
    let m := (fallbackClass fallback).object order
    let x := run order fallback m (.start m (new n .ready)) [.negotiate o]
    x.context.link = .ready → ∃ read, Fits (negotiated x.context.log) none (.connect host address) [] fallback.toStatus read ∧
      written (receive order fallback m x (.connect host address)).context.log = written x.context.log ++ (encodeReplies order [] read).flatten := by
  intro m x hl
  have hne : fallback.toStatus ≠ .progress := by
    intro h
    rw [h] at hfb
    cases hfb
  have hk : Keeps plain (fallbackClass fallback) := by
    intro what p h
    cases what <;> first | (cases h; done) | skip
    cases h
    refine ⟨?_, fun _ => True.intro⟩
    cases fallback with
    | constant s => cases s <;> first | rfl | exact absurd rfl hne
    | name s b => cases s <;> first | rfl | exact absurd rfl hne
  obtain ⟨said, h1, d, h2, h3⟩ := C104_partial order fallback hne (fallbackClass fallback) hk n .ready [.negotiate o] (by simp) x rfl hl (.connect host address)
    (fun _ h => nomatch h) (fun h => nomatch h) _ rfl
  have hs : said = [⟨.connect host address, [⟨0, [(.status (some fallback), true)], false⟩]⟩] := by
    have : (receive order fallback m x (.connect host address)).seen = x.seen ++ [⟨.connect host address, [⟨0, [(.status (some fallback), true)], false⟩]⟩] := rfl
    exact List.append_cancel_left (h1.symm.trans this)
  have hd := h2 rfl
  rw [hs] at hd h3
  have hd : d = fallback.toStatus := by
    cases fallback with
    | constant s => exact List.mem_singleton.mp hd.1
    | name s b => exact List.mem_singleton.mp hd.1
  subst hd
  exact h3 fun _ => hfb

/-- a milter that refuses recipients in two ways -/
def refuser : Class Unit where
  start := ()
  reset := id
  envelopeRecipient := some fun a =>
    if a = ascii "<x@y>" then .act (.reject { code := some 550, reason := some (ascii "unknown user") }) fun _ => .done
    else .act (.temporaryFailure {}) fun _ => .done

/-- **C104 is violated**: a reply set for one command is used for later ones.  A milter that refuses one recipient for good, with a text, and then another for now, has both refused for
good: the sender never tries the second again. -/
theorem C104_stale_reply_violated :
    let m := refuser.object id
    let x := run id (.name .accept false) m (.start m (new 0 .ready)) [.negotiate ⟨6, 0x1ff, 0⟩, .envelopeFrom (ascii "<a@b>"), .envelopeRecipient (ascii "<x@y>")]
    let x' := receive id (.name .accept false) m x (.envelopeRecipient (ascii "<c@d>"))
    (x'.seen.getLast?.map fun s => s.parts.map fun p => decided p.did) = some [some .temporaryFailure] ∧
    written x'.context.log = written x.context.log ++ pack (0x79 :: (ascii "550 5.7.1 unknown user" ++ [0])) := by
  decide +kernel

/-- **C104 is violated**: a milter that rejects with a code of its own, from 400 to 499, and nothing else lets the message pass: the enhanced code `reject` adds does not fit, so an exception
is raised, and the fallback status is to accept. -/
theorem C104_reject_code_violated :
    let m := ({ start := (), reset := id, envelopeFrom := some fun _ => .act (.reject { code := some 450 }) fun ok => if ok then .done else .raise } : Class Unit).object id
    let x : Session Unit := .start m (new 0 .ready)
    written (receive id (.name .accept false) m x (.envelopeFrom (ascii "<a@b>"))).context.log = pack [0x61] := by
  decide +kernel

/-- **C104 is violated**: a milter that quarantines a message at a header has it accepted, and not quarantined. -/
theorem C104_quarantine_violated :
    let m := ({ start := (), reset := id, header := some fun _ _ => .act (.quarantine (ascii "spam")) fun _ => .done } : Class Unit).object id
    let x := run id (.name .accept false) m (.start m (new 0 .ready)) [.negotiate ⟨6, 0x1ff, 0⟩, .envelopeFrom (ascii "<a@b>")]
    written (run id (.name .accept false) m x [.header (ascii "n") (ascii "v"), .endOfMessage []]).context.log = written x.context.log ++ pack [0x61] ++ pack [0x63] := by
  decide +kernel

/-! ## C105: what a milter keeps -/

theorem refuse_closed (order : Requests → Requests) (reset : σ → σ) (s : State) (v : Option Value) (x : σ) (status : Status) (code : Nat) (ext reason : Bytes)
    (hs : s.st ≠ .doing .envelopeRecipient) :
    (refuse order reset s v x {} status code ext reason).ok = true ∧ (refuse order reset s v x {} status code ext reason).own = reset x := by
  unfold refuse
  dsimp only
  rw [if_neg (show ¬ ((none : Option Nat).isSome = true ∨ (none : Option Bytes).isSome = true ∨ (none : Option Bytes).isSome = true) by simp)]
  rw [if_pos ⟨rfl, hs⟩]
  exact ⟨rfl, rfl⟩

theorem perform_closed (order : Requests → Requests) (reset : σ → σ) (s : State) (v : Option Value) (x : σ) (a : Act) (ha : closes a = true)
    (hs : s.st ≠ .doing .envelopeRecipient) : (perform order reset s v x a).ok = true ∧ (perform order reset s v x a).own = reset x := by
  cases a with
  | accept => exact ⟨rfl, rfl⟩
  | discard => exact ⟨rfl, rfl⟩
  | quarantine r => exact ⟨rfl, rfl⟩
  | reject o =>
    obtain ⟨a, b, c⟩ := o
    cases a <;> cases b <;> cases c <;> first | (cases ha; done) | exact refuse_closed order reset s v x _ _ _ _ hs
  | temporaryFailure o =>
    obtain ⟨a, b, c⟩ := o
    cases a <;> cases b <;> cases c <;> first | (cases ha; done) | exact refuse_closed order reset s v x _ _ _ _ hs
  | _ => cases ha

theorem perform_st (order : Requests → Requests) (reset : σ → σ) (s : State) (v : Option Value) (x : σ) (a : Act) :
    (perform order reset s v x a).context.st = s.st := by
  have key : ∀ (o : Options) (status : Status) (code : Nat) (ext reason : Bytes), (refuse order reset s v x o status code ext reason).context.st = s.st := by
    intro o status code ext reason
    unfold refuse
    dsimp only
    split
    · split <;> exact LibMilter.called_st order s _ rfl
    · split <;> rfl
  cases a with
  | reject o => exact key ..
  | temporaryFailure o => exact key ..
  | quarantine r => exact LibMilter.called_st order s _ rfl
  | setReply code ext reason => exact LibMilter.called_st order s _ rfl
  | modify m => exact LibMilter.called_st order s _ (by cases m <;> rfl)
  | progress => exact LibMilter.called_st order s _ rfl
  | _ => rfl

theorem exec_closing (order : Requests → Requests) (reset : σ → σ) (p : Prog σ) : Closing p → ∀ (s : State) (v : Option Value) (x : σ),
    s.st ≠ .doing .envelopeRecipient → ∃ y, (p.exec order reset s v x).own = reset y := by
  induction p with
  | done => exact fun h => h.elim
  | raise => exact fun h => h.elim
  | act a k ih =>
    intro h s v x hs
    unfold Closing at h
    have hst := perform_st order reset s v x a
    unfold Prog.exec
    dsimp only
    by_cases ha : closes a = true
    · rw [if_pos ha] at h
      obtain ⟨h1, h2⟩ := perform_closed order reset s v x a ha hs
      rw [h1]
      rcases h with h | h
      · rw [h]
        exact ⟨x, h2⟩
      · exact ih true h _ _ _ (hst ▸ hs)
    · rw [if_neg ha] at h
      exact ih _ (h _) _ _ _ (hst ▸ hs)
  | own f k ih => exact fun h s v x hs => ih _ (h _) s v _ hs
  | symbol n k ih => exact fun h s v x hs => ih _ (h _) s v x hs

theorem one_own (order : Requests → Requests) (fallback : Value) (m : Class σ) (x : Session σ) (s : State) (what : Callback) (q : σ → Prop) (h0 : q x.own)
    (h : ∀ p, m.callback what = some p → q (p.exec order m.reset s x.status x.own).own) : q (one fallback (m.object order) x s what).own := by
  unfold one
  have e : (m.object order).callback what = (m.callback what).map fun p s v own =>
    let r := p.exec order m.reset s v own
    (⟨[⟨0, r.did, r.raised⟩], r.calls, r.context, r.status, r.own, r.raised⟩ : Outcome σ) := rfl
  rw [e]
  cases hp : m.callback what with
  | none => exact h0
  | some p => exact h p hp

/-- **C105**: what a milter keeps for a message is gone when the next begins.  Let `clean` be what `reset` makes true of the instance variables, and what `connect` and `helo` leave true.  If
at the end of each message, on every path, the last the milter does is to accept, discard, reject, put off or quarantine it, then the instance variables are clean whenever no message is under way: after its end as
after an abort, whatever the callbacks in between did.
Missing: milters that end a message with `continue`, or with an exception: `C105_continue_violated`, `C105_exception_violated`. -/
theorem C105_partial (order : Requests → Requests) (fallback : Value) (m : Class σ) (clean : σ → Prop) (hr : ∀ x, clean (m.reset x)) (h0 : clean m.start)
    (hconnect : ∀ g, m.connect = some g → ∀ host address, Leaves m.reset clean (g host address)) (hhelo : ∀ g, m.helo = some g → ∀ fqdn, Leaves m.reset clean (g fqdn))
    (hend : ∃ p, m.endOfMessage = some p ∧ Closing p) (context : State) (cmds : List Cmd) (ho : orderly false cmds = true) (hout : cmds.foldl next false = false) :
    clean (run order fallback (m.object order) (.start (m.object order) context) cmds).own := by
  have key : ∀ (cmds : List Cmd) (begun : Bool) (x : Session σ), (begun = false → clean x.own) → orderly begun cmds = true → cmds.foldl next begun = false →
      clean (run order fallback (m.object order) x cmds).own := by
    intro cmds
    induction cmds with
    | nil => exact fun begun x h _ hb => h hb
    | cons c cmds ih =>
      intro begun x h ho hb
      unfold orderly at ho
      rw [Bool.and_eq_true] at ho
      refine ih (next begun c) _ ?_ ho.2 hb
      intro hn
      have ho1 := ho.1
      cases c with
      | quit => cases ho1
      | negotiate o => exact h (by cases begun <;> first | rfl | cases ho1)
      | connect a b =>
        have hc := h (by cases begun <;> first | rfl | cases ho1)
        refine one_own order fallback m x _ _ clean hc fun p hp => ?_
        obtain ⟨g, h1, h2⟩ := LibMilter.map_some hp
        exact h2 ▸ hconnect g h1 a b order _ _ _ hc
      | helo a =>
        have hc := h (by cases begun <;> first | rfl | cases ho1)
        refine one_own order fallback m x _ _ clean hc fun p hp => ?_
        obtain ⟨g, h1, h2⟩ := LibMilter.map_some hp
        exact h2 ▸ hhelo g h1 a order _ _ _ hc
      | defineMacro a b => exact h hn
      | envelopeFrom a => cases hn
      | endOfMessage a =>
        obtain ⟨p, h1, h2⟩ := hend
        show clean (one fallback (m.object order) x _ .endOfMessage).own
        unfold one
        have e : (m.object order).callback .endOfMessage = some fun s v own =>
          let r := p.exec order m.reset s v own
          (⟨[⟨0, r.did, r.raised⟩], r.calls, r.context, r.status, r.own, r.raised⟩ : Outcome σ) := by
          show m.endOfMessage.map _ = _
          rw [h1]
          rfl
        rw [e]
        show clean (p.exec order m.reset _ x.status x.own).own
        obtain ⟨y, hy⟩ := exec_closing order m.reset p h2
          (enter (x.context.note (.got (.endOfMessage a))) .endOfMessage (some 0x45)) x.status x.own (fun h => nomatch h)
        refine (?_ : clean (p.exec order m.reset (enter (x.context.note (.got (.endOfMessage a))) .endOfMessage (some 0x45)) x.status x.own).own)
        rw [hy]
        exact hr y
      | abort =>
        show clean (handle fallback (m.object order) x .abort).own
        unfold handle
        dsimp only
        have e : (m.object order).reset = some m.reset := rfl
        rw [e]
        exact hr _
      | _ =>
        -- the message goes on
        cases begun <;> first | (cases ho1; done) | cases hn
  exact key cmds false _ (fun _ => h0) ho hout

/-- the hypotheses of C105, for a milter that keeps the recipients of a message, and two messages -/
example : (∀ x, watcher.reset x = []) ∧ watcher.start = [] ∧ (∀ g, watcher.connect = some g → ∀ host address, Leaves watcher.reset (· = []) (g host address)) ∧
    (∀ g, watcher.helo = some g → ∀ fqdn, Leaves watcher.reset (· = []) (g fqdn)) ∧ (∃ p, watcher.endOfMessage = some p ∧ Closing p) ∧
    let cmds : List Cmd := [.connect (ascii "h") .unspec, .envelopeFrom (ascii "<a@b>"), .envelopeRecipient (ascii "<c@d>"), .body (ascii "one"), .endOfMessage [],
      .envelopeFrom (ascii "<a@b>"), .envelopeRecipient (ascii "<e@f>"), .abort]
    orderly false cmds = true ∧ cmds.foldl next false = false ∧
    let m := watcher.object id
    (run id (.name .accept false) m (.start m (new 0 .ready)) (cmds.take 3)).own = [ascii "<c@d>"] ∧ (run id (.name .accept false) m (.start m (new 0 .ready)) cmds).own = [] := by
  refine ⟨fun _ => rfl, rfl, ?_, (fun g h => nomatch h), ⟨_, rfl, ?_⟩, by decide +kernel⟩
  · intro g h a b
    cases h
    exact fun _ _ _ _ h => h
  · show if _ then _ else _
    exact .inl rfl

/-- a milter that keeps the recipients, and does something else at the end -/
def keeper (p : Prog (List Bytes)) : Class (List Bytes) := { watcher with endOfMessage := some p }

/-- **C105 is violated** by a milter that lets a message pass with `continue` (or says nothing): `reset` is not called, and what it keeps of this message is there in the next. -/
theorem C105_continue_violated :
    let m := (keeper (.act .continue_ fun _ => .done)).object id
    (run id (.name .accept false) m (.start m (new 0 .ready))
      [.envelopeFrom (ascii "<a@b>"), .envelopeRecipient (ascii "<c@d>"), .endOfMessage [], .envelopeFrom (ascii "<a@b>"), .envelopeRecipient (ascii "<e@f>")]).own =
      [ascii "<c@d>", ascii "<e@f>"] := by
  decide +kernel

/-- **C105 is violated** by an exception at the end of a message: the message is accepted, the fallback status, and `reset` is not called. -/
theorem C105_exception_violated :
    let m := (keeper .raise).object id
    (run id (.name .accept false) m (.start m (new 0 .ready))
      [.envelopeFrom (ascii "<a@b>"), .envelopeRecipient (ascii "<c@d>"), .endOfMessage [], .envelopeFrom (ascii "<a@b>"), .envelopeRecipient (ascii "<e@f>")]).own =
      [ascii "<c@d>", ascii "<e@f>"] := by
  decide +kernel

/-! ## C106: negotiation -/

theorem removed_and (o : Opt) (b : Bool) (step bit : UInt32) :
    (if b then removeStep o step else o).step &&& bit = o.step &&& (if b then ~~~step &&& bit else bit) := by
  cases b with
  | true => exact UInt32.and_assoc ..
  | false => rfl

theorem keep_bit (o : Opt) (b : Bool) (step bit : UInt32) (h : ~~~step &&& bit = bit) : (if b then removeStep o step else o).step &&& bit = o.step &&& bit := by
  rw [removed_and]
  cases b
  · rfl
  · exact congrArg _ h

theorem drop_bit (o : Opt) (b : Bool) (step bit : UInt32) (h : ~~~step &&& bit = 0) :
    (if b then removeStep o step else o).step &&& bit = if b then 0 else o.step &&& bit := by
  rw [removed_and]
  cases b
  · rfl
  · rw [if_pos rfl, if_pos rfl, h, UInt32.and_zero]

theorem keep_mask (o : Opt) (step bit : UInt32) (h : ~~~step &&& bit = bit) : (removeStep o step).step &&& bit = o.step &&& bit := keep_bit o true step bit h

theorem drop_mask (o : Opt) (step bit : UInt32) (h : ~~~step &&& bit = 0) : (removeStep o step).step &&& bit = 0 := drop_bit o true step bit h

theorem step_version (o : Opt) (b : Bool) (step : UInt32) : (if b then removeStep o step else o).version = o.version := by cases b <;> rfl

theorem step_action (o : Opt) (b : Bool) (step : UInt32) : (if b then removeStep o step else o).action = o.action := by cases b <;> rfl

/-- **C106**: in the negotiation a milter asks the MTA to leave out exactly the steps it has no callback for, as far as the MTA offers that; it wants replies for all; header values keep their leading
space only if the milter needs it; and it takes all the actions offered.  This is what the MTA reads. -/
theorem C106_negotiate (order : Requests → Requests) (fallback : Value) (m : Class σ) (n : Nat) (o : Opt) :
    ∃ answer : Opt, written (receive order fallback (m.object order) (.start (m.object order) (new n .ready)) (.negotiate o)).context.log =
        (encodeReplies order [] [.negotiate answer (some [])]).flatten ∧
      answer.version = o.version ∧ answer.action = o.action ∧
      (∀ bit ∈ [0x001, 0x002, 0x004, 0x008, 0x010, 0x020, 0x040, 0x100, 0x200], answer.step &&& bit = if leavesOut m bit then o.step &&& bit else 0) ∧
      (∀ bit ∈ [0x80, 0x1000, 0x2000, 0x4000, 0x8000, 0x10000, 0x20000, 0x40000, 0x80000], answer.step &&& bit = 0) ∧
      (answer.step &&& 0x100000 = if m.needsLeadingSpace then o.step &&& 0x100000 else 0) ∧
      (∀ bit ∈ [0x400, 0x800], answer.step &&& bit = o.step &&& bit) := by
  refine ⟨m.choose o, ?_, ?_, ?_, ?_, ?_, ?_, ?_⟩
  · show written (Client.receive order (new n .ready) (.negotiate o) [⟨[], .continue_⟩] (some (m.choose o)) (some [])).log = _
    have hd : Spec.Client.decide [⟨[], .continue_⟩] = .continue_ := LibMilter.decide_one ⟨[], .continue_⟩ (by decide)
    have wr : ∀ (t : State) (p : Bytes), t.link = .ready → t.buffered = [] → written (writePacket t p).2.log = written t.log ++ p := by
      intro t p h1 h2
      have := (writePacket_ready h1 (fun _ => h2) p).2.1
      rw [this, h2, List.append_nil]
    have enc : (encodeReplies order [] [.negotiate (m.choose o) (some [])]).flatten =
        pack ([] ++ (Enc.negotiateContent (some (m.choose o)) ++ Enc.macrosRequests order [])) := List.append_nil _
    rw [LibMilter.negotiate_eq order _ o _ _ (some []) (by rw [hd]; decide), hd, enc, LibMilter.ran_one]
    exact wr _ _ rfl rfl
  · unfold Class.choose
    dsimp only
    show (removeStep _ _).version = _
    show Opt.version (if _ then _ else _) = _
    simp only [step_version]
  · unfold Class.choose
    dsimp only
    show (removeStep _ _).action = _
    show Opt.action (if _ then _ else _) = _
    simp only [step_action]
  · intro bit hbit
    simp only [List.mem_cons, List.not_mem_nil, or_false] at hbit
    unfold Class.choose
    dsimp only
    rcases hbit with rfl | rfl | rfl | rfl | rfl | rfl | rfl | rfl | rfl
    case inl =>
      show _ = if m.connect.isNone then _ else _
      refine (keep_mask _ _ _ (by decide)).trans ?_
      repeat refine (keep_bit _ _ _ _ (by decide)).trans ?_
      refine (drop_bit _ _ _ _ (by decide)).trans ?_
      cases m.connect
      · rfl
      · rfl
    case inr.inl =>
      show _ = if m.helo.isNone then _ else _
      refine (keep_mask _ _ _ (by decide)).trans ?_
      repeat refine (keep_bit _ _ _ _ (by decide)).trans ?_
      refine (drop_bit _ _ _ _ (by decide)).trans ?_
      cases m.helo
      · show _ &&& _ = _
        repeat refine (keep_bit _ _ _ _ (by decide)).trans ?_
        rfl
      · rfl
    case inr.inr.inl =>
      show _ = if m.envelopeFrom.isNone then _ else _
      refine (keep_mask _ _ _ (by decide)).trans ?_
      repeat refine (keep_bit _ _ _ _ (by decide)).trans ?_
      refine (drop_bit _ _ _ _ (by decide)).trans ?_
      cases m.envelopeFrom
      · show _ &&& _ = _
        repeat refine (keep_bit _ _ _ _ (by decide)).trans ?_
        rfl
      · rfl
    case inr.inr.inr.inl =>
      show _ = if m.envelopeRecipient.isNone then _ else _
      refine (keep_mask _ _ _ (by decide)).trans ?_
      repeat refine (keep_bit _ _ _ _ (by decide)).trans ?_
      refine (drop_bit _ _ _ _ (by decide)).trans ?_
      cases m.envelopeRecipient
      · show _ &&& _ = _
        repeat refine (keep_bit _ _ _ _ (by decide)).trans ?_
        rfl
      · rfl
    case inr.inr.inr.inr.inl =>
      show _ = if m.body.isNone then _ else _
      refine (keep_mask _ _ _ (by decide)).trans ?_
      repeat refine (keep_bit _ _ _ _ (by decide)).trans ?_
      refine (drop_bit _ _ _ _ (by decide)).trans ?_
      cases m.body
      · show _ &&& _ = _
        repeat refine (keep_bit _ _ _ _ (by decide)).trans ?_
        rfl
      · rfl
    case inr.inr.inr.inr.inr.inl =>
      show _ = if m.header.isNone then _ else _
      refine (keep_mask _ _ _ (by decide)).trans ?_
      repeat refine (keep_bit _ _ _ _ (by decide)).trans ?_
      refine (drop_bit _ _ _ _ (by decide)).trans ?_
      cases m.header
      · show _ &&& _ = _
        repeat refine (keep_bit _ _ _ _ (by decide)).trans ?_
        rfl
      · rfl
    case inr.inr.inr.inr.inr.inr.inl =>
      show _ = if m.endOfHeader.isNone then _ else _
      refine (keep_mask _ _ _ (by decide)).trans ?_
      repeat refine (keep_bit _ _ _ _ (by decide)).trans ?_
      refine (drop_bit _ _ _ _ (by decide)).trans ?_
      cases m.endOfHeader
      · show _ &&& _ = _
        repeat refine (keep_bit _ _ _ _ (by decide)).trans ?_
        rfl
      · rfl
    case inr.inr.inr.inr.inr.inr.inr.inl =>
      show _ = if m.unknown.isNone then _ else _
      refine (keep_mask _ _ _ (by decide)).trans ?_
      repeat refine (keep_bit _ _ _ _ (by decide)).trans ?_
      refine (drop_bit _ _ _ _ (by decide)).trans ?_
      cases m.unknown
      · show _ &&& _ = _
        repeat refine (keep_bit _ _ _ _ (by decide)).trans ?_
        rfl
      · rfl
    case inr.inr.inr.inr.inr.inr.inr.inr =>
      show _ = if m.data.isNone then _ else _
      refine (keep_mask _ _ _ (by decide)).trans ?_
      repeat refine (keep_bit _ _ _ _ (by decide)).trans ?_
      refine (drop_bit _ _ _ _ (by decide)).trans ?_
      cases m.data
      · show _ &&& _ = _
        repeat refine (keep_bit _ _ _ _ (by decide)).trans ?_
        rfl
      · rfl
  · intro bit hbit
    simp only [List.mem_cons, List.not_mem_nil, or_false] at hbit
    rcases hbit with rfl | rfl | rfl | rfl | rfl | rfl | rfl | rfl | rfl <;> exact drop_mask _ _ _ (by decide)
  · unfold Class.choose
    dsimp only
    refine (keep_mask _ _ _ (by decide)).trans ?_
    refine (drop_bit _ _ _ _ (by decide)).trans ?_
    cases m.needsLeadingSpace
    · rfl
    · show _ &&& _ = _
      repeat refine (keep_bit _ _ _ _ (by decide)).trans ?_
      rfl
  · intro bit hbit
    simp only [List.mem_cons, List.not_mem_nil, or_false] at hbit
    unfold Class.choose
    dsimp only
    rcases hbit with rfl | rfl
    all_goals
      refine (keep_mask _ _ _ (by decide)).trans ?_
      repeat refine (keep_bit _ _ _ _ (by decide)).trans ?_
      rfl

/-- what the milter above asks for -/
example : written (receive id (.name .accept false) (watcher.object id) (.start (watcher.object id) (new 0 .ready)) (.negotiate ⟨6, 0x1ff, 0x1fffff⟩)).context.log =
    pack (0x4f :: ([0, 0, 0, 6] ++ [0, 0, 1, 0xff] ++ [0, 0, 0x0f, 0x66])) := by
  decide +kernel

/-! ## C107: several milters as one -/

/-- who is called by `applySessions` -/
theorem applySessions_who (order : Requests → Requests) (what : Callback) (l : List (Class σ × σ)) (hk : ∀ c ∈ l, Keeps simple c.1) :
    ∀ (who : Nat) (s : State) (v resolved : Option Value), (what = .finished ∨ Clean v ∧ ∃ ds, Resolved ds v resolved) →
    let r := applySessions order what who l s v resolved
    let all := (((l.map (·.1)).zipIdx who).filter fun m => (m.1.callback what).isSome).map (·.2)
    r.parts.map (·.who) <+: all ∧ (r.parts.map (·.who) = all ∨ ∃ p, r.parts.getLast? = some p ∧ p.raised = true) ∧ (∀ p ∈ r.parts.dropLast, p.raised = false) := by
  induction l with
  | nil => intro who s v resolved _; exact ⟨⟨[], rfl⟩, .inl rfl, fun _ h => nomatch h⟩
  | cons c l ih =>
    intro who s v resolved h
    obtain ⟨c, x⟩ := c
    have ih := ih fun y hy => hk y (List.mem_cons_of_mem _ hy)
    unfold applySessions
    dsimp only
    rw [List.map_cons, List.zipIdx_cons]
    cases hp : c.callback what with
    | none =>
      dsimp only
      rw [List.filter_cons_of_neg (by rw [hp]; exact fun h => nomatch h)]
      exact ih (who + 1) s v resolved h
    | some p =>
      dsimp only
      rw [List.filter_cons_of_pos (by rw [hp]; rfl), List.map_cons]
      have honly := hk (c, x) List.mem_cons_self what p hp
      have hdid := exec_only order c.reset p honly s v x
      have hstatus := exec_status order c.reset p s v x
      have hclean := fun hv => exec_clean order c.reset p honly s (v := v) hv x
      generalize p.exec order c.reset s v x = e at *
      cases hr : e.raised with
      | true =>
        rw [if_pos rfl]
        exact ⟨⟨_, rfl⟩, .inr ⟨_, rfl, rfl⟩, fun _ h => nomatch h⟩
      | false =>
        rw [if_neg (fun h => nomatch h)]
        have hres : ∃ r, (if what = .finished then some (e.status.getD (.constant .default)) else resolveStatus resolved (e.status.getD (.constant .default))) = some r ∧
            (what = .finished ∨ Clean e.status ∧ ∃ ds, Resolved ds e.status (some r)) := by
          rcases h with h | ⟨hv, ds, h⟩
          · rw [if_pos h]
            exact ⟨_, rfl, .inl h⟩
          · by_cases hw : what = .finished
            · rw [if_pos hw]
              exact ⟨_, rfl, .inl hw⟩
            · rw [if_neg hw]
              rw [decidedFrom_simple e.did hdid] at hstatus
              obtain ⟨r, h1, h2⟩ := resolve_one h (decided e.did) e.status (hclean hv) hstatus (fun t ht => by
                rw [ht] at hstatus
                cases hs : e.status with
                | none => rw [hs] at hstatus; cases hstatus
                | some w =>
                  rw [hs] at hstatus
                  have : w.toStatus = t := Option.some.inj hstatus
                  rw [← this]
                  exact (hclean hv w hs).2)
              exact ⟨r, h1, .inr ⟨hclean hv, _, h2⟩⟩
        obtain ⟨r, h1, h2⟩ := hres
        rw [h1]
        dsimp only
        obtain ⟨⟨rest, i1⟩, i2, i3⟩ := ih (who + 1) e.context e.status (some r) h2
        generalize applySessions order what (who + 1) l e.context e.status (some r) = t at *
        refine ⟨⟨rest, ?_⟩, ?_, ?_⟩
        · rw [List.map_cons, ← i1]; rfl
        · rcases i2 with i2 | ⟨q, i2, i4⟩
          · exact .inl (by rw [List.map_cons, i2])
          · refine .inr ⟨q, ?_, i4⟩
            cases ht : t.parts with
            | nil => rw [ht] at i2; cases i2
            | cons a b => rw [ht] at i2; exact i2
        · intro q hq
          cases ht : t.parts with
          | nil => rw [ht] at hq; cases hq
          | cons a b =>
            rw [ht] at hq i3
            rcases List.mem_cons.mp (show q ∈ (⟨who, e.did, false⟩ : Part) :: (a :: b).dropLast from hq) with rfl | hq
            · rfl
            · exact i3 q hq

theorem composite_called (order : Requests → Requests) (ms : List (Class σ)) (hm : ∀ m ∈ ms, Keeps simple m) (what : Callback) (s : State) (owns : List σ)
    (hl : owns.length = ms.length) (g : State → Option Value → List σ → Outcome (List σ)) (hg : (composite order ms).callback what = some g) :
    (g s none owns).parts.map (·.who) <+: (ms.zipIdx.filter fun m => (m.1.callback what).isSome).map (·.2) ∧
      ((g s none owns).parts.map (·.who) = (ms.zipIdx.filter fun m => (m.1.callback what).isSome).map (·.2) ∨
        ∃ p, (g s none owns).parts.getLast? = some p ∧ p.raised = true) ∧ ∀ p ∈ (g s none owns).parts.dropLast, p.raised = false := by
  cases hg
  have := applySessions_who order what (ms.zip owns) (fun c h => hm _ (List.of_mem_zip h).1) 0 s none none
    (.inr ⟨(fun _ h => nomatch h), [], (fun _ h => nomatch h), rfl, rfl⟩)
  rw [List.map_fst_zip (by omega)] at this
  dsimp only
  split <;> exact this

theorem applySessions_length (order : Requests → Requests) (what : Callback) (l : List (Class σ × σ)) : ∀ (who : Nat) (s : State) (v resolved : Option Value),
    (applySessions order what who l s v resolved).own.length = l.length := by
  induction l with
  | nil => intros; rfl
  | cons c l ih =>
    intro who s v resolved
    obtain ⟨c, x⟩ := c
    unfold applySessions
    dsimp only
    split
    · exact congrArg (· + 1) (ih ..)
    · split
      · exact congrArg (· + 1) (List.length_map ..)
      · split
        · exact congrArg (· + 1) (List.length_map ..)
        · exact congrArg (· + 1) (ih ..)

theorem composite_length (order : Requests → Requests) (ms : List (Class σ)) (what : Callback) (s : State) (v : Option Value) (owns : List σ)
    (hl : owns.length = ms.length) (g : State → Option Value → List σ → Outcome (List σ)) (hg : (composite order ms).callback what = some g) :
    (g s v owns).own.length = ms.length := by
  cases hg
  have := applySessions_length order what (ms.zip owns) 0 s v none
  rw [List.length_zip, hl, Nat.min_self] at this
  dsimp only
  split <;> exact this

theorem received_length (order : Requests → Requests) (fallback : Value) (ms : List (Class σ)) (x : Session (List σ)) (hl : x.own.length = ms.length) (c : Cmd)
    (hq : c ≠ .quit) : (receive order fallback (composite order ms) x c).own.length = ms.length := by
  rw [receive_eq order fallback (composite order ms) x c hq]
  cases c with
  | negotiate o => exact hl
  | defineMacro a b => exact hl
  | quit => exact absurd rfl hq
  | abort => exact composite_length order ms _ _ _ _ hl _ rfl
  | _ => exact composite_length order ms _ _ _ _ hl _ rfl

theorem run_length (order : Requests → Requests) (fallback : Value) (ms : List (Class σ)) (cmds : List Cmd) : ∀ x : Session (List σ), x.own.length = ms.length →
    Cmd.quit ∉ cmds → (run order fallback (composite order ms) x cmds).own.length = ms.length := by
  induction cmds with
  | nil => exact fun _ h _ => h
  | cons c cmds ih =>
    intro x h hq
    exact ih _ (received_length order fallback ms x h c (fun e => hq (e ▸ List.mem_cons_self))) (fun e => hq (List.mem_cons_of_mem _ e))

/-- **C107**: several milters as one.  For each command each of the milters that has the callback for it is called once, in order, with what the MTA sent, until one raises.  The MTA
reads one answer: the one for the most severe of the decisions of the milters (discard, reject, temporary failure, continue, skip, accept: C13), or the fallback status if one raised; at the end of a message first the
modifications they all made, in order.
Missing: statuses written with dashes (`C107_name_violated`), statuses that are no decisions.  The custom reply may be that of another milter than the one whose decision counts: `C107_reply_violated`. -/
theorem C107_partial (order : Requests → Requests) (fallback : Value) (hfb : fallback.toStatus ≠ .progress) (ms : List (Class σ)) (hm : ∀ m ∈ ms, Keeps simple m) (n : Nat) (l : Link)
    (cmds : List Cmd) (hq : Cmd.quit ∉ cmds) (x : Session (List σ)) (hx : x = run order fallback (composite order ms) (.start (composite order ms) (new n l)) cmds)
    (hl : x.context.link = .ready) (c : Cmd) (hc : ∀ o, c ≠ .negotiate o) (hc' : c ≠ .quit) (x' : Session (List σ)) (hx' : x' = receive order fallback (composite order ms) x c) :
    ∃ said, x'.seen = x.seen ++ said ∧ AllCalled ms c said ∧ ∃ d, (expectsReply c = true → Decides fallback.toStatus said d) ∧
      ((expectsReply c = true → hasReply d = true) →
        ∃ read, Fits (negotiated x.context.log) (customAfter none (doings x'.seen)) c (doings said) d read ∧
          written x'.context.log = written x.context.log ++ (encodeReplies order [] read).flatten) := by
  have hg : Good x := by
    rw [hx]
    exact (Good.start (composite order ms) n l).run (fun _ h => h.2) hfb (composite_honest order none fallback hfb ms hm) cmds hq
  have hlen : x.own.length = ms.length := by
    rw [hx]
    exact run_length order fallback ms cmds _ (List.length_map _) hq
  rw [hx']
  obtain ⟨said, h1, h2⟩ := hg.read hfb (composite_honest order _ fallback hfb ms hm) hl c hc hc'
  refine ⟨said, h1, ?_, h2⟩
  rw [receive_eq order fallback (composite order ms) x c hc'] at h1
  have hsaid : (handle fallback (composite order ms) x c).seen = said := List.append_cancel_left h1
  rw [← hsaid]
  have key : ∀ s what, ∃ parts, (one fallback (composite order ms) x s what).seen = [⟨what, parts⟩] ∧
      parts.map (·.who) <+: (ms.zipIdx.filter fun m => (m.1.callback what).isSome).map (·.2) ∧
      (parts.map (·.who) = (ms.zipIdx.filter fun m => (m.1.callback what).isSome).map (·.2) ∨
        ∃ p, parts.getLast? = some p ∧ p.raised = true) ∧ ∀ p ∈ parts.dropLast, p.raised = false := by
    intro s what
    refine ⟨_, rfl, ?_⟩
    have := composite_called order ms hm what s x.own hlen _ rfl
    rw [hg.status]
    exact this
  cases c with
  | negotiate o => exact absurd rfl (hc o)
  | defineMacro a b => exact rfl
  | quit => exact absurd rfl hc'
  | abort =>
    have := composite_called order ms hm (.abort x.context.st) (aborting x.context) x.own hlen _ rfl
    refine ⟨x.context.st, _, rfl, ?_⟩
    rw [hg.status]
    exact this
  | _ => exact key _ _

/-- two milters, and the hypotheses of C107 -/
example :
    let ms : List (Class Unit) := [
      { start := (), reset := id, helo := some fun _ => .act .accept fun _ => .done, envelopeFrom := some fun _ => .act .continue_ fun _ => .done },
      { start := (), reset := id, envelopeFrom := some fun _ => .act (.reject {}) fun _ => .done },
      { start := (), reset := id, helo := some fun _ => .act .continue_ fun _ => .done, envelopeFrom := some fun _ => .act (.temporaryFailure {}) fun _ => .done }]
    (∀ m ∈ ms, Keeps simple m) ∧
    let m := composite id ms
    let x := run id (.name .accept false) m (.start m (new 0 .ready)) [.negotiate ⟨6, 0x1ff, 0⟩]
    x.context.link = .ready ∧
    written (run id (.name .accept false) m x [.helo (ascii "h"), .envelopeFrom (ascii "<a@b>"), .data]).context.log =
      written x.context.log ++ pack [0x63] ++ pack [0x72] ++ pack [0x63] ∧
    ((run id (.name .accept false) m x [.helo (ascii "h"), .envelopeFrom (ascii "<a@b>"), .data]).seen.map fun s => s.parts.map (·.who)) = [[0, 2], [0, 1, 2], []] := by
  refine ⟨?_, by decide +kernel⟩
  intro m hm what p hp
  simp only [List.mem_cons, List.not_mem_nil, or_false] at hm
  rcases hm with rfl | rfl | rfl <;> cases what <;> first | (cases hp; done) | (cases hp; exact ⟨rfl, fun _ => True.intro⟩)

/-- **C105 is violated** by several milters as one: there is no `reset` in an abort, so what each of them keeps of the message is there in the next. -/
theorem C105_composite_violated :
    let m := composite id [watcher]
    let x := run id (.name .accept false) m (.start m (new 0 .ready)) [.envelopeFrom (ascii "<a@b>"), .envelopeRecipient (ascii "<c@d>"), .abort, .envelopeFrom (ascii "<a@b>")]
    x.own = [[ascii "<c@d>"]] := by
  decide +kernel

/-- **C107 is violated** by a status written with a dash, which a single milter may use: with several as one an exception is raised, and the fallback status is to accept, although both want to put off. -/
theorem C107_name_violated :
    let a : Class Unit := { start := (), reset := id, envelopeFrom := some fun _ => .act (.status (some (.name .temporaryFailure true))) fun _ => .done }
    let single := a.object id
    let both := composite id [a, a]
    written (run id (.name .accept false) single (.start single (new 0 .ready)) [.envelopeFrom (ascii "<a@b>")]).context.log = pack [0x74] ∧
    written (run id (.name .accept false) both (.start both (new 0 .ready)) [.envelopeFrom (ascii "<a@b>")]).context.log = pack [0x61] := by
  decide +kernel

/-- **C107 is violated** by replies: one milter rejects a recipient, another puts it off with a text of its own.  The recipient is rejected, but the MTA reads the text, with the code, of the other: to
try again. -/
theorem C107_reply_violated :
    let a : Class Unit := { start := (), reset := id, envelopeRecipient := some fun _ => .act (.reject {}) fun _ => .done }
    let b : Class Unit := { start := (), reset := id, envelopeRecipient := some fun _ => .act (.temporaryFailure { reason := some (ascii "later") }) fun _ => .done }
    let m := composite id [a, b]
    written (run id (.name .accept false) m (.start m (new 0 .ready)) [.envelopeRecipient (ascii "<a@b>")]).context.log = pack (0x79 :: (ascii "451 4.7.1 later" ++ [0])) := by
  decide +kernel

/-- **C107 is violated** by the negotiation: a milter that needs header values with their leading space does not get them if another does not need them. -/
theorem C107_leading_space_violated :
    let a : Class Unit := { start := (), reset := id, needsLeadingSpace := true, header := some fun _ _ => .done }
    let b : Class Unit := { start := (), reset := id }
    (a.object id).choose ⟨6, 0, 0x100000⟩ = ⟨6, 0, 0x100000⟩ ∧ (composite id [a, b]).choose ⟨6, 0, 0x100000⟩ = ⟨6, 0, 0⟩ := by
  decide +kernel

end Verif.Props.Ruby
