import Verif.Client.LibMilterFacts
import Verif.Props.Client
import Verif.Props.Logger
/-
C67–C71: the library with the interface of Sendmail's libmilter.
-/
namespace Verif.Props
open Verif Verif.LibMilter Verif.Spec.LibMilter Verif.Client Verif.Spec.Client
open Verif.Enc (encodeReplies pack)

namespace LibMilter

/-- a session of a filter from its start -/
def session (order : Requests → Requests) (f : Filter) (n : Nat) (l : Link) (events : List Verif.LibMilter.Event) : Session :=
  Verif.LibMilter.run order f (.start (new n l)) events

/-! ## C67: which callbacks are called -/

/-- **C67**: for commands in the order of SMTP, the callbacks are called which are due for each command, in order, with its arguments, and no others.
Missing: filters with `xxfi_body` but without `xxfi_eom`, and `xxfi_negotiate` with its context; commands not in order. -/
theorem C67_partial (order : Requests → Requests) (f : Filter) (hu : LeavesContext f) (hb : f.eom.isSome = true ∨ f.body = none) (n : Nat) (l : Link)
    (cmds : List Cmd) (ho : orderly false cmds = true) :
    ∃ groups, AllDue f false cmds groups ∧ (session order f n l (cmds.map .command)).seen = groups.flatten := by
  obtain ⟨groups, h1, h2⟩ := run_due order f hu hb cmds (.start (new n l)) rfl ho
  exact ⟨groups, h1, h2⟩

theorem bodyGiven_due {f : Filter} (hb : f.body.isSome = true) {begun : Bool} {c : Cmd} {said : List Said} (h : Due f begun c said) :
    said.flatMap (fun x => bodyGiven x.what) = bodyPart c := by
  have key : ∀ {l : List Callback}, said.map (·.what) = l → said.flatMap (fun x => bodyGiven x.what) = l.flatMap bodyGiven := by
    intro l hl
    rw [← hl, List.flatMap_map]
  cases c with
  | body chunk =>
    have h : said.map (·.what) = if f.body.isSome = true then [Callback.body chunk] else [] := h
    rw [if_pos hb] at h
    rw [key h]
    exact List.append_nil _
  | endOfMessage chunk =>
    cases chunk with
    | nil =>
      have h : said.map (·.what) = if f.eom.isSome = true then [Callback.eom] else [] := h
      rw [key h]
      split <;> rfl
    | cons a t =>
      have h : said.map (·.what) = (if f.body.isSome = true then [Callback.body (a :: t)] else []) ++
        if said.any (fun x => x.what = Callback.body (a :: t) ∧ x.returned ∈ [(1 : Int), 2, 3, 4]) = true then [] else
          if f.eom.isSome = true then [Callback.eom] else [] := h
      rw [if_pos hb] at h
      rw [key h, List.flatMap_append]
      have : (if said.any (fun x => x.what = Callback.body (a :: t) ∧ x.returned ∈ [(1 : Int), 2, 3, 4]) = true then [] else
          if f.eom.isSome = true then [Callback.eom] else []).flatMap bodyGiven = [] := by
        split
        · rfl
        · split <;> rfl
      rw [this, List.append_nil]
      exact List.append_nil _
  | negotiate o => rw [key h]; dsimp only; split <;> rfl
  | connect x y => rw [key h]; dsimp only; split <;> rfl
  | helo x => rw [key h]; dsimp only; split <;> rfl
  | envelopeFrom x => rw [key h]; dsimp only; split <;> rfl
  | envelopeRecipient x => rw [key h]; dsimp only; split <;> rfl
  | data => rw [key h]; dsimp only; split <;> rfl
  | unknown x => rw [key h]; dsimp only; split <;> rfl
  | header x y => rw [key h]; dsimp only; split <;> rfl
  | endOfHeader => rw [key h]; dsimp only; split <;> rfl
  | abort =>
    rw [key h]
    cases begun with
    | true => dsimp only; rw [if_pos rfl]; split <;> rfl
    | false => rfl
  | quit => rw [key h]; dsimp only; split <;> rfl
  | defineMacro x t => rw [key h]; rfl

/-- **C67**, the body: a filter with `xxfi_body` and `xxfi_eom` gets the whole body and nothing else, in order. -/
theorem C67_body_partial (order : Requests → Requests) (f : Filter) (hu : LeavesContext f) (hb : f.body.isSome = true) (he : f.eom.isSome = true)
    (n : Nat) (l : Link) (cmds : List Cmd) (ho : orderly false cmds = true) :
    (session order f n l (cmds.map .command)).seen.flatMap (fun x => bodyGiven x.what) = cmds.flatMap bodyPart := by
  obtain ⟨groups, h1, h2⟩ := C67_partial order f hu (.inl he) n l cmds ho
  rw [h2]
  clear h2 ho
  generalize false = b at h1
  induction h1 with
  | nil => rfl
  | cons begun c cs group groups h1 _ ih => rw [List.flatten_cons, List.flatMap_append, List.flatMap_cons, bodyGiven_due hb h1, ih]

theorem one_open (order : Requests → Requests) (priv : Option Nat) (s : State) (what : Callback) (p : Option Prog) (hw : what ≠ .close) :
    ∀ x ∈ (one order s priv what p).seen, x.what ≠ .close := by
  intro x hx
  cases p with
  | none => cases hx
  | some g => rw [List.mem_singleton.mp hx]; exact hw

theorem endOfMessage_open (order : Requests → Requests) (f : Filter) (s : State) (priv : Option Nat) (chunk : Bytes) :
    ∀ x ∈ (endOfMessage order f s priv chunk).seen, x.what ≠ .close := by
  unfold endOfMessage
  cases f.eom with
  | none => intro x hx; cases hx
  | some eom =>
    dsimp only
    cases f.body with
    | none => exact one_open order priv _ _ _ (fun h => nomatch h)
    | some body =>
      dsimp only
      split
      · exact one_open order priv _ _ _ (fun h => nomatch h)
      · split
        · intro x hx; rw [List.mem_singleton.mp hx]; exact fun h => nomatch h
        · intro x hx
          rcases List.mem_cons.mp hx with rfl | hx
          · exact fun h => nomatch h
          · rw [List.mem_singleton.mp hx]; exact fun h => nomatch h

theorem handle_open (order : Requests → Requests) (f : Filter) (s : State) (priv : Option Nat) (c : Cmd) :
    ∀ x ∈ (handle order f s priv c).seen, x.what ≠ .close := by
  cases c with
  | negotiate off =>
    intro x hx
    unfold handle at hx
    dsimp only at hx
    cases hn : f.negotiate with
    | none => rw [hn] at hx; cases hx
    | some g =>
      rw [hn] at hx
      dsimp only at hx
      split at hx
      · rcases List.mem_cons.mp hx with rfl | hx
        · exact fun h => nomatch h
        · rw [List.mem_singleton.mp hx]; exact fun h => nomatch h
      · rw [List.mem_singleton.mp hx]; exact fun h => nomatch h
  | defineMacro x t => intro x hx; cases hx
  | quit => intro x hx; cases hx
  | endOfMessage chunk => exact endOfMessage_open order f _ priv chunk
  | abort =>
    unfold handle
    dsimp only
    split
    · exact one_open order priv _ _ _ (fun h => nomatch h)
    · cases f.abort <;> (intro x hx; cases hx)
  | _ => exact one_open order priv _ _ _ (fun h => nomatch h)

/-- the callback for the end of the session, and nothing else, ends the list if the session has ended -/
structure Ended (f : Filter) (ended : Bool) (s : Session) : Prop where
  attached : s.attached = !ended
  seen : ∃ pre last, s.seen = pre ++ last ∧ (∀ x ∈ pre, x.what ≠ .close) ∧
    last.map (·.what) = if ended && f.close.isSome then [.close] else []

theorem Ended.finish {order : Requests → Requests} {f : Filter} {e : Bool} {s : Session} (h : Ended f e s) : Ended f true (finish order f s) := by
  obtain ⟨ha, pre, last, h1, h2, h3⟩ := h
  cases e with
  | true =>
    unfold LibMilter.finish
    rw [if_neg (by rw [ha]; decide)]
    exact ⟨ha, pre, last, h1, h2, h3⟩
  | false =>
    have h3 : last = [] := by simpa using h3
    subst h3
    unfold LibMilter.finish
    rw [if_pos (show s.attached = true from ha)]
    cases hc : f.close with
    | none => exact ⟨rfl, pre, [], h1, h2, by rw [hc]; rfl⟩
    | some p => exact ⟨rfl, pre, [_], by rw [h1, List.append_nil], h2, by rw [hc]; rfl⟩

/-- the events that end a session for certain -/
def ends : Verif.LibMilter.Event → Bool
  | .command .quit | .hangUp => true
  | _ => false

theorem Ended.step {order : Requests → Requests} {f : Filter} {e : Bool} {s : Session} (h : Ended f e s) (ev : Verif.LibMilter.Event) :
    ∃ e', Ended f e' (LibMilter.step order f s ev) ∧ (e = true → e' = true) ∧ (ends ev = true → e' = true) ∧
      (e' = true → e = true ∨ ends ev = true ∨ ev = .timeout) := by
  cases ev with
  | timeout =>
    show ∃ e', Ended f e' (if s.context.timer = true then _ else s) ∧ _
    split
    · exact ⟨true, Ended.finish ⟨h.attached, h.seen⟩, fun _ => rfl, fun _ => rfl, fun _ => .inr (.inr rfl)⟩
    · exact ⟨e, h, id, (fun h => nomatch h), .inl⟩
  | hangUp => exact ⟨true, Ended.finish ⟨h.attached, h.seen⟩, fun _ => rfl, fun _ => rfl, fun _ => .inr (.inl rfl)⟩
  | close => exact ⟨e, ⟨h.attached, h.seen⟩, id, (fun h => nomatch h), .inl⟩
  | command c =>
    have key : ∀ ctx priv, Ended f e
        ⟨ctx, priv, s.attached, s.seen ++ (if s.attached = true then handle order f s.context s.priv c else { priv := s.priv }).seen⟩ := by
      intro ctx priv
      refine ⟨h.attached, ?_⟩
      obtain ⟨pre, last, h1, h2, h3⟩ := h.seen
      cases e with
      | true =>
        refine ⟨pre, last, ?_, h2, h3⟩
        rw [if_neg (by rw [h.attached]; decide), h1]
        exact List.append_nil _
      | false =>
        have h3 : last = [] := by simpa using h3
        subst h3
        refine ⟨pre ++ (handle order f s.context s.priv c).seen, [], ?_, ?_, rfl⟩
        · rw [if_pos (by rw [h.attached]; rfl), h1, List.append_nil, List.append_nil]
        · intro x hx
          rcases List.mem_append.mp hx with hx | hx
          · exact h2 x hx
          · exact handle_open order f _ _ c x hx
    cases c with
    | quit => exact ⟨true, (key _ _).finish, fun _ => rfl, fun _ => rfl, fun _ => .inr (.inl rfl)⟩
    | _ => exact ⟨e, key _ _, id, (fun h => nomatch h), .inl⟩

theorem Ended.run {order : Requests → Requests} {f : Filter} (events : List Verif.LibMilter.Event) : ∀ {e : Bool} {s : Session}, Ended f e s →
    ∃ e', Ended f e' (LibMilter.run order f s events) ∧ (e = true → e' = true) ∧ ((∃ ev ∈ events, ends ev = true) → e' = true) ∧
      (e' = true → e = true ∨ (∃ ev ∈ events, ends ev = true) ∨ .timeout ∈ events) := by
  induction events with
  | nil => intro e s h; exact ⟨e, h, id, (fun ⟨_, h, _⟩ => nomatch h), .inl⟩
  | cons ev events ih =>
    intro e s h
    obtain ⟨e1, h1, h2, h3, h4⟩ := h.step (order := order) ev
    obtain ⟨e2, i1, i2, i3, i4⟩ := ih h1
    refine ⟨e2, i1, fun h => i2 (h2 h), fun ⟨x, hx, hx'⟩ => ?_, fun h => ?_⟩
    · rcases List.mem_cons.mp hx with rfl | hx
      · exact i2 (h3 hx')
      · exact i3 ⟨x, hx, hx'⟩
    · rcases i4 h with h | ⟨x, hx, hx'⟩ | h
      · rcases h4 h with h | h | h
        · exact .inl h
        · exact .inr (.inl ⟨ev, List.mem_cons_self, h⟩)
        · exact .inr (.inr (h ▸ List.mem_cons_self))
      · exact .inr (.inl ⟨x, List.mem_cons_of_mem _ hx, hx'⟩)
      · exact .inr (.inr (List.mem_cons_of_mem _ h))

/-- **C67**, the end: whatever happens in a session, after `xxfi_close` no callback is called any more; it is called if the MTA quits or hangs up, and only
then or when the MTA has said nothing for too long. -/
theorem C67_close (order : Requests → Requests) (f : Filter) (hf : f.close.isSome = true) (n : Nat) (l : Link) (events : List Verif.LibMilter.Event) :
    (∀ before x after, (session order f n l events).seen = before ++ x :: after → x.what = .close → after = []) ∧
    (.command .quit ∈ events ∨ .hangUp ∈ events → ∃ x ∈ (session order f n l events).seen, x.what = .close) ∧
    ((∃ x ∈ (session order f n l events).seen, x.what = .close) → .command .quit ∈ events ∨ .hangUp ∈ events ∨ .timeout ∈ events) := by
  have h0 : Ended f false (.start (new n l)) := ⟨rfl, [], [], rfl, (fun _ h => nomatch h), rfl⟩
  obtain ⟨e, ⟨_, pre, last, h1, h2, h3⟩, _, h4, h5⟩ := h0.run (order := order) events
  have h1 : (session order f n l events).seen = pre ++ last := h1
  rw [h1]
  have hends : (∃ ev ∈ events, ends ev = true) ↔ (.command .quit ∈ events ∨ .hangUp ∈ events) := by
    constructor
    · rintro ⟨ev, h, h'⟩
      cases ev with
      | command c => cases c <;> first | (cases h'; done) | exact .inl h
      | hangUp => exact .inr h
      | _ => cases h'
    · rintro (h | h)
      · exact ⟨_, h, rfl⟩
      · exact ⟨_, h, rfl⟩
  cases e with
  | false =>
    have h3 : last = [] := by simpa using h3
    subst h3
    rw [List.append_nil]
    refine ⟨fun before x after he hx => ?_, fun h => (nomatch h4 (hends.mpr h)), fun ⟨x, hx, hx'⟩ => absurd hx' (h2 x hx)⟩
    exact absurd hx (h2 x (he ▸ List.mem_append_right _ List.mem_cons_self))
  | true =>
    rw [hf] at h3
    obtain ⟨y, rfl⟩ : ∃ y, last = [y] := by
      cases last with
      | nil => cases h3
      | cons y t =>
        cases t with
        | nil => exact ⟨y, rfl⟩
        | cons z t => simp at h3
    have hy : y.what = .close := by simpa using h3
    refine ⟨fun before x after he hx => ?_, fun _ => ⟨y, List.mem_append_right _ List.mem_cons_self, hy⟩, fun _ => ?_⟩
    · cases after with
      | nil => rfl
      | cons z t =>
        exfalso
        have hm : before ++ [x] ++ (z :: t).dropLast = pre := by
          have := congrArg List.dropLast he
          rw [List.dropLast_concat, List.dropLast_append_cons, List.dropLast_cons_cons] at this
          rw [this, List.append_assoc]
          rfl
        exact h2 x (hm ▸ List.mem_append_left _ (List.mem_append_right _ List.mem_cons_self)) hx
    · rcases h5 rfl with h | h | h
      · cases h
      · rcases hends.mp h with h | h
        · exact .inl h
        · exact .inr (.inl h)
      · exact .inr (.inr h)

/-- a filter that looks at everything -/
def watcher : Filter where
  connect := some fun _ _ => .done 0
  helo := some fun _ => .done 0
  envfrom := some fun _ => .getPriv fun p => .setPriv (p.map (· + 1)) (.done 0)
  envrcpt := some fun _ => .symbol (ascii "i") fun _ => .done 0
  header := some fun _ _ => .done 0
  body := some fun _ => .done 0
  eom := some (.ask (.addHeader (some (ascii "X")) (some (ascii "v"))) fun ok => .done (if ok then 3 else 0))
  abort := some (.done 0)
  close := some (.done 0)

/-- a message and an aborted one -/
def commands : List Cmd :=
  [.negotiate ⟨6, 0x1ff, 0⟩, .connect (ascii "h") .unspec, .envelopeFrom (ascii "<a@b>"), .envelopeRecipient (ascii "<c@d>"), .header (ascii "S") (ascii "x"),
   .body (ascii "one"), .endOfMessage (ascii "two"), .envelopeFrom (ascii "<e@f>"), .abort, .abort, .quit]

example : orderly false commands = true ∧ LeavesContext watcher ∧ watcher.eom.isSome = true ∧ watcher.close.isSome = true ∧
    (session id watcher 0 .ready (commands.map .command)).seen.map (·.what) =
      [.connect (ascii "h") .unspec, .envfrom [ascii "<a@b>"], .envrcpt [ascii "<c@d>"], .header (ascii "S") (ascii "x"), .body (ascii "one"),
       .body (ascii "two"), .eom, .envfrom [ascii "<e@f>"], .abort, .close] := by
  refine ⟨by decide, (fun g h => nomatch h), rfl, rfl, by decide +kernel⟩

/-- **C67 is violated** for a filter with `xxfi_body` and without `xxfi_eom`: it does not get what comes with the end of the message. -/
theorem C67_last_chunk_violated :
    let f : Filter := { body := some fun _ => .done 0 }
    (session id f 0 .ready ([.envelopeFrom (ascii "<a@b>"), .envelopeRecipient (ascii "<c@d>"), .endOfHeader, .body (ascii "one"), .endOfMessage (ascii "two")].map
      .command)).seen.map (·.what) = [.body (ascii "one")] := by
  decide +kernel

/-- **C67 is violated**: `xxfi_abort` is called without a message, after a command the MTA does not know. -/
theorem C67_abort_unknown_violated :
    (session id watcher 0 .ready ([.connect (ascii "h") .unspec, .unknown (ascii "FOO"), .abort].map .command)).seen.map (·.what) =
      [.connect (ascii "h") .unspec, .abort] := by
  decide +kernel

/-- **C67 is violated**: `xxfi_abort` is called for a message the filter has already rejected, although it is said not to be (libmilter/mfapi.h:911-917). -/
theorem C67_abort_decided_violated :
    let f : Filter := { watcher with envfrom := some fun _ => .done 1 }
    (session id f 0 .ready ([.envelopeFrom (ascii "<a@b>"), .abort].map .command)).seen.map (fun x => (x.what, x.returned)) =
      [(.envfrom [ascii "<a@b>"], 1), (.abort, 0)] := by
  decide +kernel

/-- **C67 is violated** when the session ends within a message: neither `xxfi_eom` nor `xxfi_abort` is called, so what the filter keeps for the message is not
freed where it should be (libmilter/mfapi.h:919-923). -/
theorem C67_quit_violated :
    (session id watcher 0 .ready [.command (.envelopeFrom (ascii "<a@b>")), .hangUp]).seen.map (·.what) = [.envfrom [ascii "<a@b>"], .close] ∧
    (session id watcher 0 .ready [.command (.envelopeFrom (ascii "<a@b>")), .command .quit]).seen.map (·.what) = [.envfrom [ascii "<a@b>"], .close] := by
  decide +kernel

/-! ## C68: what the MTA reads -/

/-- **C68**: whatever a filter does in its callbacks, the MTA reads for each command exactly what the callbacks called for it said: one answer, the one for the
value returned last, with the custom reply the filter has set last; at the end of a message first the modifications the filter made, in order.  Nothing for macros
and aborts.
Missing: values that are no answer (SMFIS_NOREPLY where it was not negotiated), replies without an enhanced code, recipients with parameters, `xxfi_negotiate`
(C69). -/
theorem C68_partial (order : Requests → Requests) (f : Filter) (hf : Keeps plain f) (_hu : LeavesContext f) (n : Nat) (l : Link) (cmds : List Cmd) (hq : Cmd.quit ∉ cmds)
    (s : Session) (hs : s = session order f n l (cmds.map .command)) (hl : s.context.link = .ready)
    (c : Cmd) (hc : ∀ o, c ≠ .negotiate o) (hc' : c ≠ .quit) (s' : Session) (hs' : s' = Verif.LibMilter.step order f s (.command c)) :
    ∃ said, s'.seen = s.seen ++ said ∧ ((expectsReply c = true → hasReply (decision said) = true) →
      ∃ read, Fits (negotiated s.context.log) (customAfter none (doings s'.seen)) c (doings said) (decision said) read ∧
        written s'.context.log = written s.context.log ++ (encodeReplies order [] read).flatten) := by
  have hg : Good s := by rw [hs]; exact (Good.start n l).run hf cmds hq
  have hk := handle_kind _ order f (Makes.of (order := order) (negotiated s.context.log) hf) s.context s.priv c
  have e : s' = _ := hs'.trans (receive_attached order f hg.attached c hc')
  refine ⟨(handle order f s.context s.priv c).seen, by rw [e], fun hr => ?_⟩
  have hb := hg.calm.settled.empty hg.calm.orderly hg.calm.st
  have h0 : Between order (written s.context.log) (negotiated s.context.log) s.context [] :=
    ⟨⟨hl, fun _ => hb, by rw [bytes_nil, List.append_nil], hb⟩, hg.calm.settled.agrees, hg.calm.legal, hg.calm.coded, hg.calm.st,
      hg.calm.settled.agrees.option⟩
  have hcf : callsFor c (handle order f s.context s.priv c).handlers = doings (handle order f s.context s.priv c).seen := by
    rw [← hk.doings]
    cases c <;> first | rfl | exact absurd rfl hc'
  obtain ⟨read, h1, h2, h3, _⟩ := h0.any c (handle order f s.context s.priv c).handlers
    (given f c) (some []) hc hc' (fun hx => (hk.reply none).2 (hr hx)) hk.answers.1
  rw [hcf, hg.custom, ← customAfter_append, ← doings_append] at h3
  refine ⟨read, ?_, ?_⟩
  · rw [e]
    exact fits_congr (hk.reply _).1 h3
  · rw [e]
    have := h1.sent.out
    rw [List.nil_append, bytes_encode order _ h2] at this
    exact this

/-- a filter that says something at the sender and changes something at the end -/
def speaker : Filter where
  envfrom := some fun _ => .ask (.setReply (ascii "451") (some (ascii "4.7.1")) (some (ascii "later"))) fun _ => .done 0
  envrcpt := some fun _ => .done 4
  eom := some (.ask (.addHeader (some (ascii "X")) (some (ascii "v"))) fun _ => .ask (.quarantine (some (ascii "q"))) fun _ => .done 3)

/-- the hypotheses of C68 and C70, and what is written -/
example : Keeps plain speaker ∧ LeavesContext speaker ∧
    let s := session id speaker 0 .ready ([.negotiate ⟨6, 0x1ff, 0⟩, .envelopeFrom (ascii "<a@b>")].map .command)
    s.context.link = .ready ∧
    written (Verif.LibMilter.step id speaker s (.command (.envelopeRecipient (ascii "<c@d>")))).context.log = written s.context.log ++
      pack (0x79 :: (ascii "451 4.7.1 later" ++ [0])) ∧
    written (Verif.LibMilter.step id speaker s (.command (.endOfMessage []))).context.log = written s.context.log ++
      pack (0x68 :: (ascii "X" ++ 0 :: (ascii "v" ++ [0]))) ++ pack (0x71 :: (ascii "q" ++ [0])) ++ pack [0x61] := by
  refine ⟨?_, (fun g h => nomatch h), by decide +kernel⟩
  constructor
  case envfrom => intro g h a; cases h; exact ⟨rfl, fun _ => True.intro⟩
  case envrcpt => intro g h a; cases h; exact True.intro
  case eom => intro g h; cases h; exact ⟨rfl, fun _ => ⟨rfl, fun _ => True.intro⟩⟩
  all_goals intro g h; cases h

/-! ## C70: what calls of the library return -/

/-- **C70**: in every session with a filter, whatever it does, a call of the library succeeds exactly if it should.
Missing: `smfi_progress` and `smfi_quarantine` (below), `smfi_setsymlist` (C69), replies without an enhanced code and recipients with parameters (C38, C39). -/
theorem C70_partial (order : Requests → Requests) (f : Filter) (hf : Keeps plain f) (_hu : LeavesContext f) (n : Nat) (l : Link) (cmds : List Cmd)
    (hq : Cmd.quit ∉ cmds) (s : Session) (hs : s = session order f n l (cmds.map .command)) (hl : s.context.link = .ready)
    (c : Cmd) (hc' : c ≠ .quit) :
    ∃ said, (Verif.LibMilter.step order f s (.command c)).seen = s.seen ++ said ∧
      ∀ x ∈ said, ∀ m ∈ x.made, Right (negotiated s.context.log) (isEnd c) m.1 m.2 := by
  have hg : Good s := by rw [hs]; exact (Good.start n l).run hf cmds hq
  refine ⟨(handle order f s.context s.priv c).seen, ?_, ?_⟩
  · exact congrArg Session.seen (receive_attached order f hg.attached c hc')
  · rw [← hg.calm.settled.agrees.option]
    exact handle_right order f hf s.context s.priv hl c

/-- a callback that makes some calls and returns -/
def asks (status : Int) : List Request → Prog
  | [] => .done status
  | r :: rs => .ask r fun _ => asks status rs

/-- a filter that tries everything when it gets the sender -/
def trier (status : Int) (rs : List Request) : Filter where
  envfrom := some fun _ => asks status rs

/-- what the calls return to it -/
example :
    let f := trier 0 [.setReply (ascii "451") (some (ascii "4.7.1")) none, .setReply (ascii "451") (some (ascii "5.7.1")) none,
      .setMultiLineReply (ascii "550") (some (ascii "5.7.1")) [ascii "a", ascii "b"],
      .setMultiLineReply (ascii "550") (some (ascii "5.7.1")) [ascii "a", [0x0d]], .addHeader (some (ascii "X")) (some (ascii "v"))]
    (session id f 0 .ready ([.negotiate ⟨6, 0x1ff, 0⟩, .envelopeFrom (ascii "<a@b>")].map .command)).seen.map (fun x => x.made.map (·.2)) =
      [[true, false, true, false, false]] := by
  decide +kernel

/-- **C70**, codes: three digits stand for the number they are. -/
theorem C70_digits (a b c : Fin 10) :
    number [UInt8.ofNat (48 + a.val), UInt8.ofNat (48 + b.val), UInt8.ofNat (48 + c.val)] = 100 * a.val + 10 * b.val + c.val := by
  revert a b c
  decide +kernel

/-- **C70 is violated** by codes that are none: they are accepted for the number they begin with, even if that is too large for an integer. -/
theorem C70_code_violated :
    let f := trier 1 [.setReply (ascii "550x") (some (ascii "5.7.1")) none, .setReply (ascii "4294967846") (some (ascii "5.7.1")) none]
    (session id f 0 .ready ([.envelopeFrom (ascii "<a@b>")].map .command)).seen.map (fun x => x.made.map (·.2)) = [[true, true]] := by
  decide +kernel

/-- **C70 is violated** by `smfi_quarantine`: it succeeds outside the end of a message and without being negotiated. -/
theorem C70_quarantine_violated :
    let f := trier 0 [.quarantine (some (ascii "q"))]
    (session id f 0 .ready ([.negotiate ⟨6, 0, 0⟩, .envelopeFrom (ascii "<a@b>")].map .command)).seen.map (fun x => x.made.map (·.2)) = [[true]] := by
  decide +kernel

/-! ## C69: negotiation -/

/-- **C69**: the first command, the MTA's offer, is answered as the filter says: with the actions and steps it gives, with all that is offered if it wants that or does
not say, or with a refusal.
Missing: other values returned by `xxfi_negotiate`, symbols, and the flags and callbacks of a filter that does not say. -/
theorem C69_partial (order : Requests → Requests) (f : Filter) (n : Nat) (o : Opt) (r : Reply) (hr : answer f o = some r) :
    written (session order f n .ready [.command (.negotiate o)]).context.log = (encodeReplies order [] [r]).flatten := by
  show written (Client.receive order (new n .ready) (.negotiate o) (handle order f (new n .ready) none (.negotiate o)).handlers (some (chosen f o)) (some [])).log = _
  have key : ∀ (handlers : List Handler), Spec.Client.decide handlers ≠ .progress → (ran handlers).flatMap (·.calls) = [] →
      ∀ chosen, Client.receive order (new n .ready) (.negotiate o) handlers chosen (some []) =
        Client.respondNegotiate order ((negotiating (new n .ready) o).note (.answeredNegotiate chosen (Spec.Client.decide handlers))) chosen (some [])
          (Spec.Client.decide handlers) := by
    intro handlers h1 h2 chosen
    rw [negotiate_eq order _ o handlers chosen (some []) h1, h2]
    rfl
  have wr : ∀ (t : State) (p : Bytes), t.link = .ready → t.buffered = [] → written (writePacket t p).2.log = written t.log ++ p := by
    intro t p h1 h2
    have := (writePacket_ready h1 (fun _ => h2) p).2.1
    rw [this, h2, List.append_nil]
  have enc : ∀ opt : Opt, (encodeReplies order [] [.negotiate opt (some [])]).flatten =
      pack ([] ++ (Enc.negotiateContent (some opt) ++ Enc.macrosRequests order [])) := fun opt => List.append_nil _
  unfold answer at hr
  cases hn : f.negotiate with
  | none =>
    rw [hn] at hr
    cases hr
    have h1 : handle order f (new n .ready) none (.negotiate o) = { priv := none } := by unfold handle; rw [hn]
    rw [h1, key [] (fun h => nomatch h) rfl, enc]
    exact wr _ _ rfl rfl
  | some g =>
    rw [hn] at hr
    dsimp only at hr
    cases hg : g o.action o.step with
    | usesContext => rw [hg] at hr; cases hr
    | answers status action step =>
      rw [hg] at hr
      dsimp only at hr
      have h1 : (handle order f (new n .ready) none (.negotiate o)).handlers = [⟨[], convert status⟩] := by unfold handle; rw [hn]; dsimp only; rw [hg]
      have h2 : chosen f o = if status = 0 then { o with action := action, step := step } else o := by unfold chosen; rw [hn]; dsimp only; rw [hg]
      have hd := decide_one ⟨[], convert status⟩ (convert_ne status).1
      rw [h1, key _ (by rw [hd]; exact (convert_ne status).2) (by rw [ran_one]; rfl), hd, h2]
      by_cases h0 : status = 0
      · subst h0
        rw [if_pos rfl] at hr ⊢
        cases hr
        rw [enc]
        exact wr _ _ rfl rfl
      · rw [if_neg h0] at hr ⊢
        by_cases h1 : status = 1
        · subst h1
          rw [if_pos rfl] at hr
          cases hr
          exact (wr _ _ rfl rfl).trans (List.append_nil _).symm
        · rw [if_neg h1] at hr
          by_cases h10 : status = 10
          · subst h10
            rw [if_pos rfl] at hr
            cases hr
            rw [enc]
            exact wr _ _ rfl rfl
          · rw [if_neg h10] at hr
            cases hr

/-- a filter that wants to add headers, and no helo -/
example :
    let f : Filter := { negotiate := some fun action _ => .answers 0 (action &&& 1) 2 }
    answer f ⟨6, 0x1ff, 0x3ff⟩ = some (.negotiate ⟨6, 1, 2⟩ (some [])) ∧
    written (session id f 0 .ready [.command (.negotiate ⟨6, 0x1ff, 0x3ff⟩)]).context.log =
      pack (0x4f :: ([0, 0, 0, 6] ++ [0, 0, 0, 1] ++ [0, 0, 0, 2])) := by
  decide +kernel

/-- **C69 is violated** for a filter without `xxfi_negotiate`: the MTA is asked to leave out all it can leave out, also what the filter has callbacks for, and
told that the filter may do anything, whatever its flags are. -/
theorem C69_steps_violated :
    let f : Filter := { watcher with flags := 0 }
    f.connect.isSome = true ∧ leftOut 0x7f (.connect (ascii "h") .unspec) = true ∧ f.body.isSome = true ∧ leftOut 0x7f (.body (ascii "b")) = true ∧
    written (session id f 0 .ready [.command (.negotiate ⟨6, 0x1ff, 0x7f⟩)]).context.log =
      pack (0x4f :: ([0, 0, 0, 6] ++ [0, 0, 1, 0xff] ++ [0, 0, 0, 0x7f])) := by
  decide +kernel

/-- **C69 is violated** if `xxfi_negotiate` returns another value, like SMFIS_ACCEPT: the MTA waits in vain. -/
theorem C69_silent_violated :
    let f : Filter := { negotiate := some fun _ _ => .answers 3 0 0 }
    written (session id f 0 .ready [.command (.negotiate ⟨6, 0x1ff, 0⟩)]).context.log = [] := by
  decide +kernel

/-- **C69 is violated** if `xxfi_negotiate` uses its context, for example to ask for macros: the behaviour is undefined. -/
theorem C69_context_violated :
    let f : Filter := { negotiate := some fun _ _ => .usesContext }
    (session id f 0 .ready [.command (.negotiate ⟨6, 0x1ff, 0⟩)]).seen.map (·.what) = [.negotiate 0x1ff 0, .undefined] := by
  decide +kernel

/-- **C69 is violated** by `smfi_setsymlist`: it succeeds and does nothing. -/
theorem C69_symbols_violated (order : Requests → Requests) (state : Int) (macros : Bytes) (k : Bool → Prog) (s : State) (priv : Option Nat) :
    let r := (Prog.ask (.setSymbols state macros) k).exec order s priv
    r.made.head? = some (.setSymbols state macros, true) ∧ r.context = ((k true).exec order s priv).context := ⟨rfl, rfl⟩

/-! ## C71: settings of the process -/

theorem latest_snoc {α : Type} (sets : Setting → Option α) (d : α) (calls : List Setting) (c : Setting) :
    latest sets d (calls ++ [c]) = match sets c with | some a => a | none => latest sets d calls := by
  unfold latest
  rw [List.reverse_append, List.reverse_singleton, List.singleton_append, List.findSome?_cons]
  cases sets c <;> rfl

theorem configureAll_snoc (net : Connection.Net) (s : Settings) (calls : List Setting) (c : Setting) :
    configureAll net s (calls ++ [c]) = (configure net (configureAll net s calls) c).2 := by
  unfold configureAll
  rw [List.foldl_append]
  rfl

theorem snoc_cases {α : Type} (P : List α → Prop) (h0 : P []) (h1 : ∀ l a, P l → P (l ++ [a])) (l : List α) : P l := by
  have : ∀ r : List α, P r.reverse := by
    intro r
    induction r with
    | nil => exact h0
    | cons a r ih => rw [List.reverse_cons]; exact h1 _ _ ih
  have h := this l.reverse
  rwa [List.reverse_reverse] at h

theorem place_eq (p : Bytes) : normalizeSpec p = place p := by
  unfold normalizeSpec place
  by_cases h : p.contains 0x3a = true
  · rw [if_pos h, if_pos (by simpa using h)]
  · rw [if_neg h, if_neg (by simpa using h)]

/-- **C71**: whatever calls a process makes, each setting is the one of the last call for it that was legal, and the calls do not disturb one another. -/
theorem C71_settings (net : Connection.Net) (calls : List Setting) :
    let s := configureAll net {} calls
    s.timeout = latest setsTimeout 7210 calls ∧ s.backlog = latest setsBacklog (-1) calls ∧ s.spec = latest (setsPlace net) none calls ∧
      s.filter = latest setsFilter none calls := by
  refine snoc_cases (fun calls => let s := configureAll net {} calls
    s.timeout = latest setsTimeout 7210 calls ∧ s.backlog = latest setsBacklog (-1) calls ∧ s.spec = latest (setsPlace net) none calls ∧
      s.filter = latest setsFilter none calls) ⟨rfl, rfl, rfl, rfl⟩ ?_ calls
  intro calls c ih
  dsimp only at ih ⊢
  rw [configureAll_snoc, latest_snoc, latest_snoc, latest_snoc, latest_snoc]
  obtain ⟨h1, h2, h3, h4⟩ := ih
  generalize configureAll net {} calls = s at h1 h2 h3 h4
  cases c with
  | register version name f =>
    unfold configure setsFilter
    dsimp only
    by_cases h : version ∈ [0x01000001, 2, 3, 4]
    · rw [if_neg, if_pos h]
      · exact ⟨h1, h2, h3, rfl⟩
      · simp only [List.mem_cons, List.not_mem_nil, or_false] at h
        omega
    · rw [if_pos, if_neg h]
      · exact ⟨h1, h2, h3, h4⟩
      · simp only [List.mem_cons, List.not_mem_nil, or_false] at h
        omega
  | setConnection p =>
    cases p with
    | none => exact ⟨h1, h2, h3, h4⟩
    | some p =>
      unfold configure setsPlace
      dsimp only
      rw [place_eq]
      by_cases h : Connection.parseSpec net (place p) = .fail
      · rw [if_pos h, if_pos h]
        exact ⟨h1, h2, h3, h4⟩
      · rw [if_neg h, if_neg h]
        exact ⟨h1, h2, rfl, h4⟩
  | setBacklog b =>
    unfold configure setsBacklog
    dsimp only
    by_cases h : b ≤ 0
    · rw [if_pos h, if_neg (by omega)]
      exact ⟨h1, h2, h3, h4⟩
    · rw [if_neg h, if_pos (by omega)]
      exact ⟨h1, rfl, h3, h4⟩
  | setTimeout t => exact ⟨rfl, h2, h3, h4⟩
  | setDebug l => exact ⟨h1, h2, h3, h4⟩
  | reset => exact ⟨rfl, rfl, rfl, rfl⟩

/-- **C71**: a call that is refused changes nothing. -/
theorem C71_refused (net : Connection.Net) (s : Settings) (c : Setting) (h : (configure net s c).1 = false) : (configure net s c).2 = s := by
  cases c with
  | register version name f =>
    unfold configure at h ⊢
    dsimp only at h ⊢
    split
    · rfl
    · rename_i h'
      rw [if_neg h'] at h
      cases h
  | setConnection p =>
    cases p with
    | none => rfl
    | some p =>
      unfold configure at h ⊢
      dsimp only at h ⊢
      split
      · rfl
      · rename_i h'
        rw [if_neg h'] at h
        cases h
  | setBacklog b =>
    unfold configure at h ⊢
    dsimp only at h ⊢
    split
    · rfl
    · rename_i h'
      rw [if_neg h'] at h
      cases h
  | _ => cases h

/-- some of them are refused, some not -/
example (net : Connection.Net) : (configure net {} (.setBacklog 0)).1 = false ∧ (configure net {} (.setConnection (some (ascii "inet:")))).1 = false ∧
    (configure net {} (.setConnection (some (ascii "/var/run/m")))).1 = true ∧
    (configureAll net {} [.setTimeout 5, .setBacklog 3, .setBacklog (-1), .setConnection (some (ascii "/var/run/m"))]).spec = some (ascii "unix:/var/run/m") ∧
    latest setsBacklog (-1) [.setTimeout 5, .setBacklog 3, .setBacklog (-1)] = 3 := ⟨rfl, rfl, rfl, rfl, by decide⟩

/-- the calls of the logger -/
def debugOps (calls : List Setting) : List Logger.Op := calls.filterMap fun | .setDebug level => some (.setTarget (debugLevel level)) | _ => none

theorem configureAll_log (net : Connection.Net) (calls : List Setting) : (configureAll net {} calls).log = Logger.run Logger.init (debugOps calls) := by
  refine snoc_cases (fun calls => (configureAll net {} calls).log = Logger.run Logger.init (debugOps calls)) rfl ?_ calls
  intro calls c ih
  rw [configureAll_snoc]
  unfold debugOps
  rw [List.filterMap_append]
  unfold Logger.run at ih ⊢
  rw [List.foldl_append]
  have ih' : _ = List.foldl Logger.step Logger.init (debugOps calls) := ih
  unfold debugOps at ih'
  rw [← ih']
  generalize configureAll net {} calls = s
  cases c with
  | register version name f => unfold configure; dsimp only; split <;> rfl
  | setConnection p =>
    cases p with
    | none => rfl
    | some p => unfold configure; dsimp only; split <;> rfl
  | setBacklog b => unfold configure; dsimp only; split <;> rfl
  | _ => rfl

theorem wanted_debug (calls : List Setting) :
    (Spec.Logger.wanted (debugOps calls)).log = match latest setsDebug none calls with | none => 0 | some n => debugLevel n := by
  refine snoc_cases (fun calls => (Spec.Logger.wanted (debugOps calls)).log = match latest setsDebug none calls with | none => 0 | some n => debugLevel n) rfl ?_ calls
  intro calls c ih
  rw [latest_snoc]
  unfold debugOps at ih ⊢
  rw [List.filterMap_append]
  unfold Spec.Logger.wanted at ih ⊢
  rw [List.foldl_append]
  cases c <;> first | exact ih | rfl

theorem debugLevel_bits (n : Int) (hn : 1 ≤ n) (level : UInt32) :
    Spec.Logger.meets level (debugLevel n) = (severities.take n.toNat).any fun b => Spec.Logger.meets level b := by
  have h : debugLevel n = (severities.take n.toNat).foldl (· ||| ·) 0 := by
    obtain ⟨k, rfl⟩ : ∃ k : Nat, n = k + 1 := ⟨(n - 1).toNat, by omega⟩
    have : ((k : Int) + 1).toNat = k + 1 := by omega
    rw [this]
    unfold debugLevel
    rcases k with _ | _ | _ | _ | _ | _ | k
    iterate 6 decide
    rw [if_pos (by omega), if_pos (by omega), if_pos (by omega), if_pos (by omega), if_pos (by omega), if_pos (by omega),
      List.take_of_length_le (by simp only [severities, List.length_cons, List.length_nil]; omega)]
    decide
  rw [h]
  have gen : ∀ (l : List UInt32) (m : UInt32), Spec.Logger.meets level (l.foldl (· ||| ·) m) = (Spec.Logger.meets level m || l.any fun b => Spec.Logger.meets level b) := by
    intro l
    induction l with
    | nil => intro m; exact (Bool.or_false _).symm
    | cons b l ih =>
      intro m
      rw [List.foldl_cons, ih, List.any_cons, ← Bool.or_assoc]
      congr 1
      unfold Spec.Logger.meets
      rw [Bool.eq_iff_iff, Bool.or_eq_true, and_ne_zero, and_ne_zero, and_ne_zero]
      constructor
      · rintro ⟨k, h1, h2⟩
        rw [hasBit_or, Bool.or_eq_true] at h2
        rcases h2 with h2 | h2
        · exact .inl ⟨k, h1, h2⟩
        · exact .inr ⟨k, h1, h2⟩
      · rintro (⟨k, h1, h2⟩ | ⟨k, h1, h2⟩)
        · exact ⟨k, h1, by rw [hasBit_or, h2]; rfl⟩
        · exact ⟨k, h1, by rw [hasBit_or, h2, Bool.or_true]⟩
  rw [gen]
  have : Spec.Logger.meets level 0 = false := by unfold Spec.Logger.meets; simp
  rw [this, Bool.false_or]

/-- **C71**, logs: with a level from 1 on, messages are written exactly if they are among that many of the worst severities; so a higher level writes what a
lower one does, and more.  Missing: level 0. -/
theorem C71_debug_partial (net : Connection.Net) (calls : List Setting) (n : Int) (hn : 1 ≤ n) (hl : latest setsDebug none calls = some n) (level : UInt32) :
    Logger.console (configureAll net {} calls).log level = (severities.take n.toNat).any fun b => Spec.Logger.meets level b := by
  rw [configureAll_log, C59_log_partial _ ?_, wanted_debug, hl, ← debugLevel_bits n hn]
  · dsimp only
    unfold Spec.Logger.actual
    rw [if_neg]
    intro h
    have := debugLevel_bits n hn 2
    rw [h] at this
    obtain ⟨k, hk⟩ : ∃ k : Nat, n.toNat = k + 1 := ⟨n.toNat - 1, by omega⟩
    rw [hk] at this
    cases this
  · intro op hop
    unfold debugOps at hop
    obtain ⟨c, _, hc⟩ := List.mem_filterMap.mp hop
    cases c <;> cases hc
    rfl

example (net : Connection.Net) : latest setsDebug none [.setDebug 6, .setBacklog 1, .setDebug 2] = some 2 ∧
    Logger.console (configureAll net {} [.setDebug 6, .setBacklog 1, .setDebug 2]).log 0x04 = true ∧
    Logger.console (configureAll net {} [.setDebug 6, .setBacklog 1, .setDebug 2]).log 0x08 = false := by
  refine ⟨rfl, ?_, ?_⟩ <;> (rw [C71_debug_partial net _ 2 (by decide) rfl]; decide)

/-- **C71 is violated** by level 0: it should turn off all messages (libmilter/mfapi.h:1288), and writes more than level 1. -/
theorem C71_debug_violated (net : Connection.Net) : Logger.console (configureAll net {} [.setDebug 0]).log 0x04 = true ∧
    Logger.console (configureAll net {} [.setDebug 1]).log 0x04 = false := by
  rw [configureAll_log, configureAll_log]
  decide

end LibMilter
end Verif.Props
