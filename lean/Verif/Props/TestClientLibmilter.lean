import Verif.Props.TestClient
import Verif.Spec.Server
import Verif.Tool.TestClientLibmilter
/-!
C158: milter-test-client-libmilter answers what the MTA waits for.
-/
namespace Verif.Props.TestClientLibmilter

open Verif Verif.Client Verif.Spec.Client Verif.Tool.TestClientLibmilter
open Verif.Enc (pack encodeReplies encodeReply)
open Verif.Props.TestClient (Calm written_append write_calm answered macro_quiet)
open Verif.LibMilter (Session)

/-- What the tool answers to an offer. -/
def agreed (o : Opt) : Opt := { o with action := o.action &&& 0x1ff, step := o.step &&& 0x86000 }

/-- The MTA waits for the answer to a request: it has negotiated the option. -/
def waits (o : Opt) (c : Cmd) : Bool := Spec.Server.answered (some o) (Spec.Server.leadsTo c)

/-- The requests that the tool answers. -/
def answers : Cmd → Bool
  | .helo _ | .envelopeFrom _ | .body _ => false
  | c => expectsReply c

/-- A request whose callback says that there is no answer. -/
theorem silent (order : Requests → Requests) {s : State} (h : Calm s) (c : Cmd)
    (hc : (∃ x, c = .helo x) ∨ (∃ x, c = .envelopeFrom x) ∨ ∃ x, c = .body x) :
    Calm (Client.receive order s c [⟨[], .noReply⟩] none (some [])) ∧
      written (Client.receive order s c [⟨[], .noReply⟩] none (some [])).log = written s.log := by
  have hw : ∀ k, written (s.log ++ [.got c] ++ [.answered k .noReply]) = written s.log := by
    intro k
    rw [written_append, written_append]; simp [written]
  rcases hc with ⟨x, rfl⟩ | ⟨x, rfl⟩ | ⟨x, rfl⟩
  · exact ⟨⟨h.link, h.buffering⟩, hw .helo⟩
  · exact ⟨⟨h.link, h.buffering⟩, hw .envelopeFrom⟩
  · exact ⟨⟨h.link, h.buffering⟩, hw .body⟩

/-- Giving up a message, with any handler that makes no calls. -/
theorem abort_quiet (order : Requests → Requests) {s : State} (h : Calm s) (status : Status)
    (hs : status = .continue_ ∨ status = .default) :
    Calm (Client.receive order s .abort [⟨[], status⟩] none (some [])) ∧
      written (Client.receive order s .abort [⟨[], status⟩] none (some [])).log = written s.log := by
  have e : ∃ (t : State) (st : Status), Client.receive order s .abort [⟨[], status⟩] none (some []) = t ∧
      t.link = s.link ∧ t.buffering = s.buffering ∧
      t.log = s.log ++ [.got .abort, .called (.respondAbort st) true] := by
    rcases hs with rfl | rfl
    all_goals
      refine ⟨_, .default, rfl, ?_, ?_, ?_⟩
      · simp only [receive, emitAll, emit, List.cons_append, List.nil_append, runCalls,
          List.foldl_nil, accumulate, callNoted, call, respondAbort, setSt, State.note, resetMessage]
        simp
        split <;> rfl
      · simp only [receive, emitAll, emit, List.cons_append, List.nil_append, runCalls,
          List.foldl_nil, accumulate, callNoted, call, respondAbort, setSt, State.note, resetMessage]
        simp
        split <;> rfl
      · simp only [receive, emitAll, emit, List.cons_append, List.nil_append, runCalls,
          List.foldl_nil, accumulate, callNoted, call, respondAbort, setSt, State.note, resetMessage]
        simp
        split <;> simp
  obtain ⟨t, st, e0, e1, e2, e3⟩ := e
  rw [e0]
  refine ⟨⟨e1.trans h.link, e2.trans h.buffering⟩, ?_⟩
  rw [e3, written_append]; simp [written]

/-- One request. -/
theorem one_request (order : Requests → Requests) {s : Session} (h : Calm s.context) (ha : s.attached = true)
    (c : Cmd) (hc : (∀ o, c ≠ .negotiate o) ∧ c ≠ .quit) :
    let t := LibMilter.step order smfilter s (.command c)
    Calm t.context ∧ t.attached = true ∧
      written t.context.log = written s.context.log ++ (if answers c = true then pack [0x63] else []) := by
  have hr : LibMilter.step order smfilter s (.command c)
      = { s with
          context := Client.receive order s.context c (LibMilter.handle order smfilter s.context s.priv c).handlers none (some [])
          priv := (LibMilter.handle order smfilter s.context s.priv c).priv
          seen := s.seen ++ (LibMilter.handle order smfilter s.context s.priv c).seen } := by
    show LibMilter.receive order smfilter s c = _
    unfold LibMilter.receive
    rw [ha]
    cases c <;> first | rfl | exact absurd rfl (hc.1 _) | exact absurd rfl hc.2
  intro t
  have key : Calm (Client.receive order s.context c (LibMilter.handle order smfilter s.context s.priv c).handlers none (some [])) ∧
      written (Client.receive order s.context c (LibMilter.handle order smfilter s.context s.priv c).handlers none (some [])).log
        = written s.context.log ++ (if answers c = true then pack [0x63] else []) := by
    have yes : ∀ (k : Kind) (ctx : Option Macros.Context), kindOf c = some (k, ctx) → expectsReply c = true →
        answers c = true → (LibMilter.handle order smfilter s.context s.priv c).handlers = [⟨[], .continue_⟩] →
        Calm (Client.receive order s.context c (LibMilter.handle order smfilter s.context s.priv c).handlers none (some [])) ∧
        written (Client.receive order s.context c (LibMilter.handle order smfilter s.context s.priv c).handlers none (some [])).log
          = written s.context.log ++ (if answers c = true then pack [0x63] else []) :=
      fun k ctx hk he hb hh => by
        have := answered order h k ctx c hk he
        rw [hh, if_pos hb]
        have e : Client.receive order s.context c [⟨[], .continue_⟩] none (some [])
            = Client.step order s.context (.command c [⟨[], .continue_⟩] none none) := by
          cases c <;> first | rfl | exact absurd rfl (hc.1 _)
        rw [e]
        exact this
    cases c with
    | negotiate o => exact absurd rfl (hc.1 o)
    | quit => exact absurd rfl hc.2
    | helo x =>
      have := silent order h (.helo x) (.inl ⟨x, rfl⟩)
      exact ⟨this.1, this.2.trans (List.append_nil _).symm⟩
    | envelopeFrom x =>
      have := silent order h (.envelopeFrom x) (.inr (.inl ⟨x, rfl⟩))
      exact ⟨this.1, this.2.trans (List.append_nil _).symm⟩
    | body x =>
      have := silent order h (.body x) (.inr (.inr ⟨x, rfl⟩))
      exact ⟨this.1, this.2.trans (List.append_nil _).symm⟩
    | defineMacro x m =>
      have := macro_quiet order h x m
      exact ⟨this.1, this.2.trans (List.append_nil _).symm⟩
    | abort =>
      have hh : ∃ status, (status = .continue_ ∨ status = .default) ∧
          (LibMilter.handle order smfilter s.context s.priv .abort).handlers = [⟨[], status⟩] := by
        by_cases hm : LibMilter.inMessage s.context.st = true
        · refine ⟨.continue_, .inl rfl, ?_⟩
          show (if LibMilter.inMessage s.context.st = true then _ else _ : LibMilter.Result).handlers = _
          rw [if_pos hm]; rfl
        · refine ⟨.default, .inr rfl, ?_⟩
          show (if LibMilter.inMessage s.context.st = true then _ else _ : LibMilter.Result).handlers = _
          rw [if_neg hm]; rfl
      obtain ⟨status, hs, hh⟩ := hh
      have := abort_quiet order h status hs
      rw [hh]
      exact ⟨this.1, this.2.trans (List.append_nil _).symm⟩
    | endOfMessage chunk =>
      refine yes _ _ rfl rfl rfl ?_
      by_cases hk : chunk = []
      · subst hk; rfl
      · show (if chunk = [] then _ else _ : LibMilter.Result).handlers = _
        rw [if_neg hk]; rfl
    | _ => exact yes _ _ rfl rfl rfl rfl
  show Calm (LibMilter.step order smfilter s (.command c)).context ∧
    (LibMilter.step order smfilter s (.command c)).attached = true ∧
    written (LibMilter.step order smfilter s (.command c)).context.log = _
  rw [hr]
  exact ⟨key.1, ha, key.2⟩

theorem requests (order : Requests → Requests) (cmds : List Cmd) {s : Session} (h : Calm s.context)
    (ha : s.attached = true) (hc : ∀ c ∈ cmds, (∀ o, c ≠ .negotiate o) ∧ c ≠ .quit) :
    written (LibMilter.run order smfilter s (cmds.map .command)).context.log
      = written s.context.log ++ ((cmds.filter answers).map fun _ => pack [0x63]).flatten := by
  induction cmds generalizing s with
  | nil => simp [LibMilter.run]
  | cons c cs ih =>
    obtain ⟨a, b, d⟩ := one_request order h ha c (hc c List.mem_cons_self)
    have := ih a b (fun c hc' => hc c (List.mem_cons_of_mem _ hc'))
    show written (LibMilter.run order smfilter (LibMilter.step order smfilter s (.command c)) _).context.log = _
    rw [this, d, List.append_assoc]
    by_cases he : answers c = true
    · rw [if_pos he, List.filter_cons_of_pos he]; rfl
    · rw [if_neg he, List.filter_cons_of_neg he]; rfl

/-- The answers, one "continue" each. -/
def continues (cmds : List Cmd) : List Reply := cmds.map fun _ => .cont

theorem encode_continues (order : Requests → Requests) (buf : Bytes) (cmds : List Cmd) :
    (encodeReplies order buf (continues cmds)).flatten = (cmds.map fun _ => pack [0x63]).flatten := by
  unfold continues
  induction cmds generalizing buf with
  | nil => rfl
  | cons c cs ih =>
    show (pack [0x63] :: encodeReplies order (pack [0x63]) (cs.map fun _ => .cont)).flatten = _
    rw [List.flatten_cons, ih, List.map_cons, List.flatten_cons]

/-- For every offer: the answer to it, and "continue" for each request but greetings, senders and parts of the
body. -/
theorem reads (order : Requests → Requests) (n : Nat) (o : Opt) (cmds : List Cmd)
    (hc : ∀ c ∈ cmds, (∀ o, c ≠ .negotiate o) ∧ c ≠ .quit) :
    written (serve order n ((Cmd.negotiate o :: cmds).map .command)).context.log
      = (encodeReplies order [] (.negotiate (agreed o) (some []) :: continues (cmds.filter answers))).flatten := by
  have h0 : ∃ s : Session, LibMilter.step order smfilter (.start (Client.new n .ready)) (.command (.negotiate o)) = s ∧
      Calm s.context ∧ s.attached = true ∧
      written s.context.log = pack (Enc.negotiateContent (some (agreed o)) ++ Enc.macrosRequests order []) := by
    have hp : pack (Enc.negotiateContent (some (agreed o)) ++ Enc.macrosRequests order []) ≠ [] := by
      unfold pack
      intro hx
      have := congrArg List.length hx
      simp [Enc.negotiateContent] at this
    have e : (LibMilter.step order smfilter (.start (Client.new n .ready)) (.command (.negotiate o))).context
        = (writePacket { (new n .ready) with
            st := .replied .negotiate, last := .doing .negotiate, result := true
            status := .continue_, option := some (agreed o)
            log := [.got (.negotiate o), .answeredNegotiate (some (agreed o)) .continue_]
            enc := pack (Enc.negotiateContent (some (agreed o)) ++ Enc.macrosRequests order []) }
          (pack (Enc.negotiateContent (some (agreed o)) ++ Enc.macrosRequests order []))).2 := rfl
    have := write_calm (s := { (new n .ready) with
            st := .replied .negotiate, last := .doing .negotiate, result := true
            status := .continue_, option := some (agreed o)
            log := [.got (.negotiate o), .answeredNegotiate (some (agreed o)) .continue_]
            enc := pack (Enc.negotiateContent (some (agreed o)) ++ Enc.macrosRequests order []) })
            ⟨rfl, rfl⟩ hp
    refine ⟨_, rfl, ?_, rfl, ?_⟩
    · rw [e]; exact this.1
    · rw [e, this.2.1]; simp [written]
  obtain ⟨s, e0, hs, ha, hw⟩ := h0
  show written (LibMilter.run order smfilter (LibMilter.step order smfilter (.start (Client.new n .ready))
    (.command (.negotiate o))) (cmds.map .command)).context.log = _
  rw [e0, requests order cmds hs ha hc, hw]
  show _ = (pack ([] ++ (Enc.negotiateContent (some (agreed o)) ++ Enc.macrosRequests order [])) ::
    encodeReplies order _ (continues (cmds.filter answers))).flatten
  rw [List.flatten_cons, encode_continues, List.nil_append]

theorem and_bits (x m b : UInt32) (hx : x &&& m = m) (hb : m &&& b = b) : (x &&& m) &&& b = b := by
  rw [hx, hb]

theorem and_none (x m b : UInt32) (hb : m &&& b = 0) : (x &&& m) &&& b = 0 := by
  rw [UInt32.and_assoc, hb, UInt32.and_zero]

/-- C158, for an MTA that offers to go on without the answer to greetings, senders and parts of the body: whatever
the course of the session, it reads from milter-test-client-libmilter the answer to its offer, and then one
"continue" for each request for whose answer it waits by the option so negotiated, no modification and no refusal.
The answer takes nothing that was not offered.  Missing: other MTAs (below). -/
theorem C158_partial (order : Requests → Requests) (n : Nat) (o : Opt) (cmds : List Cmd)
    (ho : o.step &&& 0x86000 = 0x86000)
    (hc : ∀ c ∈ cmds, (∀ o, c ≠ .negotiate o) ∧ c ≠ .quit) :
    ∃ a : Opt, a.version = o.version ∧ (∃ m, a.action = o.action &&& m) ∧ (∃ m, a.step = o.step &&& m) ∧
      a.step &&& Opt.noEventMask = 0 ∧
      written (serve order n ((Cmd.negotiate o :: cmds).map .command)).context.log
        = (encodeReplies order [] (.negotiate a (some []) :: continues (cmds.filter (waits a)))).flatten := by
  refine ⟨agreed o, rfl, ⟨_, rfl⟩, ⟨_, rfl⟩, and_none _ _ _ (by decide), ?_⟩
  have hf : cmds.filter (waits (agreed o)) = cmds.filter answers := by
    apply List.filter_congr
    intro c hm
    have hstep : (agreed o).step = 0x86000 := ho
    have := hc c hm
    cases c <;> first
      | exact absurd rfl (this.1 _)
      | exact absurd rfl this.2
      | (simp only [waits, Spec.Server.answered, Spec.Server.leadsTo, answers, expectsReply, hstep]; decide)
      | (simp only [waits, Spec.Server.answered, Spec.Server.leadsTo, answers, expectsReply])
  rw [hf]
  exact reads order n o cmds hc

/-- C158 is violated: an MTA that does not offer this waits for the answer to its greeting, and gets none;
milter-test-client-libmilter has agreed to answer it. -/
theorem C158_wait_violated (order : Requests → Requests) (n : Nat) (o : Opt) (x : Bytes)
    (ho : o.step &&& 0x2000 = 0) :
    waits (agreed o) (.helo x) = true ∧
    written (serve order n ([Cmd.negotiate o, .helo x].map .command)).context.log
      = (encodeReplies order [] [.negotiate (agreed o) (some [])]).flatten := by
  constructor
  · show ((o.step &&& 0x86000) &&& 0x2000 == 0) = true
    rw [UInt32.and_assoc]
    have : (0x86000 : UInt32) &&& 0x2000 = 0x2000 := by decide
    rw [this, ho]; rfl
  · exact reads order n o [.helo x] (by
      intro c hc
      rw [List.mem_singleton] at hc
      subst hc
      exact ⟨fun o e => (nomatch e), fun e => (nomatch e)⟩)

/-- A session with a message that is given up and one that is not. -/
example :
    let o : Opt := ⟨6, 0x3f, 0x1fffff⟩
    let cmds : List Cmd := [.connect [0x68] .unspec, .helo [0x68], .defineMacro 0x4d [],
      .envelopeFrom [0x61], .abort, .envelopeFrom [0x61], .envelopeRecipient [0x62], .data,
      .header [0x41] [0x42], .endOfHeader, .body [0x43], .endOfMessage [0x44]]
    o.step &&& 0x86000 = 0x86000 ∧
    written (serve id 0 ((Cmd.negotiate o :: cmds).map .command)).context.log
      = [0, 0, 0, 13, 0x4f, 0, 0, 0, 6, 0, 0, 0, 0x3f, 0, 8, 0x60, 0]
        ++ (List.replicate 6 [0, 0, 0, 1, 0x63]).flatten := by
  exact ⟨by decide, by decide +kernel⟩

/-- An offer as in C158_wait_violated: that of an MTA with version 2 of the protocol. -/
example : (0x7f : UInt32) &&& 0x2000 = 0 := by decide

end Verif.Props.TestClientLibmilter
