import Verif.Spec.Client
import Verif.Tool.TestClient
/-!
C156: milter-test-client lets every mail pass as it is.
-/
namespace Verif.Props.TestClient

open Verif Verif.Client Verif.Spec.Client Verif.Tool.TestClient
open Verif.Enc (pack encodeReplies encodeReply)

theorem written_append (a b : List Event) : written (a ++ b) = written a ++ written b := by
  simp [written]

/-- Nothing waits to be written. -/
structure Calm (s : State) : Prop where
  link : s.link = .ready
  buffering : s.buffering = false

theorem write_calm {s : State} (h : Calm s) {p : Bytes} (hp : p ≠ []) :
    Calm (writePacket s p).2 ∧ (writePacket s p).2.log = s.log ++ [.wrote p] ∧
      (writePacket s p).2.result = s.result := by
  obtain ⟨hl, hb⟩ := h
  cases s with
  | mk a b c d e f g h i j k l m n o q =>
    dsimp only at hl hb
    subst hl; subst hb
    have : writePacket ⟨a, b, c, d, e, f, g, false, i, j, k, l, m, n, .ready, q⟩ p
        = (true, ⟨a, b, c, d, e, f, g, false, i, j, true, l, m, n, .ready, q ++ [.wrote p]⟩) := by
      simp only [writePacket, writerWrite, if_neg hp]
      rfl
    rw [this]
    exact ⟨⟨rfl, rfl⟩, rfl, rfl⟩

theorem reply_calm {s : State} (h : Calm s) :
    Calm (reply s .continue_) ∧ (reply s .continue_).log = s.log ++ [.wrote (pack [0x63])] := by
  have := write_calm (s := { s with enc := pack [0x63] }) ⟨h.link, h.buffering⟩ (p := pack [0x63])
    (by decide)
  exact ⟨this.1, this.2.1⟩

/-- A request that is answered. -/
theorem answered (order : Requests → Requests) {s : State} (h : Calm s) (k : Kind)
    (ctx : Option Macros.Context) (c : Cmd) (hk : kindOf c = some (k, ctx))
    (he : expectsReply c = true) :
    Calm (step order s (.command c [⟨[], .continue_⟩] none none)) ∧
      written (step order s (.command c [⟨[], .continue_⟩] none none)).log
        = written s.log ++ pack [0x63] := by
  have key : ∀ (k : Kind) (ctx : Option Macros.Context) (t : State), Calm t → k ≠ .negotiate →
      Calm (callNoted order (enter t k ctx) (.respond k .continue_)) ∧
        written (callNoted order (enter t k ctx) (.respond k .continue_)).log
          = written t.log ++ pack [0x63] := by
    intro k ctx t ht hn
    have hcalm : Calm (enter t k ctx) ∧ (enter t k ctx).log = t.log ∧
        (k = .endOfMessage → (enter t k ctx).quarantine = none) := by
      unfold enter setSt
      cases ctx with
      | none =>
        by_cases hk : k = .endOfMessage
        · rw [if_pos hk]; exact ⟨⟨ht.link, ht.buffering⟩, rfl, fun _ => rfl⟩
        · rw [if_neg hk]; exact ⟨⟨ht.link, ht.buffering⟩, rfl, fun e => absurd e hk⟩
      | some x =>
        by_cases hk : k = .endOfMessage
        · rw [if_pos hk]; exact ⟨⟨ht.link, ht.buffering⟩, rfl, fun _ => rfl⟩
        · rw [if_neg hk]; exact ⟨⟨ht.link, ht.buffering⟩, rfl, fun e => absurd e hk⟩
    obtain ⟨c1, c2, c3⟩ := hcalm
    generalize enter t k ctx = u at c1 c2 c3
    show Calm (respond order (u.note (.answered k .continue_)) k .continue_) ∧
      written (respond order (u.note (.answered k .continue_)) k .continue_).log = _
    have hw : written (u.log ++ [.answered k .continue_]) = written t.log := by
      rw [written_append, c2]; simp [written]
    by_cases hm : k = .endOfMessage
    · subst hm
      have hq := c3 rfl
      let v : State := { u.note (.answered .endOfMessage .continue_) with
        status := .continue_, st := .replied .endOfMessage }
      have hv : Calm v := ⟨c1.link, c1.buffering⟩
      have e1 : replyOnEndOfMessage order v .continue_
          = (writePacket { v with enc := pack [0x63] } (pack [0x63])).2 := by
        have hf : flush v = (true, v) := by
          unfold flush parentFlush
          rw [hv.link, hv.buffering]
          rfl
        unfold replyOnEndOfMessage
        rw [hf]
        show (match v.quarantine with | none => _ | some reason => _) = _
        have : v.quarantine = none := hq
        rw [this]
      have h3 := write_calm (s := { v with enc := pack [0x63] }) ⟨hv.link, hv.buffering⟩
        (p := pack [0x63]) (by decide)
      have e2 : respond order (u.note (.answered .endOfMessage .continue_)) .endOfMessage .continue_
          = messageProcessed (replyOnEndOfMessage order v .continue_) := rfl
      rw [e2, e1]
      obtain ⟨d1, d2, _⟩ := h3
      generalize (writePacket { v with enc := pack [0x63] } (pack [0x63])).2 = w at d1 d2
      have hlog : written w.log = written t.log ++ pack [0x63] := by
        rw [d2, written_append]
        show written (u.log ++ [.answered .endOfMessage .continue_]) ++ _ = _
        rw [hw]; simp [written]
      unfold messageProcessed
      by_cases hr : w.result = true
      · rw [if_pos hr]
        refine ⟨⟨d1.link, d1.buffering⟩, ?_⟩
        show written (w.log ++ [_]) = _
        rw [written_append, hlog]; simp [written]
      · rw [if_neg hr]; exact ⟨d1, hlog⟩
    · let v : State := { u.note (.answered k .continue_) with
        status := .continue_, st := .replied k }
      have hv : Calm v := ⟨c1.link, c1.buffering⟩
      have e2 : respond order (u.note (.answered k .continue_)) k .continue_ = reply v .continue_ := by
        cases k <;> first | rfl | exact absurd rfl hm | exact absurd rfl hn
      obtain ⟨d1, d2⟩ := reply_calm hv
      rw [e2]
      refine ⟨d1, ?_⟩
      rw [d2, written_append]
      show written (u.log ++ [.answered k .continue_]) ++ _ = _
      rw [hw]; simp [written]
  have hn : Calm (s.note (.got c)) := ⟨h.link, h.buffering⟩
  have hw : written (s.note (.got c)).log = written s.log := by
    show written (s.log ++ [_]) = _
    rw [written_append]; simp [written]
  rw [← hw]
  cases c <;> first
    | cases he; done
    | (have hx := key k ctx _ hn (by rintro rfl; cases hk); cases hk; exact hx)

theorem abort_quiet (order : Requests → Requests) {s : State} (h : Calm s) :
    Calm (step order s (.command .abort [⟨[], .continue_⟩] none none)) ∧
      written (step order s (.command .abort [⟨[], .continue_⟩] none none)).log = written s.log := by
  have e : ∃ t : State, step order s (.command .abort [⟨[], .continue_⟩] none none) = t ∧
      t.link = s.link ∧ t.buffering = s.buffering ∧
      t.log = s.log ++ [.got .abort, .called (.respondAbort .default) true] := by
    refine ⟨_, rfl, ?_, ?_, ?_⟩
    · simp only [step, receive, emitAll, emit, List.cons_append, List.nil_append, runCalls,
        List.foldl_nil, accumulate, callNoted, call, respondAbort, setSt, State.note, resetMessage]
      simp
      split <;> rfl
    · simp only [step, receive, emitAll, emit, List.cons_append, List.nil_append, runCalls,
        List.foldl_nil, accumulate, callNoted, call, respondAbort, setSt, State.note, resetMessage]
      simp
      split <;> rfl
    · simp only [step, receive, emitAll, emit, List.cons_append, List.nil_append, runCalls,
        List.foldl_nil, accumulate, callNoted, call, respondAbort, setSt, State.note, resetMessage]
      simp
      split <;> simp
  obtain ⟨t, e0, e1, e2, e3⟩ := e
  rw [e0]
  refine ⟨⟨e1.trans h.link, e2.trans h.buffering⟩, ?_⟩
  rw [e3, written_append]; simp [written]

theorem macro_quiet (order : Requests → Requests) {s : State} (h : Calm s) (ctx : UInt8)
    (m : MacroTable) :
    Calm (step order s (.command (.defineMacro ctx m) [] none none)) ∧
      written (step order s (.command (.defineMacro ctx m) [] none none)).log = written s.log := by
  refine ⟨⟨h.link, h.buffering⟩, ?_⟩
  show written (s.log ++ [_]) = _
  rw [written_append]; simp [written]

/-- One "continue" for each request the MTA waits for the answer of. -/
def continues (cmds : List Cmd) : List Reply := (cmds.filter expectsReply).map fun _ => .cont

theorem encode_continues (order : Requests → Requests) (buf : Bytes) (cmds : List Cmd) :
    (encodeReplies order buf (continues cmds)).flatten
      = ((cmds.filter expectsReply).map fun _ => pack [0x63]).flatten := by
  unfold continues
  induction cmds.filter expectsReply generalizing buf with
  | nil => rfl
  | cons c cs ih =>
    show (pack [0x63] :: encodeReplies order (pack [0x63]) (cs.map fun _ => .cont)).flatten = _
    rw [List.flatten_cons, ih, List.map_cons, List.flatten_cons]

theorem run_calm (order : Requests → Requests) (cmds : List Cmd) {s : State} (h : Calm s)
    (hc : ∀ c ∈ cmds, (∀ o, c ≠ .negotiate o) ∧ c ≠ .quit) :
    Calm (run order s (cmds.map request)) ∧
      written (run order s (cmds.map request)).log
        = written s.log ++ ((cmds.filter expectsReply).map fun _ => pack [0x63]).flatten := by
  induction cmds generalizing s with
  | nil => exact ⟨h, by simp [run]⟩
  | cons c cs ih =>
    have h1 := hc c List.mem_cons_self
    have ih := fun {s} hs => ih (s := s) hs (fun c hc' => hc c (List.mem_cons_of_mem _ hc'))
    have step1 : Calm (step order s (request c)) ∧ written (step order s (request c)).log
        = written s.log ++ (if expectsReply c = true then pack [0x63] else []) := by
      cases hk : kindOf c with
      | none =>
        cases c <;> first
          | cases hk; done
          | exact absurd rfl h1.2
          | skip
        · have := macro_quiet order h ‹UInt8› ‹MacroTable›
          refine ⟨this.1, this.2.trans ?_⟩
          exact (List.append_nil _).symm
        · have := abort_quiet order h
          refine ⟨this.1, this.2.trans ?_⟩
          exact (List.append_nil _).symm
      | some kc =>
        obtain ⟨k, ctx⟩ := kc
        have he : expectsReply c = true := by
          cases c <;> first | rfl | exact absurd rfl (h1.1 _) | cases hk
        rw [if_pos he]
        have := answered order h k ctx c hk he
        cases c <;> first | exact this | exact absurd rfl (h1.1 _) | cases hk
    obtain ⟨a, b⟩ := step1
    obtain ⟨a', b'⟩ := ih a
    refine ⟨a', ?_⟩
    show written (run order (step order s (request c)) (cs.map request)).log = _
    rw [b', b, List.append_assoc]
    by_cases he : expectsReply c = true
    · rw [if_pos he, List.filter_cons_of_pos he]; rfl
    · rw [if_neg he, List.filter_cons_of_neg he]; rfl

/-- **C156**: for every offer of the MTA and every course of the session, with any number of
messages, aborts and definitions of macros, ended by the MTA or not: what the MTA reads from
milter-test-client is the answer to the offer, followed by one "continue" for each request it waits
for the answer of; no modification and no refusal.  The answer to the offer has the version and the
actions of the offer, and asks the MTA to leave out no request and no wait for an answer. -/
theorem C156 (order : Requests → Requests) (n : Nat) (o : Opt) (cmds : List Cmd)
    (hc : ∀ c ∈ cmds, (∀ o, c ≠ .negotiate o) ∧ c ≠ .quit) :
    (∀ ending, ending = [] ∨ ending = [Cmd.quit] →
      written (serve order n (.negotiate o :: cmds ++ ending)).log
        = (encodeReplies order [] (.negotiate (chosen o) (some []) :: continues cmds)).flatten) ∧
    (chosen o).version = o.version ∧ (chosen o).action = o.action ∧
    (chosen o).step &&& (Opt.noEventMask ||| Opt.noReplyMask) = 0 ∧
    (chosen o).step &&& 0x400 = o.step &&& 0x400 := by
  refine ⟨?_, rfl, rfl, ?_, ?_⟩
  · intro ending he
    have h0 : Calm (step order (new n .ready) (request (.negotiate o))) ∧
        written (step order (new n .ready) (request (.negotiate o))).log
          = pack (Enc.negotiateContent (some (chosen o)) ++ Enc.macrosRequests order []) := by
      have e : step order (new n .ready) (request (.negotiate o))
          = (writePacket { (new n .ready) with
              st := .replied .negotiate, last := .doing .negotiate, result := true
              status := .continue_, option := some (chosen o)
              log := [.got (.negotiate o), .answeredNegotiate (some (chosen o)) .continue_]
              enc := pack (Enc.negotiateContent (some (chosen o)) ++ Enc.macrosRequests order []) }
            (pack (Enc.negotiateContent (some (chosen o)) ++ Enc.macrosRequests order []))).2 := rfl
      have hp : pack (Enc.negotiateContent (some (chosen o)) ++ Enc.macrosRequests order []) ≠ [] := by
        unfold pack
        intro hx
        have := congrArg List.length hx
        simp [Enc.negotiateContent] at this
      rw [e]
      have := write_calm (s := { (new n .ready) with
              st := .replied .negotiate, last := .doing .negotiate, result := true
              status := .continue_, option := some (chosen o)
              log := [.got (.negotiate o), .answeredNegotiate (some (chosen o)) .continue_]
              enc := pack (Enc.negotiateContent (some (chosen o)) ++ Enc.macrosRequests order []) })
              ⟨rfl, rfl⟩ hp
      refine ⟨this.1, ?_⟩
      rw [this.2.1]
      simp [written]
    obtain ⟨_, h2⟩ := run_calm order cmds h0.1 hc
    have hq : written (serve order n (.negotiate o :: cmds ++ ending)).log
        = written (run order (step order (new n .ready) (request (.negotiate o)))
            (cmds.map request)).log := by
      have e : serve order n (.negotiate o :: cmds ++ ending)
          = run order (run order (step order (new n .ready) (request (.negotiate o)))
              (cmds.map request)) (ending.map request) := by
        unfold serve run
        rw [List.map_append, List.foldl_append]
        rfl
      rw [e]
      generalize run order (step order (new n .ready) (request (.negotiate o))) (cmds.map request) = t
      rcases he with rfl | rfl
      · rfl
      · show written (t.log ++ [.got .quit] ++ [.shutdown]) = _
        rw [written_append, written_append]; simp [written]
    rw [hq, h2, h0.2]
    show _ = (pack ([] ++ (Enc.negotiateContent (some (chosen o)) ++ Enc.macrosRequests order [])) ::
      encodeReplies order _ (continues cmds)).flatten
    rw [List.flatten_cons, encode_continues, List.nil_append]
  · show (o.step &&& ~~~_) &&& _ = 0
    rw [UInt32.and_assoc]
    have : ~~~(0x800 ||| 0x100000 ||| Opt.noMask) &&& (Opt.noEventMask ||| Opt.noReplyMask) = (0 : UInt32) := by
      decide
    rw [this, UInt32.and_zero]
  · show (o.step &&& ~~~_) &&& _ = _
    rw [UInt32.and_assoc]
    have : ~~~(0x800 ||| 0x100000 ||| Opt.noMask) &&& (0x400 : UInt32) = 0x400 := by decide
    rw [this]

/-- A session with a message that is given up and one that is not. -/
example :
    let cmds : List Cmd := [.connect [0x68] .unspec, .helo [0x68], .defineMacro 0x4d [],
      .envelopeFrom [0x61], .abort, .envelopeFrom [0x61], .envelopeRecipient [0x62], .data,
      .header [0x41] [0x42], .endOfHeader, .body [0x43], .endOfMessage []]
    (∀ c ∈ cmds, (∀ o, c ≠ .negotiate o) ∧ c ≠ .quit) ∧
    written (serve id 0 (.negotiate ⟨6, 0x3f, 0x1fffff⟩ :: cmds ++ [.quit])).log
      = [0, 0, 0, 13, 0x4f, 0, 0, 0, 6, 0, 0, 0, 0x3f, 0, 0, 4, 0]
        ++ (List.replicate 10 [0, 0, 0, 1, 0x63]).flatten := by
  refine ⟨?_, by decide +kernel⟩
  intro c hc
  simp only [List.mem_cons, List.not_mem_nil, or_false] at hc
  rcases hc with rfl | rfl | rfl | rfl | rfl | rfl | rfl | rfl | rfl | rfl | rfl | rfl <;>
    exact ⟨fun o e => (nomatch e), fun e => (nomatch e)⟩

end Verif.Props.TestClient
