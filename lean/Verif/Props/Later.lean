import Verif.Client.LaterFacts
/-
Answers given later (C150).
-/
namespace Verif.Props.Later
open Verif Verif.Client Verif.Spec.Client Verif.Spec.Later Verif.Later
open Verif.Ruby (Act Prog Ran Session Value Callback Said Part statusOf)
open Verif.Spec.Ruby (decided)
open Verif.Enc (encodeReplies pack)

variable {σ : Type}

/-! ## An answer put off is the answer given at once -/

theorem exec_delay (order : Requests → Requests) (reset : σ → σ) (s : State) (v : Option Value) (x : σ) :
    (delay (σ := σ)).exec order reset s v x = ⟨[(.delayResponse, true)], [], s, some (.name .progress false), x, false⟩ := rfl

theorem one_of (order : Requests → Requests) (fallback : Value) (n : Ruby.Class σ) (x : Session σ) (s : State) (what : Callback) (P : Prog σ) (hcb : n.callback what = some P) (R : Ran σ)
    (hR : P.exec order n.reset s x.status x.own = R) (hr : R.raised = false) :
    Ruby.one fallback (n.object order) x s what = ⟨[⟨R.calls, statusOf R.status⟩], [⟨what, [⟨0, R.did, false⟩]⟩], R.own, none⟩ := by
  subst hR
  have e : (n.object order).callback what = some fun s v own =>
      let r := P.exec order n.reset s v own
      ⟨[⟨0, r.did, r.raised⟩], r.calls, r.context, r.status, r.own, r.raised⟩ := by
    show (n.callback what).map _ = _
    rw [hcb]; rfl
  unfold Ruby.one
  simp only [e, hr]
  rfl

/-- **C150**, answers: let a callback do something, and put its answer off, and let a block run later do more, decide and answer.  Then the MTA reads what it reads if the callback does all that at once:
the client context is the same after it, and so are the instance variables.  This holds in every session, whatever came before.
Missing: a message given up in between, `C150_abort_violated` (for milter-external.py see `C150_external`), and what comes after the answer, `C150_status_violated`. -/
theorem C150_partial (order : Requests → Requests) (fallback : Value) (m now : Ruby.Class σ) (x : Session σ) (c : Cmd) (k : Kind) (context : Option Macros.Context)
    (hk : kindOf c = some (k, context)) (hn : k ≠ .negotiate) (what : Callback) (hw : Spec.Ruby.due c = some what) (p q : Prog σ)
    (hm : m.callback what = some (andThen p delay)) (hnow : now.callback what = some (andThen p q)) (hr : now.reset = m.reset)
    (did : List (Act × Bool)) (hp : (Ruby.receive order fallback (m.object order) x c).seen = x.seen ++ [⟨what, [⟨0, did, false⟩]⟩])
    (hq : (q.exec order m.reset (Ruby.receive order fallback (m.object order) x c).context none (Ruby.receive order fallback (m.object order) x c).own).raised = false)
    (st : Status) (hst : hasReply st = true)
    (hd : decided (q.exec order m.reset (Ruby.receive order fallback (m.object order) x c).context none (Ruby.receive order fallback (m.object order) x c).own).did = some st) :
    let put := later order m (Ruby.receive order fallback (m.object order) x c) k q
    let once := Ruby.receive order fallback (now.object order) x c
    put.context = once.context ∧ put.own = once.own := by
  have hcq : c ≠ .quit := by intro e; subst e; cases hk
  have h1 : st ≠ .progress := by intro e; subst e; cases hst
  have h2 : st ≠ .notChange := by intro e; subst e; cases hst
  obtain ⟨s, hs⟩ : ∃ s, s = enter (x.context.note (.got c)) k context := ⟨_, rfl⟩
  have hone : ∀ (n : Ruby.Object σ), Ruby.handle fallback n x c = Ruby.one fallback n x s what := by
    intro n
    rw [hs]
    cases c <;> cases hk <;> first | (cases hw; rfl) | (exact absurd rfl hn)
  have hg : ∀ (n : Ruby.Object σ), Ruby.given n c = none := by
    intro n
    cases c <;> first | rfl | (cases hk; exact absurd rfl hn)
  -- the run of the callback
  obtain ⟨r, hrun⟩ : ∃ r, r = p.exec order m.reset s x.status x.own := ⟨_, rfl⟩
  have hmo : (m.object order).callback what = some fun s v own =>
      let r := (andThen p delay).exec order m.reset s v own
      ⟨[⟨0, r.did, r.raised⟩], r.calls, r.context, r.status, r.own, r.raised⟩ := by
    show (m.callback what).map _ = _
    rw [hm]; rfl
  have hraised : r.raised = false := by
    rw [Ruby.receive_eq order fallback _ x c hcq, hone] at hp
    unfold Ruby.one at hp
    rw [hmo] at hp
    dsimp only at hp
    have := List.append_cancel_left hp
    simp only [List.cons.injEq, Said.mk.injEq, Part.mk.injEq, and_true, true_and] at this
    have := this.2
    rw [exec_andThen, ← hrun] at this
    by_cases h : r.raised = true
    · rw [if_pos h] at this; exact this
    · exact Bool.eq_false_iff.mpr h
  have hput : Ruby.receive order fallback (m.object order) x c =
      { context := Client.receive order x.context c [⟨r.calls, .progress⟩] none (some []), own := r.own, status := none,
        seen := x.seen ++ [⟨what, [⟨0, r.did ++ [(.delayResponse, true)], false⟩]⟩] } := by
    rw [Ruby.receive_eq order fallback _ x c hcq, hone, hg]
    rw [one_of order fallback m x s what _ hm ⟨r.did ++ [(.delayResponse, true)], r.calls ++ [], r.context, some (.name .progress false), r.own, false⟩ (by
      rw [exec_andThen, ← hrun, if_neg (by rw [hraised]; exact fun h => nomatch h), exec_delay]) rfl]
    dsimp only
    rw [List.append_nil]
    rfl
  have hctx : Client.receive order x.context c [⟨r.calls, .progress⟩] none (some []) = r.context := by
    rw [Client.receive_eq order x.context c _ none (some []) k context hk hn]
    dsimp only
    rw [LibMilter.decide_one _ (show (⟨r.calls, .progress⟩ : Handler).returns ≠ .notChange from fun h => nomatch h), if_pos rfl, LibMilter.ran_one, ← hs]
    show runCalls order s (r.calls ++ []) = _
    rw [List.append_nil, hrun]
    exact (exec_context order m.reset p s x.status x.own).symm
  rw [hput] at hq hd ⊢
  dsimp only at hq hd ⊢
  -- the run of the block
  have hsame := exec_same order m.reset q (Client.receive order x.context c [⟨r.calls, .progress⟩] none (some [])) none r.status r.own
  have hcall := exec_context order m.reset q (Client.receive order x.context c [⟨r.calls, .progress⟩] none (some [])) none r.own
  have hs1 := Ruby.exec_status order m.reset q (Client.receive order x.context c [⟨r.calls, .progress⟩] none (some [])) none r.own
  have hs2 := Ruby.exec_status order m.reset q (Client.receive order x.context c [⟨r.calls, .progress⟩] none (some [])) r.status r.own
  obtain ⟨e, he⟩ : ∃ e, e = q.exec order m.reset (Client.receive order x.context c [⟨r.calls, .progress⟩] none (some [])) none r.own := ⟨_, rfl⟩
  obtain ⟨e', he'⟩ : ∃ e', e' = q.exec order m.reset (Client.receive order x.context c [⟨r.calls, .progress⟩] none (some [])) r.status r.own := ⟨_, rfl⟩
  rw [← he] at hq hd hcall hs1
  rw [← he, ← he'] at hsame
  rw [← he'] at hs2
  have hd0 : Ruby.decidedFrom none e.did = some st := hd
  have t1 : statusOf e.status = st := by
    unfold statusOf
    rw [hs1]
    show (Ruby.decidedFrom none e.did).getD _ = _
    rw [hd0]; rfl
  have t2 : statusOf e'.status = st := by
    unfold statusOf
    rw [hs2, ← hsame.did]
    rcases decided_any e.did none (r.status.map Value.toStatus) with h | ⟨h, _⟩
    · rw [← h, hd0]; rfl
    · rw [hd0] at h; cases h
  have honce : Ruby.receive order fallback (now.object order) x c =
      { context := Client.receive order x.context c [⟨r.calls ++ e.calls, st⟩] none (some []), own := e.own, status := none,
        seen := x.seen ++ [⟨what, [⟨0, r.did ++ e.did, false⟩]⟩] } := by
    rw [Ruby.receive_eq order fallback _ x c hcq, hone, hg]
    rw [one_of order fallback now x s what _ hnow ⟨r.did ++ e'.did, r.calls ++ e'.calls, e'.context, e'.status, e'.own, e'.raised⟩ (by
      rw [hr, exec_andThen, ← hrun, if_neg (by rw [hraised]; exact fun h => nomatch h), ← hctx, ← he']) (hsame.raised.symm.trans hq)]
    dsimp only
    rw [t2, ← hsame.calls, ← hsame.own, ← hsame.did]
  rw [honce]
  unfold later answer
  dsimp only
  rw [← he, hq, if_neg (show ¬ (false = true) from fun h => nomatch h), hcall, t1]
  exact ⟨wait_answer order x.context c k context hk hn r.calls e.calls st h1 h2 none (some []), rfl⟩

/-- an MTA's offer -/
def offer : Opt := ⟨6, 0x1ff, 0x1fffff⟩

/-- a milter that marks each message, and refuses it later, with a reply of its own -/
def slow : Ruby.Class Unit where
  start := ()
  reset := id
  endOfMessage := some (andThen (.act (.modify (.addHeader (ascii "X-Slow") (ascii "yes"))) fun ok => if ok then .done else .raise) delay)

/-- what it does later -/
def refuses : Prog Unit := .act (.reject { code := some 554, reason := some (ascii "no") }) fun ok => if ok then .done else .raise

/-- one that refuses at once -/
def quick : Ruby.Class Unit where
  start := ()
  reset := id
  endOfMessage := some (andThen (.act (.modify (.addHeader (ascii "X-Slow") (ascii "yes"))) fun ok => if ok then .done else .raise) refuses)

def slowSession : Session Unit := Ruby.run id (.name .accept false) (slow.object id) (.start (slow.object id) (new 0 .ready)) [.negotiate offer, .envelopeFrom (ascii "<a@x>"), .endOfHeader]

/-- the hypotheses hold of it -/
example : let x1 := Ruby.receive id (.name .accept false) (slow.object id) slowSession (.endOfMessage [])
    (later id slow x1 .endOfMessage refuses).context = (Ruby.receive id (.name .accept false) (quick.object id) slowSession (.endOfMessage [])).context :=
  (C150_partial id (.name .accept false) slow quick slowSession (.endOfMessage []) .endOfMessage (some 0x45) rfl (fun h => nomatch h) .endOfMessage rfl
    _ refuses rfl rfl rfl [(.modify (.addHeader (ascii "X-Slow") (ascii "yes")), true), (.delayResponse, true)] (by decide +kernel) (by decide +kernel) .reject rfl (by decide +kernel)).1

/-- and the MTA reads the header at once, and the reply later -/
example : let x1 := Ruby.receive id (.name .accept false) (slow.object id) slowSession (.endOfMessage [])
    written x1.context.log = written slowSession.context.log ++ (encodeReplies id [] [.addHeader (ascii "X-Slow") (ascii "yes")]).flatten ∧
    written (later id slow x1 .endOfMessage refuses).context.log = written slowSession.context.log ++
      (encodeReplies id [] [.addHeader (ascii "X-Slow") (ascii "yes"), .replyCode 554 (ascii "5.7.1") (some (ascii "no"))]).flatten := by decide +kernel

/-- milter-tarpit.rb after the negotiation -/
def tarpitStart : Tarpit := Tarpit.run id (.name .accept false) ⟨.start (tarpit.object id) (new 0 .ready), 0⟩ [.command (.negotiate offer)]

/-- It answers each message when its timer fires. -/
example : written (Tarpit.run id (.name .accept false) tarpitStart [.command (.endOfMessage []), .fires, .command (.endOfMessage []), .fires]).session.context.log =
    written tarpitStart.session.context.log ++ (encodeReplies id [] [.accept, .accept]).flatten := by decide +kernel

/-- **C150** fails for a message given up in between: milter-tarpit.rb does not remove its timer in `abort`.  The MTA gives the first message up, and begins the next: it reads the answer to the first when
it has sent nothing but the sender, which it was already told to go on with.  Or it has sent all of the second: that is accepted early, and then once more. -/
theorem C150_abort_violated :
    (written (Tarpit.run id (.name .accept false) tarpitStart
        [.command (.endOfMessage []), .command .abort, .command (.envelopeFrom (ascii "<b@x>")), .fires]).session.context.log =
      written tarpitStart.session.context.log ++ (encodeReplies id [] [.cont, .accept]).flatten) ∧
    written (Tarpit.run id (.name .accept false) tarpitStart
        [.command (.endOfMessage []), .command .abort, .command (.endOfMessage []), .fires, .fires]).session.context.log =
      written tarpitStart.session.context.log ++ (encodeReplies id [] [.accept, .accept]).flatten := by decide +kernel

/-- milter-tarpit.rb with a callback that counts headers, and decides nothing -/
def counting : Ruby.Class Nat where
  start := 0
  reset := id
  header := some fun _ _ => .own (· + 1) fun _ => .done
  endOfMessage := some delay

def countingSession : Session Nat := Ruby.run id (.name .accept false) (counting.object id) (.start (counting.object id) (new 0 .ready)) [.negotiate offer, .endOfMessage []]

/-- **C150** fails for what comes after the answer: its status stays, and is the answer to the next callback that decides nothing.  After a message accepted later, the first header of the next message is
answered with accept, so the milter sees no more of it: nothing but the first header is counted, and the end of the message does not come. -/
theorem C150_status_violated :
    let x := later id counting countingSession .endOfMessage (.act .accept fun _ => .done)
    written (Ruby.receive id (.name .accept false) (counting.object id) x (.header (ascii "Subject") (ascii "hi"))).context.log =
      written x.context.log ++ (encodeReplies id [] [.accept]).flatten := by decide +kernel

/-! ## milter-external.py -/

/-- the ends of messages among some events -/
def ends : List Ev → Nat
  | [] => 0
  | .command (.endOfMessage _) :: rest => ends rest + 1
  | _ :: rest => ends rest

theorem due_snoc (e : Ev) (l : List Ev) : ∀ (w : Option Nat) (n : Nat), due w n (l ++ [e]) = due (due w n l) (n + ends l) [e] := by
  induction l with
  | nil => exact fun _ _ => rfl
  | cons a l ih =>
    intro w n
    cases a with
    | exits m => exact ih _ _
    | command c =>
      cases c with
      | endOfMessage chunk =>
        refine (ih (some n) (n + 1)).trans ?_
        show due (due (some n) (n + 1) l) (n + 1 + ends l) [e] = due (due (some n) (n + 1) l) (n + (ends l + 1)) [e]
        rw [Nat.add_assoc, Nat.add_comm 1]
      | _ => exact ih _ _

theorem ends_snoc (e : Ev) (l : List Ev) : ends (l ++ [e]) = ends l + ends [e] := by
  induction l with
  | nil => exact (Nat.zero_add _).symm
  | cons a l ih =>
    have key : ∀ a, ends (a :: (l ++ [e])) = ends [a] + ends (l ++ [e]) ∧ ends (a :: l) = ends [a] + ends l := by
      intro a
      cases a with
      | exits n => exact ⟨(Nat.zero_add _).symm, (Nat.zero_add _).symm⟩
      | command c => cases c <;> first | exact ⟨Nat.add_comm _ _, Nat.add_comm _ _⟩ | exact ⟨(Nat.zero_add _).symm, (Nat.zero_add _).symm⟩
    show ends (a :: (l ++ [e])) = _
    rw [(key a).1, (key a).2, ih, Nat.add_assoc]

/-- the context of a session in which the answer to the end of a message has been put off -/
def waiting (order : Requests → Requests) (s : State) (chunk : Bytes) : State := Client.receive order s (.endOfMessage chunk) [⟨[], .progress⟩] none (some [])

/-- what holds of a session after some events: it waits for the child the MTA waits for, and watches no other -/
structure Watches (order : Requests → Requests) (w : Bytes) (o : Option Opt) (before : List Ev) (x : Session Watch) (out : List Reply) : Prop where
  next : x.own.next = ends before
  idle : due none 0 before = none → x.own.sources = [] ∧ Between order w o x.context out
  waits : ∀ n, due none 0 before = some n → x.own.source = some n ∧ x.own.sources = [n] ∧ x.status = none ∧
    ∃ s chunk, Between order w o s out ∧ x.context = waiting order s chunk

theorem no_calls (h : Handler) (hc : h.calls = []) (o : Option Opt) :
    ∀ x ∈ (ran [h]).flatMap (·.calls), answers x = false ∧ recipientFlagsAgree o x = true ∧ hasCode x = true := by
  intro y hy
  rw [Ruby.one_calls, hc] at hy
  cases hy

theorem waiting_eq (order : Requests → Requests) (s : State) (chunk : Bytes) : waiting order s chunk = enter (s.note (.got (.endOfMessage chunk))) .endOfMessage (some 0x45) := rfl

theorem waiting_sent {order : Requests → Requests} {w : Bytes} {o : Option Opt} {s : State} {out : List Reply} (h : Between order w o s out) (chunk : Bytes) :
    Sent order w (waiting order s chunk) out [] := by
  have h1 := h.sent.note (.got (.endOfMessage chunk)) (fun _ h => nomatch h)
  exact ⟨h1.link, h1.clean, h1.out, h1.held⟩

/-- what an event does to a session of milter-external.py -/
theorem Watches.step {order : Requests → Requests} {fallback : Value} {w : Bytes} {o : Option Opt} {before : List Ev} {x : Session Watch} {out : List Reply}
    (h : Watches order w o before x out) (e : Ev)
    (hp : ∀ c, e = .command c → (∀ o, c ≠ .negotiate o) ∧ c ≠ .quit ∧ (due none 0 before ≠ none → c = .abort)) :
    ∃ g, g.filter (· ≠ .progress) = told (due none 0 before) e ∧ clearing g ∧ Watches order w o (before ++ [e]) (External.step order fallback x e) (out ++ g) := by
  cases hd : due none 0 before with
  | none =>
    obtain ⟨hs, hb⟩ := h.idle hd
    cases e with
    | exits n =>
      refine ⟨[], rfl, (fun _ h => nomatch h), ?_⟩
      have hx : External.step order fallback x (.exits n) = x := by
        unfold External.step
        dsimp only
        rw [if_neg (by rw [hs]; exact List.not_mem_nil)]
      have hn : due none 0 (before ++ [.exits n]) = none := by
        rw [due_snoc, hd]; rfl
      rw [hx, List.append_nil]
      exact ⟨by rw [ends_snoc]; exact h.next, fun _ => ⟨hs, hb⟩, fun m hm => by rw [hn] at hm; cases hm⟩
    | command c =>
      obtain ⟨h1, h2, _⟩ := hp c rfl
      have hnext : ∀ (y : Session Watch), due none 0 (before ++ [.command c]) = none → ends [.command c] = 0 → y.own.next = x.own.next → y.own.sources = [] →
          ∀ out', Between order w o y.context out' → Watches order w o (before ++ [.command c]) y out' :=
        fun y hn he hy1 hy2 out' hy3 => ⟨by rw [ends_snoc, he, hy1]; exact h.next, fun _ => ⟨hy2, hy3⟩, fun m hm => by rw [hn] at hm; cases hm⟩
      -- a command without a callback
      have key : ∀ (he : due none 0 (before ++ [.command c]) = none) (he' : ends [.command c] = 0)
          (hx : (External.step order fallback x (.command c)).context = Client.receive order x.context c [] none (some []) ∧ (External.step order fallback x (.command c)).own = x.own)
          (hc : ∀ chunk, c ≠ .endOfMessage chunk),
          ∃ g, g.filter (· ≠ .progress) = told none (.command c) ∧ clearing g ∧
            Watches order w o (before ++ [.command c]) (External.step order fallback x (.command c)) (out ++ g) := by
        intro he he' hx hc
        obtain ⟨g, g1, g2, g3, _⟩ := hb.any c [] none (some []) h1 h2 (fun _ => rfl) (fun _ h => nomatch h)
        refine ⟨g, ?_, g2, ?_⟩
        · unfold Fits at g3
          by_cases hr : expectsReply c = true
          · rw [if_pos hr] at g3
            obtain ⟨parts, r, k1, k2⟩ := g3
            have k1 : some Reply.cont = some r := k1
            cases k1
            have e1 : told none (.command c) = [.cont] := by
              cases c <;> first | rfl | exact absurd rfl (hc _) | (cases hr; done)
            rw [e1]
            cases c <;> first | exact k2 | exact absurd rfl (hc _)
          · rw [if_neg hr] at g3
            have e1 : told none (.command c) = [] := by
              cases c <;> first | rfl | exact absurd rfl hr
            rw [e1]
            exact g3
        · exact hnext _ he he' (by rw [hx.2]) (by rw [hx.2]; exact hs) _ (by rw [hx.1]; exact g1)
      have hdue : ∀ v, due none 0 [.command c] = v → due none 0 (before ++ [.command c]) = due none (ends before) [.command c] := by
        intro v _
        rw [due_snoc, hd, Nat.zero_add]
      cases c with
      | negotiate off => exact absurd rfl (h1 off)
      | quit => exact absurd rfl h2
      | abort =>
        obtain ⟨g, g1, g2⟩ := hb.abort [⟨[], statusOf x.status⟩] none (some []) (no_calls _ rfl o)
        refine ⟨g, g2, clearing_progress g2, ?_⟩
        have hr : (External.step order fallback x (.command .abort)).own.sources = [] ∧ (External.step order fallback x (.command .abort)).own.next = x.own.next := by
          show (x.own.remove).sources = [] ∧ (x.own.remove).next = _
          unfold Watch.remove
          split
          · exact ⟨hs, rfl⟩
          · exact ⟨by show x.own.sources.filter _ = []; rw [hs]; rfl, rfl⟩
        exact hnext _ (by rw [hdue _ rfl]; rfl) rfl hr.2 hr.1 _ g1
      | endOfMessage chunk =>
        refine ⟨[], rfl, (fun _ h => nomatch h), ?_⟩
        rw [List.append_nil]
        have hn : due none 0 (before ++ [.command (.endOfMessage chunk)]) = some (ends before) := by rw [hdue _ rfl]; rfl
        refine ⟨?_, (fun hm => by rw [hn] at hm; cases hm), ?_⟩
        · rw [ends_snoc]
          show x.own.next + 1 = _
          rw [h.next]; rfl
        · intro n hm
          rw [hn] at hm
          cases hm
          refine ⟨?_, ?_, rfl, x.context, chunk, hb, rfl⟩
          · show some x.own.next = _
            rw [h.next]
          · show x.own.sources ++ [x.own.next] = _
            rw [hs, h.next]; rfl
      | body chunk =>
        refine key (by rw [hdue _ rfl]; rfl) rfl ?_ (fun _ h => nomatch h)
        cases chunk <;> exact ⟨rfl, rfl⟩
      | _ => exact key (by rw [hdue _ rfl]; rfl) rfl ⟨rfl, rfl⟩ (fun _ h => nomatch h)
  | some n =>
    obtain ⟨hsrc, hs, hst, s, chunk, hb, hx⟩ := h.waits n hd
    cases e with
    | exits m =>
      by_cases hm : m = n
      · subst hm
        obtain ⟨g, g1, g2, g3, _⟩ := hb.any (.endOfMessage chunk) [⟨[], .accept⟩] none (some []) (fun _ h => nomatch h) (fun h => nomatch h) (fun _ => rfl) (no_calls _ rfl o)
        have hn : due none 0 (before ++ [.exits m]) = none := by
          rw [due_snoc, hd]
          show (if (some m : Option Nat) = some m then none else some m) = none
          rw [if_pos rfl]
        have e1 : External.step order fallback x (.exits m) =
            { laterPython order external x .endOfMessage onExit with
              own := { (laterPython order external x .endOfMessage onExit).own with
                       sources := (laterPython order external x .endOfMessage onExit).own.sources.filter (· ≠ m) } } := by
          unfold External.step
          dsimp only
          rw [if_pos (by rw [hs]; exact List.mem_singleton.mpr rfl)]
        have e2 : Python.exec order external.reset onExit x.context x.status x.own =
            ⟨[(.accept, true)], [], x.context, some (.name .accept false), { source := none, sources := [m].filter (· ≠ m), next := x.own.next }, false⟩ := by
          show Python.exec order external.reset (if x.own.source = none then .raise else _) x.context x.status x.own = _
          rw [if_neg (by rw [hsrc]; exact fun h => nomatch h)]
          show (⟨_, _, _, _, { x.own.remove with source := none }, _⟩ : Ran Watch) = _
          unfold Watch.remove
          rw [hsrc]
          dsimp only
          rw [hs]
          rfl
        have e3 : laterPython order external x .endOfMessage onExit =
            { x with context := Client.receive order s (.endOfMessage chunk) [⟨[], .accept⟩] none (some [])
                     own := { source := none, sources := [m].filter (· ≠ m), next := x.own.next }, status := some (.name .accept false) } := by
          unfold laterPython answer
          rw [e2]
          dsimp only
          rw [if_neg (show ¬ (false = true) from fun h => nomatch h), hx]
          have := wait_answer order s (.endOfMessage chunk) .endOfMessage (some 0x45) rfl (fun h => nomatch h) [] [] .accept (fun h => nomatch h) (fun h => nomatch h) none (some [])
          rw [show callNoted order (waiting order s chunk) (.respond .endOfMessage (statusOf (some (.name .accept false)))) = _ from this]
          rfl
        have e4 : ([m] : List Nat).filter (· ≠ m) = [] := by simp
        refine ⟨g, ?_, g2, ?_⟩
        · show _ = if (some m : Option Nat) = some m then [Reply.accept] else []
          rw [if_pos rfl]
          unfold Fits at g3
          rw [if_pos (show expectsReply (.endOfMessage chunk) = true from rfl)] at g3
          obtain ⟨parts, r, k1, k2, k3⟩ := g3
          have k1 : some Reply.accept = some r := k1
          cases k1
          have k2 : Spec.Pointwise Shows [] parts := k2
          cases parts with
          | nil => exact k3
          | cons a b => cases k2
        · rw [e1, e3]
          refine ⟨by rw [ends_snoc]; exact h.next, fun _ => ⟨?_, g1⟩, fun k hk => by rw [hn] at hk; cases hk⟩
          show ([m].filter (· ≠ m)).filter _ = []
          rw [e4]; rfl
      · have hn : due none 0 (before ++ [.exits m]) = some n := by
          rw [due_snoc, hd]
          show (if (some n : Option Nat) = some m then none else some n) = some n
          rw [if_neg (fun h => hm (Option.some.inj h).symm)]
        have hx' : External.step order fallback x (.exits m) = x := by
          unfold External.step
          dsimp only
          rw [if_neg (by rw [hs]; exact fun h => hm (List.mem_singleton.mp h))]
        refine ⟨[], ?_, (fun _ h => nomatch h), ?_⟩
        · show [] = if (some n : Option Nat) = some m then [Reply.accept] else []
          rw [if_neg (fun h => hm (Option.some.inj h).symm)]
        · rw [hx', List.append_nil]
          refine ⟨by rw [ends_snoc]; exact h.next, (fun hk => by rw [hn] at hk; cases hk), fun k hk => ?_⟩
          rw [hn] at hk
          cases hk
          exact ⟨hsrc, hs, hst, s, chunk, hb, hx⟩
    | command c =>
      obtain ⟨_, _, h3⟩ := hp c rfl
      obtain rfl := h3 (by rw [hd]; exact fun h => nomatch h)
      have hsent := waiting_sent hb chunk
      have hag := hb.agrees.receive (order := order) (.endOfMessage chunk) [⟨[], .progress⟩] none (some [])
      have hle := hb.legal.receive (order := order) (.endOfMessage chunk) [⟨[], .progress⟩] none (some [])
      have hco : Coded (waiting order s chunk) := hb.coded.note (.got (.endOfMessage chunk)) (fun _ _ h => nomatch h)
      obtain ⟨g, g1, g2⟩ := Between.aborted hsent hag hle hco (show (waiting order s chunk).option = o from hb.option) [⟨[], statusOf x.status⟩] none (some []) (no_calls _ rfl o)
      have hn : due none 0 (before ++ [.command .abort]) = none := by
        rw [due_snoc, hd]; rfl
      refine ⟨g, g2, clearing_progress g2, ?_⟩
      refine ⟨?_, fun _ => ⟨?_, ?_⟩, fun k hk => by rw [hn] at hk; cases hk⟩
      · rw [ends_snoc]
        show x.own.remove.next = _
        unfold Watch.remove
        rw [hsrc]
        exact h.next
      · show x.own.remove.sources = []
        unfold Watch.remove
        rw [hsrc, hs]
        show [n].filter (· ≠ n) = []
        simp
      · show Between order w o (Client.receive order x.context .abort [⟨[], statusOf x.status⟩] none (some [])) (out ++ g)
        rw [hx]
        exact g1

theorem Watches.run {order : Requests → Requests} {fallback : Value} {w : Bytes} {o : Option Opt} (l : List Ev) : ∀ {before : List Ev} {x : Session Watch} {out : List Reply},
    Watches order w o before x out → Patient before l →
    ∃ gs, Told before l gs ∧ clearing gs.flatten ∧ Watches order w o (before ++ l) (External.run order fallback x l) (out ++ gs.flatten) := by
  induction l with
  | nil =>
    intro before x out h _
    exact ⟨[], trivial, (fun _ h => nomatch h), by rw [List.append_nil]; show Watches order w o before x (out ++ []); rw [List.append_nil]; exact h⟩
  | cons e l ih =>
    intro before x out h hp
    have hpe : (∀ c, e = .command c → (∀ o, c ≠ .negotiate o) ∧ c ≠ .quit ∧ (due none 0 before ≠ none → c = .abort)) ∧ Patient (before ++ [e]) l := by
      cases e with
      | exits n => exact ⟨(fun _ h => nomatch h), hp⟩
      | command c => exact ⟨fun _ h => by cases h; exact ⟨hp.1, hp.2.1, hp.2.2.1⟩, hp.2.2.2⟩
    obtain ⟨g, g1, g2, g3⟩ := h.step (fallback := fallback) e hpe.1
    obtain ⟨gs, k1, k2, k3⟩ := ih g3 hpe.2
    refine ⟨g :: gs, ⟨g1, k1⟩, ?_, ?_⟩
    · intro r hr
      rcases List.mem_append.mp (show r ∈ g ++ gs.flatten from hr) with h | h
      · exact g2 r h
      · exact k2 r h
    · rw [List.append_assoc] at k3
      rw [List.append_assoc] at k3
      exact k3

theorem Watches.written {order : Requests → Requests} {w : Bytes} {o : Option Opt} {before : List Ev} {x : Session Watch} {out : List Reply} (h : Watches order w o before x out) :
    Spec.Client.written x.context.log = w ++ bytes order out := by
  cases hd : due none 0 before with
  | none => exact (h.idle hd).2.sent.out
  | some n =>
    obtain ⟨_, _, _, s, chunk, hb, hx⟩ := h.waits n hd
    rw [hx]
    exact (waiting_sent hb chunk).out

/-- **C150**, for milter-external.py: in every session, whatever messages the MTA sends and gives up while it waits, and whenever and in whatever order the children end, the MTA reads one answer to each
message that is not given up, when the child of that message has ended, and none before; nothing when the child of a message that was given up ends; and for other commands that it is to go on. -/
theorem C150_external (order : Requests → Requests) (fallback : Value) (n : Nat) (link : Link) (o : Opt) (l : List Ev) (hl : Patient [] l)
    (hlink : (Python.receive order fallback (external.object order) (.start (external.object order) (new n link)) (.negotiate o)).context.link = .ready) :
    let x := Python.receive order fallback (external.object order) (.start (external.object order) (new n link)) (.negotiate o)
    ∃ groups : List (List Reply), Told [] l groups ∧
      Spec.Client.written (External.run order fallback x l).context.log = Spec.Client.written x.context.log ++ (encodeReplies order [] groups.flatten).flatten := by
  intro x
  have hmild : LibMilter.Mild [(⟨[], .continue_⟩ : Handler)] := by
    refine ⟨fun y hy => ?_, ?_⟩
    · rw [Ruby.one_calls] at hy
      cases hy
    · rw [LibMilter.decide_one _ (show Status.continue_ ≠ .notChange from fun h => nomatch h)]
      exact fun h => nomatch h
  have hcalm : LibMilter.Calm x.context := (LibMilter.Calm.new n link).received (order := order) (.negotiate o) (fun h => nomatch h) [⟨[], .continue_⟩] (some (external.choose o)) (some []) hmild
  have hb := hcalm.settled.empty hcalm.orderly hcalm.st
  have h0 : Between order (Spec.Client.written x.context.log) (negotiated x.context.log) x.context [] :=
    ⟨⟨hlink, fun _ => hb, by rw [bytes_nil, List.append_nil], hb⟩, hcalm.settled.agrees, hcalm.legal, hcalm.coded, hcalm.st, hcalm.settled.agrees.option⟩
  have hw : Watches order (Spec.Client.written x.context.log) (negotiated x.context.log) [] x [] :=
    ⟨rfl, fun _ => ⟨rfl, h0⟩, fun _ h => nomatch h⟩
  obtain ⟨gs, k1, k2, k3⟩ := hw.run (fallback := fallback) l hl
  refine ⟨gs, k1, ?_⟩
  have := k3.written
  rw [List.nil_append] at this
  rw [this, bytes_encode order _ k2]

/-- milter-external.py after the negotiation -/
def externalStart : Session Watch := Python.receive id (.name .accept false) (external.object id) (.start (external.object id) (new 0 .ready)) (.negotiate offer)

/-- two messages, the first given up while the MTA waits; its child ends before that of the second -/
def twoMessages : List Ev := [.command (.envelopeFrom (ascii "<a@x>")), .command (.endOfMessage []), .command .abort, .command (.envelopeFrom (ascii "<b@x>")), .command (.endOfMessage []), .exits 0, .exits 1]

example : Patient [] twoMessages ∧ externalStart.context.link = .ready := by
  refine ⟨⟨(fun _ h => nomatch h), (fun h => nomatch h), (fun h => absurd rfl h), ⟨(fun _ h => nomatch h), (fun h => nomatch h), (fun h => absurd rfl h),
    ⟨(fun _ h => nomatch h), (fun h => nomatch h), (fun _ => rfl), ⟨(fun _ h => nomatch h), (fun h => nomatch h), (fun h => absurd rfl h),
    ⟨(fun _ h => nomatch h), (fun h => nomatch h), (fun h => absurd rfl h), trivial⟩⟩⟩⟩⟩, ?_⟩
  decide +kernel

example : written (External.run id (.name .accept false) externalStart twoMessages).context.log =
    written externalStart.context.log ++ (encodeReplies id [] [.cont, .cont, .accept]).flatten := by decide +kernel

end Verif.Props.Later
