import Verif.Spec.Leader
import Verif.Client.Settled
import Verif.Client.Reply
import Verif.Props.SetReply
/-
Facts about the model of the leader.
-/
namespace Verif.Leader
open Verif Verif.Spec.Leader
open Verif.Client (Kind kindOf Call Event quietEvent Quiet)
open Verif.Children (Emit)

/-! ### The record of a call -/

theorem isWriting_quiet {e : Event} (h : quietEvent e = true) : isWriting e = true := by
  cases e <;> first | rfl | cases h

/-- what a call other than a response adds to the record -/
theorem call_log (order : Requests → Requests) (s : Client.State) (c : Call) (h : Spec.Client.answers c = false) :
    ∃ es ok, (Client.callNoted order s c).log = s.log ++ es ++ [.called c ok] ∧ ∀ e ∈ es, isWriting e = true := by
  have key : ∀ (b : Bool) (s' : Client.State), (∃ es, s'.log = s.log ++ es ∧ ∀ e ∈ es, isWriting e = true) →
      ∃ es ok, (s'.note (.called c b)).log = s.log ++ es ++ [.called c ok] ∧ ∀ e ∈ es, isWriting e = true := by
    rintro b s' ⟨es, h1, h2⟩
    exact ⟨es, b, by show s'.log ++ _ = _; rw [h1], h2⟩
  by_cases hw : Client.writes c = true
  · obtain ⟨es, h1, h2⟩ := (Client.call_quiet order s c hw).log
    have : Client.callNoted order s c = (Client.call order s c).2.note (.called c (Client.call order s c).1) := by
      cases c <;> first | rfl | cases hw
    rw [this]
    exact key _ _ ⟨es, h1, fun e he => isWriting_quiet (h2 e he)⟩
  · cases c with
    | respond => cases h
    | respondNegotiate => cases h
    | respondAbort => cases h
    | setReply code ext message => exact key _ _ ⟨[], (List.append_nil _).symm, by simp⟩
    | quarantine r => exact key _ _ ⟨[], (List.append_nil _).symm, by simp⟩
    | setBufferSize n => exact key _ _ ⟨[], (List.append_nil _).symm, by simp⟩
    | setShelf k v => exact key _ _ ⟨[], (List.append_nil _).symm, by simp⟩
    | _ => exact absurd rfl hw

theorem abort_log (order : Requests → Requests) (s : Client.State) (v : Status) :
    (Client.callNoted order s (.respondAbort v)).log = s.log ++ [.called (.respondAbort v) true] := by
  show (Client.respondAbort s v).log ++ _ = _
  congr 1
  unfold Client.respondAbort
  dsimp only
  split <;> rfl

theorem respond_log (order : Requests → Requests) (s : Client.State) (k : Kind) (v : Status) :
    ∃ es, (Client.callNoted order s (.respond k v)).log = s.log ++ [.answered k v] ++ es ∧ ∀ e ∈ es, isWriting e = true := by
  obtain ⟨s0, hs0⟩ : ∃ s0 : Client.State,
    s0 = Client.setSt { s.note (.answered k v) with status := Client.orContinue v } (.replied k) := ⟨_, rfl⟩
  have hl : s0.log = s.log ++ [.answered k v] := by rw [hs0]; rfl
  have hq : ∀ s', Quiet s0 s' → ∃ es, s'.log = s.log ++ [.answered k v] ++ es ∧ ∀ e ∈ es, isWriting e = true := by
    intro s' h
    obtain ⟨es, h1, h2⟩ := h.log
    exact ⟨es, by rw [h1, hl], fun e he => isWriting_quiet (h2 e he)⟩
  by_cases hk : k = .endOfMessage
  · have he : Client.callNoted order s (.respond k v) = Client.messageProcessed (Client.replyOnEndOfMessage order s0 (Client.orContinue v)) := by
      rw [hs0]; subst hk; rfl
    rw [he]
    obtain ⟨es, h1, h2⟩ := hq _ (Client.replyOnEndOfMessage_quiet order s0 (Client.orContinue v))
    unfold Client.messageProcessed
    split
    · refine ⟨es ++ [.processed (Client.replyOnEndOfMessage order s0 (Client.orContinue v)).status], ?_, ?_⟩
      · show (Client.replyOnEndOfMessage order s0 (Client.orContinue v)).log ++ _ = _
        rw [h1, List.append_assoc _ es]
      · intro e he
        rcases List.mem_append.mp he with he | he
        · exact h2 e he
        · rw [List.mem_singleton.mp he]; rfl
    · exact ⟨es, h1, h2⟩
  · by_cases hn : k = .negotiate
    · have he : Client.callNoted order s (.respond k v) = s0 := by rw [hs0]; subst hn; rfl
      rw [he]
      exact hq _ (Quiet.refl _)
    · have he : Client.callNoted order s (.respond k v) = Client.reply s0 (Client.orContinue v) := by
        rw [hs0]
        cases k <;> first | rfl | exact absurd rfl hk | exact absurd rfl hn
      rw [he]
      exact hq _ (Client.reply_quiet _ _)

theorem negotiate_log (order : Requests → Requests) (s : Client.State) (o : Option Opt) (r : Option Requests) (v : Status) :
    ∃ es, (Client.callNoted order s (.respondNegotiate o r v)).log = s.log ++ [.answeredNegotiate o v] ++ es ∧
      ∀ e ∈ es, isWriting e = true := by
  obtain ⟨s', h1, _, h3⟩ := Client.respondNegotiate_shape order (s.note (.answeredNegotiate o v)) o r v
  have hl : s'.log = s.log ++ [.answeredNegotiate o v] := h1
  show ∃ es, (Client.respondNegotiate order (s.note (.answeredNegotiate o v)) o r v).log = _ ++ es ∧ _
  rcases h3 with h3 | ⟨p, h3⟩
  · rw [h3, hl]
    exact ⟨[], (List.append_nil _).symm, by simp⟩
  · rw [h3]
    obtain ⟨es, h4, h5⟩ := (Client.writePacket_quiet s' p).log
    exact ⟨es, by rw [h4, hl], fun e he => isWriting_quiet (h5 e he)⟩

/-! ### Where the conversation stands -/

/-- one event -/
def stand (x : Option (Kind × Bool)) : Event → Option (Kind × Bool)
  | .got (.defineMacro _ _) => x
  | .got c => (kindOf c).map fun k => (k.1, false)
  | .answered _ _ | .answeredNegotiate _ _ => x.map fun p => (p.1, true)
  | .shutdown => none
  | _ => x

theorem standing_eq (log : List Event) : standing log = log.foldl stand none := rfl

theorem standing_append (a b : List Event) : standing (a ++ b) = b.foldl stand (standing a) := by
  rw [standing_eq, List.foldl_append]; rfl

theorem standing_writing {es : List Event} (h : ∀ e ∈ es, isWriting e = true) (x : Option (Kind × Bool)) : es.foldl stand x = x := by
  induction es with
  | nil => rfl
  | cons e es ih =>
    rw [List.foldl_cons]
    have he : stand x e = x := by
      have := h e List.mem_cons_self
      cases e <;> first | rfl | cases this
    rw [he]
    exact ih fun e he => h e (List.mem_cons_of_mem _ he)

/-- the effect of a call -/
def callEffect (x : Option (Kind × Bool)) : Call → Option (Kind × Bool)
  | .respond _ _ | .respondNegotiate _ _ _ => x.map fun p => (p.1, true)
  | _ => x

theorem standing_call (order : Requests → Requests) (s : Client.State) (c : Call) :
    standing (Client.callNoted order s c).log = callEffect (standing s.log) c := by
  have other : Spec.Client.answers c = false → standing (Client.callNoted order s c).log = standing s.log := fun h => by
    obtain ⟨es, ok, h1, h2⟩ := call_log order s c h
    rw [h1, standing_append, standing_append, standing_writing h2]
    rfl
  cases c with
  | respond k v =>
    obtain ⟨es, h1, h2⟩ := respond_log order s k v
    rw [h1, standing_append, standing_append, standing_writing h2]
    rfl
  | respondNegotiate o r v =>
    obtain ⟨es, h1, h2⟩ := negotiate_log order s o r v
    rw [h1, standing_append, standing_append, standing_writing h2]
    rfl
  | respondAbort v =>
    rw [abort_log, standing_append]
    rfl
  | _ => exact other rfl

theorem standing_calls (order : Requests → Requests) (cs : List Call) : ∀ s : Client.State,
    standing (Client.runCalls order s cs).log = cs.foldl callEffect (standing s.log) := by
  induction cs with
  | nil => intro s; rfl
  | cons c cs ih =>
    intro s
    show standing (Client.runCalls order (Client.callNoted order s c) cs).log = _
    rw [ih, standing_call]
    rfl

/-! ### The leader's state follows -/

/-- the leader's state when the conversation stands at `x` -/
def Follows (st : St) : Option (Kind × Bool) → Prop
  | some (k, false) => st = .doing k
  | some (.negotiate, true) => st = .doing .negotiate ∨ st = .replied .negotiate
  | some (k, true) => st = .replied k
  | none => st = .start ∨ st = .quit ∨ st = .quitReplied ∨ st = .abort ∨ st = .abortReplied

/-- what does not change -/
structure Same (l l' : Leader) : Prop where
  sentEnd : l'.sentEnd = l.sentEnd
  hasChildren : l'.hasChildren = l.hasChildren
  fallback : l'.fallback = l.fallback
  atDisconnect : l'.atDisconnect = l.atDisconnect

theorem Same.refl (l : Leader) : Same l l := ⟨rfl, rfl, rfl, rfl⟩

theorem Same.trans {a b c : Leader} (h : Same a b) (g : Same b c) : Same a c :=
  ⟨g.1.trans h.1, g.2.trans h.2, g.3.trans h.3, g.4.trans h.4⟩

theorem reply_same (l : Leader) (v : Status) : Same l (reply l v).1 := by
  unfold reply
  split <;> exact ⟨rfl, rfl, rfl, rfl⟩

theorem callsOf_nil : callsOf [] = [] := rfl

theorem reply_follows {l : Leader} {x : Option (Kind × Bool)} (h : Follows l.st x) (hs : l.sentEnd = false) (v : Status) :
    Follows (reply l v).1.st ((callsOf (reply l v).2).foldl callEffect x) := by
  rcases x with _ | ⟨k, b⟩
  · rcases h with h | h | h | h | h <;> unfold reply <;> rw [h] <;> simp [response, nextState, callsOf, callEffect, Follows, h]
  · cases b with
    | false =>
      have h : l.st = .doing k := h
      cases k <;> unfold reply <;> rw [h] <;> simp [response, nextState, callsOf, callEffect, Follows, hs]
    | true =>
      by_cases hk : k = .negotiate
      · subst hk
        have h : l.st = .doing .negotiate ∨ l.st = .replied .negotiate := h
        rcases h with h | h <;> unfold reply <;> rw [h] <;> simp [response, nextState, callsOf, callEffect, Follows, h]
      · have h : l.st = .replied k := by cases k <;> first | exact h | exact absurd rfl hk
        cases k <;> unfold reply <;> rw [h] <;> simp [response, nextState, callsOf, callEffect, Follows, hs, h]

theorem hear_same (l : Leader) (e : Emit) : Same l (hear l e).1 := by
  cases e with
  | reply r =>
    cases r with
    | replyCode code ext message =>
      show Same l (hearReply l _).1
      unfold hearReply
      dsimp only
      split
      · exact reply_same l _
      · exact .refl l
    | _ => first | exact reply_same l _ | exact .refl l
  | error own =>
    cases own
    · exact .refl l
    · exact reply_same l _
  | negotiateReply o => exact ⟨rfl, rfl, rfl, rfl⟩
  | _ => exact .refl l

theorem hear_follows {l : Leader} {x : Option (Kind × Bool)} {e : Emit} (h : Follows l.st x) (hs : l.sentEnd = false)
    (hn : isNegotiation e = true → ∃ b, x = some (.negotiate, b)) :
    Follows (hear l e).1.st ((callsOf (hear l e).2).foldl callEffect x) := by
  cases e with
  | reply r =>
    cases r with
    | replyCode code ext message =>
      show Follows (hearReply l _).1.st _
      unfold hear hearReply
      dsimp only
      split
      · exact reply_follows h hs _
      · exact h
    | _ => first | exact reply_follows h hs _ | exact h
  | error own =>
    cases own
    · exact h
    · exact reply_follows h hs _
  | negotiateReply o =>
    obtain ⟨b, rfl⟩ := hn rfl
    show l.st = _ ∨ l.st = _
    cases b
    · exact .inl h
    · exact h
  | edit e => cases e <;> exact h
  | _ => exact h

theorem callsOf_append (a b : List Act) : callsOf (a ++ b) = callsOf a ++ callsOf b := List.filterMap_append ..

theorem callEffect_kind (cs : List Call) : ∀ (k : Kind) (b : Bool), ∃ b', cs.foldl callEffect (some (k, b)) = some (k, b') := by
  induction cs with
  | nil => intro k b; exact ⟨b, rfl⟩
  | cons c cs ih =>
    intro k b
    have : ∃ b', callEffect (some (k, b)) c = some (k, b') := by cases c <;> exact ⟨_, rfl⟩
    obtain ⟨b', hb⟩ := this
    rw [List.foldl_cons, hb]
    exact ih k b'

theorem hearAll_follows (es : List Emit) : ∀ {l : Leader} {x : Option (Kind × Bool)}, Follows l.st x → l.sentEnd = false →
    (es.any isNegotiation = true → ∃ b, x = some (.negotiate, b)) →
    Follows (hearAll l es).1.st ((callsOf (hearAll l es).2).foldl callEffect x) ∧ Same l (hearAll l es).1 := by
  induction es with
  | nil => intro l x h _ _; exact ⟨h, .refl l⟩
  | cons e es ih =>
    intro l x h hs hn
    have h1 := hear_follows (e := e) h hs fun he => hn (by rw [List.any_cons, he]; rfl)
    have h2 := hear_same l e
    obtain ⟨h3, h4⟩ := ih h1 (h2.sentEnd.trans hs) fun he => by
      obtain ⟨b, rfl⟩ := hn (by rw [List.any_cons, he]; exact Bool.or_true _)
      exact callEffect_kind _ _ _
    refine ⟨?_, h2.trans h4⟩
    show Follows _ ((callsOf ((hear l e).2 ++ (hearAll (hear l e).1 es).2)).foldl callEffect x)
    rw [callsOf_append, List.foldl_append]
    exact h3

/-! ### What the leader does, done -/

theorem perform_plain (order : Requests → Requests) (acts : List Act) (h : ∀ a ∈ acts, a ≠ .shutdown ∧ a ≠ .finished) : ∀ f : Front,
    acts.foldl (Front.perform order) f = { f with
      client := Client.runCalls order f.client (callsOf acts)
      complaints := f.complaints + acts.count .complain } := by
  induction acts with
  | nil => intro f; rfl
  | cons a acts ih =>
    intro f
    have hr := ih fun b hb => h b (List.mem_cons_of_mem _ hb)
    have ha := h a List.mem_cons_self
    rw [List.foldl_cons, hr]
    cases a with
    | call c =>
      show _ = ({ f with client := _, complaints := f.complaints + List.count _ (Act.call c :: acts) } : Front)
      rw [List.count_cons_of_ne (by simp)]
      rfl
    | complain =>
      show _ = ({ f with client := _, complaints := f.complaints + List.count _ (Act.complain :: acts) } : Front)
      rw [List.count_cons_self]
      show ({ f with client := _, complaints := f.complaints + 1 + _ } : Front) = _
      rw [Nat.add_assoc, Nat.add_comm 1]
      rfl
    | noSuchSignal =>
      show _ = ({ f with client := _, complaints := f.complaints + List.count _ (Act.noSuchSignal :: acts) } : Front)
      rw [List.count_cons_of_ne (by simp)]
      rfl
    | shutdown => exact absurd rfl ha.1
    | finished => exact absurd rfl ha.2

theorem reply_plain (l : Leader) (v : Status) : ∀ a ∈ (reply l v).2, a ≠ .shutdown ∧ a ≠ .finished := by
  unfold reply
  split
  · rename_i a ha
    intro b hb
    rw [List.mem_singleton.mp hb]
    cases hst : l.st with
    | doing k => rw [hst] at ha; cases k <;> cases ha <;> simp
    | replied k => rw [hst] at ha; cases k <;> cases ha <;> simp
    | _ => rw [hst] at ha; cases ha <;> simp
  · simp

theorem hear_plain (l : Leader) (e : Emit) (h1 : e ≠ .abort) (h2 : e ≠ .finished) :
    ∀ a ∈ (hear l e).2, a ≠ .shutdown ∧ a ≠ .finished := by
  cases e with
  | reply r =>
    cases r with
    | replyCode code ext message =>
      show ∀ a ∈ (hearReply l _).2, _
      unfold hearReply
      dsimp only
      split
      · intro a ha
        rcases List.mem_cons.mp ha with rfl | ha
        · simp
        · exact reply_plain l _ a ha
      · simp
    | _ => first | exact reply_plain l _ | (intro a ha; simp [hear, hearReply] at ha; try (subst ha; simp))
  | error own =>
    cases own
    · intro a ha; cases ha
    · exact reply_plain l _
  | abort => exact absurd rfl h1
  | finished => exact absurd rfl h2
  | negotiateReply o => intro a ha; rw [List.mem_singleton.mp ha]; simp
  | edit e => intro a ha; rw [List.mem_singleton.mp ha]; simp

/-! ### The invariant -/

structure Inv (fallback atDisconnect : Status) (f : Front) : Prop where
  follows : f.attached = true → Follows f.leader.st (standing f.client.log)
  sentEnd : f.leader.sentEnd = false
  fallback : f.leader.fallback = fallback
  atDisconnect : f.leader.atDisconnect = atDisconnect
  children : f.leader.hasChildren = true

section
variable {order : Requests → Requests} {a b : Status} {f : Front}

theorem Inv.acts (h : Inv a b f) {l : Leader} {acts : List Act} (hs : Same f.leader l)
    (hf : f.attached = true → Follows l.st ((callsOf acts).foldl callEffect (standing f.client.log)))
    (hp : ∀ x ∈ acts, x ≠ .shutdown ∧ x ≠ .finished) :
    Inv a b (acts.foldl (Front.perform order) { f with leader := l }) := by
  rw [perform_plain order acts hp]
  refine ⟨fun ha => ?_, hs.sentEnd.trans h.sentEnd, hs.fallback.trans h.fallback, hs.atDisconnect.trans h.atDisconnect,
    hs.hasChildren.trans h.children⟩
  show Follows l.st (standing (Client.runCalls order f.client (callsOf acts)).log)
  rw [standing_calls]
  exact hf ha

theorem Inv.hear (h : Inv a b f) (e : Emit) (hn : isNegotiation e = true → ∃ b, standing f.client.log = some (.negotiate, b)) :
    Inv a b (f.hear order e) := by
  by_cases h1 : e = .abort
  · subst h1
    unfold Front.hear Leader.hear
    show Inv a b (Front.perform order (Front.perform order { f with leader := f.leader } .shutdown) .finished)
    show Inv a b { (Front.quit { f with client := Client.shutdown f.client }) with
      leader := { (Front.quit { f with client := Client.shutdown f.client }).leader with processing := false }, attached := false }
    unfold Front.quit
    dsimp only
    split <;> exact ⟨fun hx => (nomatch hx), h.sentEnd, h.fallback, h.atDisconnect, h.children⟩
  · by_cases h2 : e = .finished
    · subst h2
      exact ⟨fun hx => (nomatch hx), h.sentEnd, h.fallback, h.atDisconnect, h.children⟩
    · exact h.acts (hear_same _ _) (fun ha => hear_follows (h.follows ha) h.sentEnd hn) (hear_plain _ _ h1 h2)

theorem Inv.quit (h : Inv a b f) (c : Client.State) (hl : standing c.log = none) : Inv a b (Front.quit { f with client := c }) := by
  unfold Front.quit
  split
  · exact ⟨fun _ => by show Follows .quit (standing c.log); rw [hl]; exact .inr (.inl rfl), h.sentEnd, h.fallback, h.atDisconnect, h.children⟩
  · rename_i hx
    exact ⟨fun ha => absurd ha hx, h.sentEnd, h.fallback, h.atDisconnect, h.children⟩

theorem Inv.detached (h : Inv a b f) (hd : f.attached = false) (c : Client.State) : Inv a b { f with client := c } :=
  ⟨fun hx => absurd (hd.symm.trans hx) (by simp), h.sentEnd, h.fallback, h.atDisconnect, h.children⟩

theorem standing_shutdown (s : Client.State) : standing (Client.shutdown s).log = none := by
  show standing (s.log ++ [.shutdown]) = none
  rw [standing_append]
  rfl

/-! ### Commands -/

theorem enter_log (s : Client.State) (k : Kind) (context : Option Macros.Context) : (Client.enter s k context).log = s.log := by
  unfold Client.enter Client.setSt
  dsimp only
  split <;> split <;> rfl

theorem emitAll_progress (s : Client.State) (cs : List Call) (own : Status) :
    Client.emitAll order s [⟨cs, .progress⟩] own = (Client.runCalls order s cs, .progress) := rfl

theorem standing_got {log : List Event} {c : Cmd} {k : Kind} {context : Option Macros.Context} (hk : kindOf c = some (k, context)) :
    standing (log ++ [.got c]) = some (k, false) := by
  rw [standing_append]
  cases c <;> simp only [kindOf, Option.some.injEq, Prod.mk.injEq, reduceCtorEq] at hk <;> obtain ⟨rfl, rfl⟩ := hk <;> rfl

/-- the record after a command whose answer is left for later -/
theorem receive_progress (s : Client.State) (c : Cmd) (cs : List Call) (chosen : Option Opt) (requests : Option Requests)
    {k : Kind} {context : Option Macros.Context} (hk : kindOf c = some (k, context)) :
    ∃ s' : Client.State, s'.log = s.log ++ [.got c] ∧
      Client.receive order s c [⟨cs, .progress⟩] chosen requests = Client.runCalls order s' cs := by
  by_cases hn : k = .negotiate
  · subst hn
    cases c with
    | negotiate o => exact ⟨{ Client.enter (s.note (.got (.negotiate o))) .negotiate none with option := some o }, enter_log _ _ _, rfl⟩
    | _ => cases hk
  · refine ⟨Client.enter (s.note (.got c)) k context, enter_log _ _ _, ?_⟩
    rw [Client.receive_plain order s c _ chosen requests k context hk hn, emitAll_progress]
    rfl

theorem standing_progress (s : Client.State) (c : Cmd) (cs : List Call) (chosen : Option Opt) (requests : Option Requests)
    {k : Kind} {context : Option Macros.Context} (hk : kindOf c = some (k, context)) :
    standing (Client.receive order s c [⟨cs, .progress⟩] chosen requests).log = cs.foldl callEffect (some (k, false)) := by
  obtain ⟨s', h1, h2⟩ := receive_progress (order := order) s c cs chosen requests hk
  rw [h2, standing_calls, h1, standing_got hk]

theorem standing_macros (s : Client.State) (x : UInt8) (t : MacroTable) (chosen : Option Opt) (requests : Option Requests) :
    standing (Client.receive order s (.defineMacro x t) [] chosen requests).log = standing s.log := by
  show standing (s.log ++ [.got (.defineMacro x t)]) = _
  rw [standing_append]
  rfl

theorem standing_quit (s : Client.State) (chosen : Option Opt) (requests : Option Requests) :
    standing (Client.receive order s .quit [] chosen requests).log = none := standing_shutdown _

theorem callEffect_none (cs : List Call) : cs.foldl callEffect none = none := by
  induction cs with
  | nil => rfl
  | cons c cs ih =>
    rw [List.foldl_cons, show callEffect none c = none by cases c <;> rfl]
    exact ih

theorem standing_abort (s : Client.State) (cs : List Call) (v : Status) (chosen : Option Opt) (requests : Option Requests) :
    standing (Client.receive order s .abort [⟨cs, v⟩] chosen requests).log = none := by
  obtain ⟨s1, hs1⟩ : ∃ s1 : Client.State, s1 = { Client.setSt (s.note (.got .abort)) .abort with timer := false } := ⟨_, rfl⟩
  have hl : standing s1.log = none := by
    rw [hs1]
    show standing (s.log ++ [.got .abort]) = none
    rw [standing_append]
    rfl
  have key : ∀ (u : Client.State) (w : Status), standing u.log = none →
      standing (if w = .progress then Client.resetMessage u else Client.callNoted order (Client.resetMessage u) (.respondAbort w)).log = none := by
    intro u w hu
    split
    · exact hu
    · rw [standing_call]
      show callEffect (standing u.log) _ = none
      rw [hu]
      rfl
  have he : Client.receive order s .abort [⟨cs, v⟩] chosen requests =
      (let r := Client.emitAll order s1 [⟨cs, v⟩] .default
       if r.2 = .progress then Client.resetMessage r.1 else Client.callNoted order (Client.resetMessage r.1) (.respondAbort r.2)) := by
    rw [hs1]; rfl
  rw [he]
  refine key _ _ ?_
  have : (Client.emitAll order s1 [⟨cs, v⟩] .default).1 = Client.runCalls order s1 cs := by
    unfold Client.emitAll
    show (Client.emit order [⟨cs, v⟩, ⟨[], .default⟩] s1 .default).1 = _
    unfold Client.emit
    dsimp only
    split
    · unfold Client.emit
      dsimp only
      split <;> rfl
    · rfl
  rw [this, standing_calls, hl, callEffect_none]

theorem begin_same (l : Leader) (c : Cmd) (hc : l.hasChildren = true) (hs : c ≠ .quit → (∀ x, c = .endOfMessage x → isReplied l.st = true)) :
    c ≠ .quit → Same l (begin l c) := by
  intro hq
  cases c with
  | endOfMessage x =>
    unfold begin
    rw [if_pos (hs hq x rfl)]
    exact ⟨rfl, rfl, rfl, rfl⟩
  | negotiate o => exact ⟨rfl, hc.symm, rfl, rfl⟩
  | quit => exact absurd rfl hq
  | _ => exact ⟨rfl, rfl, rfl, rfl⟩

theorem begin_st (l : Leader) {c : Cmd} {k : Kind} {context : Option Macros.Context} (hk : kindOf c = some (k, context))
    (hs : ∀ x, c = .endOfMessage x → isReplied l.st = true) : (begin l c).st = .doing k := by
  cases c <;> simp only [kindOf, Option.some.injEq, Prod.mk.injEq, reduceCtorEq] at hk <;> obtain ⟨rfl, rfl⟩ := hk <;>
    first
    | rfl
    | (unfold begin; rw [if_pos (hs _ rfl)])

theorem Inv.command (h : Inv a b f) (c : Cmd) (during : List Emit) (ok : Bool) (chosen : Option Opt) (requests : Option Requests)
    (hm : mayHappen f.client.log (.command c during ok chosen requests) = true) :
    Inv a b (f.command order c during ok chosen requests) := by
  unfold Front.command
  split
  · rename_i hat
    exact h.detached (by simpa using hat) _
  · rename_i hat
    replace hat : f.attached = true := by simpa using hat
    have hf := h.follows hat
    have main : (∀ x t, c ≠ .defineMacro x t) → c ≠ .quit → Inv a b { f with
        leader := (hearAll (begin f.leader c) during).1
        client := Client.receive order f.client c [⟨callsOf (hearAll (begin f.leader c) during).2,
          returns (hearAll (begin f.leader c) during).1 c ok⟩] chosen requests
        complaints := f.complaints + (hearAll (begin f.leader c) during).2.count .complain } := by
      intro hd hq
      have hrep : ∀ x, c = .endOfMessage x → isReplied f.leader.st = true := by
        rintro x rfl
        simp only [mayHappen, kindOf, Bool.and_eq_true] at hm
        have hm := hm.2
        revert hm hf
        cases standing f.client.log with
        | none => simp
        | some p =>
          obtain ⟨k, b⟩ := p
          cases k <;> cases b <;> simp [Follows] <;> intro h <;> rw [h] <;> rfl
      have hsame := begin_same f.leader c h.children (fun _ => hrep) hq
      cases hk : kindOf c with
      | some p =>
        obtain ⟨k, context⟩ := p
        have hneg : during.any isNegotiation = true → ∃ b, some (k, false) = some (Kind.negotiate, b) := by
          intro hd
          by_cases hkn : k = .negotiate
          · exact ⟨false, by rw [hkn]⟩
          · exfalso
            simp only [mayHappen, hk] at hm
            cases k <;> simp [hd] at hm hkn
        have hok : ok = true := by
          simp only [mayHappen, hk] at hm
          cases k <;> simp at hm <;> first | exact hm.1 | exact hm.1.1
        obtain ⟨h1, h2⟩ := hearAll_follows during (l := begin f.leader c) (x := some (k, false)) (begin_st _ hk hrep)
          (hsame.sentEnd.trans h.sentEnd) hneg
        have hs := hsame.trans h2
        have hret : returns (hearAll (begin f.leader c) during).1 c ok = .progress := by
          have hch : (hearAll (begin f.leader c) during).1.hasChildren = true := hs.hasChildren.trans h.children
          unfold returns
          rw [hok, hch]
          cases c <;> first | rfl | cases hk
        rw [hret]
        refine ⟨fun _ => ?_, hs.sentEnd.trans h.sentEnd, hs.fallback.trans h.fallback, hs.atDisconnect.trans h.atDisconnect,
          hs.hasChildren.trans h.children⟩
        show Follows (hearAll (begin f.leader c) during).1.st _
        rw [standing_progress _ _ _ _ _ hk]
        exact h1
      | none =>
        have hc : c = .abort := by
          cases c <;> first | rfl | (cases hk; done) | exact absurd rfl hq | exact absurd rfl (hd _ _)
        subst hc
        have hneg : during.any isNegotiation = true → ∃ b : Bool, none = some (Kind.negotiate, b) := by
          intro hd
          simp [mayHappen, kindOf, hd] at hm
        obtain ⟨h1, h2⟩ := hearAll_follows during (l := begin f.leader .abort) (x := none) (.inr (.inr (.inr (.inl rfl))))
          (hsame.sentEnd.trans h.sentEnd) hneg
        have hs := hsame.trans h2
        refine ⟨fun _ => ?_, hs.sentEnd.trans h.sentEnd, hs.fallback.trans h.fallback, hs.atDisconnect.trans h.atDisconnect,
          hs.hasChildren.trans h.children⟩
        show Follows (hearAll (begin f.leader .abort) during).1.st (standing (Client.receive order f.client .abort _ chosen requests).log)
        rw [standing_abort]
        rw [callEffect_none] at h1
        exact h1
    cases c with
    | defineMacro x t =>
      refine ⟨fun _ => ?_, h.sentEnd, h.fallback, h.atDisconnect, h.children⟩
      show Follows f.leader.st (standing (Client.receive order f.client (.defineMacro x t) [] chosen requests).log)
      rw [standing_macros]
      exact hf
    | quit =>
      exact h.quit _ (standing_quit _ _ _)
    | _ => exact main (fun _ _ h => nomatch h) (fun h => nomatch h)

theorem Inv.step (h : Inv a b f) (op : Op) (hm : mayHappen f.client.log op = true) : Inv a b (Leader.step order f op) := by
  cases op with
  | command c during ok chosen requests => exact h.command c during ok chosen requests hm
  | heard e =>
    refine h.hear e fun he => ?_
    cases e <;> first | cases he | skip
    revert hm
    unfold mayHappen
    cases standing f.client.log with
    | none => simp
    | some p =>
      obtain ⟨k, b⟩ := p
      cases k <;> simp
  | check waiting connected =>
    show Inv a b (f.check order waiting connected)
    unfold Front.check
    split
    · exact h
    · exact h.acts (reply_same _ _) (fun ha => reply_follows (h.follows ha) h.sentEnd _) (reply_plain _ _)
  | timeout =>
    unfold Leader.step
    dsimp only
    split
    · rename_i ht
      have he : Client.step order f.client .timeout = Client.shutdown { f.client.note .timedOut with timer := false } := by
        show (if f.client.timer then _ else _) = _
        rw [if_pos ht]
      refine h.quit _ ?_
      rw [he]
      exact standing_shutdown _
    · exact h
  | close =>
    refine ⟨fun ha => ?_, h.sentEnd, h.fallback, h.atDisconnect, h.children⟩
    show Follows f.leader.st (standing (Client.step order f.client .close).log)
    have : (Client.step order f.client .close).log = f.client.log := by
      show (if f.client.link = .ready then _ else _ : Client.State).log = _
      split <;> rfl
    rw [this]
    exact h.follows ha

theorem Inv.run (ops : List Op) : ∀ {f : Front}, Inv a b f → Patient order f ops → Inv a b (run order f ops) := by
  induction ops with
  | nil => intro f h _; exact h
  | cons op ops ih => intro f h hp; exact ih (h.step op hp.1) hp.2

/-- the negotiation a session starts with -/
theorem Inv.opened (n : Nat) (link : Client.Link) (o : Opt) (during : List Emit) (chosen : Option Opt) (requests : Option Requests) :
    Inv a b (Leader.step order (new a b n link) (.command (.negotiate o) during true chosen requests)) := by
  have hl : ∀ l : Leader, l = begin (new a b n link).leader (.negotiate o) → l.st = .doing .negotiate ∧ l.sentEnd = false ∧
      l.fallback = a ∧ l.atDisconnect = b ∧ l.hasChildren = true := by
    rintro l rfl; exact ⟨rfl, rfl, rfl, rfl, rfl⟩
  obtain ⟨h1, h2, h3, h4, h5⟩ := hl _ rfl
  obtain ⟨g1, g2⟩ := hearAll_follows during (l := begin (new a b n link).leader (.negotiate o)) (x := some (.negotiate, false)) h1 h2
    (fun _ => ⟨false, rfl⟩)
  refine ⟨fun _ => ?_, g2.sentEnd.trans h2, g2.fallback.trans h3, g2.atDisconnect.trans h4, g2.hasChildren.trans h5⟩
  have hret : returns (hearAll (begin (new a b n link).leader (.negotiate o)) during).1 (.negotiate o) true = .progress := by
    unfold returns
    rw [g2.hasChildren.trans h5]
    rfl
  show Follows (hearAll (begin (new a b n link).leader (.negotiate o)) during).1.st
    (standing (Client.receive order (new a b n link).client (.negotiate o) [⟨callsOf (hearAll (begin (new a b n link).leader (.negotiate o)) during).2,
      returns (hearAll (begin (new a b n link).leader (.negotiate o)) during).1 (.negotiate o) true⟩] chosen requests).log)
  rw [hret, standing_progress (k := .negotiate) (context := none) _ _ _ _ _ rfl]
  exact g1

end
end Verif.Leader
