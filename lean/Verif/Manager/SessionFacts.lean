import Verif.Manager.Session
import Verif.Manager.LeaderFacts
import Verif.Manager.ChildrenNews
import Verif.Manager.ChildrenPass
import Verif.Client.Session
/-
Facts about whole sessions.
-/
namespace Verif.Session
open Verif Verif.Leader
open Verif.Children (Emit Sys)
open Verif.Spec.Children (told)
open Verif.Client (Kind kindOf)

/-! ### What was told stays told -/

theorem next_told {n : Nat} {m m' : Sys} {e : Children.Event} {answers : List (Bool × Bool)}
    (h : Children.next n m e answers = some m') : told m'.out = told m.out ++ toldSince m m' := by
  obtain ⟨new, h1, _⟩ := (Children.next_steps h).news
  have : told m'.out = told m.out ++ told new := by rw [h1]; exact List.filterMap_append
  unfold toldSince
  rw [this, List.drop_left]

theorem command_next {n : Nat} {m m' : Sys} {e : Children.Event} {answers : List (Bool × Bool)} {ok : Bool}
    (h : Children.command (Children.dispatch n) e { m with oracle := answers } = some (ok, m')) :
    Children.next n m e answers = some m' := by
  unfold Children.next
  rw [Children.step_command, h]
  rfl

theorem toldSince_trans {m m1 m2 : Sys} {x y : List Emit} (h1 : told m1.out = told m.out ++ x) (h2 : told m2.out = told m1.out ++ y) :
    toldSince m m2 = x ++ y := by
  unfold toldSince
  rw [h2, h1, List.append_assoc, List.drop_left]

theorem toldSince_eq {m m1 : Sys} {x : List Emit} (h1 : told m1.out = told m.out ++ x) : toldSince m m1 = x := by
  unfold toldSince
  rw [h1, List.drop_left]

/-! ### The front of a session is one of the histories of `Manager/Leader.lean` -/

theorem hears_run (order : Requests → Requests) (es : List Emit) : ∀ f : Front,
    es.foldl (Front.hear order) f = Leader.run order f (es.map .heard) := by
  induction es with
  | nil => intro f; rfl
  | cons e es ih => intro f; exact ih _

theorem step_front {order : Requests → Requests} {n : Nat} {s s' : Session} {e : Event} (h : step order n s e = some s') :
    ∃ ops, s'.front = Leader.run order s.front ops := by
  have con : ∀ {u u' : Session} {x : Children.Event} {a : List (Bool × Bool)}, consult order n u x a = some u' →
      ∃ es : List Emit, u'.front = Leader.run order u.front (es.map .heard) := by
    intro u u' x a hc
    unfold consult at hc
    obtain ⟨m, _, rfl⟩ := Option.map_eq_some_iff.mp hc
    exact ⟨_, hears_run order _ _⟩
  have one : ∀ (c : Cmd) (d : List Emit) (ok : Bool) (ch : Option Opt) (r : Option Requests),
      s.front.command order c d ok ch r = Leader.run order s.front [.command c d ok ch r] := fun _ _ _ _ _ => rfl
  cases e with
  | command c answers =>
    unfold step at h
    dsimp only at h
    split at h
    · cases h; exact ⟨[.command c [] true none none], rfl⟩
    · split at h
      · cases h; exact ⟨[.command c [] true none none], rfl⟩
      · obtain ⟨es, h1⟩ := con h
        refine ⟨[.command c [] true none none] ++ es.map .heard, h1.trans ?_⟩
        unfold Leader.run
        rw [List.foldl_append]
        rfl
      · obtain ⟨⟨ok, m⟩, _, rfl⟩ := Option.map_eq_some_iff.mp h
        exact ⟨_, one ..⟩
  | milter x answers =>
    unfold step at h
    dsimp only at h
    split at h
    · obtain ⟨es, h1⟩ := con h
      exact ⟨_, h1⟩
    · cases h; exact ⟨[], rfl⟩
  | check connected a b =>
    unfold step at h
    dsimp only at h
    split at h
    · cases h; exact ⟨[.check (waiting s.milters) connected], rfl⟩
    · obtain ⟨s1, h1, h2⟩ := Option.bind_eq_some_iff.mp h
      obtain ⟨es, h3⟩ := con h1
      obtain ⟨es', h4⟩ := con h2
      refine ⟨[.check (waiting s.milters) connected] ++ es.map .heard ++ es'.map .heard, ?_⟩
      rw [h4, h3]
      unfold Leader.run
      rw [List.foldl_append, List.foldl_append]
      rfl
  | timeout a =>
    unfold step at h
    dsimp only at h
    split at h
    · obtain ⟨es, h3⟩ := con h
      refine ⟨[.timeout] ++ es.map .heard, h3.trans ?_⟩
      unfold Leader.run
      rw [List.foldl_append]
      rfl
    · cases h; exact ⟨[.timeout], rfl⟩
  | close => cases h; exact ⟨[.close], rfl⟩

theorem run_front {order : Requests → Requests} {n : Nat} (es : List Event) : ∀ {s s' : Session}, run order n s es = some s' →
    ∃ ops, s'.front = Leader.run order s.front ops := by
  induction es with
  | nil => intro s s' h; cases h; exact ⟨[], rfl⟩
  | cons e es ih =>
    intro s s' h
    obtain ⟨s1, h1, h2⟩ := Option.bind_eq_some_iff.mp h
    obtain ⟨a, ha⟩ := step_front h1
    obtain ⟨b, hb⟩ := ih h2
    refine ⟨a ++ b, ?_⟩
    rw [hb, ha]
    exact List.foldl_append.symm

/-! ### The context behind the front -/

/-- what holds for the context whatever happens -/
structure Good (f : Front) : Prop where
  settled : Client.Settled f.client
  legal : Client.Legal f.client

theorem Good.shutdown {s : Client.State} (h : Client.Settled s) (g : Client.Legal s) :
    Client.Settled (Client.shutdown s) ∧ Client.Legal (Client.shutdown s) := by
  refine ⟨h.moved .shutdown h.agrees.shutdown rfl rfl fun _ _ => rfl, g.same rfl⟩

variable {order : Requests → Requests}

theorem Good.quit {f : Front} (h : Good f) : Good f.quit := by
  unfold Front.quit
  split
  · exact ⟨h.settled, h.legal⟩
  · exact h

theorem Good.perform {f : Front} (h : Good f) (a : Act) : Good (f.perform order a) := by
  cases a with
  | call c => exact ⟨h.settled.called order c, h.legal.called order c⟩
  | shutdown =>
    have := Good.shutdown h.settled h.legal
    exact Good.quit ⟨this.1, this.2⟩
  | complain => exact ⟨h.settled, h.legal⟩
  | noSuchSignal => exact h
  | finished => exact ⟨h.settled, h.legal⟩

theorem Good.performs (acts : List Act) : ∀ {f : Front}, Good f → Good (acts.foldl (Front.perform order) f) := by
  induction acts with
  | nil => exact fun h => h
  | cons a acts ih => exact fun h => ih (h.perform a)

theorem Good.step {f : Front} (h : Good f) (op : Leader.Op) : Good (Leader.step order f op) := by
  cases op with
  | command c during ok chosen requests =>
    have key : ∀ hs, Client.Settled (Client.receive order f.client c hs chosen requests) ∧
        Client.Legal (Client.receive order f.client c hs chosen requests) :=
      fun hs => ⟨h.settled.receive c hs chosen requests, h.legal.receive c hs chosen requests⟩
    show Good (f.command order c during ok chosen requests)
    unfold Front.command
    split
    · exact ⟨(key []).1, (key []).2⟩
    · split
      · exact ⟨(key []).1, (key []).2⟩
      · exact Good.quit ⟨(key []).1, (key []).2⟩
      · exact ⟨(key [⟨callsOf _, _⟩]).1, (key [⟨callsOf _, _⟩]).2⟩
  | heard e => exact Good.performs _ ⟨h.settled, h.legal⟩
  | check waiting connected =>
    show Good (f.check order waiting connected)
    unfold Front.check
    split
    · exact h
    · exact Good.performs _ ⟨h.settled, h.legal⟩
  | timeout =>
    show Good (if f.client.timer then _ else f)
    split
    · exact Good.quit ⟨h.settled.step (order := order) .timeout, h.legal.step (order := order) .timeout⟩
    · exact h
  | close => exact ⟨h.settled.step (order := order) .close, h.legal.step (order := order) .close⟩

theorem Good.run (ops : List Leader.Op) : ∀ {f : Front}, Good f → Good (Leader.run order f ops) := by
  induction ops with
  | nil => exact fun h => h
  | cons op ops ih => exact fun h => ih (h.step op)

theorem Good.new (a b : Status) (n : Nat) (l : Client.Link) : Good (Leader.new a b n l) := ⟨.new n l, .new n l⟩

/-! ### Who is connected to the context -/

theorem perform_attached (f : Front) (a : Act) (h : (f.perform order a).attached = true) : f.attached = true := by
  cases a with
  | finished => cases h
  | shutdown =>
    revert h
    show (Front.quit _).attached = true → _
    unfold Front.quit
    split <;> exact fun h => h
  | _ => exact h

theorem perform_children (f : Front) (a : Act) : (f.perform order a).leader.hasChildren = f.leader.hasChildren := by
  cases a with
  | shutdown =>
    show (Front.quit _).leader.hasChildren = _
    unfold Front.quit
    split <;> rfl
  | _ => rfl

/-- the MTA has negotiated -/
def negotiates (log : List Client.Event) : Prop := ∃ o, Client.Event.got (.negotiate o) ∈ log

theorem negotiates_called (s : Client.State) (c : Client.Call) (h : negotiates (Client.callNoted order s c).log) : negotiates s.log := by
  obtain ⟨o, h⟩ := h
  refine ⟨o, ?_⟩
  have quiet : ∀ {es : List Client.Event}, (∀ e ∈ es, Spec.Leader.isWriting e = true) → Client.Event.got (.negotiate o) ∉ es :=
    fun h hm => nomatch h _ hm
  by_cases hc : Spec.Client.answers c = false
  · obtain ⟨es, ok, h1, h2⟩ := call_log order s c hc
    rw [h1, List.append_assoc] at h
    rcases List.mem_append.mp h with h | h
    · exact h
    · rcases List.mem_append.mp h with h | h
      · exact absurd h (quiet h2)
      · cases List.mem_singleton.mp h
  · cases c with
    | respond k v =>
      obtain ⟨es, h1, h2⟩ := respond_log order s k v
      rw [h1, List.append_assoc] at h
      rcases List.mem_append.mp h with h | h
      · exact h
      · rcases List.mem_append.mp h with h | h
        · cases List.mem_singleton.mp h
        · exact absurd h (quiet h2)
    | respondNegotiate op r v =>
      obtain ⟨es, h1, h2⟩ := negotiate_log order s op r v
      rw [h1, List.append_assoc] at h
      rcases List.mem_append.mp h with h | h
      · exact h
      · rcases List.mem_append.mp h with h | h
        · cases List.mem_singleton.mp h
        · exact absurd h (quiet h2)
    | respondAbort v =>
      rw [abort_log] at h
      rcases List.mem_append.mp h with h | h
      · exact h
      · cases List.mem_singleton.mp h
    | _ => exact absurd rfl hc

theorem negotiates_calls (cs : List Client.Call) : ∀ {s : Client.State}, negotiates (Client.runCalls order s cs).log → negotiates s.log := by
  induction cs with
  | nil => exact fun h => h
  | cons c cs ih => exact fun h => negotiates_called _ c (ih h)

theorem negotiates_emit (hs : List Client.Handler) : ∀ {s : Client.State} {acc : Status},
    negotiates (Client.emit order hs s acc).1.log → negotiates s.log := by
  induction hs with
  | nil => exact fun h => h
  | cons x hs ih =>
    intro s acc h
    unfold Client.emit at h
    dsimp only at h
    split at h
    · exact negotiates_calls _ (ih h)
    · exact negotiates_calls _ h

theorem negotiates_receive (s : Client.State) (c : Cmd) (hs : List Client.Handler) (chosen : Option Opt) (requests : Option Requests)
    (hc : ∀ o, c ≠ .negotiate o) (h : negotiates (Client.receive order s c hs chosen requests).log) : negotiates s.log := by
  have got : negotiates (s.log ++ [.got c]) → negotiates s.log := by
    rintro ⟨o, h⟩
    rcases List.mem_append.mp h with h | h
    · exact ⟨o, h⟩
    · cases List.mem_singleton.mp h
      exact absurd rfl (hc o)
  cases hk : kindOf c with
  | some kc =>
    obtain ⟨k, context⟩ := kc
    have hn : k ≠ .negotiate := by
      rintro rfl
      cases c <;> simp [kindOf] at hk
      exact hc _ rfl
    rw [Client.receive_plain order s c hs chosen requests k context hk hn] at h
    dsimp only at h
    refine got ?_
    rw [show s.log ++ [.got c] = (Client.enter (s.note (.got c)) k context).log by rw [enter_log]; rfl]
    split at h
    · exact negotiates_emit _ h
    · exact negotiates_emit _ (negotiates_called _ _ h)
  | none =>
    cases c with
    | defineMacro x t => exact got h
    | quit =>
      refine got ?_
      obtain ⟨o, h⟩ := h
      rcases List.mem_append.mp (show _ ∈ (s.log ++ [.got .quit]) ++ [.shutdown] from h) with h | h
      · exact ⟨o, h⟩
      · cases List.mem_singleton.mp h
    | abort =>
      refine got ?_
      obtain ⟨s1, hs1⟩ : ∃ s1 : Client.State, s1 = { Client.setSt (s.note (.got .abort)) .abort with timer := false } := ⟨_, rfl⟩
      show negotiates (s.note (.got .abort)).log
      have hl : s1.log = (s.note (.got .abort)).log := by rw [hs1]; rfl
      rw [← hl]
      have h' : negotiates (if (Client.emitAll order s1 hs .default).2 = .progress then Client.resetMessage (Client.emitAll order s1 hs .default).1
          else Client.callNoted order (Client.resetMessage (Client.emitAll order s1 hs .default).1)
            (.respondAbort (Client.emitAll order s1 hs .default).2)).log := by rw [hs1]; exact h
      split at h'
      · exact negotiates_emit _ h'
      · have h2 : negotiates (Client.emit order (hs ++ [⟨[], .default⟩]) s1 .default).1.log := negotiates_called (Client.resetMessage _) _ h'
        exact negotiates_emit _ h2
    | _ => cases hk

/-- after a negotiation the leader has its children object -/
def Parented (f : Front) : Prop := f.attached = true → negotiates f.client.log → f.leader.hasChildren = true

theorem Parented.quit {f : Front} (h : Parented f) : Parented f.quit := by
  unfold Front.quit
  split
  · exact h
  · exact h

theorem negotiates_shutdown {s : Client.State} (h : negotiates (Client.shutdown s).log) : negotiates s.log := by
  obtain ⟨o, h⟩ := h
  rcases List.mem_append.mp (show _ ∈ s.log ++ [.shutdown] from h) with h | h
  · exact ⟨o, h⟩
  · cases List.mem_singleton.mp h

theorem Parented.perform {f : Front} (h : Parented f) (a : Act) : Parented (f.perform order a) := by
  cases a with
  | call c => exact fun h1 h2 => h h1 (negotiates_called _ c h2)
  | shutdown =>
    refine Parented.quit ?_
    exact fun h1 h2 => h h1 (negotiates_shutdown h2)
  | complain => exact h
  | noSuchSignal => exact h
  | finished => exact fun h1 => nomatch h1

theorem Parented.performs (acts : List Act) : ∀ {f : Front}, Parented f → Parented (acts.foldl (Front.perform order) f) := by
  induction acts with
  | nil => exact fun h => h
  | cons a acts ih => exact fun h => ih (h.perform a)

theorem hearAll_same (es : List Emit) : ∀ l : Leader, Same l (hearAll l es).1 := by
  induction es with
  | nil => exact fun l => .refl l
  | cons e es ih => exact fun l => (hear_same l e).trans (ih _)

theorem begin_children (l : Leader) (c : Cmd) : (begin l c).hasChildren = (l.hasChildren || (match c with | .negotiate _ => true | _ => false)) := by
  cases c <;> first
    | (show _ = _; simp only [begin, Bool.or_false, Bool.or_true]; done)
    | (simp only [begin, Bool.or_false]; split <;> rfl)

theorem Parented.step {f : Front} (h : Parented f) (op : Leader.Op) : Parented (Leader.step order f op) := by
  cases op with
  | command c during ok chosen requests =>
    show Parented (f.command order c during ok chosen requests)
    by_cases hc : ∀ o, c ≠ .negotiate o
    · unfold Front.command
      split
      · exact fun h1 h2 => h h1 (negotiates_receive (order := order) f.client _ [] chosen requests hc h2)
      · split
        · exact fun h1 h2 => h h1 (negotiates_receive (order := order) f.client _ [] chosen requests hc h2)
        · refine Parented.quit ?_
          exact fun h1 h2 => h h1 (negotiates_receive (order := order) f.client _ [] chosen requests hc h2)
        · intro h1 h2
          show (hearAll _ _).1.hasChildren = true
          rw [(hearAll_same during _).hasChildren, begin_children, h h1 (negotiates_receive (order := order) f.client c [⟨callsOf _, _⟩] chosen requests hc h2)]
          rfl
    · obtain ⟨o, rfl⟩ : ∃ o, c = .negotiate o := Classical.byContradiction fun hx => hc fun o ho => hx ⟨o, ho⟩
      intro h1 _
      unfold Front.command at h1 ⊢
      split
      · rename_i hat
        rw [if_pos hat] at h1
        rw [show f.attached = true from h1] at hat
        cases hat
      · show (hearAll _ _).1.hasChildren = true
        rw [(hearAll_same during _).hasChildren]
        rfl
  | heard e =>
    exact Parented.performs _ fun h1 h2 => by
      show (hear f.leader e).1.hasChildren = true
      rw [(hear_same f.leader e).hasChildren]
      exact h h1 h2
  | check waiting connected =>
    show Parented (f.check order waiting connected)
    unfold Front.check
    split
    · exact h
    · exact Parented.performs _ fun h1 h2 => by
        show (Leader.reply f.leader _).1.hasChildren = true
        rw [(reply_same f.leader _).hasChildren]
        exact h h1 h2
  | timeout =>
    show Parented (if f.client.timer then _ else f)
    split
    · rename_i ht
      refine Parented.quit fun h1 h2 => h h1 ?_
      simp only [Client.step, ht, if_true] at h2
      obtain ⟨o, h2⟩ := h2
      rcases List.mem_append.mp (show _ ∈ (f.client.log ++ [.timedOut]) ++ [.shutdown] from h2) with h2 | h2
      · rcases List.mem_append.mp h2 with h2 | h2
        · exact ⟨o, h2⟩
        · cases List.mem_singleton.mp h2
      · cases List.mem_singleton.mp h2
    · exact h
  | close =>
    intro h1 h2
    refine h h1 ?_
    have : (Client.step order f.client .close).log = f.client.log := by
      unfold Client.step
      dsimp only
      split <;> rfl
    exact this ▸ h2

theorem Parented.run (ops : List Leader.Op) : ∀ {f : Front}, Parented f → Parented (Leader.run order f ops) := by
  induction ops with
  | nil => exact fun h => h
  | cons op ops ih => exact fun h => ih (h.step op)

theorem Parented.new (a b : Status) (n : Nat) (l : Client.Link) : Parented (Leader.new a b n l) := by
  rintro _ ⟨o, h⟩
  cases h

/-! ### A command that waits for its answer -/

theorem hearAll_cons (l : Leader) (e : Emit) (es : List Emit) : hearAll l (e :: es) =
    ((hearAll (hear l e).1 es).1, (hear l e).2 ++ (hearAll (hear l e).1 es).2) := rfl

theorem hears_plain (es : List Emit) (h : ∀ e ∈ es, e ≠ .abort ∧ e ≠ .finished) : ∀ f : Front,
    es.foldl (Front.hear order) f = { f with
      leader := (hearAll f.leader es).1
      client := Client.runCalls order f.client (callsOf (hearAll f.leader es).2)
      complaints := f.complaints + (hearAll f.leader es).2.count .complain } := by
  induction es with
  | nil => intro f; rfl
  | cons e es ih =>
    intro f
    rw [List.foldl_cons, ih fun x hx => h x (List.mem_cons_of_mem _ hx)]
    have he := h e List.mem_cons_self
    have h1 : f.hear order e = { f with
        leader := (hear f.leader e).1
        client := Client.runCalls order f.client (callsOf (hear f.leader e).2)
        complaints := f.complaints + (hear f.leader e).2.count .complain } := by
      unfold Front.hear
      exact perform_plain order _ (hear_plain f.leader e he.1 he.2) _
    rw [h1, hearAll_cons]
    dsimp only
    rw [callsOf_append, List.count_append, ← Nat.add_assoc]
    unfold Client.runCalls
    rw [List.foldl_append]

theorem receive_deferred (s : Client.State) (c : Cmd) (cs : List Client.Call) (chosen : Option Opt) (requests : Option Requests)
    {k : Kind} {context : Option Macros.Context} (hk : kindOf c = some (k, context)) (hn : k ≠ .negotiate) :
    Client.receive order s c [⟨cs, .progress⟩] chosen requests =
      Client.runCalls order (Client.enter (s.note (.got c)) k context) cs := by
  rw [Client.receive_plain order s c _ chosen requests k context hk hn]
  rfl

/-- a command the milters take, and what is heard meanwhile -/
theorem command_taken (f : Front) (c : Cmd) (during : List Emit) {k : Kind} {context : Option Macros.Context}
    (hk : kindOf c = some (k, context)) (hn : k ≠ .negotiate) (hat : f.attached = true) (hch : f.leader.hasChildren = true)
    (hd : ∀ e ∈ during, e ≠ .abort ∧ e ≠ .finished) :
    f.command order c during true none none = during.foldl (Front.hear order)
      { f with leader := begin f.leader c, client := Client.enter (f.client.note (.got c)) k context } := by
  rw [hears_plain during hd]
  have hr : ∀ l : Leader, l.hasChildren = true → returns l c true = .progress := by
    intro l hl
    cases c <;> simp only [kindOf, Option.some.injEq, Prod.mk.injEq, reduceCtorEq] at hk <;> simp [returns, hl]
  have h2 : (hearAll (begin f.leader c) during).1.hasChildren = true := by
    rw [(hearAll_same during _).hasChildren, begin_children, hch]
    rfl
  have h1 : f.command order c during true none none =
      { f with
        leader := (hearAll (begin f.leader c) during).1
        client := Client.receive order f.client c
          [⟨callsOf (hearAll (begin f.leader c) during).2, returns (hearAll (begin f.leader c) during).1 c true⟩] none none
        complaints := f.complaints + (hearAll (begin f.leader c) during).2.count .complain } := by
    unfold Front.command
    rw [hat]
    cases c <;> simp only [kindOf, Option.some.injEq, Prod.mk.injEq, reduceCtorEq] at hk <;> rfl
  rw [h1, hr _ h2, receive_deferred f.client c _ none none hk hn]

theorem respond_bytes {s : Client.State} (ha : Client.Agrees s) (hg : Client.Legal s) (hl : s.link = .ready) (hb : s.buffered = [])
    {k : Kind} (hn : k ≠ .negotiate) (he : k ≠ .endOfMessage) {v : Status} {r : Reply}
    (hr : Spec.Client.finalReply (Spec.Client.lastCustom s.log) v = some r) :
    Spec.Client.written (Client.callNoted order s (.respond k v)).log =
      Spec.Client.written s.log ++ (Enc.encodeReplies order [] [r]).flatten := by
  rw [Client.respond_written order ha hl k hn v _ (Client.create_final order ha hg v r hr), if_neg he, hb, List.append_nil,
    Client.bytes_encode order [r] (by simpa using Client.finalReply_clears hr)]

/-- The answer to a command that waits for it, as bytes. -/
theorem answer_written {f : Front} {k : Kind} (hg : Good f) (hl : f.client.link = .ready) (hst : f.leader.st = .doing k)
    (hn : k ≠ .negotiate) (he : k ≠ .endOfMessage) (hb : f.client.buffered = []) {r : Reply} {v : Status}
    (hd : Spec.Leader.decides f.leader.fallback (.reply r) = some v) (hv : Spec.Leader.Valid (.reply r))
    (hc : r = .reject ∨ r = .temporaryFailure → Spec.Client.lastCustom f.client.log = none) :
    Spec.Client.written (f.hear order (.reply r)).client.log =
      Spec.Client.written f.client.log ++ (Enc.encodeReplies order [] [r]).flatten := by
  have hr : ∀ v, Leader.reply f.leader v = ({ f.leader with st := nextState f.leader f.leader.st }, [.call (.respond k v)]) := by
    intro v
    unfold Leader.reply
    rw [show response v f.leader.st = some (.call (.respond k v)) by rw [hst]; cases k <;> first | rfl | exact absurd rfl hn]
  have plain : ∀ v, Leader.hear f.leader (.reply r) = Leader.reply f.leader v →
      Spec.Client.finalReply (Spec.Client.lastCustom f.client.log) v = some r →
      Spec.Client.written (f.hear order (.reply r)).client.log =
        Spec.Client.written f.client.log ++ (Enc.encodeReplies order [] [r]).flatten := by
    intro v h1 h2
    unfold Front.hear
    rw [h1, hr]
    exact respond_bytes hg.settled.agrees hg.legal hl hb hn he h2
  cases r with
  | cont => exact plain .continue_ rfl rfl
  | accept => exact plain .accept rfl rfl
  | discard => exact plain .discard rfl rfl
  | skip => exact plain .skip rfl rfl
  | reject => exact plain .reject rfl (by rw [hc (.inl rfl)]; rfl)
  | temporaryFailure => exact plain .temporaryFailure rfl (by rw [hc (.inr rfl)]; rfl)
  | replyCode code ext message =>
    have hok : (SetReply.setReply {} code (some ext) message).1 = true := (Props.C10_accepts {} code (some ext) message).mpr hv
    have hok' : (SetReply.setReply f.client.custom code (some ext) message).1 = true := (Props.C10_accepts _ code (some ext) message).mpr hv
    have h1 : Leader.hear f.leader (.reply (.replyCode code ext message)) =
        ({ f.leader with st := nextState f.leader f.leader.st },
          [.call (.setReply code (some ext) message), .call (.respond k (if code / 100 = 4 then .temporaryFailure else .reject))]) := by
      unfold Leader.hear hearReply
      dsimp only
      rw [if_pos hok, hr]
    unfold Front.hear
    rw [h1]
    show Spec.Client.written (Client.callNoted order (Client.callNoted order f.client (.setReply code (some ext) message)) _).log = _
    have hlog : (Client.callNoted order f.client (.setReply code (some ext) message)).log =
        f.client.log ++ [.called (.setReply code (some ext) message) true] := by
      show f.client.log ++ [.called _ (SetReply.setReply f.client.custom code (some ext) message).1] = _
      rw [hok']
    have hw : Spec.Client.written (Client.callNoted order f.client (.setReply code (some ext) message)).log = Spec.Client.written f.client.log := by
      rw [hlog, Client.written_append]
      exact List.append_nil _
    rw [← hw]
    refine respond_bytes (s := Client.callNoted order f.client (.setReply code (some ext) message)) (hg.settled.agrees.called order _) (hg.legal.called order _) hl hb hn he ?_
    rw [hlog, Client.lastCustom_snoc]
    dsimp only
    split <;> rfl
  | _ => cases hd

end Verif.Session
