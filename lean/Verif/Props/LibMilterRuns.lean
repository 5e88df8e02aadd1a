import Verif.Props.LibMilter
import Verif.Props.Macros
import Verif.Client.Timer
/-
C75: the callbacks of a libmilter filter run as they are written.
-/
namespace Verif.Props.LibMilter
open Verif Verif.LibMilter Verif.Spec.LibMilter Verif.Client
open Verif.Spec.Macros (Result)

/-! ### Macros -/

/-- no definition of several macros at once, which only other programs than this library make -/
def Simple (h : List Spec.Macros.Call) : Prop := ∀ s l, Spec.Macros.Call.setMacros s l ∉ h

theorem Simple.nil : Simple [] := fun _ _ h => nomatch h

theorem Simple.macroCalls {h : List Spec.Macros.Call} (hs : Simple h) (c : Cmd) : Simple (Spec.LibMilter.macroCalls c ++ h) := by
  intro s l hm
  rcases List.mem_append.mp hm with hm | hm
  · cases c <;> first | cases hm; done | (rcases List.mem_cons.mp hm with e | e <;> cases e)
  · exact hs s l hm

theorem Simple.at {h : List Spec.Macros.Call} (hs : Simple h) (e : Verif.LibMilter.Event) : Simple (macrosAt h e) := by
  cases e with
  | command c => cases c <;> first | exact hs | exact hs.macroCalls _
  | _ => exact hs

theorem Simple.after {h : List Spec.Macros.Call} (hs : Simple h) (e : Verif.LibMilter.Event) : Simple (macrosAfter h e) := by
  cases e with
  | command c => exact hs.macroCalls c
  | _ => exact hs

theorem lookup_agent {h : List Spec.Macros.Call} (hs : Simple h) {s : State} (ha : s.agent = agentAfter h) (name : Bytes) :
    Result h name (s.agent.getMacro name).1 := by
  rw [ha]; exact C16_library_calls h hs name

/-! ### One callback -/

theorem exec_path {h : List Spec.Macros.Call} (hs : Simple h) (order : Requests → Requests) (p : Prog) : ∀ (s : State) (priv : Option Nat),
    s.agent = agentAfter h →
    Path (Result h) p priv (p.exec order s priv).made (p.exec order s priv).priv (p.exec order s priv).returns := by
  induction p with
  | done st => intro s priv _; exact .done _ _
  | ask r k ih =>
    intro s priv ha
    unfold Prog.exec
    cases r.effect with
    | inl c => exact .ask _ _ _ _ _ _ _ (ih _ _ _ ((called_agent order s c).trans ha))
    | inr ok => exact .ask _ _ _ _ _ _ _ (ih _ _ _ ha)
  | symbol n k ih => intro s priv ha; exact .symbol _ _ _ _ _ _ _ (lookup_agent hs ha n) (ih _ _ _ ha)
  | setPriv v k ih => intro s priv ha; exact .setPriv _ _ _ _ _ _ (ih _ _ ha)
  | getPriv k ih => intro s priv ha; exact .getPriv _ _ _ _ _ (ih _ _ _ ha)

theorem exec_agent (order : Requests → Requests) (p : Prog) (s : State) (priv : Option Nat) : (p.exec order s priv).context.agent = s.agent := by
  rw [exec_context]; exact calls_agent order _ s

theorem one_chain {h : List Spec.Macros.Call} (hs : Simple h) (order : Requests → Requests) (f : Filter) (s : State) (priv : Option Nat) (what : Callback)
    (ha : s.agent = agentAfter h) :
    Chain f (Result h) priv (one order s priv what (program f what)).seen (one order s priv what (program f what)).priv := by
  cases hp : program f what with
  | none => exact .nil _
  | some g => exact .cons _ g _ _ _ _ hp (exec_path hs order g s priv ha) (.nil _)

theorem endOfMessage_chain {h : List Spec.Macros.Call} (hs : Simple h) (order : Requests → Requests) (f : Filter) (s : State) (priv : Option Nat)
    (chunk : Bytes) (ha : s.agent = agentAfter h) :
    Chain f (Result h) priv (endOfMessage order f s priv chunk).seen (endOfMessage order f s priv chunk).priv := by
  have h1 := one_chain hs order f s priv .eom ha
  unfold endOfMessage
  cases he : f.eom with
  | none => exact .nil _
  | some eom =>
    rw [show program f .eom = some eom from he] at h1
    dsimp only
    cases hb : f.body with
    | none => exact h1
    | some body =>
      dsimp only
      split
      · exact h1
      · have hb' : program f (.body chunk) = some (body chunk) := by show f.body.map _ = _; rw [hb]; rfl
        have hp := exec_path hs order (body chunk) s priv ha
        split
        · exact .cons _ _ _ _ _ _ hb' hp (.nil _)
        · refine .cons _ _ _ _ _ _ hb' hp (.cons _ eom _ _ _ _ he (exec_path hs order eom _ _ ?_) (.nil _))
          rw [exec_agent]; exact ha

theorem enter_agent (s : State) (k : Kind) (context : Option Macros.Context) :
    (enter s k context).agent = match context with | some c => s.agent.setContext c | none => s.agent := by
  unfold enter setSt
  cases context <;> dsimp only <;> split <;> rfl

theorem handle_chain {h : List Spec.Macros.Call} (hs : Simple h) (order : Requests → Requests) (f : Filter) (hu : LeavesContext f) (s : State)
    (priv : Option Nat) (c : Cmd) (ha : s.agent = agentAfter h) :
    Chain f (Result (macrosAt h (.command c))) priv (handle order f s priv c).seen (handle order f s priv c).priv := by
  have hat := hs.at (.command c)
  have key : ∀ (k : Kind) (x : Macros.Context), (enter (s.note (.got c)) k (some x)).agent = agentAfter (.setContext x :: h) := by
    intro k x
    rw [enter_agent]
    show s.agent.setContext x = (agentAfter h).setContext x
    rw [ha]
  have key' : ∀ (k : Kind), (enter (s.note (.got c)) k none).agent = agentAfter h := by
    intro k
    rw [enter_agent]
    exact ha
  cases c with
  | negotiate o =>
    unfold handle
    dsimp only
    cases hn : f.negotiate with
    | none => exact .nil _
    | some g =>
      dsimp only
      cases hg : g o.action o.step with
      | usesContext => exact absurd hg (hu g hn _ _)
      | answers status a b => exact .negotiate g _ _ _ a b _ hn hg
  | defineMacro x t => exact .nil _
  | quit => exact .nil _
  | connect x y => exact one_chain hat order f _ priv (.connect x y) (key _ _)
  | helo x => exact one_chain hat order f _ priv (.helo x) (key _ _)
  | envelopeFrom x => exact one_chain hat order f _ priv (.envfrom [x]) (key _ _)
  | envelopeRecipient x => exact one_chain hat order f _ priv (.envrcpt [x]) (key _ _)
  | data => exact one_chain hat order f _ priv .data (key _ _)
  | unknown x => exact one_chain hat order f _ priv (.unknown x) (key' _)
  | header x y => exact one_chain hat order f _ priv (.header x y) (key _ _)
  | endOfHeader => exact one_chain hat order f _ priv .eoh (key _ _)
  | body x => exact one_chain hat order f _ priv (.body x) (key _ _)
  | endOfMessage x => exact endOfMessage_chain hat order f _ priv x (key _ _)
  | abort =>
    unfold handle
    dsimp only
    split
    · exact one_chain hat order f _ priv .abort ha
    · cases f.abort <;> exact .nil _

/-! ### The macros of the context -/

theorem setSt_agent (s : State) (st : St) : (setSt s st).agent = s.agent := by
  unfold setSt
  split <;> rfl

theorem emitAll_agent (order : Requests → Requests) (s : State) (handlers : List Handler) (last : Status) :
    (emitAll order s handlers last).1.agent = s.agent := emit_agent order _ s _

theorem received_agent (order : Requests → Requests) (s : State) (c : Cmd) (handlers : List Handler) (o : Option Opt) (r : Option Requests)
    (h : List Spec.Macros.Call) (ha : s.agent = agentAfter h) :
    (Client.receive order s c handlers o r).agent = agentAfter (macroCalls c ++ h) := by
  have plain : ∀ (k : Kind) (x : Option Macros.Context) (last : Status) (d : Client.Call),
      (if (emitAll order (enter (s.note (.got c)) k x) handlers last).2 = Status.progress then (emitAll order (enter (s.note (.got c)) k x) handlers last).1
        else callNoted order (emitAll order (enter (s.note (.got c)) k x) handlers last).1 d).agent =
      (match x with | some y => (agentAfter h).setContext y | none => agentAfter h) := by
    intro k x last d
    rw [← ha]
    have h1 := (emitAll_agent order (enter (s.note (.got c)) k x) handlers last).trans (enter_agent _ k x)
    split
    · exact h1
    · exact (called_agent order _ _).trans h1
  cases c with
  | defineMacro x t =>
    show s.agent.setTable x (tableOf t) = (agentAfter h).setTable x _
    rw [ha]; rfl
  | quit =>
    show (setSt _ _).agent = _
    rw [setSt_agent]
    show (setSt _ _).agent = _
    rw [setSt_agent]
    exact ha
  | abort =>
    rw [(abort_resets order s handlers o r).2, ha]; rfl
  | negotiate off =>
    unfold Client.receive
    dsimp only
    have h1 := emitAll_agent order { enter (s.note (.got (.negotiate off))) .negotiate none with option := some off } handlers .notChange
    have h2 : ({ enter (s.note (.got (.negotiate off))) .negotiate none with option := some off } : State).agent = agentAfter h :=
      (enter_agent _ _ _).trans ha
    split
    · exact h1.trans h2
    · exact (called_agent order _ _).trans (h1.trans h2)
  | connect x y => exact plain .connect (some 0x43) .notChange _
  | helo x => exact plain .helo (some 0x48) .notChange _
  | envelopeFrom x => exact plain .envelopeFrom (some 0x4d) .notChange _
  | envelopeRecipient x => exact plain .envelopeRecipient (some 0x52) .notChange _
  | data => exact plain .data (some 0x54) .notChange _
  | unknown x => exact plain .unknown none .notChange _
  | header x y => exact plain .header (some 0x4c) .notChange _
  | endOfHeader => exact plain .endOfHeader (some 0x4e) .notChange _
  | body x => exact plain .body (some 0x42) .notChange _
  | endOfMessage x => exact plain .endOfMessage (some 0x45) .notChange _

/-! ### A session -/

theorem finish_chain {h : List Spec.Macros.Call} (hs : Simple h) (order : Requests → Requests) (f : Filter) (s : Session)
    (ha : s.context.agent = agentAfter h) :
    ∃ group, (Verif.LibMilter.finish order f s).seen = s.seen ++ group ∧ Chain f (Result h) s.priv group (Verif.LibMilter.finish order f s).priv ∧
      (Verif.LibMilter.finish order f s).context.agent = agentAfter h := by
  unfold Verif.LibMilter.finish
  split
  · cases hc : f.close with
    | none => exact ⟨[], (List.append_nil _).symm, .nil _, ha⟩
    | some prog =>
      exact ⟨_, rfl, .cons _ prog _ _ _ _ hc (exec_path hs order prog _ _ ha) (.nil _), (exec_agent order prog _ _).trans ha⟩
  · exact ⟨[], (List.append_nil _).symm, .nil _, ha⟩

theorem receive_chain {h : List Spec.Macros.Call} (hs : Simple h) (order : Requests → Requests) (f : Filter) (hu : LeavesContext f) (s : Session) (c : Cmd)
    (ha : s.context.agent = agentAfter h) :
    ∃ group, (Verif.LibMilter.receive order f s c).seen = s.seen ++ group ∧
      Chain f (Result (macrosAt h (.command c))) s.priv group (Verif.LibMilter.receive order f s c).priv ∧
      (Verif.LibMilter.receive order f s c).context.agent = agentAfter (macroCalls c ++ h) := by
  by_cases hq : c = .quit
  · subst hq
    have hr : (if s.attached then handle order f s.context s.priv .quit else ({ priv := s.priv } : Verif.LibMilter.Result)) = { priv := s.priv } := by
      split <;> rfl
    have hq := received_agent order s.context .quit [] none (some []) h ha
    obtain ⟨group, h1, h2, h3⟩ := finish_chain hs order f
      ({ s with context := Client.receive order s.context .quit [] none (some []), priv := s.priv, seen := s.seen ++ [] } : Session) hq
    have e : Verif.LibMilter.receive order f s .quit = Verif.LibMilter.finish order f
        ({ s with context := Client.receive order s.context .quit [] none (some []), priv := s.priv, seen := s.seen ++ [] } : Session) := by
      unfold Verif.LibMilter.receive
      dsimp only
      rw [hr]
    rw [e]
    exact ⟨group, by rw [h1]; simp, h2, h3⟩
  · have e : ∀ (o : Option Opt), ∃ r : Verif.LibMilter.Result, Chain f (Result (macrosAt h (.command c))) s.priv r.seen r.priv ∧
        ({ s with context := Client.receive order s.context c (if s.attached then handle order f s.context s.priv c else ({ priv := s.priv } : Verif.LibMilter.Result)).handlers o (some []), priv := (if s.attached then handle order f s.context s.priv c else ({ priv := s.priv } : Verif.LibMilter.Result)).priv, seen := s.seen ++ (if s.attached then handle order f s.context s.priv c else ({ priv := s.priv } : Verif.LibMilter.Result)).seen } : Session) =
        { s with context := Client.receive order s.context c r.handlers o (some []), priv := r.priv, seen := s.seen ++ r.seen } := by
      intro o
      refine ⟨_, ?_, rfl⟩
      split
      · exact handle_chain hs order f hu _ _ c ha
      · exact .nil _
    have e2 : ∃ (o : Option Opt) (r : Verif.LibMilter.Result), Chain f (Result (macrosAt h (.command c))) s.priv r.seen r.priv ∧
        Verif.LibMilter.receive order f s c = { s with context := Client.receive order s.context c r.handlers o (some []), priv := r.priv, seen := s.seen ++ r.seen } := by
      cases c with
      | quit => exact absurd rfl hq
      | _ => exact ⟨_, e _⟩
    obtain ⟨o, r, h1, h2⟩ := e2
    rw [h2]
    exact ⟨_, rfl, h1, received_agent order _ c _ _ _ h ha⟩

theorem step_chain {h : List Spec.Macros.Call} (hs : Simple h) (order : Requests → Requests) (f : Filter) (hu : LeavesContext f) (s : Session)
    (e : Verif.LibMilter.Event) (ha : s.context.agent = agentAfter h) :
    ∃ group, (Verif.LibMilter.step order f s e).seen = s.seen ++ group ∧
      Chain f (Result (macrosAt h e)) s.priv group (Verif.LibMilter.step order f s e).priv ∧
      (Verif.LibMilter.step order f s e).context.agent = agentAfter (macrosAfter h e) := by
  cases e with
  | command c => exact receive_chain hs order f hu s c ha
  | timeout =>
    show ∃ group, (if s.context.timer then _ else s : Session).seen = _ ∧ Chain f _ _ group (if s.context.timer then _ else s : Session).priv ∧
      (if s.context.timer then _ else s : Session).context.agent = _
    split
    · refine finish_chain hs order f ({ s with context := Client.step order s.context .timeout } : Session) ?_
      show (if s.context.timer then _ else s.context : State).agent = _
      split
      · show (setSt _ _).agent = _
        rw [setSt_agent]; exact ha
      · exact ha
    · exact ⟨[], (List.append_nil _).symm, .nil _, ha⟩
  | hangUp => exact finish_chain hs order f ({ s with context := setSt s.context .finished } : Session) ((setSt_agent _ _).trans ha)
  | close =>
    refine ⟨[], (List.append_nil _).symm, .nil _, ?_⟩
    show (if s.context.link = .ready then _ else s.context : State).agent = _
    split <;> exact ha

theorem run_chained (order : Requests → Requests) (f : Filter) (hu : LeavesContext f) (events : List Verif.LibMilter.Event) :
    ∀ (s : Session) {h : List Spec.Macros.Call}, Simple h → s.context.agent = agentAfter h →
    ∃ groups, (Verif.LibMilter.run order f s events).seen = s.seen ++ groups.flatten ∧ Chained f h s.priv events groups := by
  induction events with
  | nil => intro s h hs ha; exact ⟨[], (List.append_nil _).symm, .nil _ _⟩
  | cons e es ih =>
    intro s h hs ha
    obtain ⟨group, h1, h2, h3⟩ := step_chain hs order f hu s e ha
    obtain ⟨groups, h4, h5⟩ := ih (Verif.LibMilter.step order f s e) (hs.after e) h3
    refine ⟨group :: groups, ?_, .cons _ _ _ _ _ _ _ h2 h5⟩
    show (Verif.LibMilter.run order f (Verif.LibMilter.step order f s e) es).seen = _
    rw [h4, h1, List.flatten_cons, List.append_assoc]

/-- **C75**: whatever happens in a session, each callback that was called ran as the filter wrote it: with the arguments noted; each call of the library told it
the result noted; `smfi_getpriv` gave it what the last `smfi_setpriv` of the session, in whatever callback, had set, and nothing before; and `smfi_getsymval`
the values of the macros as the MTA had defined them till then (C16).  (For filters that leave the unusable context of `xxfi_negotiate` alone, C69.) -/
theorem C75 (order : Requests → Requests) (f : Filter) (hu : LeavesContext f) (n : Nat) (l : Link) (events : List Verif.LibMilter.Event) :
    ∃ groups, (session order f n l events).seen = groups.flatten ∧ Chained f [] none events groups := by
  obtain ⟨groups, h1, h2⟩ := run_chained order f hu events (.start (new n l)) Simple.nil rfl
  exact ⟨groups, h1, h2⟩

/-- a filter that counts: `xxfi_connect` keeps 1, `xxfi_envfrom` looks at the macro `i` and keeps 2 if it is there, `xxfi_eom` accepts if it finds 2 -/
def counter : Filter where
  connect := some fun _ _ => .setPriv (some 1) (.done 0)
  envfrom := some fun _ => .symbol [0x69] fun v => .getPriv fun p => .setPriv (if v.isSome ∧ p = some 1 then some 2 else none) (.done 0)
  eom := some (.getPriv fun p => .ask (.addHeader (some [0x58]) (some [0x59])) fun ok => .done (if p = some 2 then (if ok then 3 else 4) else 1))
  close := some (.getPriv fun p => .done (if p = some 2 then 0 else 1))

/-- it keeps its promise (`LeavesContext`), and the callbacks found what they should: the header could not be added, since nothing was negotiated -/
example : LeavesContext counter ∧
    (session id counter 8 .ready [.command (.connect [0x68] .unspec), .command (.defineMacro 0x4d [([0x69], some [0x31])]), .command (.envelopeFrom [0x61]),
      .command (.endOfMessage []), .hangUp]).seen =
    [⟨.connect [0x68] .unspec, [], 0⟩, ⟨.envfrom [[0x61]], [], 0⟩, ⟨.eom, [(.addHeader (some [0x58]) (some [0x59]), false)], 4⟩, ⟨.close, [], 0⟩] :=
  ⟨fun g h => (nomatch h), by decide +kernel⟩

end Verif.Props.LibMilter
