import Verif.Props.Session
import Verif.Props.SessionMessage
import Verif.Props.ChildrenEnd
/-
C110: the SMTP client disconnects while the milters are at work.
-/
namespace Verif.Props
open Verif Verif.Session Verif.Spec.Phase Verif.Spec.Children
open Verif.Leader (Front)
open Verif.Children (Sys Emit Out Kid)
open Verif.Server (St)

namespace Gone
open Children

/-- a milter that has been told of a message and not of its end, or of a sender last -/
def told (k : Kid) : Bool := inMessage k || decide (k.ctx.state = .envelopeFrom)

theorem abort_loop {d : Dispatch} {l : List Nat} : ∀ {u : Sys}, u.oracle = [] → l.Nodup →
    ∃ u', abortLoop d l u = some ((), u') ∧ u'.finished = u.finished ∧
      u'.out = u.out ++ (l.filter fun i => Gone.told (u.kids i)).map (.sent · .abort) := by
  induction l with
  | nil => intro u _ _; exact ⟨u, rfl, rfl, by simp⟩
  | cons i l ih =>
    intro u ho hnd
    obtain ⟨hnot, hnd⟩ := List.nodup_cons.mp hnd
    unfold abortLoop
    rw [get_bind]
    have hiff : (isProcessingMessage u i = true ∨ (u.kids i).ctx.state = .envelopeFrom) ↔ Gone.told (u.kids i) = true := by
      rw [Phase.processing_iff]; simp [Gone.told]
    by_cases hp : Gone.told (u.kids i) = true
    · rw [if_pos (hiff.mpr hp)]
      obtain ⟨u1, hu1⟩ : ∃ u1, u1 = logged (withCtx u i { (u.kids i).ctx with
        nextStates := (u.kids i).ctx.nextStates ++ [.abort], processingMessage := false }) (.sent i .abort) := ⟨_, rfl⟩
      have hsame : (l.filter fun j => Gone.told (u1.kids j)) = l.filter fun j => Gone.told (u.kids j) :=
        List.filter_congr fun j hj => by
          have : u1.kids j = u.kids j := by rw [hu1]; exact withCtx_other _ _ _ _ fun h => hnot (h ▸ hj)
          rw [this]
      obtain ⟨u2, h2, f2, o2⟩ := ih (u := u1) (by rw [hu1]; exact ho) hnd
      refine ⟨u2, ?_, by rw [f2, hu1]; rfl, ?_⟩
      · rw [bind_eq (call_eq (d := d) ho (Phase.abort_written _)), ← hu1]
        exact h2
      · rw [o2, hsame, List.filter_cons, if_pos hp, hu1]
        simp [logged, withCtx]
    · rw [if_neg (fun h => hp (hiff.mp h))]
      obtain ⟨u2, h2, f2, o2⟩ := ih (u := u) ho hnd
      exact ⟨u2, h2, f2, by rw [o2, List.filter_cons, if_neg hp]⟩

theorem reset_finished {l : List Nat} : ∀ {u u' : Sys}, resetLoop l u = some ((), u') → u'.finished = u.finished := by
  induction l with
  | nil => intro u u' h; cases h; rfl
  | cons i l ih =>
    intro u u' h
    unfold resetLoop at h
    rw [get_bind] at h
    split at h
    · rw [bind_eq (show modifyCtx i Server.resetMessage u = some (⟨⟩, withCtx u i (Server.resetMessage (u.kids i).ctx)) from rfl)] at h
      exact ih (u := withCtx u i (Server.resetMessage (u.kids i).ctx)) h
    · exact ih h

/-- the milters are told to abort, whatever state they are in -/
theorem aborts (n : Nat) (s : Sys) : ∃ s', next n s .abort [] = some s' ∧ s'.finished = s.finished ∧ s'.count = s.count ∧
    s'.out = s.out ++ ((List.range s.count).filter fun i => Gone.told (s.kids i)).map (.sent · .abort) ∧
    ∀ i, isAlive (s'.kids i) = isAlive (s.kids i) ∧ (s'.kids i).ctx.state = (s.kids i).ctx.state := by
  obtain ⟨s0, hs0⟩ : ∃ s0 : Sys, s0 = { s with oracle := [] } := ⟨_, rfl⟩
  obtain ⟨s', x, h1, h2, -⟩ := Phase.abort_all' (d := dispatch n) (u := s0) (by rw [hs0])
  obtain ⟨u1, hu1⟩ : ∃ u1 : Sys, u1 = { s0 with state := .abort, processingState := .abort } := ⟨_, rfl⟩
  obtain ⟨u2, a1, a2, a3⟩ := abort_loop (d := dispatch n) (l := milters u1) (u := u1) (by rw [hu1, hs0]) List.nodup_range
  obtain ⟨u4, h4, _, o4, -⟩ := Phase.reset_loop (l := milters u1) (u := messageDisposed u2)
  have h3 : abortAll (dispatch n) s0 = some ((), u4) := by
    unfold abortAll
    rw [modify_bind, get_bind, ← hu1, bind_eq a1, modify_bind]
    exact h4
  have e : s' = u4 := by rw [h3] at h1; cases h1; rfl
  refine ⟨s', ?_, ?_, by rw [h2.count, hs0], ?_, fun i => ?_⟩
  · unfold next
    rw [← hs0]
    show (abortAll (dispatch n) s0).map _ = _
    rw [h1]
    rfl
  · rw [e, reset_finished h4]
    show u2.finished = _
    rw [a2, hu1, hs0]
  · rw [e, o4]
    show u2.out = _
    rw [a3, hu1, hs0]
    rfl
  · have := h2.kids i
    rw [hs0] at this
    exact ⟨this.alive, this.state⟩

end Gone

/-- **C110**, the milters: whatever state they are in, when they are told that the client is gone, those which have been
told of a message are told to give it up and then all that are there are told to quit; they are told nothing else. -/
theorem C110_milters (n : Nat) (s : Sys) :
    ∃ s1 s2, Children.next n s .abort [] = some s1 ∧ Children.next n s1 .quit [] = some s2 ∧
      s2.out = s.out ++
        ((List.range s.count).filter fun i => inMessage (s.kids i) || decide ((s.kids i).ctx.state = .envelopeFrom)).map (.sent · .abort) ++
        ((List.range s.count).filter fun i => isAlive (s.kids i) && decide ((s.kids i).ctx.state ≠ .quit)).map (.sent · .quit) ++
        (if s.finished then [] else [.emit .finished]) := by
  obtain ⟨s1, h1, h2, h3, h4, h5⟩ := Gone.aborts n s
  obtain ⟨s2, g1, g2, -⟩ := C100_quit n s1
  refine ⟨s1, s2, h1, g1, ?_⟩
  rw [g2, h4, h3, h2]
  have : (fun i => isAlive (s1.kids i) && decide ((s1.kids i).ctx.state ≠ .quit)) =
      fun i => isAlive (s.kids i) && decide ((s.kids i).ctx.state ≠ .quit) := funext fun i => by rw [(h5 i).1, (h5 i).2]
  rw [this]
  rfl

namespace Gone

theorem told_sents (l : List Nat) (c : Cmd) : Spec.Children.told (l.map (Out.sent · c)) = [] := by
  induction l with
  | nil => rfl
  | cons i l ih => simpa [Spec.Children.told] using ih

/-- the MTA's side after the answer -/
def answered (order : Requests → Requests) (f : Front) (k : Client.Kind) : Front :=
  { f with
    leader := { f.leader with st := Leader.nextState f.leader f.leader.st }
    client := Client.callNoted order f.client (.respond k f.leader.atDisconnect) }

theorem check_front (order : Requests → Requests) {f : Front} {k : Client.Kind} (hp : f.leader.processing = true)
    (hst : f.leader.st = .doing k) (hn : k ≠ .negotiate) : f.check order true false = answered order f k := by
  have hr : Leader.reply f.leader f.leader.atDisconnect =
      ({ f.leader with st := Leader.nextState f.leader f.leader.st }, [.call (.respond k f.leader.atDisconnect)]) := by
    unfold Leader.reply
    rw [show Leader.response f.leader.atDisconnect f.leader.st = some (.call (.respond k f.leader.atDisconnect)) by
      rw [hst]; cases k <;> first | rfl | exact absurd rfl hn]
  unfold Front.check
  rw [hp, hr]
  simp only [Bool.not_true, Bool.and_false, Bool.or_self, Bool.false_eq_true, if_false]
  rfl

/-- a session after the disconnection: the MTA's side has answered, the milters have been told to abort and quit -/
theorem gone (order : Requests → Requests) (n : Nat) {s : Session.Session} {k : Client.Kind} (hat : s.front.attached = true)
    (hch : s.front.leader.hasChildren = true) (hp : s.front.leader.processing = true) (hst : s.front.leader.st = .doing k)
    (hn : k ≠ .negotiate) (hw : waiting s.milters = true) :
    ∃ s', Session.step order n s (.check false [] []) = some s' ∧
      s'.front.client = (answered order s.front k).client ∧ (s.milters.finished = false → s'.front.attached = false) ∧
      s'.milters.out = s.milters.out ++
        ((List.range s.milters.count).filter fun i => inMessage (s.milters.kids i) || decide ((s.milters.kids i).ctx.state = .envelopeFrom)).map (.sent · .abort) ++
        ((List.range s.milters.count).filter fun i => isAlive (s.milters.kids i) && decide ((s.milters.kids i).ctx.state ≠ .quit)).map (.sent · .quit) ++
        (if s.milters.finished then [] else [.emit .finished]) := by
  obtain ⟨s1, h1, h2, h3, h4, h5⟩ := Gone.aborts n s.milters
  obtain ⟨m1, m2, g1, g2, g3⟩ := C110_milters n s.milters
  have e : m1 = s1 := by rw [h1] at g1; cases g1; rfl
  subst e
  have t1 : toldSince s.milters m1 = [] := toldSince_eq (by
    rw [h4, told_new, told_sents])
  have t2 : toldSince m1 m2 = if s.milters.finished then [] else [.finished] := by
    refine toldSince_eq ?_
    rw [g3, h4, told_new, told_new, told_new, told_sents, told_sents, told_new, told_sents]
    cases s.milters.finished <;> simp [Spec.Children.told]
  have hf := check_front order hp hst hn
  have hrun : Session.step order n s (.check false [] []) =
      some ⟨(if s.milters.finished then [] else [Emit.finished]).foldl (Front.hear order) (answered order s.front k), m2⟩ := by
    unfold Session.step
    dsimp only
    rw [hw, hat, hp, hch, hf]
    simp only [Bool.not_true, Bool.or_self, Bool.false_eq_true, if_false, consult]
    rw [g1]
    simp only [Option.map_some, Option.bind_some]
    rw [g2, t1]
    simp only [Option.map_some, t2]
    rfl
  refine ⟨_, hrun, ?_, ?_, g3⟩
  · cases s.milters.finished <;> rfl
  · intro h; rw [h]; rfl

theorem told_by_answer (order : Requests → Requests) {f : Front} {k : Client.Kind} (hg : Good f) (hl : f.client.link = .ready)
    (hb : f.client.buffered = []) (hn : k ≠ .negotiate) (he : k ≠ .endOfMessage) {r : Reply}
    (hr : Spec.Client.finalReply (Spec.Client.lastCustom f.client.log) f.leader.atDisconnect = some r) :
    Spec.Client.written (answered order f k).client.log =
      Spec.Client.written f.client.log ++ (Enc.encodeReplies order [] [r]).flatten :=
  respond_bytes hg.settled.agrees hg.legal hl hb hn he hr

theorem deaf (order : Requests → Requests) (n : Nat) (l : List (Children.Event × List (Bool × Bool))) {s : Session.Session}
    (h : s.front.attached = false) : Session.run order n s (l.map fun p => .milter p.1 p.2) = some s := by
  induction l with
  | nil => rfl
  | cons p l ih =>
    show (Session.step order n s (.milter p.1 p.2)).bind _ = _
    have : Session.step order n s (.milter p.1 p.2) = some s := by
      unfold Session.step; dsimp only; rw [h]; rfl
    rw [this]
    exact ih

end Gone

namespace Gone

theorem begin_processing (l : Leader.Leader) (c : Cmd) : (Leader.begin l c).processing = l.processing := by
  cases c <;> simp only [Leader.begin] <;> (repeat' split) <;> rfl

theorem begin_atDisconnect (l : Leader.Leader) (c : Cmd) : (Leader.begin l c).atDisconnect = l.atDisconnect := by
  cases c <;> simp only [Leader.begin] <;> (repeat' split) <;> rfl

theorem perform_atDisconnect (order : Requests → Requests) (f : Front) (a : Leader.Act) :
    (f.perform order a).leader.atDisconnect = f.leader.atDisconnect := by
  cases a <;> simp only [Front.perform, Front.quit] <;> (repeat' split) <;> rfl

theorem performs_atDisconnect (order : Requests → Requests) (acts : List Leader.Act) : ∀ f : Front,
    (acts.foldl (Front.perform order) f).leader.atDisconnect = f.leader.atDisconnect := by
  induction acts with
  | nil => intro f; rfl
  | cons a acts ih => intro f; rw [List.foldl_cons, ih, perform_atDisconnect]

theorem reply_atDisconnect (l : Leader.Leader) (v : Status) : (Leader.reply l v).1.atDisconnect = l.atDisconnect := by
  unfold Leader.reply; split <;> rfl

theorem step_atDisconnect (order : Requests → Requests) (f : Front) (op : Leader.Op) :
    (Leader.step order f op).leader.atDisconnect = f.leader.atDisconnect := by
  cases op with
  | command c during ok chosen requests =>
    have h := (hearAll_same during (Leader.begin f.leader c)).atDisconnect
    show (Front.command order f c during ok chosen requests).leader.atDisconnect = _
    unfold Front.command
    split
    · rfl
    · split
      · rfl
      · unfold Front.quit; split <;> rfl
      · exact h.trans (begin_atDisconnect _ _)
  | heard e =>
    show (Front.hear order f e).leader.atDisconnect = _
    unfold Front.hear
    rw [performs_atDisconnect]
    exact (Leader.hear_same _ _).atDisconnect
  | check w c =>
    show (Front.check order f w c).leader.atDisconnect = _
    unfold Front.check
    split
    · rfl
    · rw [performs_atDisconnect]; exact reply_atDisconnect _ _
  | timeout =>
    unfold Leader.step Front.quit
    dsimp only
    (repeat' split) <;> rfl
  | close => rfl

theorem atDisconnect_kept (order : Requests → Requests) (ops : List Leader.Op) : ∀ f : Front,
    (Leader.run order f ops).leader.atDisconnect = f.leader.atDisconnect := by
  induction ops with
  | nil => intro f; rfl
  | cons op ops ih => intro f; exact (ih _).trans (step_atDisconnect order f op)

theorem heard_children (order : Requests → Requests) (es : List Emit) : ∀ f : Front, f.leader.hasChildren = true →
    (es.foldl (Front.hear order) f).leader.hasChildren = true := by
  induction es with
  | nil => intro f h; exact h
  | cons e es ih =>
    intro f h
    refine ih _ ?_
    unfold Front.hear
    have : ∀ (acts : List Leader.Act) (g : Front), (acts.foldl (Front.perform order) g).leader.hasChildren = g.leader.hasChildren := by
      intro acts
      induction acts with
      | nil => intro g; rfl
      | cons a acts ih => intro g; rw [List.foldl_cons, ih, perform_children]
    rw [this]
    exact (Leader.hear_same _ _).hasChildren.trans h

theorem check_nothing (order : Requests → Requests) (n : Nat) (s : Session.Session) {connected : Bool}
    (h : connected = true ∨ waiting s.milters = false) (hch : connected = false → s.front.leader.hasChildren = true) :
    Session.step order n s (.check connected [] []) = some s := by
  unfold Session.step Front.check
  rcases h with rfl | h
  · simp
  · cases connected with
    | true => simp
    | false => simp [h, hch rfl]

/-- the MTA's side when a command has arrived -/
def asked (f : Front) (cmd : Cmd) (k : Client.Kind) (context : Option Macros.Context) : Front :=
  { f with leader := Leader.begin f.leader cmd, client := Client.enter (f.client.note (.got cmd)) k context }

theorem waiting_open {s : Sys} {base : List (Nat × Cmd)} {who : List Nat} {st : St} {t : Talk} {u : Sys} (h : Children.Phase.Inv s base who st t u)
    (ho : t.isOpen who = true) : waiting u = true := by
  have hq : u.replyQueue.isEmpty = false := by
    cases hq : u.replyQueue.isEmpty with
    | false => rfl
    | true =>
      rw [List.isEmpty_iff, h.queue, ← Children.Phase.isOpen_iff, ho] at hq
      cases hq
  have hs := (h.undecided ho).1.current
  have hp := h.core.parallel
  unfold waiting
  rw [hs, hq]
  unfold Children.Phase.Parallel at hp
  rcases hp with rfl | rfl | rfl | rfl | rfl | rfl <;> rfl

theorem waiting_closed {s : Sys} {base : List (Nat × Cmd)} {who : List Nat} {st : St} {t : Talk} {u : Sys} (h : Children.Phase.Inv s base who st t u)
    (ho : t.isOpen who = false) (hb : Blank s) : waiting u = false := by
  have hq : u.replyQueue = [] := by rw [h.queue, ← Children.Phase.isOpen_iff]; exact ho
  have hw : u.waitingQueue = [] := (h.core.frame.2.2.2.1 hb).2.2.2.1
  unfold waiting
  rw [hq, hw]
  cases u.state <;> rfl

/-- a command to all milters and what follows it: the state of the session -/
theorem conversation {order : Requests → Requests} {s : Session.Session} (n : Nat) {e : Children.Event} {cmd : Cmd} {st : St}
    (ha : asks e = some (cmd, st)) (hat : s.front.attached = true) (hch : s.front.leader.hasChildren = true)
    (hcalm : Calm s.milters (addressees s.milters e) st)
    (hfallback : ∀ i ∈ addressees s.milters e, isFallback (s.milters.kids i).fallback = true)
    {es : List Children.Event} {t : Talk}
    (ht : (Talk.start s.milters (addressees s.milters e) st).moves s.milters (addressees s.milters e) st es = some t) :
    ∃ k context, k ≠ .negotiate ∧ k ≠ .endOfMessage ∧ (∀ l, (Leader.begin l cmd).st = .doing k) ∧
    (∃ h : Leader.step order s.front (.command cmd [] true none none) = asked s.front cmd k context, True) ∧
    ∃ u base, Session.run order (n + 2) s (.command cmd [] :: es.map fun x => .milter x []) =
        some ⟨(toldSince s.milters u).foldl (Front.hear order) (asked s.front cmd k context), u⟩ ∧
      Children.Phase.Inv s.milters base (addressees s.milters e) st t u := by
  obtain ⟨hev, k, context, hk, hkn, hke, hbegin⟩ := asks_event ha
  have hf : ∀ i ∈ addressees s.milters e, Children.Phase.Proper (s.milters.kids i).fallback := fun i hi => isFallback_proper (hfallback i hi)
  have ho : { s.milters with oracle := [] } = s.milters := by
    have := hcalm.oracle
    revert this
    cases s.milters
    rintro ⟨⟩
    rfl
  obtain ⟨u, h1, h2⟩ := Children.Phase.command_asked (n := n + 1) ha hcalm hf
  have hu : Spec.Children.told u.out = Spec.Children.told s.milters.out ++ toldSince s.milters u :=
    next_told (command_next (answers := []) (by rw [ho]; exact h1))
  have hdur : ∀ x ∈ toldSince s.milters u, x ≠ .abort ∧ x ≠ .finished := by
    rw [toldSince_eq (inv_told h2)]
    intro x hx
    split at hx
    · cases hx
    · rw [List.mem_singleton.mp hx]
      exact ⟨fun h => (nomatch h), fun h => (nomatch h)⟩
  have hcmd := command_taken (order := order) s.front cmd (toldSince s.milters u) hk hkn hat hch hdur
  have hcmd0 := command_taken (order := order) s.front cmd [] hk hkn hat hch (fun _ h => (nomatch h))
  have hat1 : ((toldSince s.milters u).foldl (Front.hear order) (asked s.front cmd k context)).attached = true := by
    rw [hears_attached order hdur]
    exact hat
  obtain ⟨u', h3, h4, h5⟩ := conversation_heard (order := order) (n := n) h2 ht hat1
  have hstep : Session.step order (n + 2) s (.command cmd []) =
      some ⟨(toldSince s.milters u).foldl (Front.hear order) (asked s.front cmd k context), u⟩ := by
    unfold asked
    rw [← hcmd]
    unfold Session.step
    dsimp only
    rw [hat, hev, ho]
    cases e <;> simp only [asks, Option.some.injEq, Prod.mk.injEq, reduceCtorEq] at ha <;> obtain ⟨rfl, rfl⟩ := ha <;>
      simp only [Bool.not_true, Bool.false_eq_true, if_false] <;> rw [h1] <;> rfl
  refine ⟨k, context, hkn, hke, hbegin, ⟨hcmd0, trivial⟩, u', _, ?_, h4⟩
  show (Session.step order (n + 2) s (.command cmd [])).bind _ = _
  rw [hstep, toldSince_trans hu h5, List.foldl_append]
  exact h3

end Gone
open Gone

/-- **C110**: `s` is any state a session can get into in which the MTA is connected and has negotiated, no message has ended without an
answer, and the milters the command is meant for are at rest.  The MTA sends a command that goes to all milters at once.  Then,
at any point of what follows, the connection of the client is looked at.  If a milter has not answered and the client is gone,
the MTA is told exactly the configured status; those milters which have been told of a message are told to give it up, and all that
are there to quit; and whatever the milters do then, the MTA is told nothing more.  If the client is there, or
all milters have answered, looking at the connection changes nothing.  Missing: the configured status must not be a refusal after
a reply code has been passed on (as in C53); what C23 excludes is excluded here. -/
theorem C110_partial (order : Requests → Requests) (fallback atDisconnect : Status) (size : Nat) (kids : List Children.Kid) (chunk : Nat)
    (depth : Nat) (history : List Session.Event) (s : Session.Session)
    (hs : Session.run order depth (Session.new fallback atDisconnect size kids chunk) history = some s)
    (hat : s.front.attached = true) (hl : s.front.client.link = .ready)
    (hneg : ∃ o, Client.Event.got (.negotiate o) ∈ s.front.client.log) (hp : s.front.leader.processing = true)
    (hi : Spec.Client.interrupted s.front.client.log = false) (he : Spec.Client.atEnd s.front.client.log = false)
    (n : Nat) (e : Children.Event) (cmd : Cmd) (st : St) (ha : asks e = some (cmd, st))
    (hcalm : Calm s.milters (addressees s.milters e) st)
    (hfallback : ∀ i ∈ addressees s.milters e, isFallback (s.milters.kids i).fallback = true)
    (es : List Children.Event) (t : Talk)
    (ht : (Talk.start s.milters (addressees s.milters e) st).moves s.milters (addressees s.milters e) st es = some t)
    (r : Reply) (hr : Spec.Client.finalReply (Spec.Client.lastCustom s.front.client.log) atDisconnect = some r) :
    ∃ s', Session.run order (n + 2) s (.command cmd [] :: es.map fun x => .milter x []) = some s' ∧
      (t.isOpen (addressees s.milters e) = true → ∃ s'', Session.step order (n + 2) s' (.check false [] []) = some s'' ∧
        Spec.Client.written s''.front.client.log =
          Spec.Client.written s.front.client.log ++ (Enc.encodeReplies order [] [r]).flatten ∧
        s''.milters.out = s'.milters.out ++
          ((List.range s'.milters.count).filter fun i => inMessage (s'.milters.kids i) || decide ((s'.milters.kids i).ctx.state = .envelopeFrom)).map (.sent · .abort) ++
          ((List.range s'.milters.count).filter fun i => isAlive (s'.milters.kids i) && decide ((s'.milters.kids i).ctx.state ≠ .quit)).map (.sent · .quit) ++
          (if s'.milters.finished then [] else [.emit .finished]) ∧
        (s'.milters.finished = false → ∀ more : List (Children.Event × List (Bool × Bool)),
          Session.run order (n + 2) s'' (more.map fun p => .milter p.1 p.2) = some s'')) ∧
      (t.isOpen (addressees s.milters e) = false → Blank s.milters → Session.step order (n + 2) s' (.check false [] []) = some s') ∧
      Session.step order (n + 2) s' (.check true [] []) = some s' := by
  obtain ⟨ops, hops⟩ := run_front history hs
  have hg : Good s.front := by rw [hops]; exact (Good.new fallback atDisconnect size .ready).run ops
  have hch : s.front.leader.hasChildren = true := by
    have : Parented s.front := by rw [hops]; exact (Parented.new fallback atDisconnect size .ready).run ops
    exact this hat hneg
  have hdis : s.front.leader.atDisconnect = atDisconnect := by rw [hops]; exact atDisconnect_kept order ops _
  have hstc : s.front.client.st ≠ .doing .endOfMessage := fun h => by rw [hg.settled.agrees.atEnd.mp h] at he; cases he
  have hb := hg.settled.empty hi hstc
  obtain ⟨k, context, hkn, hke, hbegin, ⟨hcmd, _⟩, u, base, h1, h2⟩ := conversation (order := order) n ha hat hch hcalm hfallback ht
  refine ⟨_, h1, fun ho => ?_, fun ho hbl => ?_, ?_⟩
  · have ht0 : toldSince s.milters u = [] := by
      rw [toldSince_eq (inv_told h2), ho]; rfl
    rw [ht0]
    obtain ⟨s'', g1, g2, g3, g4⟩ := gone order (n + 2) (s := ⟨asked s.front cmd k context, u⟩) (k := k) hat
      (by show (Leader.begin s.front.leader cmd).hasChildren = true; rw [begin_children, hch]; rfl)
      (by show (Leader.begin s.front.leader cmd).processing = true; rw [begin_processing, hp])
      (hbegin _) hkn (waiting_open h2 ho)
    refine ⟨s'', g1, ?_, g4, fun hf more => deaf order (n + 2) more (g3 hf)⟩
    have hgf : Good (asked s.front cmd k context) := by rw [← hcmd]; exact hg.step _
    have hlog : (asked s.front cmd k context).client.log = s.front.client.log ++ [.got cmd] := Leader.enter_log _ _ _
    have hw : Spec.Client.written (asked s.front cmd k context).client.log = Spec.Client.written s.front.client.log := by
      rw [hlog, Client.written_append]
      exact List.append_nil _
    have hkeep : (asked s.front cmd k context).client.link = s.front.client.link ∧
        (asked s.front cmd k context).client.buffered = s.front.client.buffered := by
      show (Client.enter _ _ _).link = _ ∧ (Client.enter _ _ _).buffered = _
      unfold Client.enter Client.setSt
      dsimp only
      split <;> split <;> exact ⟨rfl, rfl⟩
    rw [g2, told_by_answer order hgf (hkeep.1.trans hl) (hkeep.2.trans hb) hkn hke (r := r), hw]
    rw [hlog, Client.lastCustom_snoc]
    show Spec.Client.finalReply _ (Leader.begin s.front.leader cmd).atDisconnect = _
    rw [begin_atDisconnect, hdis]
    exact hr
  · exact check_nothing order (n + 2) _ (.inr (waiting_closed h2 ho hbl)) fun _ => heard_children order _ _ (by
      show (Leader.begin s.front.leader cmd).hasChildren = true; rw [begin_children, hch]; rfl)
  · exact check_nothing order (n + 2) _ (.inl rfl) fun h => (nomatch h)

/-- **C110**, within a message: `s` is any state a session can get into in which the MTA has been given no answer to a header field, the end of the
header or a piece of the body yet, and the milter whose turn it is has been sent a command that it has not answered.  If the client is gone then,
the MTA is told exactly the configured status, the milters are told to give the message up and to quit, and whatever they do then
the MTA is told nothing more.  (The end of the message: see below.) -/
theorem C110_message_partial (order : Requests → Requests) (fallback atDisconnect : Status) (size : Nat) (kids : List Children.Kid) (chunk : Nat)
    (depth : Nat) (history : List Session.Event) (s : Session.Session)
    (hs : Session.run order depth (Session.new fallback atDisconnect size kids chunk) history = some s)
    (hat : s.front.attached = true) (hl : s.front.client.link = .ready)
    (hneg : ∃ o, Client.Event.got (.negotiate o) ∈ s.front.client.log) (hp : s.front.leader.processing = true)
    (hi : Spec.Client.interrupted s.front.client.log = false) (he : Spec.Client.atEnd s.front.client.log = false)
    (k : Client.Kind) (hk : k = .header ∨ k = .endOfHeader ∨ k = .body) (hst : s.front.leader.st = .doing k)
    (hm : s.milters.state = .header ∨ s.milters.state = .endOfHeader ∨ s.milters.state = .body)
    (i : Nat) (rest : List Nat) (hq : s.milters.waitingQueue = i :: rest) (hasked : (s.milters.kids i).ctx.timer ≠ none)
    (n : Nat) (r : Reply) (hr : Spec.Client.finalReply (Spec.Client.lastCustom s.front.client.log) atDisconnect = some r) :
    ∃ s', Session.step order n s (.check false [] []) = some s' ∧
      Spec.Client.written s'.front.client.log =
        Spec.Client.written s.front.client.log ++ (Enc.encodeReplies order [] [r]).flatten ∧
      s'.milters.out = s.milters.out ++
        ((List.range s.milters.count).filter fun i => inMessage (s.milters.kids i) || decide ((s.milters.kids i).ctx.state = .envelopeFrom)).map (.sent · .abort) ++
        ((List.range s.milters.count).filter fun i => isAlive (s.milters.kids i) && decide ((s.milters.kids i).ctx.state ≠ .quit)).map (.sent · .quit) ++
        (if s.milters.finished then [] else [.emit .finished]) ∧
      (s.milters.finished = false → ∀ more : List (Children.Event × List (Bool × Bool)),
        Session.run order n s' (more.map fun p => .milter p.1 p.2) = some s') := by
  obtain ⟨ops, hops⟩ := run_front history hs
  have hg : Good s.front := by rw [hops]; exact (Good.new fallback atDisconnect size .ready).run ops
  have hch : s.front.leader.hasChildren = true := by
    have : Parented s.front := by rw [hops]; exact (Parented.new fallback atDisconnect size .ready).run ops
    exact this hat hneg
  have hdis : s.front.leader.atDisconnect = atDisconnect := by rw [hops]; exact atDisconnect_kept order ops _
  have hstc : s.front.client.st ≠ .doing .endOfMessage := fun h => by rw [hg.settled.agrees.atEnd.mp h] at he; cases he
  have hb := hg.settled.empty hi hstc
  have hkn : k ≠ .negotiate ∧ k ≠ .endOfMessage := by
    rcases hk with rfl | rfl | rfl <;> exact ⟨fun h => (nomatch h), fun h => (nomatch h)⟩
  have hw : waiting s.milters = true := by
    have ht : Children.isProcessing s.milters i = true := by
      show (s.milters.kids i).ctx.timer.isSome = true
      cases h : (s.milters.kids i).ctx.timer with
      | none => exact absurd h hasked
      | some _ => rfl
    unfold waiting
    rw [hq]
    rcases hm with h | h | h <;> rw [h] <;> exact ht
  obtain ⟨s', g1, g2, g3, g4⟩ := gone order n hat hch hp hst hkn.1 hw
  refine ⟨s', g1, ?_, g4, fun hf more => deaf order n more (g3 hf)⟩
  rw [g2, told_by_answer order hg hl hb hkn.1 hkn.2 (by rw [hdis]; exact hr)]

namespace Gone

/-- things happen at the milters, and the leader hears what comes of it -/
theorem heard_after (order : Requests → Requests) (n : Nat) (es : List (Children.Event × List (Bool × Bool))) :
    ∀ {f : Front} {m : Sys} {s1 : Session.Session}, Session.run order n ⟨f, m⟩ (es.map fun p => .milter p.1 p.2) = some s1 →
    ∃ x, Spec.Children.told s1.milters.out = Spec.Children.told m.out ++ x ∧
      (f.attached = true → (∀ e ∈ x, e ≠ .abort ∧ e ≠ .finished) → s1.front = x.foldl (Front.hear order) f) := by
  induction es with
  | nil =>
    intro f m s1 h
    cases h
    exact ⟨[], (List.append_nil _).symm, fun _ _ => rfl⟩
  | cons p es ih =>
    intro f m s1 h
    have h : (Session.step order n ⟨f, m⟩ (.milter p.1 p.2)).bind (fun s' => Session.run order n s' (es.map fun p => .milter p.1 p.2)) = some s1 := h
    by_cases hc : (f.attached && fromMilter p.1) = true
    · have hs : Session.step order n ⟨f, m⟩ (.milter p.1 p.2) = consult order n ⟨f, m⟩ p.1 p.2 := by
        unfold Session.step
        dsimp only
        rw [if_pos hc]
      rw [hs] at h
      unfold consult at h
      cases hm : Children.next n m p.1 p.2 with
      | none => rw [hm] at h; cases h
      | some m1 =>
        rw [hm] at h
        obtain ⟨x, h1, h2⟩ := ih (f := (toldSince m m1).foldl (Front.hear order) f) (m := m1) h
        refine ⟨toldSince m m1 ++ x, by rw [h1, next_told hm, List.append_assoc], fun hat hx => ?_⟩
        have hx1 : ∀ e ∈ toldSince m m1, e ≠ .abort ∧ e ≠ .finished := fun e he => hx e (List.mem_append_left _ he)
        rw [List.foldl_append]
        exact h2 ((hears_attached' hx1 f).trans hat) fun e he => hx e (List.mem_append_right _ he)
    · have hs : Session.step order n ⟨f, m⟩ (.milter p.1 p.2) = some ⟨f, m⟩ := by
        unfold Session.step
        dsimp only
        rw [if_neg hc]
      rw [hs] at h
      exact ih h

/-- the MTA's side at the end of a message, after reports of progress -/
theorem progressing (order : Requests → Requests) {f : Front} (hr : Leader.isReplied f.leader.st = true) (last : Bytes) (x : List Emit)
    (hx : ∀ e ∈ x, e = .reply .progress) :
    x.foldl (Front.hear order) (asked f (.endOfMessage last) .endOfMessage (some 0x45)) =
      { f with
        leader := { f.leader with st := .doing .endOfMessage }
        client := Client.run order f.client (.command (.endOfMessage last) [⟨[], .progress⟩] none none :: (x.map fun _ => Client.Call.progress).map .call) } := by
  have hbegin : Leader.begin f.leader (.endOfMessage last) = { f.leader with st := .doing .endOfMessage } := by
    simp only [Leader.begin, hr, if_true]
  have hasks : x.filterMap asksFor = x.map fun _ => Client.Call.progress := by
    induction x with
    | nil => rfl
    | cons e x ih =>
      rw [List.filterMap_cons, hx e List.mem_cons_self, ih fun e he => hx e (List.mem_cons_of_mem _ he)]
      rfl
  have hc : ∀ e ∈ x, ∃ c, asksFor e = some c := fun e he => ⟨.progress, by rw [hx e he]; rfl⟩
  rw [hears_plain x fun e he => by rw [hx e he]; exact ⟨(fun h => nomatch h), (fun h => nomatch h)⟩]
  have hall := hearAll_asks (Leader.begin f.leader (.endOfMessage last)) x [] hc
  rw [List.append_nil, hasks] at hall
  unfold asked
  dsimp only
  rw [hall]
  have hcount : ∀ cs : List Client.Call, List.count Leader.Act.complain (cs.map Leader.Act.call ++ []) = 0 := by
    intro cs
    rw [List.append_nil, List.count_eq_zero]
    intro h
    obtain ⟨c, _, hc⟩ := List.mem_map.mp h
    cases hc
  have hcalls : Leader.callsOf ((x.map fun _ => Client.Call.progress).map Leader.Act.call ++ (Leader.hearAll (Leader.begin f.leader (.endOfMessage last)) []).2) =
      x.map fun _ => Client.Call.progress := by
    show Leader.callsOf (_ ++ []) = _
    rw [List.append_nil, callsOf_calls]
  have hclient : Client.run order f.client (.command (.endOfMessage last) [⟨[], .progress⟩] none none :: (x.map fun _ => Client.Call.progress).map .call) =
      Client.runCalls order (Client.enter (f.client.note (.got (.endOfMessage last))) .endOfMessage (some 0x45)) (x.map fun _ => Client.Call.progress) := by
    show Client.run order (Client.receive order f.client (.endOfMessage last) [⟨[], .progress⟩] none none) _ = _
    rw [receive_deferred f.client (.endOfMessage last) [] none none (k := .endOfMessage) (context := some 0x45) rfl (fun h => nomatch h), runCalls_eq]
    rfl
  rw [hcalls, hclient]
  show Front.mk _ _ _ (f.complaints + List.count Leader.Act.complain (_ ++ [])) = _
  rw [hcount, hbegin]
  rfl

end Gone

/-- **C110**, at the end of the message: `s` is any state a session can get into in which the MTA has had its answers.  It sends the end of the
message, which the milters take; things happen at the milters, and the MTA hears at most that they are at work.  If the client is gone while the milter whose
turn it is has not answered, the MTA is told exactly the configured status and no change of the message; the milters are told to give it up and to quit, and whatever they do then
the MTA is told nothing more. -/
theorem C110_end_partial (order : Requests → Requests) (fallback atDisconnect : Status) (size : Nat) (kids : List Children.Kid) (chunk : Nat)
    (depth : Nat) (history : List Session.Event) (s : Session.Session)
    (hs : Session.run order depth (Session.new fallback atDisconnect size kids chunk) history = some s)
    (hat : s.front.attached = true) (hl : s.front.client.link = .ready)
    (hneg : ∃ o, Client.Event.got (.negotiate o) ∈ s.front.client.log) (hp : s.front.leader.processing = true)
    (hi : Spec.Client.interrupted s.front.client.log = false) (he : Spec.Client.atEnd s.front.client.log = false)
    (hrep : Leader.isReplied s.front.leader.st = true)
    (n : Nat) (last : Bytes) (htaken : Children.Taken n s.milters (.endOfMessage last))
    (es : List (Children.Event × List (Bool × Bool))) (s1 : Session.Session)
    (hrun : Session.run order n s (.command (.endOfMessage last) [] :: es.map fun p => .milter p.1 p.2) = some s1)
    (hquiet : ∀ e ∈ toldSince s.milters s1.milters, e = .reply .progress)
    (hm : s1.milters.state = .endOfMessage) (i : Nat) (rest : List Nat) (hq : s1.milters.waitingQueue = i :: rest)
    (hasked : (s1.milters.kids i).ctx.timer ≠ none)
    (r : Reply) (hr : Spec.Client.finalReply (Spec.Client.lastCustom s.front.client.log) atDisconnect = some r) :
    ∃ s' rs, Session.step order n s1 (.check false [] []) = some s' ∧ rs.filter (· ≠ .progress) = [r] ∧
      Spec.Client.written s'.front.client.log = Spec.Client.written s.front.client.log ++ (Enc.encodeReplies order [] rs).flatten ∧
      s'.milters.out = s1.milters.out ++
        ((List.range s1.milters.count).filter fun i => inMessage (s1.milters.kids i) || decide ((s1.milters.kids i).ctx.state = .envelopeFrom)).map (.sent · .abort) ++
        ((List.range s1.milters.count).filter fun i => isAlive (s1.milters.kids i) && decide ((s1.milters.kids i).ctx.state ≠ .quit)).map (.sent · .quit) ++
        (if s1.milters.finished then [] else [.emit .finished]) ∧
      (s1.milters.finished = false → ∀ more : List (Children.Event × List (Bool × Bool)),
        Session.run order n s' (more.map fun p => .milter p.1 p.2) = some s') := by
  obtain ⟨ops, hops⟩ := run_front history hs
  have hg : Good s.front := by rw [hops]; exact (Good.new fallback atDisconnect size .ready).run ops
  have hch : s.front.leader.hasChildren = true := by
    have : Parented s.front := by rw [hops]; exact (Parented.new fallback atDisconnect size .ready).run ops
    exact this hat hneg
  have hdis : s.front.leader.atDisconnect = atDisconnect := by rw [hops]; exact atDisconnect_kept order ops _
  have hstc : s.front.client.st ≠ .doing .endOfMessage := fun h => by rw [hg.settled.agrees.atEnd.mp h] at he; cases he
  have hb := hg.settled.empty hi hstc
  -- the milters are told of the end
  obtain ⟨m1, hm1⟩ := htaken
  have h1 := next_told (command_next hm1)
  have hstep : Session.step order n s (.command (.endOfMessage last) []) =
      some ⟨s.front.command order (.endOfMessage last) (toldSince s.milters m1) true none none, m1⟩ := by
    unfold Session.step
    dsimp only [eventOf]
    rw [hat, hm1]
    rfl
  have hrun : Session.run order n ⟨s.front.command order (.endOfMessage last) (toldSince s.milters m1) true none none, m1⟩
      (es.map fun p => .milter p.1 p.2) = some s1 := by
    have h : (Session.step order n s (.command (.endOfMessage last) [])).bind (fun s' => Session.run order n s' (es.map fun p => .milter p.1 p.2)) = some s1 := hrun
    rw [hstep] at h
    exact h
  obtain ⟨x, h2, h3⟩ := heard_after order n es hrun
  have hx : toldSince s.milters s1.milters = toldSince s.milters m1 ++ x := toldSince_trans h1 h2
  rw [hx] at hquiet
  have hplain : ∀ e ∈ toldSince s.milters m1 ++ x, e ≠ .abort ∧ e ≠ .finished := fun e he => by
    rw [hquiet e he]; exact ⟨(fun h => nomatch h), (fun h => nomatch h)⟩
  have hcmd := command_taken (order := order) s.front (.endOfMessage last) (toldSince s.milters m1) (k := .endOfMessage) (context := some 0x45) rfl (fun h => nomatch h)
    hat hch fun e he => hplain e (List.mem_append_left _ he)
  have hfront : s1.front = (toldSince s.milters m1 ++ x).foldl (Front.hear order) (asked s.front (.endOfMessage last) .endOfMessage (some 0x45)) := by
    rw [List.foldl_append, h3 ?_ fun e he => hplain e (List.mem_append_right _ he), hcmd]
    · rfl
    · rw [hcmd]
      exact (hears_attached' (fun e he => hplain e (List.mem_append_left _ he)) _).trans hat
  rw [progressing order hrep last _ hquiet] at hfront
  have hw : waiting s1.milters = true := by
    unfold waiting
    rw [hq, hm]
    show (s1.milters.kids i).ctx.timer.isSome = true
    cases h : (s1.milters.kids i).ctx.timer with
    | none => exact absurd h hasked
    | some _ => rfl
  obtain ⟨s', g1, g2, g3, g4⟩ := gone order n (s := s1) (k := .endOfMessage) (by rw [hfront]; exact hat) (by rw [hfront]; exact hch)
    (by rw [hfront]; exact hp) (by rw [hfront]) (fun h => nomatch h) hw
  have hcalls : ∀ c ∈ (toldSince s.milters m1 ++ x).map (fun _ => Client.Call.progress), c = .progress := by
    intro c hc
    obtain ⟨_, _, rfl⟩ := List.mem_map.mp hc
    rfl
  generalize hcs : (toldSince s.milters m1 ++ x).map (fun _ => Client.Call.progress) = cs at hcalls hfront
  have hno : ∀ c ∈ cs, Spec.Client.answers c = false := fun c hc => by rw [hcalls c hc]; rfl
  have hform : Client.run order s.front.client (.command (.endOfMessage last) [⟨[], .progress⟩] none none :: cs.map .call) =
      Client.runCalls order (Client.enter (s.front.client.note (.got (.endOfMessage last))) .endOfMessage (some 0x45)) cs := by
    show Client.run order (Client.receive order s.front.client (.endOfMessage last) [⟨[], .progress⟩] none none) _ = _
    rw [receive_deferred s.front.client (.endOfMessage last) [] none none (k := .endOfMessage) (context := some 0x45) rfl (fun h => nomatch h), runCalls_eq]
    rfl
  have hlog : (Client.enter (s.front.client.note (.got (.endOfMessage last))) .endOfMessage (some 0x45)).log = s.front.client.log ++ [.got (.endOfMessage last)] := by
    rw [Leader.enter_log]; rfl
  have hsame : ∀ (cs : List Client.Call), (∀ c ∈ cs, c = .progress) → ∀ y, Spec.Client.customAfter y cs = y := by
    intro cs
    induction cs with
    | nil => exact fun _ _ => rfl
    | cons c cs ih =>
      intro hcs y
      rw [show c :: cs = [c] ++ cs from rfl, Client.customAfter_append, ih fun d hd => hcs d (List.mem_cons_of_mem _ hd), hcs c List.mem_cons_self]
      rfl
  have hreason : ∀ (cs : List Client.Call), (∀ c ∈ cs, c = .progress) → ∀ y, cs.foldl reasonAfter y = y := by
    intro cs
    induction cs with
    | nil => exact fun _ _ => rfl
    | cons c cs ih =>
      intro hcs y
      rw [List.foldl_cons, hcs c List.mem_cons_self]
      exact ih (fun d hd => hcs d (List.mem_cons_of_mem _ hd)) _
  obtain ⟨parts, rs, e1, e2, e3⟩ := end_written order s.front.client _ _ hg.settled hg.legal last [⟨[], .progress⟩] none none cs atDisconnect rfl rfl hl hb rfl
    (by
      intro c hc
      have hc : c ∈ cs := by simpa [Spec.Client.ran, Spec.Client.final] using hc
      rw [hcalls c hc]
      exact ⟨rfl, rfl⟩) r (by rw [hform, Client.runCalls_lastCustom order _ hno, hsame _ hcalls, hlog, Client.lastCustom_snoc]; exact hr)
  refine ⟨s', rs, g1, ?_, ?_, g4, fun hf more => deaf order n more (g3 hf)⟩
  · have hparts : parts = [] := by
      have hnil : ((Spec.Client.ran [(⟨[], .progress⟩ : Client.Handler)]).flatMap (·.calls) ++ cs).filter (Spec.Client.accepted (Spec.Client.negotiated s.front.client.log)) = [] := by
        rw [List.filter_eq_nil_iff]
        intro c hc
        have hc : c ∈ cs := by simpa [Spec.Client.ran, Spec.Client.final] using hc
        rw [hcalls c hc]
        simp [Spec.Client.accepted, Spec.Client.flagOf]
      rw [hnil] at e1
      cases e1
      rfl
    rw [e2, hparts, hform, quarantine_calls order _ hno, hreason _ hcalls, hlog]
    have : Spec.Client.quarantineReason (s.front.client.log ++ [.got (.endOfMessage last)]) = none := by
      unfold Spec.Client.quarantineReason
      rw [List.foldl_append]
      rfl
    rw [this]
    rfl
  · rw [g2, ← e3, hfront]
    unfold answered
    dsimp only
    rw [hdis]
    rfl

/-! ### Concrete cases -/

namespace SessionCases
open Cases Spec.Session

/-- what is written to the MTA, and to the milters, when the client is found gone after `es` -/
def whenGone (kids : List Children.Kid) (before es : List Children.Event) : Option (Bytes × List (Nat × Cmd)) :=
  (Session.run id 20 (Session.new .accept .temporaryFailure 0 kids 4) (before.map whole)).bind fun s =>
    (Session.run id 20 s (es.map whole)).bind fun s' => (Session.step id 20 s' (.check false [] [])).map fun s'' =>
      ((Spec.Client.written s''.front.client.log).drop (Spec.Client.written s'.front.client.log).length,
        (commands s''.milters.out).drop (commands s'.milters.out).length)

end SessionCases
open SessionCases Cases Spec.Session

/-- three milters at MAIL FROM, one of which has answered: the hypotheses are met -/
example : ((Session.run id 20 (Session.new .accept .temporaryFailure 0 [{ fallback := .temporaryFailure }, {}, { evaluation := true }] 4)
      ((upToConnect 3).map whole)).any fun s =>
    let e := Children.Event.envelopeFrom [1]
    let es : List Children.Event := [.flushed 2, .flushed 0, .reply 2 .cont]
    s.front.attached && s.front.leader.processing && decide (s.front.client.link = .ready) && !Spec.Client.interrupted s.front.client.log &&
    !Spec.Client.atEnd s.front.client.log && s.front.client.log.any (fun x => match x with | .got (.negotiate _) => true | _ => false) &&
    calmB s.milters (addressees s.milters e) .envelopeFrom &&
    decide (Spec.Client.finalReply (Spec.Client.lastCustom s.front.client.log) .temporaryFailure = some .temporaryFailure) &&
    ((Talk.start s.milters (addressees s.milters e) .envelopeFrom).moves s.milters (addressees s.milters e) .envelopeFrom es).any fun t =>
      t.isOpen (addressees s.milters e)) = true := by decide +kernel

/-- the MTA reads a temporary failure; the milters are told to give up and to quit. -/
example : whenGone [{ fallback := .temporaryFailure }, {}, { evaluation := true }] (upToConnect 3)
    [.envelopeFrom [1], .flushed 2, .flushed 0, .reply 2 .cont] =
    some (one 116, [(0, .abort), (1, .abort), (2, .abort), (0, .quit), (1, .quit), (2, .quit)]) := by decide +kernel

/-- within a message of which a header field has been given to the first of two milters: the hypotheses of
`C110_message_partial` are met -/
example : ((Session.run id 20 (Session.new .accept .temporaryFailure 0 [{}, {}] 4)
      ((upToData 2 ++ ([.header [3] [4], .flushed 0] : List Children.Event)).map whole)).any fun s =>
    s.front.attached && s.front.leader.processing && decide (s.front.client.link = .ready) && !Spec.Client.interrupted s.front.client.log &&
    !Spec.Client.atEnd s.front.client.log && s.front.client.log.any (fun x => match x with | .got (.negotiate _) => true | _ => false) &&
    decide (s.front.leader.st = .doing .header) && decide (s.milters.state = .header) && decide (s.milters.waitingQueue = [0, 1]) &&
    decide ((s.milters.kids 0).ctx.timer ≠ none) && !s.milters.finished &&
    decide (Spec.Client.finalReply (Spec.Client.lastCustom s.front.client.log) .temporaryFailure = some .temporaryFailure)) = true := by
  decide +kernel

/-- the MTA reads a temporary failure and both milters are told -/
example : whenGone [{}, {}] (upToData 2) [.header [3] [4], .flushed 0] =
    some (one 116, [(0, .abort), (1, .abort), (0, .quit), (1, .quit)]) := by decide +kernel

/-- when the milter has answered, nothing happens -/
example : whenGone [{}, {}] (upToData 2) [.header [3] [4], .flushed 0, .reply 0 .cont] = some ([], []) := by decide +kernel


/-- at the end of the message: the hypotheses of `C110_end_partial` are met -/
example : ((Session.run id 20 (Session.new .accept .temporaryFailure 0 [{}, {}] 4)
      ((upToData 2 ++ ([.header [3] [4], .flushed 0, .reply 0 .cont] : List Children.Event)).map whole)).any fun s =>
    s.front.attached && s.front.leader.processing && decide (s.front.client.link = .ready) && !Spec.Client.interrupted s.front.client.log &&
    !Spec.Client.atEnd s.front.client.log && s.front.client.log.any (fun x => match x with | .got (.negotiate _) => true | _ => false) &&
    Leader.isReplied s.front.leader.st &&
    (Children.command (Children.dispatch 20) (.endOfMessage [5]) { s.milters with oracle := [] }).any (fun x => x.1) &&
    decide (Spec.Client.finalReply (Spec.Client.lastCustom s.front.client.log) .temporaryFailure = some .temporaryFailure) &&
    (Session.run id 20 s (.command (.endOfMessage [5]) [] :: ([.flushed 0, .reply 0 .progress, .reply 0 (.addHeader [6] [7]), .reply 0 .cont, .flushed 1] :
        List Children.Event).map fun e => .milter e [])).any fun s1 =>
      (toldSince s.milters s1.milters).all (· == .reply .progress) && decide (s1.milters.state = .endOfMessage) &&
      decide (s1.milters.waitingQueue = [1]) && decide ((s1.milters.kids 1).ctx.timer ≠ none) && !s1.milters.finished) = true := by
  decide +kernel

/-- at the end of the message, while the second milter is shown what the first made of it: the changes are not passed on -/
example : whenGone [{}, {}] (upToData 2) [.header [3] [4], .flushed 0, .reply 0 .cont, .endOfMessage [5], .flushed 0,
      .reply 0 (.addHeader [6] [7]), .reply 0 .cont, .flushed 1] =
    some (one 116, [(0, .abort), (1, .abort), (0, .quit), (1, .quit)]) := by decide +kernel

end Verif.Props
