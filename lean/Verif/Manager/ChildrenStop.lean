import Verif.Manager.ChildrenPhaseStart
import Verif.Spec.Stop
/-
Commands that go to all milters at once: milters kept away from the command by a condition.
-/
namespace Verif.Children
namespace Phase
open Verif
open Verif.Server (St)
open Verif.Spec.Children
open Verif.Spec.Phase
open Verif.Spec.Stop

/-- the commands a milter is kept away from without being dismissed -/
def Passes (st : St) : Prop := st = .envelopeFrom ∨ st = .envelopeRecipient

theorem passes_place {st : St} (h : Passes st) : place st = (if st = .envelopeFrom then .settled else .answered) ∧
    ballot st = .continue_ ∧ dismisses st = false := by
  rcases h with rfl | rfl <;> exact ⟨rfl, rfl, rfl⟩

/-- nothing more is to be answered -/
def mute (u : Sys) : Sys := { u with oracle := [] }

/-- the answers to come -/
def asked (u : Sys) (l : List (Bool × Bool)) : Sys := { u with oracle := l }

theorem mute_asked (u : Sys) (l : List (Bool × Bool)) : mute (asked u l) = mute u := rfl

theorem ask_cons {u : Sys} {a : Bool × Bool} {l : List (Bool × Bool)} (h : u.oracle = a :: l) : ask u = some (a, asked u l) := by
  unfold ask
  rw [get_bind, h]
  rfl

theorem stopOn_eq (c : Server.State) (st : St) : Server.stopOn c st =
    ({ Server.setState { c with status := .stop } st with stack := [.processed .inMessage] :: c.stack },
      [.emit .stopped, .ret true]) := rfl

/-- the milter is kept away from the command -/
theorem command_stopped {e : Event} {cmd : Cmd} {st : St} {k : Kid} (ha : asks e = some (cmd, st)) (hst : Passes st) (h : Idle k st) :
    ∃ c', Server.command k.ctx cmd true true =
        ({ c' with stack := [.processed .inMessage] :: c'.stack }, [.emit .stopped, .ret true]) ∧
      c'.state = st ∧ c'.nextStates = [] ∧ c'.timer = none ∧ c'.quitted = false ∧ c'.negotiated = true ∧
      c'.processingMessage = k.ctx.processingMessage ∧ c'.option = k.ctx.option ∧ (∃ r, c'.result = some r) ∧
      (MsgBlank k.ctx → MsgBlank c') := by
  obtain ⟨hn, hq⟩ := idle_fields h
  rcases hst with rfl | rfl <;>
    cases e <;> simp only [asks, Option.some.injEq, Prod.mk.injEq, reduceCtorEq] at ha <;> obtain ⟨rfl, h2⟩ := ha <;> try cases h2
  case inl.envelopeFrom f =>
    exact ⟨Server.setState { Server.ensureResult { k.ctx with status := .notChange } (Server.Result.told (.envelopeFrom f)) with status := .stop } .envelopeFrom, rfl, rfl,
      h.nextStates, h.timer, hq, hn, rfl, rfl, ⟨_, rfl⟩, id⟩
  case inr.envelopeRecipient r =>
    exact ⟨Server.setState { k.ctx with
        currentRecipient := some r
        status := .stop
        result := some (Server.Result.told (.envelopeRecipient r) (k.ctx.result.getD {})) }
          .envelopeRecipient, rfl, rfl,
      h.nextStates, h.timer, hq, hn, rfl, rfl, ⟨_, rfl⟩, id⟩

/-- the votes of a milter that was kept away -/
def passed (y : Sys) (i : Nat) (st : St) : Sys :=
  if st = .envelopeFrom then voted (voted y st .accept) st .continue_
  else voted (withCtx y i { (y.kids i).ctx with status := .notChange }) st .continue_

theorem stopped_eq {d : Dispatch} {i : Nat} {st : St} {y : Sys} (hst : Passes st) (hs : (y.kids i).ctx.state = st) :
    handle d i .stopped y = removeFromQueue d i (passed y i st) := by
  show cbStopped d i y = _
  have h0 : cbStopped d i y = (match (y.kids i).ctx.state with
    | .connect | .helo => do
      compile (y.kids i).ctx.state .accept
      let _ ← call d i .abort
      let _ ← call d i .quit
    | .envelopeFrom => do compile (y.kids i).ctx.state .accept; cbContinue d i
    | .envelopeRecipient => do modifyCtx i (fun c => { c with status := .notChange }); cbContinue d i
    | .data | .header | .endOfHeader | .body | .endOfMessage => do
      compile (y.kids i).ctx.state .accept
      let _ ← call d i .abort
      sendFirstToNext d i
    | _ => do
      compile (y.kids i).ctx.state .temporaryFailure
      let _ ← call d i .abort
      let _ ← call d i .quit : M Unit) y := rfl
  rw [h0, hs]
  rcases hst with rfl | rfl
  · show cbContinue d i (voted y .envelopeFrom .accept) = _
    rw [continue_eq]
    show afterContinue d i (y.kids i).ctx.state (voted (voted y .envelopeFrom .accept) (y.kids i).ctx.state .continue_) = _
    rw [hs]
    rfl
  · show cbContinue d i (withCtx y i { (y.kids i).ctx with status := .notChange }) = _
    rw [continue_eq, withCtx_ctx]
    show afterContinue d i (y.kids i).ctx.state (voted _ (y.kids i).ctx.state .continue_) = _
    rw [hs]
    rfl

theorem compile_pass {v : Status} (h : Proper v ∨ v = .notChange) :
    Status.compile (Status.compile v .accept) .continue_ = Status.compile v .continue_ := by
  unfold Proper at h
  rcases h with (rfl | rfl | rfl | rfl | rfl) | rfl <;> decide

section
variable {s u : Sys} {base : List (Nat × Cmd)} {who : List Nat} {st : St} {t : Talk} {i : Nat}

theorem worst_proper (h : ∀ v ∈ t.votes, Proper v) : Proper (worst t) ∨ worst t = .notChange := by
  by_cases hv : t.votes = []
  · right; unfold worst; rw [hv]; rfl
  · exact .inl (compileAll_proper h (.inr rfl) (.inl hv))

/-- milter `i` was kept away from the command; `y` is the state when this is handled -/
theorem kept_away {y : Sys} (h : Inv s base who st t u) (hi : i ∈ who) (hst : Passes st)
    (hp : (t.pos i).isOpen = true) (hn : Near u y i) (hk : Kept (s.kids i) (y.kids i)) (hl : (y.kids i).linked = true)
    (hs : (y.kids i).ctx.state = st) (hnx : (y.kids i).ctx.nextStates = []) (htm : (y.kids i).ctx.timer = none)
    (hq : (y.kids i).ctx.quitted = false) (hng : (y.kids i).ctx.negotiated = true)
    (hpm : (y.kids i).ctx.processingMessage = decide (st = .envelopeRecipient)) :
    Core s who st ((t.put i (place st)).vote .continue_) (passed y i st) ∧
      Undecided s base who st ((t.put i (place st)).vote .continue_) (passed y i st) ∧
      Following who st ((t.put i (place st)).vote .continue_) (passed y i st) := by
  have hopen := h.isOpen hi hp
  obtain ⟨hu, hf⟩ := h.undecided hopen
  have hstat : (passed y i st).statuses st = worst ((t.put i (place st)).vote .continue_) := by
    have hv := worst_vote t .continue_ ((t.put i (place st)).vote .continue_) rfl
    rw [hv, ← hu.status, ← hn.statuses]
    unfold passed
    split
    · show setStatusOf _ _ _ _ = _
      simp only [setStatusOf, voted, if_true]
      refine compile_pass ?_
      rw [hn.statuses, hu.status]
      exact worst_proper h.core.proper
    · show setStatusOf _ _ _ _ = _
      simp only [setStatusOf, if_true]
      rfl
  have hkid : ∃ v, (passed y i st).kids i = { (y.kids i) with ctx := { (y.kids i).ctx with status := v } } := by
    unfold passed
    split
    · exact ⟨_, rfl⟩
    · exact ⟨.notChange, withCtx_kid _ _ _⟩
  have hkids : ∀ j, j ≠ i → (passed y i st).kids j = u.kids j := by
    intro j hj
    rw [← hn.kids j hj]
    unfold passed
    split
    · rfl
    · exact withCtx_other _ _ _ _ hj
  obtain ⟨hf1, hf2, hf3, hf4, hf5, hf6, hf7, hf8, hf9⟩ : (passed y i st).count = y.count ∧ (passed y i st).oracle = y.oracle ∧
      (passed y i st).processingState = y.processingState ∧ (passed y i st).pending = y.pending ∧ (passed y i st).out = y.out ∧
      (passed y i st).replyQueue = y.replyQueue ∧ Frame y (passed y i st) ∧ (passed y i st).state = y.state ∧
      (passed y i st).code = y.code := by
    unfold passed
    split <;> exact ⟨rfl, rfl, rfl, rfl, rfl, rfl, .refl y, rfl, rfl⟩
  obtain ⟨v, kv⟩ := hkid
  have hvotes : ∀ w ∈ ((t.put i (place st)).vote .continue_).votes, Proper w := by
    intro w hw
    rcases List.mem_append.mp (show w ∈ t.votes ++ [.continue_] from hw) with hw | hw
    · exact h.core.proper w hw
    · rw [List.mem_singleton.mp hw]; exact .inl rfl
  have hne : ((t.put i (place st)).vote .continue_).votes ≠ [] := by
    show t.votes ++ [.continue_] ≠ []; simp
  refine update (p := place st) h hi hopen rfl hkids ?_ ?_ ?_ ?_ (hn.frame.trans hf7) (hf8.trans hn.current) (hf1.trans hn.count)
    (hf2.trans hn.oracle) (hf3.trans hn.state) (hf4.trans hn.pending) hstat (hf9.trans (hn.code.trans hu.code))
    (by rw [hf5]; exact hn.told) (by rw [hf5, hn.sent, hu.sent]; rfl) hvotes (fun _ => hne) (fun _ => hne) ?_
  rotate_right
  · intro hd; subst hd; exact absurd hst (by unfold Passes; decide)
  · rw [kv]; exact ⟨hk.fallback, hk.evaluation, hk.option, hk.retry, hk.body⟩
  · rw [kv]
    rw [(passes_place hst).1]
    split <;> exact htm
  · intro _
    rw [kv]
    refine ⟨hl, hs, hnx, hq, hng, fun hpl hm => ?_, fun hpl => ?_⟩
    · show (y.kids i).ctx.processingMessage = true
      rw [hpm]
      rcases hst with rfl | rfl
      · cases hpl
      · rfl
    · show (y.kids i).ctx.processingMessage = false
      rw [hpm]
      rcases hst with rfl | rfl
      · rfl
      · cases hpl
  · rw [(passes_place hst).1]
    split <;> exact fun h => nomatch h

theorem removed_eq {d : Dispatch} {x : Sys} (h : x.replyQueue.erase i ≠ []) :
    removeFromQueue d i x = some ((), { x with replyQueue := x.replyQueue.erase i }) := by
  unfold removeFromQueue
  rw [modify_bind, get_bind, if_pos h]
  rfl

theorem passed_mute (y : Sys) (i : Nat) (st : St) : passed (mute y) i st = mute (passed y i st) := by
  unfold passed
  split <;> rfl

theorem asked_resume {n : Nat} {b : Bool} {l : List (Bool × Bool)} (ho : u.oracle = (b, true) :: l) :
    dispatch (n + 1) (.resume i) u = (stepCtx (dispatch n) i (.handlerReturns true) >>= fun _ => pure ()) (asked u l) := by
  show (ask >>= fun x => match x with | (_, ok) => (do let _ ← stepCtx (dispatch n) i (.handlerReturns ok) : M Unit)) u = _
  rw [bind_eq (ask_cons ho)]

theorem asked_resume_eq {n : Nat} {b : Bool} {l : List (Bool × Bool)} {f : List Server.Action} {stack : List (List Server.Action)}
    {x : Server.State} (ho : u.oracle = (b, true) :: l) (hs : (u.kids i).ctx.stack = f :: stack)
    (h : Server.exec { (u.kids i).ctx with stack := stack } true f = (x, [])) :
    dispatch (n + 1) (.resume i) u = some ((), withCtx (asked u l) i x) := by
  rw [asked_resume ho]
  have : stepCtx (dispatch n) i (.handlerReturns true) (asked u l) = some (true, withCtx (asked u l) i x) := by
    rw [stepCtx_eq]
    show drive _ _ (Server.step (u.kids i).ctx _).2 (withCtx _ _ (Server.step (u.kids i).ctx _).1) = _
    simp only [Server.step, hs, h, drive_nil]
  rw [bind_eq this]
  rfl

theorem hush_mute {a b : Sys} (h : Hush a b) (h' : b.oracle = a.oracle) : Hush (mute a) (mute b) :=
  ⟨rfl, h.queue, h.count, h.state, h.pending, h.statuses, h.code, h.told, h.sent, h.kids, h.frame, h.current⟩

/-- the message is reported as processed, and the caller goes on -/
theorem asked_processed {n : Nat} {b1 b2 : Bool} {l : List (Bool × Bool)} {stack : List (List Server.Action)} {r : Server.Result}
    (ho : u.oracle = (b1, true) :: (b2, true) :: l) (hs : (u.kids i).ctx.stack = [.processed .inMessage] :: stack)
    (hres : (u.kids i).ctx.result = some r) (hst : Passes (u.kids i).ctx.state) (hr : (u.kids i).tryRetry = none) :
    ∃ u', dispatch (n + 2) (.resume i) u = some ((), u') ∧ u'.oracle = l ∧ Hush (mute u) (mute u') := by
  obtain ⟨k, hk⟩ : ∃ k, k = (u.kids i).ctx := ⟨_, rfl⟩
  obtain ⟨v, hv⟩ : ∃ v, v = asked u ((b2, true) :: l) := ⟨_, rfl⟩
  obtain ⟨u1, hu1⟩ : ∃ u1, u1 = withCtx v i { k with stack := [.dropResult] :: stack } := ⟨_, rfl⟩
  have q1 : Hush (mute u) (mute u1) := by
    have := hush_ctx (mute u) i ([.dropResult] :: stack) (u.kids i).ctx.result
    rw [hu1, hv, hk]; exact this
  have r1 : (u1.kids i).tryRetry = none := by rw [hu1, withCtx_kid, hv]; exact hr
  obtain ⟨u2, h2, q2, k2⟩ := processed_signal (n := n) (i := i) (u := u1) (v := k.status) (r := r.reported k.state) r1
  have c2 : (u2.kids i).ctx = { k with stack := [.dropResult] :: stack } := by rw [k2, hu1, withCtx_ctx]
  have o2 : u2.oracle = (b2, true) :: l := by rw [q2.oracle, hu1, hv]; rfl
  obtain ⟨u3, hu3⟩ : ∃ u3, u3 = withCtx (asked u2 l) i { k with stack := stack, result := none } := ⟨_, rfl⟩
  have q3 : Hush (mute u2) (mute u3) := by
    have := hush_ctx (mute u2) i stack none (.inl rfl)
    have c2' : ((mute u2).kids i).ctx = { k with stack := [.dropResult] :: stack } := c2
    rw [c2'] at this
    rw [hu3]; exact this
  refine ⟨u3, ?_, by rw [hu3]; rfl, (q1.trans (hush_mute q2 q2.oracle)).trans q3⟩
  rw [asked_resume ho, ← hv]
  have : stepCtx (dispatch (n + 1)) i (.handlerReturns true) v = some (true, u3) := by
    have hh : Server.Cond.holds { k with stack := stack } .inMessage = true := by
      have : ({ k with stack := stack } : Server.State).state = k.state := rfl
      rw [← hk] at hst
      rcases hst with h | h <;> simp [Server.Cond.holds, h] <;> decide
    have hx : Server.exec { k with stack := stack } true [.processed .inMessage] =
        ({ k with stack := [.dropResult] :: stack }, [.emit (.messageProcessed k.status (r.reported k.state))]) := by
      have : Server.act { k with stack := stack } true (.processed .inMessage) =
          Server.pause { k with stack := stack } [.emit (.messageProcessed k.status (r.reported k.state))] [.dropResult] := by
        show (if Server.Cond.holds _ _ = true then _ else _) = _
        rw [hh, if_pos rfl]
        rw [← hk] at hres
        simp only [hres]
      exact exec_pause this
    have hvk : (v.kids i).ctx = k := by rw [hv, hk]; rfl
    rw [stepCtx_eq, hvk]
    rw [← hk] at hs
    simp only [Server.step, hs]
    rw [hx, ← hu1]
    refine drive_emit (s1 := u2) h2 ?_
    rw [hu3]
    exact asked_resume_eq (n := n) (f := [.dropResult]) (stack := stack) o2 (by rw [c2]) (by rw [c2]; rfl)
  rw [bind_eq this]
  rfl

/-- a command that led to a signal -/
theorem call_emitted {n : Nat} {cmd : Cmd} {stop : Bool} {l : List (Bool × Bool)} {c' : Server.State} {sig : Server.Signal} {u1 u2 u3 : Sys}
    (ho : u.oracle = (stop, true) :: l)
    (h1 : Server.command (u.kids i).ctx cmd stop true = (c', [.emit sig, .ret true]))
    (hu1 : u1 = withCtx (asked u l) i c') (h2 : dispatch (n + 1) (.signal i sig) u1 = some ((), u2))
    (h3 : dispatch (n + 1) (.resume i) u2 = some ((), u3)) : call (dispatch (n + 1)) i cmd u = some (true, u3) := by
  unfold call
  rw [bind_eq (ask_cons ho)]
  show stepCtx (dispatch (n + 1)) i (.command cmd stop true) (asked u l) = _
  rw [stepCtx_eq]
  show drive _ _ (Server.step (u.kids i).ctx _).2 (withCtx _ _ (Server.step (u.kids i).ctx _).1) = _
  simp only [Server.step, h1]
  rw [← hu1]
  show (dispatch (n + 1) (.signal i sig) >>= fun _ => dispatch (n + 1) (.resume i) >>= fun _ =>
    drive (dispatch (n + 1)) i [.ret true]) u1 = _
  rw [bind_eq h2, bind_eq h3]
  rfl

/-- what has become of milter `i` when it is told apart -/
structure Away (s u y : Sys) (i : Nat) (st : St) : Prop where
  near : Near u y i
  kept : Kept (s.kids i) (y.kids i)
  linked : (y.kids i).linked = true
  state : (y.kids i).ctx.state = st
  nextStates : (y.kids i).ctx.nextStates = []
  timer : (y.kids i).ctx.timer = none
  quitted : (y.kids i).ctx.quitted = false
  negotiated : (y.kids i).ctx.negotiated = true
  following : (y.kids i).ctx.processingMessage = decide (st = .envelopeRecipient)

theorem away {e : Event} {cmd : Cmd} (ha : asks e = some (cmd, st)) (h : Inv s base who st t (mute u)) (hi : i ∈ who) (hst : Passes st)
    (hp : t.pos i = .waiting) (hpm : st = .envelopeFrom → (u.kids i).ctx.processingMessage = false) (l : List (Bool × Bool)) :
    ∃ c' stack r, Server.command (u.kids i).ctx cmd true true = (c', [.emit .stopped, .ret true]) ∧
      c'.stack = [.processed .inMessage] :: stack ∧ c'.result = some r ∧
      Away s (mute u) (mute (logged (withCtx (asked u l) i c') (.heard i .stopped))) i st := by
  have hat := h.core.at' i hi
  rw [hp] at hat
  obtain ⟨hidle, hmsg⟩ := hat
  have hk := h.core.kept i hi
  obtain ⟨c, h1, h2, h3, h4, h5, h6, h7, h8, ⟨r, h9⟩, h10⟩ := command_stopped ha hst hidle
  refine ⟨_, c.stack, r, h1, rfl, h9, ?_⟩
  obtain ⟨z, hz⟩ : ∃ z, z = withCtx u i { c with stack := [.processed .inMessage] :: c.stack } := ⟨_, rfl⟩
  have hkid : (mute (logged (withCtx (asked u l) i { c with stack := [.processed .inMessage] :: c.stack }) (.heard i .stopped))).kids i =
      { (u.kids i) with ctx := { c with stack := [.processed .inMessage] :: c.stack } } := withCtx_kid u i _
  refine ⟨(near_ctx (mute u) i _).trans (near_heard _ _ _), ?_, ?_, ?_, ?_, ?_, ?_, ?_, ?_⟩
  all_goals rw [hkid]
  · exact ⟨hk.fallback, hk.evaluation, h8.trans hk.option, hk.retry, fun x => h10 (hk.body x)⟩
  · exact hidle.linked
  · exact h2
  · exact h3
  · exact h4
  · exact h5
  · exact h6
  · show c.processingMessage = _
    rw [h7]
    rcases hst with rfl | rfl
    · exact hpm rfl
    · exact hmsg (.inl rfl)

/-- the last milter is kept away -/
theorem stop_last {n : Nat} {e : Event} {cmd : Cmd} (ha : asks e = some (cmd, st)) (h : Inv s base who st t (mute u)) (hi : i ∈ who)
    (hst : Passes st) (hp : t.pos i = .waiting) (hpm : st = .envelopeFrom → (u.kids i).ctx.processingMessage = false)
    (ho : u.oracle = [(true, true)]) :
    ∃ u', call (dispatch (n + 2)) i cmd u = some (true, u') ∧ Inv s base who st ((t.put i (place st)).vote .continue_) u' := by
  obtain ⟨c', stack, r, h1, h2, h3, a⟩ := away ha h hi hst hp hpm []
  obtain ⟨u1, hu1⟩ : ∃ u1, u1 = withCtx (asked u []) i c' := ⟨_, rfl⟩
  rw [← hu1] at a
  have hm : mute (logged u1 (.heard i .stopped)) = logged u1 (.heard i .stopped) := by rw [hu1]; rfl
  rw [hm] at a
  have hop : (t.pos i).isOpen = true := by rw [hp]; rfl
  have hk := kept_away h hi hst hop a.near a.kept a.linked a.state a.nextStates a.timer a.quitted a.negotiated a.following
  obtain ⟨u2, g1, g2, g3⟩ := update_remove (d := dispatch (n + 1)) (i := i) (t' := (t.put i (place st)).vote .continue_) (p := place st) h rfl (by rw [(passes_place hst).1]; split <;> rfl)
    (show (passed (logged u1 (.heard i .stopped)) i st).replyQueue = (mute u).replyQueue by
      rw [← a.near.queue]; unfold passed; split <;> rfl) hk (.inv (.inl rfl))
  have hsig : dispatch (n + 2) (.signal i .stopped) u1 = some ((), u2) := by
    rw [signal_handled (y := u1) a.linked a.kept.retry, stopped_eq hst a.state]
    exact g1
  have hkid : ∃ v, (passed (logged u1 (.heard i .stopped)) i st).kids i = { (u1.kids i) with ctx := { (u1.kids i).ctx with status := v } } := by
    unfold passed
    split
    · exact ⟨_, rfl⟩
    · exact ⟨.notChange, withCtx_kid _ _ _⟩
  obtain ⟨v, hkid⟩ := hkid
  have hst2 : (u2.kids i).ctx.stack = [.processed .inMessage] :: stack := by
    rw [(g3 i).stack, hkid]
    show (u1.kids i).ctx.stack = _
    rw [hu1, withCtx_ctx, h2]
  obtain ⟨u3, f1, f2⟩ := resume_frame (n := n) (i := i) (u := u2) (f := [.processed .inMessage]) (stack := stack) g2.core.oracle
    hst2 ⟨_, [], rfl, .inl rfl⟩
    (by
      rw [(g3 i).state, hkid]
      show (u1.kids i).ctx.state ≠ .body
      have := a.state
      rw [show (u1.kids i).ctx.state = st from this]
      rcases hst with h | h <;> rw [h] <;> exact fun h => nomatch h)
    (by rw [(g3 i).retry, hkid]; exact a.kept.retry)
  exact ⟨u3, call_emitted ho h1 hu1 hsig f1, g2.hush f2⟩

/-- a milter is kept away, and somebody else is to be asked -/
theorem stop_mid {n : Nat} {e : Event} {cmd : Cmd} {l : List (Bool × Bool)} {j : Nat} (ha : asks e = some (cmd, st))
    (h : Inv s base who st t (mute u)) (hi : i ∈ who)
    (hst : Passes st) (hp : t.pos i = .waiting) (hpm : st = .envelopeFrom → (u.kids i).ctx.processingMessage = false)
    (hj : j ∈ who) (hji : j ≠ i) (hpj : t.pos j = .waiting)
    (ho : u.oracle = (true, true) :: (false, true) :: (false, true) :: l) :
    ∃ u', call (dispatch (n + 2)) i cmd u = some (true, u') ∧ u'.oracle = l ∧
      Inv s base who st ((t.put i (place st)).vote .continue_) (mute u') ∧
      ∀ j, j ≠ i → (u'.kids j).ctx.processingMessage = (u.kids j).ctx.processingMessage ∧
        ((u.kids j).ctx.result = none → (u'.kids j).ctx.result = none) := by
  obtain ⟨c', stack, r, h1, h2, h3, a⟩ := away ha h hi hst hp hpm ((false, true) :: (false, true) :: l)
  obtain ⟨u1, hu1⟩ : ∃ u1, u1 = withCtx (asked u ((false, true) :: (false, true) :: l)) i c' := ⟨_, rfl⟩
  rw [← hu1] at a
  have hop : (t.pos i).isOpen = true := by rw [hp]; rfl
  have hk := kept_away h hi hst hop a.near a.kept a.linked a.state a.nextStates a.timer a.quitted a.negotiated a.following
  rw [passed_mute] at hk
  obtain ⟨x, hx⟩ : ∃ x, x = passed (logged u1 (.heard i .stopped)) i st := ⟨_, rfl⟩
  rw [← hx] at hk
  have hxq : x.replyQueue = u.replyQueue := by
    rw [hx, show u.replyQueue = (logged u1 (.heard i .stopped)).replyQueue by rw [hu1]; rfl]
    unfold passed; split <;> rfl
  obtain ⟨u2, g1, g2, g3⟩ := update_remove (d := dispatch (n + 1)) (i := i) (t' := (t.put i (place st)).vote .continue_) (p := place st) h rfl (by rw [(passes_place hst).1]; split <;> rfl)
    (show (mute x).replyQueue = (mute u).replyQueue from hxq) hk (.inv (.inl rfl))
  have hne : x.replyQueue.erase i ≠ [] := by
    rw [hxq, show u.replyQueue = _ from h.queue]
    intro he
    have : j ∈ (who.filter fun i => (t.pos i).isOpen).erase i :=
      (List.mem_erase_of_ne hji).mpr (List.mem_filter.mpr ⟨hj, by rw [hpj]; rfl⟩)
    rw [he] at this
    cases this
  have hu2 : u2 = mute { x with replyQueue := x.replyQueue.erase i } := by
    rw [removed_eq (x := mute x) hne] at g1
    injection g1 with g1
    injection g1 with _ g1
    rw [← g1]
    rfl
  obtain ⟨w, hw⟩ : ∃ w : Sys, w = { x with replyQueue := x.replyQueue.erase i } := ⟨_, rfl⟩
  rw [← hw] at hu2
  have hsig : dispatch (n + 2) (.signal i .stopped) u1 = some ((), w) := by
    rw [signal_handled (y := u1) a.linked a.kept.retry, stopped_eq (y := logged u1 (.heard i .stopped)) hst a.state, ← hx, removed_eq hne, hw]
  have hkid : ∃ v, w.kids i = { (u1.kids i) with ctx := { (u1.kids i).ctx with status := v } } := by
    rw [hw, hx]
    show ∃ v, (passed (logged u1 (.heard i .stopped)) i st).kids i = _
    unfold passed
    split
    · exact ⟨_, rfl⟩
    · exact ⟨.notChange, withCtx_kid _ _ _⟩
  obtain ⟨v, kv⟩ := hkid
  have kc : (u1.kids i).ctx = c' := by rw [hu1, withCtx_ctx]
  have hwo : w.oracle = (false, true) :: (false, true) :: l := by
    rw [hw, hx]
    show (passed (logged u1 (.heard i .stopped)) i st).oracle = _
    rw [show (passed (logged u1 (.heard i .stopped)) i st).oracle = u1.oracle by unfold passed; split <;> rfl, hu1]
    rfl
  obtain ⟨u3, f1, f2, f3⟩ := asked_processed (n := n) (i := i) (u := w) (stack := stack) (r := r) hwo
    (by rw [kv, kc]; exact h2) (by rw [kv, kc]; exact h3)
    (by rw [kv]; show Passes (u1.kids i).ctx.state; rw [show (u1.kids i).ctx.state = st from a.state]; exact hst)
    (by rw [kv]; exact a.kept.retry)
  refine ⟨u3, call_emitted ho h1 hu1 hsig f1, f2, ?_, fun m hm => ?_⟩
  · rw [hu2] at g2
    exact g2.hush f3
  · obtain ⟨q, r', hr', hq⟩ := f3.kids m
    have e1 : w.kids m = u.kids m := by
      rw [hw]
      show x.kids m = _
      rw [hx]
      have e2 : (logged u1 (.heard i .stopped)).kids m = u.kids m := by
        rw [hu1]; exact withCtx_other (asked u _) _ _ _ hm
      unfold passed
      split
      · exact e2
      · exact (withCtx_other _ _ _ _ hm).trans e2
    rw [show u3.kids m = _ from hq, ← e1]
    exact ⟨rfl, fun h => hr'.elim id fun e => e.trans h⟩

/-- a milter gets the command, and there is more to be answered -/
theorem written_mid {n : Nat} {e : Event} {cmd : Cmd} {l : List (Bool × Bool)} (ha : asks e = some (cmd, st))
    (h : Inv s base who st t (mute u)) (hi : i ∈ who) (hp : t.pos i = .waiting) (hd : t.dismissed = [])
    (hdec : declines (s.kids i) st = false) (ho : u.oracle = (false, true) :: l) :
    ∃ u', call (dispatch (n + 1)) i cmd u = some (true, u') ∧ u'.oracle = l ∧
      Inv s (base ++ [(i, cmd)]) who st (t.put i .written) (mute u') ∧
      ∀ j, j ≠ i → (u'.kids j).ctx.processingMessage = (u.kids j).ctx.processingMessage ∧
        ((u.kids j).ctx.result = none → (u'.kids j).ctx.result = none) := by
  have hat := h.core.at' i hi
  rw [hp] at hat
  have hk := h.core.kept i hi
  obtain ⟨c', h1, _⟩ := command_written ha hat.1 ((declines_kept hk.option).trans hdec) hat.2
  obtain ⟨v, g1, g2⟩ := offer_one (n := n) ha h hi hp hd
  unfold offer at g2
  rw [hdec] at g2
  rw [call_eq (s := mute u) rfl h1] at g1
  injection g1 with g1
  injection g1 with _ g1
  subst g1
  refine ⟨logged (withCtx (asked u l) i c') (.sent i cmd), ?_, rfl, g2,
    fun j hj => by rw [show (logged (withCtx (asked u l) i c') (.sent i cmd)).kids j = u.kids j from withCtx_other _ _ _ _ hj]; exact ⟨rfl, id⟩⟩
  unfold call
  rw [bind_eq (ask_cons ho)]
  show stepCtx (dispatch (n + 1)) i (.command cmd false true) (asked u l) = _
  rw [stepCtx_eq]
  show drive _ _ (Server.step ((mute u).kids i).ctx _).2 (withCtx _ _ (Server.step ((mute u).kids i).ctx _).1) = _
  simp only [Server.step, h1]
  rfl

/-- a milter declined the command, and somebody else is to be asked -/
theorem declined_mid {n : Nat} {e : Event} {cmd : Cmd} {l : List (Bool × Bool)} {j : Nat} (ha : asks e = some (cmd, st))
    (h : Inv s base who st t (mute u)) (hi : i ∈ who) (hp : t.pos i = .waiting)
    (hdec : declines (s.kids i) st = true) (hj : j ∈ who) (hji : j ≠ i) (hpj : t.pos j = .waiting)
    (ho : u.oracle = (false, true) :: (false, true) :: l) :
    ∃ u', call (dispatch (n + 1)) i cmd u = some (true, u') ∧ u'.oracle = l ∧
      Inv s base who st ((t.put i .answered).vote .continue_) (mute u') ∧
      ∀ j, j ≠ i → (u'.kids j).ctx.processingMessage = (u.kids j).ctx.processingMessage ∧
        ((u.kids j).ctx.result = none → (u'.kids j).ctx.result = none) := by
  have hop : (t.pos i).isOpen = true := by rw [hp]; rfl
  have hat := h.core.at' i hi
  rw [hp] at hat
  have hk := h.core.kept i hi
  obtain ⟨c', h1, h2, h4, h40, h41⟩ := command_declined ha hat.1 ((declines_kept hk.option).trans hdec) hat.2
  obtain ⟨u1, hu1⟩ : ∃ u1, u1 = withCtx (asked u ((false, true) :: l)) i { c' with stack := [] :: c'.stack } := ⟨_, rfl⟩
  obtain ⟨y, hy⟩ : ∃ y, y = logged u1 (.heard i (.reply .cont)) := ⟨_, rfl⟩
  have ky : (mute y).kids i = { (u.kids i) with ctx := { c' with stack := [] :: c'.stack } } := by
    rw [hy, hu1]; exact withCtx_kid u i _
  have n1 : Near (mute u) (mute y) i := by
    rw [hy, hu1]; exact (near_ctx (mute u) i _).trans (near_heard _ _ _)
  have hs : Spoke ((mute y).kids i).ctx st := by
    rw [ky]; exact ⟨h2.state, h2.nextStates, h2.timer, h2.quitted, h2.negotiated, h2.following⟩
  obtain ⟨u2, h6, h7, h8, _, _⟩ := spoke (d := dispatch n) (r := .cont) (v := .continue_) (y := mute y) h hi hop n1
    (by rw [ky]; exact ⟨hk.fallback, hk.evaluation, h4.trans hk.option, hk.retry, fun x => h40 (hk.body x)⟩)
    (by rw [ky]; exact hat.1.linked) hs rfl (fun hd h => by rw [ky]; exact h41 hd h) (.inv (.inl rfl))
  have heq : ∀ (z : Sys), (z.kids i).ctx.state = st → handle (dispatch n) i (.reply .cont) z =
      removeFromQueue (dispatch n) i (voted z st .continue_) := by
    intro z hz
    show cbContinue _ i z = _
    rw [continue_eq, hz]
    have hst := h.core.parallel
    unfold Parallel inMsg at hst
    rcases hst with h | h | h | h | h | h <;> rw [h] <;> rfl
  have hyq : y.replyQueue = u.replyQueue := by rw [hy, hu1]; rfl
  have hne : (voted y st .continue_).replyQueue.erase i ≠ [] := by
    show y.replyQueue.erase i ≠ []
    rw [hyq, show u.replyQueue = _ from h.queue]
    intro he
    have : j ∈ (who.filter fun i => (t.pos i).isOpen).erase i :=
      (List.mem_erase_of_ne hji).mpr (List.mem_filter.mpr ⟨hj, by rw [hpj]; rfl⟩)
    rw [he] at this
    cases this
  obtain ⟨w, hw⟩ : ∃ w : Sys, w = { voted y st .continue_ with replyQueue := (voted y st .continue_).replyQueue.erase i } := ⟨_, rfl⟩
  have hu2 : u2 = mute w := by
    rw [heq _ hs.state, removed_eq (x := voted (mute y) st .continue_) hne] at h6
    injection h6 with h6
    injection h6 with _ h6
    rw [← h6, hw]
    rfl
  have kw : w.kids i = { (u.kids i) with ctx := { c' with stack := [] :: c'.stack } } := by
    rw [hw]; exact ky
  have hsig : dispatch (n + 1) (.signal i (.reply .cont)) u1 = some ((), w) := by
    have k1 : u1.kids i = { (u.kids i) with ctx := { c' with stack := [] :: c'.stack } } := by
      rw [hu1]; exact withCtx_kid u i _
    rw [signal_handled (by rw [k1]; exact hat.1.linked) (by rw [k1]; exact hk.retry), ← hy, heq y hs.state, removed_eq hne, hw]
  have hwo : w.oracle = (false, true) :: l := by rw [hw, hy, hu1]; rfl
  have hres := asked_resume_eq (n := n) (i := i) (u := w) (f := []) (stack := c'.stack) hwo (by rw [kw]) rfl
  refine ⟨_, call_emitted ho h1 hu1 hsig hres, rfl, ?_, fun m hm => ?_⟩
  · rw [hu2] at h7
    have := h7.hush (hush_ctx (mute w) i c'.stack ((mute w).kids i).ctx.result)
    have hc : counts (s.kids i) .continue_ = .continue_ := by simp [counts, refuses]
    rw [hc] at this
    exact this
  · rw [withCtx_other _ _ _ _ hm]
    have : w.kids m = u.kids m := by
      rw [hw, hy, hu1]; exact withCtx_other (asked u _) _ _ _ hm
    rw [show (asked w l).kids m = w.kids m from rfl, this]
    exact ⟨rfl, id⟩

/-- the last milter is offered the command -/
theorem offered_last {n : Nat} {e : Event} {cmd : Cmd} (ha : asks e = some (cmd, st))
    (h : Inv s base who st t (mute u)) (hi : i ∈ who) (hp : t.pos i = .waiting) (hd : t.dismissed = [])
    (ho : u.oracle = [(false, true)]) :
    ∃ u', call (dispatch (n + 1)) i cmd u = some (true, u') ∧
      Inv s (base ++ (if declines (s.kids i) st then [] else [(i, cmd)])) who st (offer s st t i) u' := by
  obtain ⟨u', h1, h2⟩ := offer_one (n := n) ha h hi hp hd
  refine ⟨u', ?_, h2⟩
  rw [← h1]
  unfold call
  rw [bind_eq (ask_cons ho), bind_eq (ask_eq (s := mute u) rfl)]
  rfl

/-- the environment's next answer, if it matters -/
def Gives (o o' : List (Bool × Bool)) : Prop := (o = [] ∧ o' = []) ∨ o = (false, true) :: o'

theorem ask_gives {o : List (Bool × Bool)} (h : Gives u.oracle o) : ask u = some ((false, true), asked u o) := by
  rcases h with ⟨h, rfl⟩ | h
  · rw [ask_eq h]
    cases u; simp only at h; subst h; rfl
  · exact ask_cons h

theorem call_gives {d : Dispatch} {c c' : Cmd} {x : Server.State} {o : List (Bool × Bool)} (ho : Gives u.oracle o)
    (h : Server.command (u.kids i).ctx c false true = (x, [.wrote c', .ret true])) :
    call d i c u = some (true, logged (withCtx (asked u o) i x) (.sent i c')) := by
  unfold call
  rw [bind_eq (ask_gives ho)]
  show stepCtx d i (.command c false true) (asked u o) = _
  rw [stepCtx_eq]
  show drive _ _ (Server.step (u.kids i).ctx _).2 (withCtx _ _ (Server.step (u.kids i).ctx _).1) = _
  simp only [Server.step, h]
  rfl

theorem resume_gives {n : Nat} {o : List (Bool × Bool)} {f : List Server.Action} {stack : List (List Server.Action)}
    {x : Server.State} (ho : Gives u.oracle o) (hs : (u.kids i).ctx.stack = f :: stack)
    (h : Server.exec { (u.kids i).ctx with stack := stack } true f = (x, [])) :
    dispatch (n + 1) (.resume i) u = some ((), withCtx (asked u o) i x) := by
  rcases ho with ⟨h1, rfl⟩ | h1
  · rw [resume_eq h1 hs h]
    have : asked u [] = u := by cases u; simp only at h1; subst h1; rfl
    rw [this]
  · exact asked_resume_eq h1 hs h

/-- a milter that is told to go -/
def sentAway (c : Server.State) : Server.State :=
  { c with processingMessage := false, quitted := true, nextStates := (c.nextStates ++ [.abort]) ++ [.quit] }

/-- nothing but milters, the environment's answers and the log differs -/
structure Beside (u y : Sys) : Prop where
  queue : y.replyQueue = u.replyQueue
  count : y.count = u.count
  state : y.processingState = u.processingState
  pending : y.pending = u.pending
  statuses : y.statuses = u.statuses
  code : y.code = u.code
  frame : Frame u y
  current : y.state = u.state

theorem Beside.trans {a b c : Sys} (h : Beside a b) (h' : Beside b c) : Beside a c :=
  ⟨h'.queue.trans h.queue, h'.count.trans h.count, h'.state.trans h.state, h'.pending.trans h.pending,
    h'.statuses.trans h.statuses, h'.code.trans h.code, h.frame.trans h'.frame, h'.current.trans h.current⟩

theorem beside_sent (u : Sys) (i : Nat) (o : List (Bool × Bool)) (c : Server.State) (x : Out) :
    Beside u (logged (withCtx (asked u o) i c) x) :=
  ⟨rfl, rfl, rfl, rfl, rfl, rfl, .refl u, rfl⟩

theorem dismissed_eq {d : Dispatch} {y : Sys} {o1 o2 : List (Bool × Bool)} (hst : dismisses st = true) (hs : (y.kids i).ctx.state = st)
    (h1 : Gives y.oracle o1) (h2 : Gives o1 o2) :
    ∃ y', handle d i .stopped y = some ((), y') ∧ y'.oracle = o2 ∧
      y'.kids = updKid y.kids i { (y.kids i) with ctx := sentAway (y.kids i).ctx } ∧
      Beside (voted y st .accept) y' ∧
      y'.out = y.out ++ [.sent i .abort] ++ [.sent i .quit] := by
  have h0 : handle d i .stopped y = (do
      let _ ← call d i .abort
      let _ ← call d i .quit : M Unit) (voted y st .accept) := by
    show cbStopped d i y = _
    have h0 : cbStopped d i y = (match (y.kids i).ctx.state with
      | .connect | .helo => do
        compile (y.kids i).ctx.state .accept
        let _ ← call d i .abort
        let _ ← call d i .quit
      | .envelopeFrom => do compile (y.kids i).ctx.state .accept; cbContinue d i
      | .envelopeRecipient => do modifyCtx i (fun c => { c with status := .notChange }); cbContinue d i
      | .data | .header | .endOfHeader | .body | .endOfMessage => do
        compile (y.kids i).ctx.state .accept
        let _ ← call d i .abort
        sendFirstToNext d i
      | _ => do
        compile (y.kids i).ctx.state .temporaryFailure
        let _ ← call d i .abort
        let _ ← call d i .quit : M Unit) y := rfl
    rw [h0, hs]
    unfold dismisses at hst
    rcases (Bool.or_eq_true _ _).mp hst with h | h <;> rw [of_decide_eq_true h] <;> rfl
  obtain ⟨w, hw⟩ : ∃ w, w = voted y st .accept := ⟨_, rfl⟩
  have e1 := call_gives (d := d) (i := i) (u := w) (o := o1) (by rw [hw]; exact h1) (abort_written (w.kids i).ctx)
  obtain ⟨w1, hw1⟩ : ∃ w1, w1 = logged (withCtx (asked w o1) i
    { (w.kids i).ctx with nextStates := (w.kids i).ctx.nextStates ++ [.abort], processingMessage := false }) (.sent i .abort) := ⟨_, rfl⟩
  rw [← hw1] at e1
  have e2 := call_gives (d := d) (i := i) (u := w1) (o := o2) (by rw [hw1]; exact h2) (quit_written (w1.kids i).ctx)
  have k1 : w1.kids i = { (y.kids i) with ctx :=
      { (y.kids i).ctx with nextStates := (y.kids i).ctx.nextStates ++ [.abort], processingMessage := false } } := by
    rw [hw1]
    show (withCtx (asked w o1) i _).kids i = _
    rw [withCtx_kid, hw]
    rfl
  refine ⟨logged (withCtx (asked w1 o2) i
    { (w1.kids i).ctx with nextStates := (w1.kids i).ctx.nextStates ++ [.quit], quitted := true }) (.sent i .quit), ?_, rfl, ?_, ?_, ?_⟩
  · rw [h0, ← hw, bind_eq e1, bind_eq e2]
    rfl
  · show updKid w1.kids i { (w1.kids i) with ctx := _ } = _
    funext j
    unfold updKid
    by_cases hj : j = i
    · rw [if_pos hj, if_pos hj, k1]
      rfl
    · rw [if_neg hj, if_neg hj, hw1]
      show (withCtx (asked w o1) i _).kids j = _
      rw [withCtx_other _ _ _ _ hj, hw]
      rfl
  · refine Beside.trans (b := w1) ?_ (beside_sent ..)
    rw [hw1, ← hw]
    exact beside_sent ..
  · rw [hw1, hw]
    rfl

/-- a milter is dismissed -/
theorem stop_leave {n : Nat} {e : Event} {cmd : Cmd} {o1 o2 o3 o4 : List (Bool × Bool)} (ha : asks e = some (cmd, st))
    (h : Inv s base who st t (mute u)) (hi : i ∈ who) (hst : dismisses st = true) (hp : t.pos i = .waiting) (hd : t.dismissed = [])
    (hres : (u.kids i).ctx.result = none)
    (ho : u.oracle = (true, true) :: o1) (h1 : Gives o1 o2) (h2 : Gives o2 o3) (h3 : Gives o3 o4) :
    ∃ u', call (dispatch (n + 1)) i cmd u = some (true, u') ∧ u'.oracle = o4 ∧
      Inv s (base ++ [(i, .abort), (i, .quit)]) who st ((t.put i (place st)).vote .accept) (mute u') ∧
      ∀ j, j ≠ i → u'.kids j = u.kids j := by
  have hop : (t.pos i).isOpen = true := by rw [hp]; rfl
  have hopen := h.isOpen hi hop
  obtain ⟨hu, hf⟩ := h.undecided hopen
  have hat := h.core.at' i hi
  rw [hp] at hat
  obtain ⟨hidle, _⟩ := hat
  have hk := h.core.kept i hi
  have hplace : place st = .leaving := by unfold place; rw [hst]; rfl
  obtain ⟨c', hc'⟩ : ∃ c', c' = Server.setState { (u.kids i).ctx with status := .stop } st := ⟨_, rfl⟩
  have hcmd : Server.command (u.kids i).ctx cmd true true =
      ({ c' with stack := [.processed .inMessage] :: (u.kids i).ctx.stack }, [.emit .stopped, .ret true]) := by
    rw [hc']
    unfold dismisses at hst
    cases e <;> simp only [asks, Option.some.injEq, Prod.mk.injEq, reduceCtorEq] at ha <;> obtain ⟨rfl, rfl⟩ := ha <;>
      first | rfl | (exact absurd hst (by decide))
  obtain ⟨c1, hc1⟩ : ∃ c1 : Server.State, c1 = { c' with stack := [.processed .inMessage] :: (u.kids i).ctx.stack } := ⟨_, rfl⟩
  rw [← hc1] at hcmd
  obtain ⟨u1, hu1⟩ : ∃ u1, u1 = withCtx (asked u o1) i c1 := ⟨_, rfl⟩
  have k1 : u1.kids i = { (u.kids i) with ctx := c1 } := by rw [hu1]; exact withCtx_kid (asked u o1) i _
  obtain ⟨y, hy⟩ : ∃ y, y = logged u1 (.heard i .stopped) := ⟨_, rfl⟩
  have ky : y.kids i = { (u.kids i) with ctx := c1 } := by rw [hy]; exact k1
  have hys : (y.kids i).ctx.state = st := by rw [ky, hc1, hc']; rfl
  have hyo : y.oracle = o1 := by rw [hy, hu1]; rfl
  obtain ⟨w, g1, g2, g3, g4, g5⟩ := dismissed_eq (d := dispatch n) (i := i) (st := st) (y := y) hst hys (by rw [hyo]; exact h1) h2
  have hsig : dispatch (n + 1) (.signal i .stopped) u1 = some ((), w) := by
    rw [signal_handled (by rw [k1]; exact hidle.linked) (by rw [k1]; exact hk.retry), ← hy]
    exact g1
  have kw : w.kids i = { (u.kids i) with ctx := sentAway c1 } := by
    rw [g3, ky]; simp [updKid]
  have kwj : ∀ j, j ≠ i → w.kids j = u.kids j := by
    intro j hj
    rw [g3]
    simp only [updKid, hj, if_false]
    rw [hy, hu1]
    exact withCtx_other (asked u o1) _ _ _ hj
  have hstack : (w.kids i).ctx.stack = [.processed .inMessage] :: (u.kids i).ctx.stack := by rw [kw, hc1]; rfl
  have hexec : Server.exec { (w.kids i).ctx with stack := (u.kids i).ctx.stack } true [.processed .inMessage] =
      ({ (w.kids i).ctx with stack := (u.kids i).ctx.stack }, []) := by
    refine (exec_go (c' := { (w.kids i).ctx with stack := (u.kids i).ctx.stack }) ?_).trans rfl
    have hws : (w.kids i).ctx.state = st := by rw [kw, hc1, hc']; rfl
    have : Server.Cond.holds { (w.kids i).ctx with stack := (u.kids i).ctx.stack } .inMessage = false := by
      simp only [Server.Cond.holds, hws]
      unfold dismisses at hst
      rcases (Bool.or_eq_true _ _).mp hst with h | h <;> rw [of_decide_eq_true h] <;> decide
    simp [Server.act, this]
  have hresume := resume_gives (n := n) (i := i) (u := w) (o := o4) (by rw [g2]; exact h3) hstack hexec
  refine ⟨_, call_emitted ho hcmd hu1 hsig hresume, rfl, ?_, fun j hj => ?_⟩
  · obtain ⟨x, hx⟩ : ∃ x, x = mute (withCtx (asked w o4) i { (w.kids i).ctx with stack := (u.kids i).ctx.stack }) := ⟨_, rfl⟩
    rw [← hx]
    have kx : x.kids i = { (u.kids i) with ctx := { sentAway c1 with stack := (u.kids i).ctx.stack } } := by
      rw [hx]
      show (withCtx (asked w o4) i _).kids i = _
      rw [withCtx_kid, kw]
      show ({ (w.kids i) with ctx := { sentAway c1 with stack := (u.kids i).ctx.stack } } : Kid) = _
      rw [kw]
    have kxj : ∀ j, j ≠ i → x.kids j = u.kids j := by
      intro j hj
      rw [hx]
      show (withCtx (asked w o4) i _).kids j = _
      rw [withCtx_other _ _ _ _ hj]
      exact kwj j hj
    have hyu : y.replyQueue = u.replyQueue ∧ y.count = u.count ∧ y.processingState = u.processingState ∧ y.pending = u.pending ∧
        y.statuses = u.statuses ∧ y.code = u.code ∧ y.out = u.out ++ [.heard i .stopped] ∧ Frame u y ∧ y.state = u.state := by
      rw [hy, hu1]; exact ⟨rfl, rfl, rfl, rfl, rfl, rfl, rfl, .refl u, rfl⟩
    obtain ⟨y1, y2, y3, y4, y5, y6, y7, y8, y9⟩ := hyu
    have hout : x.out = u.out ++ [.heard i .stopped] ++ [.sent i .abort] ++ [.sent i .quit] := by
      rw [hx]
      show w.out = _
      rw [g5, y7]
    have hxw : x.replyQueue = w.replyQueue ∧ x.count = w.count ∧ x.processingState = w.processingState ∧ x.pending = w.pending ∧
        x.statuses = w.statuses ∧ x.code = w.code ∧ Frame w x ∧ x.state = w.state ∧ x.oracle = [] := by
      rw [hx]; exact ⟨rfl, rfl, rfl, rfl, rfl, rfl, .refl w, rfl, rfl⟩
    obtain ⟨x1, x2, x3, x4, x5, x6, x7, x8, x9⟩ := hxw
    have hvt : ((t.put i (place st)).vote .accept).votes = t.votes ++ [.accept] := rfl
    have hvotes : ∀ v ∈ ((t.put i (place st)).vote .accept).votes, Proper v := by
      intro v hv
      rw [hvt] at hv
      rcases List.mem_append.mp hv with hv | hv
      · exact h.core.proper v hv
      · rw [List.mem_singleton.mp hv]; exact .inr (.inl rfl)
    have hne : ((t.put i (place st)).vote .accept).votes ≠ [] := by rw [hvt]; simp
    refine update_inv (p := place st) h hopen rfl (by rw [hplace, hop]; rfl) (x1.trans (g4.queue.trans y1)) ?_
    refine update (p := place st) h hi hopen rfl kxj ?_ ?_ ?_ ?_
      (y8.trans ((show Frame y w from (show Frame y (voted y st .accept) from .refl y).trans g4.frame).trans x7)) (x8.trans (g4.current.trans y9)) (x2.trans (g4.count.trans y2))
      x9 (x3.trans (g4.state.trans y3)) (x4.trans (g4.pending.trans y4)) ?_ (x6.trans (g4.code.trans (y6.trans hu.code)))
      ?_ ?_ hvotes (fun _ => hne) (fun _ => hne) (fun hd _ => by subst hd; exact absurd hst (by decide))
    · rw [kx, hc1, hc']
      exact ⟨hk.fallback, hk.evaluation, hk.option, hk.retry, hk.body⟩
    · rw [kx, hplace, hc1, hc']
      refine ⟨hidle.linked, .inr ⟨?_, hres⟩, hidle.timer⟩
      show (u.kids i).ctx.nextStates ++ _ ++ _ = _
      rw [show (u.kids i).ctx.nextStates = [] from hidle.nextStates]
      rfl
    · rw [hplace]; exact fun h => nomatch h
    · rw [hplace]; exact fun h => nomatch h
    · rw [x5, worst_vote t _ _ hvt, ← hu.status, show (mute u).statuses = u.statuses from rfl, ← y5]
      rw [show w.statuses = _ from g4.statuses]
      show (voted y st .accept).statuses st = _
      simp [voted, setStatusOf]
    · rw [hout, told_sent, told_sent, told_append]
      simp [told, mute]
    · rw [hout, commands_sent, commands_sent, commands_append]
      rw [show commands u.out = _ from hu.sent]
      simp [commands, hd, Talk.put, Talk.vote]
  · rw [withCtx_other _ _ _ _ hj]
    exact kwj j hj

/-- milter `i` is offered the command, or kept away from it -/
def offerOr (s : Sys) (st : St) (stop : Nat → Bool) (t : Talk) (i : Nat) : Talk :=
  if stop i then (t.put i (place st)).vote (ballot st) else offer s st t i

theorem offerOr_other {stop : Nat → Bool} (t : Talk) {i j : Nat} (h : j ≠ i) : (offerOr s st stop t i).pos j = t.pos j := by
  unfold offerOr
  split
  · simp [Talk.put, Talk.vote, h]
  · exact offer_other t h

theorem offerOr_dismissed {stop : Nat → Bool} (t : Talk) (i : Nat) : (offerOr s st stop t i).dismissed = t.dismissed := by
  unfold offerOr
  split
  · rfl
  · exact offer_dismissed t i

theorem fresh_like {k k' : Kid} (h : Spec.Stop.Fresh k st) (h1 : k'.ctx.processingMessage = k.ctx.processingMessage)
    (h2 : k.ctx.result = none → k'.ctx.result = none) : Spec.Stop.Fresh k' st :=
  ⟨fun e => h1.trans (h.1 e), fun e => h2 (h.2 e)⟩

theorem stop_all {n : Nat} {e : Event} {cmd : Cmd} {stop : Nat → Bool} (ha : asks e = some (cmd, st)) (hst : Stoppable st) {l : List Nat} :
    ∀ {u : Sys} {t : Talk} {base : List (Nat × Cmd)}, Inv s base who st t (mute u) → l.Nodup → (∀ i ∈ l, i ∈ who ∧ t.pos i = .waiting) →
      t.dismissed = [] → u.oracle = wishes s st stop l →
      (∀ i ∈ l, stop i = true → Spec.Stop.Fresh (u.kids i) st) →
      ∃ u', callLoop (dispatch (n + 2)) cmd l u = some (decide (l ≠ []), u') ∧
        Inv s (base ++ l.flatMap (sends s st stop cmd)) who st (l.foldl (offerOr s st stop) t) u' := by
  induction l with
  | nil =>
    intro u t base h _ _ _ ho _
    have : mute u = u := by
      have ho : u.oracle = [] := ho
      cases u; simp only at ho; subst ho; rfl
    exact ⟨u, rfl, by rw [this] at h; simpa using h⟩
  | cons i l ih =>
    intro u t base h hn hl hd ho hpm
    obtain ⟨hnot, hn⟩ := List.nodup_cons.mp hn
    obtain ⟨hi, hp⟩ := hl i List.mem_cons_self
    have hpass : dismisses st = false → Passes st := by
      intro hd
      rcases hst with rfl | rfl | h | h
      · cases hd
      · cases hd
      · exact .inl h
      · exact .inr h
    have key : ∃ u1, call (dispatch (n + 2)) i cmd u = some (true, u1) ∧ u1.oracle = wishes s st stop l ∧
        Inv s (base ++ sends s st stop cmd i) who st (offerOr s st stop t i) (mute u1) ∧
        ∀ j ∈ l, (u1.kids j).ctx.processingMessage = (u.kids j).ctx.processingMessage ∧
          ((u.kids j).ctx.result = none → (u1.kids j).ctx.result = none) := by
      unfold offerOr sends
      cases l with
      | nil =>
        have ho : u.oracle = [(stop i, true)] := ho
        cases hs : stop i with
        | true =>
          rw [hs] at ho
          have hfr := hpm i List.mem_cons_self hs
          cases hdis : dismisses st with
          | true =>
            obtain ⟨u1, h1, h2, h3, h4⟩ := stop_leave (n := n + 1) (o2 := []) (o3 := []) (o4 := []) ha h hi hdis hp hd (hfr.2 hdis) ho
              (.inl ⟨rfl, rfl⟩) (.inl ⟨rfl, rfl⟩) (.inl ⟨rfl, rfl⟩)
            refine ⟨u1, h1, h2, ?_, fun j hj => nomatch hj⟩
            have hb : ballot st = .accept := by unfold ballot; rw [hdis]; rfl
            simpa [hb] using h3
          | false =>
            have hst := hpass hdis
            obtain ⟨u1, h1, h2⟩ := stop_last (n := n) ha h hi hst hp hfr.1 ho
            refine ⟨u1, h1, h2.core.oracle, ?_, fun j hj => nomatch hj⟩
            have hm : mute u1 = u1 := by
              have ho := h2.core.oracle
              cases u1; simp only at ho; subst ho; rfl
            rw [hm]
            simpa [(passes_place hst).2.1] using h2
        | false =>
          rw [hs] at ho
          obtain ⟨u1, h1, h2⟩ := offered_last (n := n + 1) ha h hi hp hd ho
          refine ⟨u1, h1, h2.core.oracle, ?_, fun j hj => nomatch hj⟩
          have hm : mute u1 = u1 := by
            have ho := h2.core.oracle
            cases u1; simp only at ho; subst ho; rfl
          rw [hm]
          cases hdd : declines (s.kids i) st <;> rw [hdd] at h2 <;> simpa using h2
      | cons j l =>
        have hj := hl j (List.mem_cons_of_mem _ List.mem_cons_self)
        have hji : j ≠ i := fun e => hnot (e ▸ List.mem_cons_self)
        have ho : u.oracle = wish (s.kids i) st (stop i) ++ wishes s st stop (j :: l) := ho
        unfold wish at ho
        cases hs : stop i with
        | true =>
          rw [hs] at ho
          have hfr := hpm i List.mem_cons_self hs
          cases hdis : dismisses st with
          | true =>
            rw [hdis] at ho
            obtain ⟨u1, h1, h2, h3, h4⟩ := stop_leave (n := n + 1) ha h hi hdis hp hd (hfr.2 hdis) ho (.inr rfl) (.inr rfl) (.inr rfl)
            have hb : ballot st = .accept := by unfold ballot; rw [hdis]; rfl
            exact ⟨u1, h1, h2, by simpa [hb] using h3, fun m hm => by rw [h4 m fun e => hnot (e ▸ hm)]; exact ⟨rfl, id⟩⟩
          | false =>
            rw [hdis] at ho
            have hst := hpass hdis
            obtain ⟨u1, h1, h2, h3, h4⟩ := stop_mid (n := n) ha h hi hst hp hfr.1 hj.1 hji hj.2 ho
            exact ⟨u1, h1, h2, by simpa [(passes_place hst).2.1] using h3, fun m hm => h4 m fun e => hnot (e ▸ hm)⟩
        | false =>
          rw [hs] at ho
          unfold offer
          cases hdd : declines (s.kids i) st with
          | true =>
            rw [hdd] at ho
            obtain ⟨u1, h1, h2, h3, h4⟩ := declined_mid (n := n + 1) ha h hi hp hdd hj.1 hji hj.2 ho
            exact ⟨u1, h1, h2, by simpa using h3, fun m hm => h4 m fun e => hnot (e ▸ hm)⟩
          | false =>
            rw [hdd] at ho
            obtain ⟨u1, h1, h2, h3, h4⟩ := written_mid (n := n + 1) ha h hi hp hd hdd ho
            exact ⟨u1, h1, h2, by simpa using h3, fun m hm => h4 m fun e => hnot (e ▸ hm)⟩
    obtain ⟨u1, h1, h2, h3, hkids⟩ := key
    obtain ⟨u2, h4, h5⟩ := ih h3 hn (fun j hj => by
      have hji : j ≠ i := fun e => hnot (e ▸ hj)
      rw [offerOr_other t hji]
      exact hl j (List.mem_cons_of_mem _ hj)) (by rw [offerOr_dismissed, hd]) h2
      (fun j hj hs => fresh_like (hpm j (List.mem_cons_of_mem _ hj) hs) (hkids j hj).1 (hkids j hj).2)
    refine ⟨u2, ?_, ?_⟩
    · unfold callLoop
      rw [bind_eq h1, bind_eq h4]
      show some (true || decide (l ≠ []), u2) = _
      simp
    · rw [List.foldl_cons, List.flatMap_cons, ← List.append_assoc]
      exact h5

theorem offeredOr_pos {stop : Nat → Bool} {l : List Nat} (hn : l.Nodup) : ∀ (t : Talk) (j : Nat), (l.foldl (offerOr s st stop) t).pos j =
    if j ∈ l then (if stop j then place st else if declines (s.kids j) st then .answered else .written) else t.pos j := by
  induction l with
  | nil => intro t j; simp
  | cons i l ih =>
    intro t j
    obtain ⟨hnot, hn⟩ := List.nodup_cons.mp hn
    rw [List.foldl_cons, ih hn]
    by_cases hji : j = i
    · subst hji
      rw [if_neg hnot, if_pos List.mem_cons_self]
      unfold offerOr offer
      split
      · simp [Talk.put, Talk.vote]
      · split <;> simp [Talk.put, Talk.vote]
    · rw [offerOr_other t hji]
      simp [hji]

theorem offeredOr_votes {stop : Nat → Bool} {l : List Nat} : ∀ (t : Talk), (l.foldl (offerOr s st stop) t).votes =
    t.votes ++ (l.filter fun i => stop i || declines (s.kids i) st).map fun i => if stop i then ballot st else .continue_ := by
  induction l with
  | nil => intro t; simp
  | cons i l ih =>
    intro t
    rw [List.foldl_cons, ih, List.filter_cons]
    unfold offerOr offer
    cases hs : stop i <;> cases declines (s.kids i) st <;> simp [Talk.put, Talk.vote, hs]

theorem offeredOr_rest {stop : Nat → Bool} {l : List Nat} : ∀ (t : Talk), (l.foldl (offerOr s st stop) t).code = t.code ∧
    (l.foldl (offerOr s st stop) t).dismissed = t.dismissed := by
  induction l with
  | nil => intro t; exact ⟨rfl, rfl⟩
  | cons i l ih =>
    intro t
    rw [List.foldl_cons]
    obtain ⟨h1, h2⟩ := ih (offerOr s st stop t i)
    rw [h1, h2]
    unfold offerOr offer
    cases stop i <;> cases declines (s.kids i) st <;> exact ⟨rfl, rfl⟩

theorem offeredOr {stop : Nat → Bool} (hn : who.Nodup) : who.foldl (offerOr s st stop) (unasked s who) = Spec.Stop.start s who st stop := by
  have h1 : (who.foldl (offerOr s st stop) (unasked s who)).pos = (Spec.Stop.start s who st stop).pos := by
    funext j
    rw [offeredOr_pos hn]
    by_cases h : j ∈ who <;> simp [Spec.Stop.start, unasked, h]
  have h2 : (who.foldl (offerOr s st stop) (unasked s who)).votes = (Spec.Stop.start s who st stop).votes := by
    rw [offeredOr_votes]; simp [Spec.Stop.start, unasked]
  have h3 := offeredOr_rest (s := s) (st := st) (stop := stop) (l := who) (unasked s who)
  revert h1 h2 h3
  generalize who.foldl (offerOr s st stop) (unasked s who) = a
  intro h1 h2 h3
  cases a
  simp only at h1 h2 h3
  rw [h1, h2, h3.1, h3.2]
  rfl

/-- the command arrives, and conditions keep some of the milters away from it -/
theorem begin_stop {n : Nat} {e : Event} {cmd : Cmd} {check : M Bool} {fill : M Unit} {stop : Nat → Bool} {v : Sys}
    (ha : asks e = some (cmd, st)) (hst : Stoppable st)
    (hcalm : Calm s who st) (hn : who.Nodup) (hr : ∀ i ∈ who, i < s.count) (hfb : ∀ i ∈ who, Proper (s.kids i).fallback)
    (hm : ∀ i ∈ who, st = .envelopeRecipient ∨ st = .data → (s.kids i).ctx.processingMessage = true)
    (hpm : ∀ i ∈ who, stop i = true → Spec.Stop.Fresh (s.kids i) st)
    (hv : v = asked s (wishes s st stop who))
    (hcheck : check v = some (true, v))
    (hfill : ∃ u0, (initReplyQueue st >>= fun _ => fill) v = some ((), u0) ∧ u0.oracle = v.oracle ∧ Filled s (mute u0) who [] st) :
    ∃ u', toAll (dispatch (n + 2)) check fill st cmd v = some (true, u') ∧
      Inv s (commands s.out ++ who.flatMap (sends s st stop cmd)) who st (Spec.Stop.start s who st stop) u' := by
  obtain ⟨u0, h0, h0o, f⟩ := hfill
  have hin : ∀ i ∈ who, (unasked s who).pos i = .waiting := fun i hi => by simp [unasked, hi]
  have hopen : (unasked s who).isOpen who = true := by
    obtain ⟨i, l, rfl⟩ := List.exists_cons_of_ne_nil hcalm.some
    simp [Talk.isOpen, unasked, Pos.isOpen]
  have hinv : Inv s (commands s.out) who st (unasked s who) (mute u0) := by
    refine ⟨⟨asks_parallel ha, hn, hcalm.some, hr, f.count, f.oracle, fun i hi => ?_, fun i hi => ?_, fun i hi => ?_, fun i hi => ?_,
      fun i hi => (hcalm.idle i hi).option, fun i hi h => ?_, (fun v hv => by cases hv), hfb, f.others, f.frame,
      fun _ i hi h => by rw [f.kids i hi]; exact h⟩, ?_, fun _ => ⟨⟨f.state, f.current, f.pending, f.status, f.code,
      f.told, by rw [f.sent]; simp [unasked], fun i _ => f.due i⟩, fun i hi hp => ?_⟩, fun h => ?_⟩
    · rw [f.kids i hi]
      exact ⟨rfl, rfl, rfl, (hcalm.idle i hi).retry, id⟩
    · rw [f.kids i hi, hin i hi]
      exact ⟨hcalm.idle i hi, hm i hi⟩
    · simp [unasked, hi]
    · rw [hin i hi]; exact fun h => nomatch h
    · rw [hin i hi] at h; cases h
    · rw [f.queue]
      exact (List.filter_eq_self.mpr fun i hi => by rw [hin i hi]; rfl).symm
    · rw [hin i hi] at hp; cases hp
    · rw [hopen] at h; cases h
  have hkid : ∀ i ∈ who, u0.kids i = s.kids i := f.kids
  obtain ⟨u1, h1, h2⟩ := stop_all (n := n) (stop := stop) ha hst hinv hn (fun i hi => ⟨hi, hin i hi⟩) rfl (by rw [h0o, hv]; rfl)
    (fun i hi hs => by rw [hkid i hi]; exact hpm i hi hs)
  rw [offeredOr hn] at h2
  rw [decide_eq_true hcalm.some] at h1
  refine ⟨u1, ?_, h2⟩
  unfold toAll
  rw [bind_eq hcheck]
  have hq : ∀ {β : Type} (g : PUnit → M β), (initReplyQueue st >>= fun _ => fill >>= g) v = g ⟨⟩ u0 := by
    intro β g
    have : (initReplyQueue st >>= fun _ => fill >>= g) v = ((initReplyQueue st >>= fun _ => fill) >>= g) v := rfl
    rw [this, bind_eq h0]
  refine (hq _).trans ?_
  rw [get_bind, show u0.replyQueue = who from f.queue, bind_eq h1, bind_eq (silence fun i hi => ?_)]
  · rfl
  · obtain ⟨o, ho, hz⟩ := h2.core.options i hi
    exact ⟨o, by rw [(h2.core.kept i hi).option]; exact ho, hz⟩

theorem stop_begin {n : Nat} {e : Event} {cmd : Cmd} {stop : Nat → Bool} (ha : asks e = some (cmd, st)) (hst : Stoppable st)
    (hcalm : Calm s (addressees s e) st)
    (hfb : ∀ i ∈ addressees s e, Proper (s.kids i).fallback)
    (hpm : ∀ i ∈ addressees s e, stop i = true → Spec.Stop.Fresh (s.kids i) st) :
    ∃ u', next (n + 2) s e (wishes s st stop (addressees s e)) = some u' ∧
      Inv s (commands s.out ++ (addressees s e).flatMap (sends s st stop cmd)) (addressees s e) st
        (Spec.Stop.start s (addressees s e) st stop) u' := by
  obtain ⟨j, hj⟩ := List.exists_mem_of_ne_nil _ hcalm.some
  have hjr := addressees_range hj
  have hja := addressees_alive hj
  have hm : ∀ i ∈ addressees s e, st = .envelopeRecipient ∨ st = .data → (s.kids i).ctx.processingMessage = true := fun i hi hst => by
    have := addressees_following ha hi hst
    simp only [inMessage, Bool.and_eq_true] at this
    exact this.2
  have hr : ∀ i ∈ addressees s e, i < s.count := fun i hi => addressees_range hi
  obtain ⟨v, hv⟩ : ∃ v, v = asked s (wishes s st stop (addressees s e)) := ⟨_, rfl⟩
  have run : ∀ (check : M Bool) (fill : M Unit), check v = some (true, v) →
      (∃ u0, (initReplyQueue st >>= fun _ => fill) v = some ((), u0) ∧ u0.oracle = v.oracle ∧
        Filled s (mute u0) (addressees s e) [] st) →
      command (dispatch (n + 2)) e v = toAll (dispatch (n + 2)) check fill st cmd v →
      ∃ u', next (n + 2) s e (wishes s st stop (addressees s e)) = some u' ∧
      Inv s (commands s.out ++ (addressees s e).flatMap (sends s st stop cmd)) (addressees s e) st
        (Spec.Stop.start s (addressees s e) st stop) u' := by
    intro check fill hc hf hs
    obtain ⟨u', h1, h2⟩ := begin_stop (n := n) ha hst hcalm (addressees_nodup s e) hr hfb hm hpm hv hc hf
    refine ⟨u', ?_, h2⟩
    unfold next
    rw [← show v = { s with oracle := wishes s st stop (addressees s e) } from hv, step_command, hs, h1]
    rfl
  have alive : (∃ u0, (initReplyQueue st >>= fun _ => queueAlive) s = some ((), u0) ∧ Filled s u0 (addressees s e) [] st) →
      ∃ u0, (initReplyQueue st >>= fun _ => queueAlive) v = some ((), u0) ∧ u0.oracle = v.oracle ∧
        Filled s (mute u0) (addressees s e) [] st := by
    rintro ⟨u0, h1, h2⟩
    refine ⟨asked u0 v.oracle, ?_, rfl, ?_⟩
    · have : u0 = _ := (by injection h1 with h1; injection h1 with _ h1; exact h1.symm)
      rw [this, hv]; rfl
    · have : mute u0 = u0 := by
        have ho := h2.oracle
        cases u0; simp only at ho; subst ho; rfl
      rw [mute_asked, this]; exact h2
  have hca := check_alive (s := v) (by rw [hv]; exact hcalm.running) (by rw [hv]; exact hjr) (by rw [hv]; exact hja)
  cases e <;> simp only [asks, Option.some.injEq, Prod.mk.injEq, reduceCtorEq] at ha <;> obtain ⟨rfl, rfl⟩ := ha
  case connect => exact run _ _ hca (alive (fill_alive hcalm)) rfl
  case helo => exact run _ _ hca (alive (fill_alive hcalm)) rfl
  case envelopeFrom f => exact run _ _ hca (alive (fill_alive hcalm)) rfl
  case envelopeRecipient r =>
    refine run _ _ (check_processing (by rw [hv]; exact hjr)
      (by rw [hv]; exact addressees_following (e := .envelopeRecipient r) rfl hj (.inl rfl))) ?_ rfl
    obtain ⟨u0, h1, h2⟩ := fill_processing hcalm
    refine ⟨asked u0 v.oracle, ?_, rfl, ?_⟩
    · have : u0 = _ := (by injection h1 with h1; injection h1 with _ h1; exact h1.symm)
      rw [this, hv]; rfl
    · have : mute u0 = u0 := by
        have ho := h2.oracle
        cases u0; simp only at ho; subst ho; rfl
      rw [mute_asked, this]; exact h2
  case data => rcases hst with h | h | h | h <;> cases h
  case unknown => rcases hst with h | h | h | h <;> cases h

end

end Phase
end Verif.Children
