import Verif.Manager.ChildrenIntake

/-!
# A milter that skips the rest of the body

`cb_skip` (milter-manager-children.c:1713-1730), the answer `skip` of the server context
(milter-server-context.c:3244-3275) and the places that look at the mark it leaves
(`milter_manager_children_body`, milter-manager-children.c:3787-3847, and `send_body_to_child`,
4005-4032).  Lemmas only; the statements are in `Verif.Props.ChildrenSkip`.
-/

namespace Verif.Children
open Verif
open Verif.Server (St)
open Verif.Spec.Children

/-- milter `i`, the first of the queue, has got a piece of the body and is to answer -/
structure HasPiece (s : Sys) (i : Nat) (rest : List Nat) : Prop where
  oracle : s.oracle = []
  linked : (s.kids i).linked = true
  known : i < s.count
  message : attending (s.kids i).ctx
  quitted : (s.kids i).ctx.quitted = false
  state : (s.kids i).ctx.state = .body
  idle : (s.kids i).ctx.nextStates = []
  sentEom : (s.kids i).ctx.sentEom = false
  waiting : s.waitingQueue = i :: rest

/-- milter `i`, the first of the queue, does not want more of the body -/
structure Skipping (s : Sys) (i : Nat) (rest : List Nat) (q : List St) (b : Bytes) : Prop where
  oracle : s.oracle = []
  linked : (s.kids i).linked = true
  known : i < s.count
  message : attending (s.kids i).ctx
  quitted : (s.kids i).ctx.quitted = false
  idle : (s.kids i).ctx.nextStates = []
  timer : (s.kids i).ctx.timer = none
  skip : (s.kids i).ctx.skipBody = true
  waiting : s.waitingQueue = i :: rest
  state : s.state = .body
  queue : s.commandQueue = q ++ [.body]
  earlier : St.body ∉ q ∧ St.endOfMessage ∉ q
  stored : stored s = b
  tail : ∀ f, s.bodyFile = some f → s.body = none ∧ f.2 = f.1.length

/-- the rest of `cb_skip` -/
def afterSkip (d : Dispatch) (i : Nat) (st : St) : M Unit := do
  if (← get).state.rank < St.endOfMessage.rank then emit (.reply .cont)
  else let _ ← sendNextCommand d i st

theorem commands_sent' (out : List Out) (i : Nat) (c : Cmd) : commands (out ++ [.sent i c]) = commands out ++ [(i, c)] := by
  rw [commands_append]; rfl

theorem told_sent' (out : List Out) (i : Nat) (c : Cmd) : told (out ++ [.sent i c]) = told out := by
  rw [told_append]; simp [told]

theorem skip_reply {c : Server.State} (hs : c.state = .body) (hq : c.quitted = false) :
    Server.reply c .skip true =
      ({ c with timer := none, stack := [.clearBody, .setSkip] :: c.stack }, [.emit (.reply .skip)]) := by
  simp [Server.reply, hs, Server.report, hq, Server.andThen, Server.pause]

theorem skip_rest {c : Server.State} {stack : List (List Server.Action)} (he : c.sentEom = false) :
    Server.exec { c with stack := stack } true [.clearBody, .setSkip] =
      ({ c with stack := stack, bodyQueue := [], skipBody := true }, []) := by
  simp [Server.exec, Server.act, Server.clearBody, he, Server.go]

/-- what is left of the answer when the manager has dealt with it -/
theorem skip_event {n i : Nat} {s u : Sys} (ho : s.oracle = []) (hl : (s.kids i).linked = true)
    (hs : (s.kids i).ctx.state = .body) (hq : (s.kids i).ctx.quitted = false)
    (h : cbSkip (dispatch n) i (logged (withCtx s i { (s.kids i).ctx with
        timer := none, stack := [.clearBody, .setSkip] :: (s.kids i).ctx.stack }) (.heard i (.reply .skip))) = some ((), u))
    (uo : u.oracle = []) (us : (u.kids i).ctx.stack = [.clearBody, .setSkip] :: (s.kids i).ctx.stack)
    (ue : (u.kids i).ctx.sentEom = false) :
    next (n + 1) s (.reply i .skip) [] = some (withCtx u i { (u.kids i).ctx with
      stack := (s.kids i).ctx.stack, bodyQueue := [], skipBody := true }) := by
  refine next_eq ho ?_
  rw [reply_step ho]
  have : stepCtx (dispatch (n + 1)) i (.reply .skip true) s = some (true, withCtx u i { (u.kids i).ctx with
      stack := (s.kids i).ctx.stack, bodyQueue := [], skipBody := true }) := by
    rw [stepCtx_eq]
    simp only [Server.step, skip_reply hs hq]
    refine drive_emit (s1 := u) ?_ ?_
    · rw [signal_reply (by rw [withCtx_kid]; exact hl)]
      exact h
    · exact resume_eq uo us (skip_rest ue)
  rw [bind_eq this]
  rfl

/-- while the body comes in -/
theorem skip_intake {n i : Nat} {s : Sys} {rest : List Nat} {q : List St} {b : Bytes} (h : HasPiece s i rest)
    (hst : s.state = .body) (hq : s.commandQueue = q ++ [.body]) (hq' : St.body ∉ q ∧ St.endOfMessage ∉ q)
    (hb : stored s = b) (ht : ∀ f, s.bodyFile = some f → s.body = none ∧ f.2 = f.1.length) :
    ∃ s', next (n + 1) s (.reply i .skip) [] = some s' ∧ Skipping s' i rest q b ∧
      commands s'.out = commands s.out ∧ told s'.out = told s.out ++ [.reply .cont] ∧
      s'.eomChunk = s.eomChunk ∧ ∀ j, j ≠ i → s'.kids j = s.kids j := by
  obtain ⟨u0, hu0⟩ : ∃ u0, u0 = logged (withCtx s i { (s.kids i).ctx with
      timer := none, stack := [.clearBody, .setSkip] :: (s.kids i).ctx.stack }) (.heard i (.reply .skip)) := ⟨_, rfl⟩
  have k0 : (u0.kids i).ctx = { (s.kids i).ctx with
      timer := none, stack := [.clearBody, .setSkip] :: (s.kids i).ctx.stack } := by
    rw [hu0]; exact withCtx_ctx _ _ _
  obtain ⟨u, hu⟩ : ∃ u, u = logged (voted u0 .body .skip) (.emit (.reply .cont)) := ⟨_, rfl⟩
  have ku : u.kids = u0.kids := by rw [hu]; rfl
  have e : cbSkip (dispatch n) i u0 = some ((), u) := by
    show (compile (u0.kids i).ctx.state .skip >>= fun _ => afterSkip (dispatch n) i (u0.kids i).ctx.state) u0 = _
    rw [compile_eq, show (u0.kids i).ctx.state = .body by rw [k0]; exact h.state]
    unfold afterSkip
    rw [get_bind]
    rw [if_pos (by show u0.state.rank < _; rw [hu0]; show s.state.rank < _; rw [hst]; decide), hu]
    rfl
  refine ⟨_, skip_event h.oracle h.linked h.state h.quitted (u := u) (by rw [← hu0]; exact e)
    (by rw [hu, hu0]; exact h.oracle) (by rw [ku, k0]) (by rw [ku, k0]; exact h.sentEom), ?_, ?_, ?_, ?_, ?_⟩
  · refine ⟨by rw [hu, hu0]; exact h.oracle, by rw [withCtx_kid, ku, hu0]; show ((withCtx s i _).kids i).linked = true; rw [withCtx_kid]; exact h.linked,
      by rw [hu, hu0]; exact h.known, ?_, ?_, ?_, ?_, ?_, by rw [hu, hu0]; exact h.waiting, by rw [hu, hu0]; exact hst,
      by rw [hu, hu0]; exact hq, hq', by rw [hu, hu0]; exact hb, by rw [hu, hu0]; exact ht⟩
    all_goals rw [withCtx_ctx, ku, k0]
    · exact h.message
    · exact h.quitted
    · exact h.idle
  · rw [hu, hu0]
    show commands ((s.out ++ [_]) ++ [_]) = _
    rw [commands_append, commands_append]
    simp [commands]
  · rw [hu, hu0]
    show told ((s.out ++ [_]) ++ [_]) = _
    rw [told_append, told_append]
    simp [told]
  · rw [hu, hu0]; rfl
  · intro j hj
    rw [withCtx_other _ _ _ _ hj, ku, hu0]
    exact withCtx_other _ _ _ _ hj

/-- a further piece -/
theorem skipping_piece {n i : Nat} {s : Sys} {rest : List Nat} {q : List St} {b : Bytes} (h : Skipping s i rest q b)
    (chunk : Bytes) :
    ∃ s', next (n + 1) s (.body chunk) [] = some s' ∧ Skipping s' i rest q (b ++ chunk) ∧
      commands s'.out = commands s.out ∧ told s'.out = told s.out ++ [.reply .cont] ∧
      ∀ j, j ≠ i → s'.kids j = s.kids j := by
  obtain ⟨x, f, hx⟩ : ∃ x f, bodyWritten s chunk = { s with body := x, bodyFile := f } := by
    unfold bodyWritten
    split
    · exact ⟨_, _, rfl⟩
    · dsimp only
      split <;> exact ⟨_, _, rfl⟩
  have hwr : stored (bodyWritten s chunk) = stored s ++ chunk := stored_written h.tail
  have hwt := tail_written (s := s) (b := chunk) h.tail
  obtain ⟨v, hv⟩ : ∃ v : Sys, v = { bodyWritten s chunk with
    state := .body, processingState := .body, replacedForEach := false, sendingBody := false } := ⟨_, rfl⟩
  have kv : v.kids = s.kids := by rw [hv, hx]
  obtain ⟨w, hw⟩ : ∃ w, w = withCtx v i (Server.setState (s.kids i).ctx .body) := ⟨_, rfl⟩
  have kw : (w.kids i).ctx = Server.setState (s.kids i).ctx .body := by rw [hw]; exact withCtx_ctx _ _ _
  have lw : (w.kids i).linked = true := by rw [hw, withCtx_kid, kv]; exact h.linked
  obtain ⟨z, hz⟩ : ∃ z, z = logged (voted (logged w (.heard i (.reply .cont))) .body .continue_) (.emit (.reply .cont)) := ⟨_, rfl⟩
  have ez : cbContinue (dispatch n) i (logged w (.heard i (.reply .cont))) = some ((), z) := by
    show (compile (w.kids i).ctx.state .continue_ >>= fun _ => afterContinue (dispatch n) i (w.kids i).ctx.state) _ = _
    rw [compile_eq, show (w.kids i).ctx.state = .body by rw [kw]; rfl]
    unfold afterContinue
    dsimp only
    rw [get_bind]
    obtain ⟨y, hy⟩ : ∃ y, y = voted (logged w (.heard i (.reply .cont))) .body .continue_ := ⟨_, rfl⟩
    rw [← hy]
    have y1 : y.state = .body := by rw [hy, hw, hv]; rfl
    have y2 : y.sendingBody = false := by rw [hy, hw, hv]; rfl
    have y3 : y.commandQueue = q ++ [.body] := by rw [hy, hw, hv, hx]; exact h.queue
    rw [y1, if_neg (by decide), y2]
    simp only [Bool.false_eq_true, if_false]
    rw [pure_bind', if_pos rfl]
    have en : sendNextCommand (dispatch n) i .body y = some (.notChange, y) := by
      unfold sendNextCommand
      rw [get_bind, y3]
      have : ∀ q : List St, St.body ∉ q → nextIn (stateCommand .body) (q ++ [.body]) = none := by
        intro q
        induction q with
        | nil => intro _; rfl
        | cons a t ih =>
          intro ha
          simp only [List.mem_cons, not_or] at ha
          show (if some a = some St.body then _ else _) = _
          rw [if_neg (by simpa using Ne.symm ha.1)]
          exact ih ha.2
      rw [this q h.earlier.1]
      rfl
    rw [bind_eq en, hz, ← hy]
    rfl
  have hcall : body (dispatch (n + 1)) chunk s = some (true, z) := by
    unfold body
    rw [bind_eq (processing_eq h.known h.message h.quitted)]
    simp only [Bool.not_true, Bool.false_eq_true, if_false]
    rw [get_bind, bind_eq (emulation_eq (by rw [h.state]; decide))]
    simp only [Bool.false_eq_true, if_false]
    rw [bind_eq (waiting_eq (i := i) (rest := rest) (Or.inl h.waiting))]
    have es : ({ s with
        commandQueue := if St.body ∈ s.commandQueue then s.commandQueue else s.commandQueue ++ [.body]
        waitingQueue := i :: rest } : Sys) = s := by
      rw [if_pos (by rw [h.queue]; simp), ← h.waiting]
    rw [es, get_bind, h.waiting]
    dsimp only
    rw [modify_bind, modify_bind, ← hv, get_bind, kv, if_pos h.skip]
    have em : modifyCtx i (fun c => Server.setState c .body) v = some ((), w) := by
      rw [hw, ← kv]; rfl
    rw [bind_eq em]
    have es : dispatch (n + 1) (.signal i (.reply .cont)) w = some ((), z) := by
      rw [signal_reply lw]; exact ez
    rw [bind_eq es]
    rfl
  have kz : z.kids = w.kids := by rw [hz]; rfl
  refine ⟨z, next_eq h.oracle ?_, ?_, ?_, ?_, ?_⟩
  · show (command (dispatch (n + 1)) (.body chunk) >>= fun _ => pure ()) s = _
    show (body (dispatch (n + 1)) chunk >>= fun _ => pure ()) s = _
    rw [bind_eq hcall]; rfl
  · refine ⟨by rw [hz, hw, hv, hx]; exact h.oracle, by rw [kz]; exact lw, by rw [hz, hw, hv, hx]; exact h.known,
      ?_, ?_, ?_, ?_, ?_, by rw [hz, hw, hv, hx]; exact h.waiting, by rw [hz, hw, hv]; rfl,
      by rw [hz, hw, hv, hx]; exact h.queue, h.earlier, ?_, by rw [hz, hw, hv]; exact hwt⟩
    · rw [kz, kw]; exact h.message
    · rw [kz, kw]; exact h.quitted
    · rw [kz, kw]; exact h.idle
    · rw [kz, kw]; exact h.timer
    · rw [kz, kw]; exact h.skip
    · rw [hz, hw, hv]
      show stored (bodyWritten s chunk) = _
      rw [hwr, h.stored]
  · rw [hz, hw, hv, hx]
    show commands ((s.out ++ [_]) ++ [_]) = _
    rw [commands_append, commands_append]
    simp [commands]
  · rw [hz, hw, hv, hx]
    show told ((s.out ++ [_]) ++ [_]) = _
    rw [told_append, told_append]
    simp [told]
  · intro j hj
    rw [kz, hw, withCtx_other _ _ _ _ hj, kv]

theorem end_command {c : Server.State} (b : Bytes) (hn : c.nextStates = []) (ht : c.timer = none) :
    Server.command c (.endOfMessage b) false true =
      ({ Server.ensureResult c (Server.Result.told (.endOfMessage b)) with timer := some .writing, nextStates := [.endOfMessage] },
        [.wrote (.endOfMessage b), .ret true]) := by
  simp [Server.command, Server.ensureResult, Server.returning, Server.writePacket, Server.isProcessing, ht,
    Server.andThen, Server.go, Server.exec, hn]

/-- the end of the message -/
theorem skipping_end {n i : Nat} {s : Sys} {rest : List Nat} {q : List St} {b : Bytes} (h : Skipping s i rest q b)
    (chunk : Bytes) :
    ∃ s', next (n + 1) s (.endOfMessage chunk) [] = some s' ∧
      commands s'.out = commands s.out ++ [(i, .endOfMessage chunk)] ∧ told s'.out = told s.out ∧
      stored s' = b ∧ ∀ j, j ≠ i → s'.kids j = s.kids j := by
  obtain ⟨v, hv⟩ : ∃ v : Sys, v = { s with
    commandQueue := q ++ [.body] ++ [.endOfMessage], waitingQueue := i :: rest
    headerIndex := 0
    headers := some (s.headers.getD [])
    originalHeaders := some (s.originalHeaders.getD (s.headers.getD []))
    eomChunk := chunk
    bodyFile := s.bodyFile.map fun f => (f.1, 0)
    state := .endOfMessage
    processingState := .endOfMessage } := ⟨_, rfl⟩
  have kv : v.kids = s.kids := by rw [hv]
  obtain ⟨x, hx⟩ : ∃ x, x = { Server.ensureResult (s.kids i).ctx (Server.Result.told (.endOfMessage chunk)) with
    timer := some .writing, nextStates := [.endOfMessage] } := ⟨_, rfl⟩
  have ec : call (dispatch (n + 1)) i (.endOfMessage chunk) v =
      some (true, logged (withCtx v i x) (.sent i (.endOfMessage chunk))) := by
    refine call_eq (by rw [hv]; exact h.oracle) ?_
    rw [kv, hx]
    exact end_command chunk h.idle h.timer
  obtain ⟨z, hz⟩ : ∃ z, z = logged (withCtx v i x) (.sent i (.endOfMessage chunk)) := ⟨_, rfl⟩
  have hcall : endOfMessage (dispatch (n + 1)) chunk s = some (true, z) := by
    unfold endOfMessage
    rw [bind_eq (processing_eq h.known h.message h.quitted)]
    simp only [Bool.not_true, Bool.false_eq_true, if_false]
    rw [get_bind, bind_eq (emulation_eq (by rw [h.state]; decide))]
    simp only [Bool.false_eq_true, if_false]
    rw [bind_eq (waiting_eq (i := i) (rest := rest) (Or.inl h.waiting)), modify_bind]
    rw [if_neg (by rw [h.queue]; simp only [List.mem_append, List.mem_singleton, not_or]; exact ⟨h.earlier.2, by decide⟩), h.queue]
    dsimp only
    rw [← hv]
    unfold sendToFirst
    rw [get_bind, show v.waitingQueue = i :: rest by rw [hv]]
    dsimp only
    have es : sendCommand (dispatch (n + 1)) i .endOfMessage v = some (.progress, z) := by
      unfold sendCommand
      rw [get_bind]
      dsimp only
      rw [modify_bind, show ({ v with headerIndex := 0, processingState := .endOfMessage } : Sys) = v by rw [hv], get_bind,
        show v.eomChunk = chunk by rw [hv], bind_eq ec, hz]
      rfl
    rw [bind_eq es]
    rfl
  refine ⟨z, next_eq h.oracle ?_, ?_, ?_, ?_, ?_⟩
  · show (endOfMessage (dispatch (n + 1)) chunk >>= fun _ => pure ()) s = _
    rw [bind_eq hcall]; rfl
  · rw [hz]
    show commands (v.out ++ [_]) = _
    rw [commands_sent', hv]
  · rw [hz]
    show told (v.out ++ [_]) = _
    rw [told_sent', hv]
  · rw [hz]
    show stored v = _
    rw [← h.stored, hv]
    unfold stored
    cases s.body <;> cases s.bodyFile <;> rfl
  · intro j hj
    rw [hz]
    show (withCtx v i x).kids j = _
    rw [withCtx_other _ _ _ _ hj, kv]

/-- while the message is replayed to a milter behind the first -/
theorem skip_replay {n i : Nat} {s : Sys} {rest : List Nat} {q : List St} (h : HasPiece s i rest)
    (hst : s.state = .endOfMessage) (hq : s.commandQueue = q ++ [.body, .endOfMessage]) (hq' : St.body ∉ q) :
    ∃ s', next (n + 1) s (.reply i .skip) [] = some s' ∧
      commands s'.out = commands s.out ++ [(i, .endOfMessage s.eomChunk)] ∧ told s'.out = told s.out ∧
      s'.waitingQueue = s.waitingQueue ∧ s'.processingState = .endOfMessage ∧ stored s' = stored s ∧ s'.headers = s.headers ∧
      (s'.kids i).ctx.skipBody = true ∧ (s'.kids i).ctx.nextStates = [.endOfMessage] ∧
      ∀ j, j ≠ i → s'.kids j = s.kids j := by
  obtain ⟨u0, hu0⟩ : ∃ u0, u0 = logged (withCtx s i { (s.kids i).ctx with
      timer := none, stack := [.clearBody, .setSkip] :: (s.kids i).ctx.stack }) (.heard i (.reply .skip)) := ⟨_, rfl⟩
  have k0 : (u0.kids i).ctx = { (s.kids i).ctx with
      timer := none, stack := [.clearBody, .setSkip] :: (s.kids i).ctx.stack } := by
    rw [hu0]; exact withCtx_ctx _ _ _
  obtain ⟨v, hv⟩ : ∃ v : Sys, v = { voted u0 .body .skip with headerIndex := 0, processingState := .endOfMessage } := ⟨_, rfl⟩
  have kv : v.kids = u0.kids := by rw [hv]; rfl
  obtain ⟨x, hx⟩ : ∃ x, x = { Server.ensureResult (u0.kids i).ctx (Server.Result.told (.endOfMessage s.eomChunk)) with
    timer := some .writing, nextStates := [.endOfMessage] } := ⟨_, rfl⟩
  have vc : v.eomChunk = s.eomChunk := by rw [hv, hu0]; rfl
  have ec : call (dispatch n) i (.endOfMessage s.eomChunk) v =
      some (true, logged (withCtx v i x) (.sent i (.endOfMessage s.eomChunk))) := by
    refine call_eq (by rw [hv, hu0]; exact h.oracle) ?_
    rw [kv, hx]
    exact end_command _ (by rw [k0]; exact h.idle) (by rw [k0])
  obtain ⟨z, hz⟩ : ∃ z, z = logged (withCtx v i x) (.sent i (.endOfMessage s.eomChunk)) := ⟨_, rfl⟩
  have kz : (z.kids i).ctx = x := by rw [hz]; exact withCtx_ctx _ _ _
  have e : cbSkip (dispatch n) i u0 = some ((), z) := by
    show (compile (u0.kids i).ctx.state .skip >>= fun _ => afterSkip (dispatch n) i (u0.kids i).ctx.state) u0 = _
    rw [compile_eq, show (u0.kids i).ctx.state = .body by rw [k0]; exact h.state]
    unfold afterSkip
    rw [get_bind]
    rw [if_neg (by show ¬ u0.state.rank < _; rw [hu0]; show ¬ s.state.rank < _; rw [hst]; decide)]
    have en : sendNextCommand (dispatch n) i .body (voted u0 .body .skip) = some (.progress, z) := by
      unfold sendNextCommand
      rw [get_bind, show (voted u0 .body .skip).commandQueue = q ++ [.body, .endOfMessage] by rw [hu0]; exact hq]
      have : ∀ q : List St, St.body ∉ q → nextIn (stateCommand .body) (q ++ [.body, .endOfMessage]) = some .endOfMessage := by
        intro q
        induction q with
        | nil => intro _; rfl
        | cons a t ih =>
          intro ha
          simp only [List.mem_cons, not_or] at ha
          show (if some a = some St.body then _ else _) = _
          rw [if_neg (by simpa using Ne.symm ha.1)]
          exact ih ha.2
      rw [this q hq']
      dsimp only
      rw [if_neg (by decide)]
      unfold sendCommand
      show ((get : M Sys) >>= _) _ = _
      rw [get_bind]
      dsimp only
      rw [modify_bind, ← hv, get_bind, vc, bind_eq ec, hz]
      rfl
    rw [bind_eq en]
    rfl
  refine ⟨_, skip_event h.oracle h.linked h.state h.quitted (u := z) (by rw [← hu0]; exact e)
    (by rw [hz, hv, hu0]; exact h.oracle) (by rw [kz, hx]; show (u0.kids i).ctx.stack = _; rw [k0])
    (by rw [kz, hx]; show (u0.kids i).ctx.sentEom = _; rw [k0]; exact h.sentEom), ?_, ?_, ?_, ?_, ?_, ?_, ?_, ?_, ?_⟩
  · rw [hz]
    show commands (v.out ++ [_]) = _
    rw [commands_sent', hv, hu0]
    show commands (s.out ++ [_]) ++ _ = _
    rw [commands_append]
    simp [commands]
  · rw [hz]
    show told (v.out ++ [_]) = _
    rw [told_sent', hv, hu0]
    show told (s.out ++ [_]) = _
    rw [told_append]
    simp [told]
  · rw [hz, hv, hu0]; rfl
  · rw [hz, hv]; rfl
  · rw [hz, hv, hu0]; rfl
  · rw [hz, hv, hu0]; rfl
  · rw [withCtx_ctx]
  · rw [withCtx_ctx, kz, hx]
  · intro j hj
    rw [withCtx_other _ _ _ _ hj, hz]
    show (withCtx v i x).kids j = _
    rw [withCtx_other _ _ _ _ hj, kv, hu0]
    exact withCtx_other _ _ _ _ hj

end Verif.Children
