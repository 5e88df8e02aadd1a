import Verif.Manager.ChildrenPhaseEvents
/-
Commands that go to all milters at once: answers, disconnections, and the whole conversation.
-/
namespace Verif.Children
namespace Phase
open Verif
open Verif.Server (St)
open Verif.Spec.Children
open Verif.Spec.Phase

/-- the rest of `cb_temporary_failure`, `cb_reject` and `cb_discard` -/
def afterRefuse (d : Dispatch) (i : Nat) (st : St) : M Unit :=
  match st with
  | .envelopeFrom | .data => do notProcessing i; removeFromQueue d i
  | .envelopeRecipient => removeFromQueue d i
  | .header | .endOfHeader | .body | .endOfMessage => do
    notProcessing i
    emitReplyForMessage st
    abortAll d
  | _ => do let _ ← call d i .quit

theorem refuse_eq (d : Dispatch) (i : Nat) (v : Status) (u : Sys) :
    cbRefuse d i v u = afterRefuse d i (u.kids i).ctx.state
      (voted u (u.kids i).ctx.state (if (u.kids i).evaluation then .accept else v)) := by
  rfl

/-- the rest of `cb_accept` -/
def afterAccept (d : Dispatch) (i : Nat) (st : St) : M Unit :=
  match st with
  | .envelopeFrom | .data | .envelopeRecipient => do notProcessing i; removeFromQueue d i
  | .header | .endOfHeader | .body | .endOfMessage => do notProcessing i; sendFirstToNext d i
  | _ => do let _ ← call d i .quit

theorem accept_eq (d : Dispatch) (i : Nat) (u : Sys) :
    cbAccept d i u = afterAccept d i (u.kids i).ctx.state (voted u (u.kids i).ctx.state .accept) := rfl

theorem continue_eq (d : Dispatch) (i : Nat) (u : Sys) :
    cbContinue d i u = afterContinue d i (u.kids i).ctx.state (voted u (u.kids i).ctx.state .continue_) := rfl

/-- the vote is counted -/
def balloted (u : Sys) (i : Nat) (st : St) (v : Status) (r : Reply) : Sys :=
  { voted u st (counts (u.kids i) v) with code := (codeOf r).or u.code }

/-- the message is of no further interest to the milter -/
def uninterested (w : Sys) (i : Nat) : Sys := withCtx w i { (w.kids i).ctx with processingMessage := false }

theorem handle_eq {d : Dispatch} {i : Nat} {r : Reply} {st : St} {v : Status} {u : Sys} (hs : (u.kids i).ctx.state = st)
    (hst : Parallel st) (hr : decisionOf r = some v) :
    handle d i (.reply r) u =
      if parts st v then (do let _ ← call d i .quit : M Unit) (balloted u i st v r)
      else if placeAfter st v = .answered then removeFromQueue d i (balloted u i st v r)
      else removeFromQueue d i (uninterested (balloted u i st v r) i) := by
  have key : ∀ (w : Status) (x : Sys), refuses w = true →
      afterRefuse d i st x = if parts st w then (do let _ ← call d i .quit : M Unit) x
        else if placeAfter st w = .answered then removeFromQueue d i x
        else removeFromQueue d i (uninterested x i) := by
    intro w x hw
    unfold Parallel inMsg at hst
    rcases hst with rfl | rfl | rfl | rfl | rfl | rfl <;> cases w <;> first | (cases hw; done) | rfl
  cases r <;> simp only [decisionOf, Option.some.injEq, reduceCtorEq] at hr <;> subst hr
  case cont =>
    show cbContinue d i u = _
    rw [continue_eq, hs]
    unfold Parallel inMsg at hst
    have hc : counts (u.kids i) .continue_ = .continue_ := by simp [counts, refuses]
    have hb : balloted u i st .continue_ .cont = voted u st .continue_ := by
      unfold balloted; rw [hc]; rfl
    rw [hb]
    rcases hst with rfl | rfl | rfl | rfl | rfl | rfl <;> rfl
  case accept =>
    show cbAccept d i u = _
    rw [accept_eq, hs]
    unfold Parallel inMsg at hst
    have hc : counts (u.kids i) .accept = .accept := by simp [counts]
    have hb : balloted u i st .accept .accept = voted u st .accept := by
      unfold balloted; rw [hc]; rfl
    rw [hb]
    rcases hst with rfl | rfl | rfl | rfl | rfl | rfl <;> rfl
  case reject =>
    show cbRefuse d i .reject u = _
    rw [refuse_eq, hs, key .reject _ rfl]
    have hb : balloted u i st .reject .reject = voted u st (if (u.kids i).evaluation then .accept else .reject) := by
      unfold balloted counts; simp only [refuses, and_true]; rfl
    rw [hb]
  case temporaryFailure =>
    show cbRefuse d i .temporaryFailure u = _
    rw [refuse_eq, hs, key .temporaryFailure _ rfl]
    have hb : balloted u i st .temporaryFailure .temporaryFailure =
        voted u st (if (u.kids i).evaluation then .accept else .temporaryFailure) := by
      unfold balloted counts; simp only [refuses, and_true]; rfl
    rw [hb]
  case discard =>
    show cbRefuse d i .discard u = _
    rw [refuse_eq, hs, key .discard _ rfl]
    have hb : balloted u i st .discard .discard = voted u st (if (u.kids i).evaluation then .accept else .discard) := by
      unfold balloted counts; simp only [refuses, and_true]; rfl
    rw [hb]
  case replyCode code x m =>
    show cbReplyCode d i code x m u = _
    unfold cbReplyCode
    rw [modify_bind, refuse_eq]
    show afterRefuse d i (u.kids i).ctx.state _ = _
    rw [hs]
    have href : refuses (if code / 100 = 4 then Status.temporaryFailure else .reject) = true := by split <;> rfl
    rw [key _ _ href]
    have hb : balloted u i st (if code / 100 = 4 then Status.temporaryFailure else .reject) (.replyCode code x m) =
        voted { u with code := some (code, x, m) } st
          (if (u.kids i).evaluation then .accept else (if code / 100 = 4 then Status.temporaryFailure else .reject)) := by
      unfold balloted counts; rw [href]; simp only [and_true]; rfl
    rw [hb]

section
variable {held : Option Pending} {s u x : Sys} {base : List (Nat × Cmd)} {who : List Nat} {st : St} {t t' : Talk} {i : Nat}

theorem proper_counts {k : Kid} {r : Reply} {v : Status} (hr : decisionOf r = some v) : Proper (counts k v) := by
  unfold counts Proper
  split
  · simp
  · cases r <;> simp only [decisionOf, Option.some.injEq, reduceCtorEq] at hr <;> subst hr
    case replyCode code x m => split <;> simp
    all_goals simp

/-- milter `i` has answered; `y` is the state when the answer is handled -/
theorem spoke {d : Dispatch} {r : Reply} {v : Status} {y : Sys} (h : Inv s base who st t u held) (hi : i ∈ who)
    (hp : (t.pos i).isOpen = true) (hn : Near u y i) (hk : Kept (s.kids i) (y.kids i)) (hl : (y.kids i).linked = true)
    (hs : Spoke (y.kids i).ctx st) (hr : decisionOf r = some v)
    (hacc : st = .data → Server.hasAcceptedRecipient (u.kids i).ctx = true → Server.hasAcceptedRecipient (y.kids i).ctx = true)
    {Q : Sys → Prop} (hQ : Reach held s base who st { (t.put i (placeAfter st v)).vote (counts (s.kids i) v) with
        code := (codeOf r).or t.code
        dismissed := if parts st v then t.dismissed ++ [i] else t.dismissed } Q) :
    ∃ u', handle d i (.reply r) y = some ((), u') ∧ Q u' ∧
      (u'.kids i).ctx.stack = (y.kids i).ctx.stack ∧ (u'.kids i).ctx.state = st ∧ (u'.kids i).tryRetry = none := by
  have hopen := h.isOpen hi hp
  obtain ⟨hu, hf⟩ := h.undecided hopen
  obtain ⟨t', ht'⟩ : ∃ t' : Talk, t' = { (t.put i (placeAfter st v)).vote (counts (s.kids i) v) with
        code := (codeOf r).or t.code
        dismissed := if parts st v then t.dismissed ++ [i] else t.dismissed } := ⟨_, rfl⟩
  have hpos : t'.pos = (t.put i (placeAfter st v)).pos := by rw [ht']; rfl
  have hvt : t'.votes = t.votes ++ [counts (s.kids i) v] := by rw [ht']; rfl
  rw [← ht'] at hQ
  rw [handle_eq hs.state h.core.parallel hr]
  obtain ⟨w, hw⟩ : ∃ w, w = balloted y i st v r := ⟨_, rfl⟩
  have wk : w.kids = y.kids := by rw [hw]; rfl
  have hcnt : counts (y.kids i) v = counts (s.kids i) v := by unfold counts; rw [hk.evaluation]
  have wstat : w.statuses st = worst t' := by
    rw [worst_vote t _ t' hvt, ← hu.status, ← hn.statuses, hw, ← hcnt]
    simp [balloted, voted, setStatusOf]
  have wcode : w.code = t'.code := by
    rw [hw, ht']
    show (codeOf r).or y.code = (codeOf r).or t.code
    rw [hn.code, hu.code]
  have wfields : w.count = u.count ∧ w.oracle = u.oracle ∧ w.processingState = u.processingState ∧ w.pending = u.pending ∧
      told w.out = told u.out ∧ commands w.out = commands u.out ∧ w.replyQueue = u.replyQueue ∧ Frame u w ∧ w.state = u.state := by
    rw [hw]; exact ⟨hn.count, hn.oracle, hn.state, hn.pending, hn.told, hn.sent, hn.queue, hn.frame, hn.current⟩
  obtain ⟨w1, w2, w3, w4, w5, w6, w7, w8, w9⟩ := wfields
  have hvotes : ∀ v' ∈ t'.votes, Proper v' := by
    intro v' hv'
    rw [hvt] at hv'
    rcases List.mem_append.mp hv' with hv' | hv'
    · exact h.core.proper v' hv'
    · rw [List.mem_singleton.mp hv']; exact proper_counts hr
  have hne : t'.votes ≠ [] := by rw [hvt]; simp
  rw [← hw]
  by_cases hpt : parts st v = true
  · rw [if_pos hpt]
    have hplace : placeAfter st v = .leaving := by simp [placeAfter, hpt]
    rw [hplace] at hpos
    have hdis : t'.dismissed = t.dismissed ++ [i] := by rw [ht']; simp [hpt]
    have hq := call_eq (d := d) (i := i) (s := w) (w2.trans h.core.oracle) (quit_written (w.kids i).ctx)
    obtain ⟨u', hu'⟩ : ∃ u', u' = logged (withCtx w i { (w.kids i).ctx with
      quitted := true, nextStates := (w.kids i).ctx.nextStates ++ [.quit] }) (.sent i .quit) := ⟨_, rfl⟩
    have k' : u'.kids i = { (y.kids i) with ctx := { (y.kids i).ctx with
        quitted := true, nextStates := (y.kids i).ctx.nextStates ++ [.quit] } } := by
      rw [hu']
      show (withCtx w i _).kids i = _
      rw [withCtx_kid, wk]
    refine ⟨u', ?_, ?_, ?_, ?_, ?_⟩
    · rw [hu', bind_eq hq]; rfl
    · refine hQ.still (List.any_eq_true.mpr ⟨i, hi, by rw [hpos]; simp [Talk.put, Pos.isOpen]⟩)
        (update_inv (p := .leaving) h hopen hpos (by rw [hp]; rfl) (by rw [hu']; exact w7) ?_)
      refine update h hi hopen hpos ?_ ?_ ?_ (fun h => nomatch h) (fun h => nomatch h) (by rw [hu']; exact w8) (by rw [hu']; exact w9) (by rw [hu']; exact w1) (by rw [hu']; exact w2)
        (by rw [hu']; exact w3) (by rw [hu']; exact w4) (by rw [hu']; exact wstat) (by rw [hu']; exact wcode) ?_ ?_ hvotes
        (fun _ => hne) (fun _ => hne) (fun hd h => by rw [k']; exact hacc hd h)
      · intro j hj
        rw [hu']
        show (withCtx w i _).kids j = _
        rw [withCtx_other _ _ _ _ hj, wk]
        exact hn.kids j hj
      · rw [k']; exact ⟨hk.fallback, hk.evaluation, hk.option, hk.retry, hk.body⟩
      · rw [k']
        exact ⟨hl, .inl (by show (y.kids i).ctx.nextStates ++ _ = _; rw [hs.nextStates]; rfl), hs.timer⟩
      · rw [hu']; exact (told_sent _ _ _).trans w5
      · rw [hu']
        show commands (w.out ++ _) = _
        rw [commands_sent, w6, hu.sent, hdis]
        simp
    · rw [k']
    · rw [k']; exact hs.state
    · rw [k']; exact hk.retry
  · rw [if_neg hpt]
    have hdis : t'.dismissed = t.dismissed := by rw [ht']; simp [hpt]
    by_cases hpl : placeAfter st v = .answered
    · rw [if_pos hpl]
      rw [hpl] at hpos
      obtain ⟨u', h1, h2, h3⟩ := update_remove (d := d) (x := w) (p := .answered) h hpos rfl w7
        (update h hi hopen hpos (fun j hj => by rw [wk]; exact hn.kids j hj) (by rw [wk]; exact hk)
          (by rw [wk]; exact hs.timer)
          (fun _ => by rw [wk]; exact ⟨hl, hs.state, hs.nextStates, hs.quitted, hs.negotiated, fun _ => hs.following, fun h => nomatch h⟩)
          (fun h => nomatch h) w8 w9 w1 w2 w3 w4 wstat wcode w5 (by rw [w6, hu.sent, hdis]) hvotes (fun _ => hne) (fun _ => hne)
          (fun hd h => by rw [wk]; exact hacc hd h)) hQ
      refine ⟨u', h1, h2, ?_, ?_, ?_⟩
      · rw [(h3 i).stack, wk]
      · rw [(h3 i).state, wk]; exact hs.state
      · rw [(h3 i).retry, wk]; exact hk.retry
    · rw [if_neg hpl]
      have hplace : placeAfter st v = .settled := by
        unfold placeAfter at hpl ⊢
        rw [if_neg hpt] at hpl ⊢
        split
        · rename_i h; rw [if_pos h] at hpl; exact absurd rfl hpl
        · rfl
      rw [hplace] at hpos
      obtain ⟨z, hz⟩ : ∃ z, z = uninterested w i := ⟨_, rfl⟩
      have kz : z.kids i = { (y.kids i) with ctx := { (y.kids i).ctx with processingMessage := false } } := by
        rw [hz]; unfold uninterested; rw [withCtx_kid, wk]
      obtain ⟨u', h1, h2, h3⟩ := update_remove (d := d) (x := z) (p := .settled) h hpos rfl (by rw [hz]; exact w7)
        (update h hi hopen hpos (fun j hj => by
            rw [hz]; unfold uninterested; rw [withCtx_other _ _ _ _ hj, wk]; exact hn.kids j hj)
          (by rw [kz]; exact ⟨hk.fallback, hk.evaluation, hk.option, hk.retry, hk.body⟩)
          (by rw [kz]; exact hs.timer)
          (fun _ => by rw [kz]; exact ⟨hl, hs.state, hs.nextStates, hs.quitted, hs.negotiated, (fun h => nomatch h), fun _ => rfl⟩)
          (fun h => nomatch h) (by rw [hz]; exact w8) (by rw [hz]; exact w9) (by rw [hz]; exact w1) (by rw [hz]; exact w2) (by rw [hz]; exact w3) (by rw [hz]; exact w4)
          (by rw [hz]; exact wstat) (by rw [hz]; exact wcode) (by rw [hz]; exact w5)
          (by rw [hz]; show commands w.out = _; rw [w6, hu.sent, hdis]) hvotes (fun _ => hne) (fun _ => hne)
          (fun hd h => by rw [kz]; exact hacc hd h)) hQ
      rw [← hz]
      refine ⟨u', h1, h2, ?_, ?_, ?_⟩
      · rw [(h3 i).stack, kz]
      · rw [(h3 i).state, kz]; exact hs.state
      · rw [(h3 i).retry, kz]; exact hk.retry

theorem event_reply {n : Nat} {r : Reply} {v : Status} (h : Inv s base who st t u held) (hp : t.pos i = .asked)
    (hr : decisionOf r = some v)
    {Q : Sys → Prop} (hQ : Reach held s base who st { (t.put i (placeAfter st v)).vote (counts (s.kids i) v) with
        code := (codeOf r).or t.code
        dismissed := if parts st v then t.dismissed ++ [i] else t.dismissed } Q) :
    ∃ u', next (n + 2) u (.reply i r) [] = some u' ∧ Q u' := by
  have hi := in_who (i := i) h (by rw [hp]; exact fun h => nomatch h)
  have hat := h.core.at' i hi
  rw [hp] at hat
  have hk := h.core.kept i hi
  obtain ⟨c', f, h1, h2, h3, h4, h5, h50, h51⟩ := reply_spoke hat.2 h.core.parallel hr
  obtain ⟨u1, hu1⟩ : ∃ u1, u1 = withCtx u i { c' with stack := f :: c'.stack } := ⟨_, rfl⟩
  have k1 : u1.kids i = { (u.kids i) with ctx := { c' with stack := f :: c'.stack } } := by
    rw [hu1, withCtx_kid]
  have n1 : Near u (logged u1 (.heard i (.reply r))) i := by
    rw [hu1]; exact (near_ctx _ _ _).trans (near_heard _ _ _)
  obtain ⟨u2, h6, h7, h8, h9, h10⟩ := spoke (d := dispatch (n + 1)) (y := logged u1 (.heard i (.reply r))) h hi (by rw [hp]; rfl) n1
    (by show Kept _ (u1.kids i); rw [k1]; exact ⟨hk.fallback, hk.evaluation, h5.trans hk.option, hk.retry, fun x => h50 (hk.body x)⟩)
    (by show (u1.kids i).linked = true; rw [k1]; exact hat.1)
    (by
      show Spoke (u1.kids i).ctx st
      rw [k1]; exact ⟨h2.state, h2.nextStates, h2.timer, h2.quitted, h2.negotiated, h2.following⟩) hr
    (fun hd h => by
      show Server.hasAcceptedRecipient (u1.kids i).ctx = true
      rw [k1]; exact same_result h (h51 (by rw [hd]; exact fun h => nomatch h))) hQ
  obtain ⟨u3, h11, h12⟩ := resume_frame (n := n) (i := i) (u := u2) (f := f) (stack := c'.stack) (hQ.oracle h7)
    (by rw [h8]; show (u1.kids i).ctx.stack = _; rw [k1]) h3 (by rw [h9]; exact (parallel_ne h.core.parallel).1) h10
  refine ⟨u3, next_eq h.core.oracle ?_, hQ.hush h7 h12⟩
  rw [reply_step h.core.oracle]
  have : stepCtx (dispatch (n + 2)) i (.reply r true) u = some (true, u3) := by
    rw [stepCtx_eq]
    simp only [Server.step, h1]
    rw [← hu1]
    refine drive_emit (s1 := u2) ?_ h11
    rw [signal_handled (by rw [k1]; exact hat.1) (by rw [k1]; exact hk.retry)]
    exact h6
  rw [bind_eq this]
  rfl

/-! ## Disconnections -/

theorem finished_step {n : Nat} (ho : u.oracle = []) :
    next (n + 1) u (.finished i) [] = ((if (u.kids i).linked then cbFinished (dispatch n) i else pure ()) u).map (·.2) := by
  have : ({ u with oracle := [] } : Sys) = u := by cases u; simp only at ho; rw [ho]
  unfold next
  rw [this]
  rfl

theorem finished_lost {n : Nat} (h : Inv s base who st t u held) (hp : t.pos i = .lost) :
    next (n + 1) u (.finished i) [] = some u := by
  have hi := in_who (i := i) h (by rw [hp]; exact fun h => nomatch h)
  have hat := h.core.at' i hi
  rw [hp] at hat
  rw [finished_step h.core.oracle, show (u.kids i).linked = false from hat.1]
  rfl

/-- the rest of `cb_finished` -/
def afterFinished (d : Dispatch) (i : Nat) : M Unit := do
  expire i
  let s ← get
  match s.processingState with
  | .negotiate => removeInNegotiate i
  | .header | .endOfHeader | .body | .endOfMessage =>
    if s.emittedReply = false ∧ isProcessing s i = true then sendFirstToNext d i
  | _ => removeFromQueue d i

theorem afterFinished_eq {d : Dispatch} (hs : u.processingState = st) (hst : Parallel st) :
    afterFinished d i u = removeFromQueue d i { u with kids := updKid u.kids i (expired' (u.kids i)) } := by
  unfold afterFinished
  rw [bind_eq (expire_eq _ _), get_bind]
  dsimp only
  rw [hs]
  unfold Parallel inMsg at hst
  rcases hst with rfl | rfl | rfl | rfl | rfl | rfl <;> rfl

theorem cbFinished_idle {d : Dispatch} (h : (u.kids i).ctx.timer = none) : cbFinished d i u = afterFinished d i u := by
  unfold cbFinished
  rw [get_bind]
  simp only [Server.isProcessing, h, Option.isSome_none, Bool.false_eq_true, if_false]
  rfl

theorem cbFinished_busy {d : Dispatch} (h : (u.kids i).ctx.timer.isSome = true) :
    cbFinished d i u = afterFinished d i
      (voted (withCtx u i { (u.kids i).ctx with status := (u.kids i).fallback }) (u.kids i).ctx.state (u.kids i).fallback) := by
  unfold cbFinished
  rw [get_bind]
  simp only [Server.isProcessing, h, if_true]
  rfl

/-- a milter whose vote is counted disconnects -/
theorem finished_away {n : Nat} (h : Inv s base who st t u held) (hp : t.pos i = .leaving ∨ t.pos i = .left)
    {Q : Sys → Prop} (hQ : Reach held s base who st (t.put i .lost) Q) :
    ∃ u', next (n + 1) u (.finished i) [] = some u' ∧ Q u' := by
  have hi := in_who (i := i) h (by rcases hp with hp | hp <;> rw [hp] <;> exact fun h => nomatch h)
  have hop : (t.pos i).isOpen = true := by rcases hp with hp | hp <;> rw [hp] <;> rfl
  have hopen := h.isOpen hi hop
  obtain ⟨hu, hf⟩ := h.undecided hopen
  have hat := h.core.at' i hi
  have hk := h.core.kept i hi
  have hl : (u.kids i).linked = true ∧ (u.kids i).ctx.timer = none := by
    rcases hp with hp | hp <;> rw [hp] at hat
    · exact ⟨hat.1, hat.2.2⟩
    · exact hat
  obtain ⟨z, hz⟩ : ∃ z : Sys, z = { u with kids := updKid u.kids i (expired' (u.kids i)) } := ⟨_, rfl⟩
  have kz : z.kids i = expired' (u.kids i) := by rw [hz]; simp [updKid]
  obtain ⟨u', h1, h2, h3⟩ := update_remove (d := dispatch n) (x := z) (t' := t.put i .lost) (p := .lost) h rfl rfl (by rw [hz])
    (update h hi hopen rfl (fun j hj => by rw [hz]; simp [updKid, hj])
      (by rw [kz]; exact ⟨hk.fallback, hk.evaluation, hk.option, hk.retry, hk.body⟩) (by rw [kz]; exact ⟨rfl, rfl⟩) (fun h => nomatch h)
      (fun h => nomatch h) (by rw [hz]; exact .refl u) (by rw [hz]) (by rw [hz]) (by rw [hz]) (by rw [hz]) (by rw [hz]) (by rw [hz]; exact hu.status)
      (by rw [hz]; exact hu.code) (by rw [hz]) (by rw [hz]; exact hu.sent) h.core.proper
      (fun _ => h.core.spoken i hi (by rcases hp with hp | hp <;> rw [hp] <;> rfl)) id (fun _ h => by rw [kz]; exact h)) hQ
  refine ⟨u', ?_, h2⟩
  rw [finished_step h.core.oracle, if_pos hl.1, cbFinished_idle hl.2, afterFinished_eq hu.state h.core.parallel, ← hz, h1]
  rfl

/-- a milter disconnects instead of answering -/
theorem finished_asked {n : Nat} (h : Inv s base who st t u held) (hp : t.pos i = .asked)
    {Q : Sys → Prop} (hQ : Reach held s base who st ((t.put i .lost).vote (s.kids i).fallback) Q) :
    ∃ u', next (n + 1) u (.finished i) [] = some u' ∧ Q u' := by
  have hi := in_who (i := i) h (by rw [hp]; exact fun h => nomatch h)
  have hop : (t.pos i).isOpen = true := by rw [hp]; rfl
  have hopen := h.isOpen hi hop
  obtain ⟨hu, hf⟩ := h.undecided hopen
  have hat := h.core.at' i hi
  rw [hp] at hat
  have hk := h.core.kept i hi
  obtain ⟨y, hy⟩ : ∃ y, y = voted (withCtx u i { (u.kids i).ctx with status := (u.kids i).fallback }) (u.kids i).ctx.state
    (u.kids i).fallback := ⟨_, rfl⟩
  have ky : y.kids i = { (u.kids i) with ctx := { (u.kids i).ctx with status := (u.kids i).fallback } } := by
    rw [hy]; exact withCtx_kid _ _ _
  obtain ⟨z, hz⟩ : ∃ z : Sys, z = { y with kids := updKid y.kids i (expired' (y.kids i)) } := ⟨_, rfl⟩
  have kz : z.kids i = expired' (y.kids i) := by rw [hz]; simp [updKid]
  obtain ⟨u', h1, h2, h3⟩ := update_remove (d := dispatch n) (x := z) (t' := (t.put i .lost).vote (s.kids i).fallback) (p := .lost) h rfl
    rfl (by rw [hz, hy]; rfl)
    (update h hi hopen rfl (fun j hj => by
        rw [hz]; simp only [updKid, hj, if_false]; rw [hy]; exact withCtx_other _ _ _ _ hj)
      (by rw [kz, ky]; exact ⟨hk.fallback, hk.evaluation, hk.option, hk.retry, hk.body⟩) (by rw [kz]; exact ⟨rfl, rfl⟩) (fun h => nomatch h)
      (fun h => nomatch h) (by rw [hz, hy]; exact .refl u) (by rw [hz, hy]; rfl) (by rw [hz, hy]; rfl) (by rw [hz, hy]; rfl) (by rw [hz, hy]; rfl) (by rw [hz, hy]; rfl)
      (by
        rw [worst_vote t (s.kids i).fallback _ rfl, ← hu.status, ← hk.fallback, hz, hy, hat.2.state]
        simp [voted, setStatusOf, withCtx])
      (by rw [hz, hy]; exact hu.code) (by rw [hz, hy]; rfl) (by rw [hz, hy]; exact hu.sent)
      (fun v hv => by
        rcases List.mem_append.mp hv with hv | hv
        · exact h.core.proper v hv
        · rw [List.mem_singleton.mp hv]; exact h.core.fallbacks i hi)
      (fun _ => by simp [Talk.vote]) (fun _ => by simp [Talk.vote]) (fun _ h => by rw [kz, ky]; exact h)) hQ
  refine ⟨u', ?_, h2⟩
  rw [finished_step h.core.oracle, if_pos hat.1, cbFinished_busy (by rw [hat.2.timer]; rfl), ← hy,
    afterFinished_eq (st := st) (by rw [hy]; exact hu.state) h.core.parallel, ← hz, h1]
  rfl

/-- a milter that has answered disconnects while others are still being waited for -/
theorem finished_idle {n : Nat} (h : Inv s base who st t u held) (hopen : t.isOpen who = true)
    (hp : t.pos i = .answered ∨ t.pos i = .settled)
    {Q : Sys → Prop} (hQ : Reach held s base who st (t.put i .lost) Q) :
    ∃ u', next (n + 1) u (.finished i) [] = some u' ∧ Q u' := by
  have hi := in_who (i := i) h (by rcases hp with hp | hp <;> rw [hp] <;> exact fun h => nomatch h)
  have hop : (t.pos i).isOpen = false := by rcases hp with hp | hp <;> rw [hp] <;> rfl
  obtain ⟨hu, hf⟩ := h.undecided hopen
  have hat := h.core.at' i hi
  have hk := h.core.kept i hi
  have ht : (u.kids i).ctx.timer = none := by
    rcases hp with hp | hp <;> rw [hp] at hat <;> exact hat
  cases hl : (u.kids i).linked with
  | false =>
    have := (hf i hi (by rcases hp with hp | hp <;> rw [hp] <;> rfl)).linked
    rw [hl] at this
    cases this
  | true =>
    obtain ⟨z, hz⟩ : ∃ z : Sys, z = { u with kids := updKid u.kids i (expired' (u.kids i)) } := ⟨_, rfl⟩
    have kz : z.kids i = expired' (u.kids i) := by rw [hz]; simp [updKid]
    have hx := update (x := z) (t' := t.put i .lost) (p := .lost) h hi hopen rfl (fun j hj => by rw [hz]; simp [updKid, hj])
      (by rw [kz]; exact ⟨hk.fallback, hk.evaluation, hk.option, hk.retry, hk.body⟩) (by rw [kz]; exact ⟨rfl, rfl⟩) (fun h => nomatch h)
      (fun h => nomatch h) (by rw [hz]; exact .refl u) (by rw [hz]) (by rw [hz]) (by rw [hz]) (by rw [hz]) (by rw [hz]) (by rw [hz]; exact hu.status)
      (by rw [hz]; exact hu.code) (by rw [hz]) (by rw [hz]; exact hu.sent) h.core.proper
      (fun _ => h.core.spoken i hi (by rcases hp with hp | hp <;> rw [hp] <;> rfl)) id (fun _ h => by rw [kz]; exact h)
    obtain ⟨u', h1, h2, h3⟩ := hQ.remove (d := dispatch n) (i := i) hx.1 hx.2.1 hx.2.2 (by
      rw [hz]
      show u.replyQueue.erase i = _
      rw [h.queue, List.erase_of_not_mem (by simp [hop])]
      exact same_filter t _ i rfl (by rw [hop]; rfl))
    refine ⟨u', ?_, h2⟩
    rw [finished_step h.core.oracle, if_pos hl, cbFinished_idle ht, afterFinished_eq hu.state h.core.parallel, ← hz, h1]
    rfl

/-! ## Conversations -/

theorem event_reach {n : Nat} {e : Event} (h : Inv s base who st t u held) (he : t.move s who st e = some t')
    (hopen : t.isOpen who = true) {Q : Sys → Prop} (hQ : Reach held s base who st t' Q) :
    ∃ u', next (n + 2) u e [] = some u' ∧ Q u' := by
  cases e <;> simp only [Talk.move, reduceCtorEq] at he
  case flushed i =>
    cases hp : t.pos i <;> rw [hp] at he <;> simp only [Option.some.injEq, reduceCtorEq] at he <;> subst he
    · obtain ⟨u', h1, h2⟩ := flush_written (n := n + 1) h hp
      exact ⟨u', h1, hQ.still (List.any_eq_true.mpr ⟨i, in_who h (by rw [hp]; exact fun h => nomatch h),
        by simp [Talk.put, Pos.isOpen]⟩) h2⟩
    · obtain ⟨u', h1, h2⟩ := flush_leaving (n := n) h hp
      exact ⟨u', h1, hQ.still (List.any_eq_true.mpr ⟨i, in_who h (by rw [hp]; exact fun h => nomatch h),
        by simp [Talk.put, Pos.isOpen]⟩) h2⟩
  case reply i r =>
    by_cases hp : t.pos i = .asked
    · rw [if_pos hp] at he
      cases hr : decisionOf r with
      | some v =>
        rw [hr] at he
        simp only [Option.some.injEq] at he
        subst he
        exact event_reply h hp hr hQ
      | none =>
        rw [hr] at he
        simp only at he
        split at he
        · rename_i hs
          simp only [Option.some.injEq] at he
          subst he
          exact event_senseless h hp hs hQ
        · cases he
    · rw [if_neg hp] at he; cases he
  case timeout i =>
    split at he
    · rename_i hp
      simp only [Option.some.injEq] at he
      subst he
      exact event_timeout h hp hQ
    · cases he
  case error i =>
    split at he
    · rename_i hp
      simp only [Option.some.injEq] at he
      subst he
      exact event_error h hp hQ
    · cases he
  case finished i =>
    cases hp : t.pos i <;> rw [hp] at he <;> simp only [Option.some.injEq, reduceCtorEq] at he
    · subst he; exact finished_asked h hp hQ
    · subst he; exact finished_away h (.inl hp) hQ
    · subst he; exact finished_away h (.inr hp) hQ
    · split at he
      · rename_i ho
        simp only [Option.some.injEq] at he
        subst he
        exact finished_idle h ho (.inl hp) hQ
      · rename_i ho; exact absurd hopen ho
    · split at he
      · rename_i ho
        simp only [Option.some.injEq] at he
        subst he
        exact finished_idle h ho (.inr hp) hQ
      · rename_i ho; exact absurd hopen ho
    · subst he; exact ⟨u, finished_lost h hp, hQ.still hopen h⟩

/-- when everybody has answered, only those that have failed may still disconnect -/
theorem closed_event {e : Event} (hm : t.move s who st e = some t') (hc : t.isOpen who = false) (hin : ∀ i, i ∉ who → t.pos i = .none) :
    t' = t ∧ ∃ i, e = .finished i ∧ t.pos i = .lost := by
  have hpos : ∀ i, (t.pos i).isOpen = false := fun i => by
    by_cases hi : i ∈ who
    · have := List.any_eq_false.mp hc i hi
      simpa using this
    · rw [hin i hi]; rfl
  cases e <;> simp only [Talk.move, reduceCtorEq] at hm
  case flushed i =>
    have := hpos i
    cases hp : t.pos i <;> rw [hp] at hm this <;> first | (cases this; done) | cases hm
  case reply i r =>
    have := hpos i
    by_cases hp : t.pos i = .asked
    · rw [hp] at this; cases this
    · rw [if_neg hp] at hm; cases hm
  case timeout i =>
    have := hpos i
    by_cases hp : t.pos i = .asked
    · rw [hp] at this; cases this
    · rw [if_neg hp] at hm; cases hm
  case error i =>
    have := hpos i
    by_cases hp : t.pos i = .asked
    · rw [hp] at this; cases this
    · rw [if_neg hp] at hm; cases hm
  case finished i =>
    have := hpos i
    cases hp : t.pos i <;> rw [hp] at hm this <;>
      first
      | cases this; done
      | (simp only [hc, Bool.false_eq_true, if_false, reduceCtorEq] at hm; done)
      | (simp only [Option.some.injEq] at hm; exact ⟨hm.symm, i, rfl, hp⟩)

theorem event_step {n : Nat} {e : Event} (h : Inv s base who st t u held) (he : t.move s who st e = some t')
    (hfit : Fits held t' who := by exact .inl rfl) :
    ∃ u', next (n + 2) u e [] = some u' ∧ Inv s base who st t' u' held := by
  cases hopen : t.isOpen who with
  | true => exact event_reach h he hopen (.inv hfit)
  | false =>
    obtain ⟨rfl, i, rfl, hp⟩ := closed_event he hopen h.core.outside
    exact ⟨u, finished_lost h hp, h⟩

theorem closed_moves {es : List Event} : ∀ {t : Talk}, t.moves s who st es = some t' → t.isOpen who = false →
    (∀ i, i ∉ who → t.pos i = .none) → t' = t := by
  induction es with
  | nil => intro t h _ _; simp only [Talk.moves, Option.some.injEq] at h; exact h.symm
  | cons e es ih =>
    intro t h hc hin
    simp only [Talk.moves, Option.bind_eq_some_iff] at h
    obtain ⟨t1, h1, h2⟩ := h
    have e1 := (closed_event h1 hc hin).1
    rw [e1] at h2
    exact ih h2 hc hin

/-- nobody joins -/
theorem move_inside {e : Event} (h : Inv s base who st t u held) (hm : t.move s who st e = some t') :
    ∀ i, i ∉ who → t'.pos i = .none := by
  intro i hi
  have hn := h.core.outside i hi
  cases e <;> simp only [Talk.move, reduceCtorEq] at hm
  case flushed j =>
    have hji : t.pos j ≠ .none → i ≠ j := fun h e => h (by rw [← e]; exact hn)
    cases hp : t.pos j <;> rw [hp] at hm hji <;> simp only [Option.some.injEq, reduceCtorEq] at hm <;> subst hm <;>
      simp [Talk.put, hji, hn]
  case reply j r =>
    by_cases hp : t.pos j = .asked
    · have hji : i ≠ j := fun e => by rw [← e, hn] at hp; cases hp
      rw [if_pos hp] at hm
      cases hr : decisionOf r with
      | some v =>
        rw [hr] at hm
        simp only [Option.some.injEq] at hm
        subst hm
        simp [Talk.put, Talk.vote, hji, hn]
      | none =>
        rw [hr] at hm
        simp only at hm
        split at hm
        · simp only [Option.some.injEq] at hm
          subst hm
          simp [Talk.put, Talk.vote, hji, hn]
        · cases hm
    · rw [if_neg hp] at hm; cases hm
  case timeout j =>
    split at hm
    · rename_i hp
      have hji : i ≠ j := fun e => by rw [← e, hn] at hp; cases hp
      simp only [Option.some.injEq] at hm
      subst hm
      simp [Talk.put, Talk.vote, hji, hn]
    · cases hm
  case error j =>
    split at hm
    · rename_i hp
      have hji : i ≠ j := fun e => by rw [← e, hn] at hp; cases hp
      simp only [Option.some.injEq] at hm
      subst hm
      simp [Talk.put, Talk.vote, hji, hn]
    · cases hm
  case finished j =>
    have hji : t.pos j ≠ .none → i ≠ j := fun h e => h (by rw [← e]; exact hn)
    cases hp : t.pos j <;> rw [hp] at hm hji <;> simp only [Option.some.injEq, reduceCtorEq] at hm
    all_goals first
      | (split at hm
         · simp only [Option.some.injEq] at hm; subst hm; simp [Talk.put, Talk.vote, hji, hn]
         · cases hm)
      | (subst hm; simp [Talk.put, Talk.vote, hji, hn])

theorem conversation {n : Nat} {es : List Event} : ∀ {u : Sys} {t : Talk}, Inv s base who st t u held →
    t.moves s who st es = some t' → (hfit : Fits held t' who := by exact .inl rfl) → ∃ u', run (n + 2) u (quietly es) = some u' ∧ Inv s base who st t' u' held := by
  induction es with
  | nil =>
    intro u t h ht hQ
    simp only [Talk.moves, Option.some.injEq] at ht
    subst ht
    exact ⟨u, rfl, h⟩
  | cons e es ih =>
    intro u t h ht hQ
    simp only [Talk.moves, Option.bind_eq_some_iff] at ht
    obtain ⟨t1, h1, h2⟩ := ht
    have hfit1 : Fits held t1 who := by
      cases ho : t1.isOpen who with
      | true => exact .inr (.inl ho)
      | false =>
        have hin := move_inside h h1
        have := closed_moves h2 ho hin
        rw [← this]
        exact hQ
    obtain ⟨u1, h3, h4⟩ := event_step (n := n) h h1 hfit1
    obtain ⟨u2, h5, h6⟩ := ih h4 h2 hQ
    refine ⟨u2, ?_, h6⟩
    simp only [quietly, List.map_cons, run, h3]
    exact h5

end

end Phase
end Verif.Children
