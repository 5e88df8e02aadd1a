import Verif.Manager.ChildrenPhaseRun
import Verif.Manager.ChildrenPass
/-
A milter refusing the message, at its end or before.
-/
namespace Verif.Children
open Verif Verif.Spec.Children
open Verif.Spec.Phase (inMessage isAlive)
open Verif.Server (St)

/-- the rest of the function that reports the answer -/
def refusalFrame : Reply → List Server.Action
  | .discard => [.processed .inMessage, .clearIfBody]
  | .replyCode _ _ _ => [.processed .inMessageNotRecipient]
  | _ => [.processed .inMessageNotRecipient, .clearIfBody]

def refusalStatus : Reply → Status
  | .reject => .reject
  | .temporaryFailure => .temporaryFailure
  | .discard => .discard
  | .replyCode code _ _ => Server.codeStatus code
  | _ => .continue_

/-- a refusal with a code ends the processing of the body -/
def refusalQueue (c : Server.State) (st : St) : Reply → List Nat
  | .replyCode _ _ _ => if st = .body then [] else c.bodyQueue
  | _ => c.bodyQueue

def refusalCtx (c : Server.State) (st : St) (r : Reply) : Server.State :=
  { c with status := refusalStatus r, timer := none, bodyQueue := refusalQueue c st r, stack := refusalFrame r :: c.stack }

theorem refusal_ctx {c : Server.State} {st : St} {r : Reply} {v : Status} (hr : refusing r = some v) (h : At c st) (hst : inContent st) :
    Server.reply c r true = (refusalCtx c st r, [.emit (.reply r)]) := by
  have hs := h.sentEom
  unfold refusalCtx
  cases r <;> first | (simp [refusing] at hr; done) | skip
  all_goals
    rcases hst with rfl | rfl | rfl | rfl <;>
    simp [refusalStatus, refusalFrame, refusalQueue, Server.reply, Server.refuse, h.state, Server.answerable, Server.report, h.quitted,
      Server.andThen, Server.pause, Server.clearBody, hs]

/-- the code a refusal sets -/
def coded (s : Sys) : Reply → Sys
  | .replyCode code extended message => { s with code := some (code, extended, message) }
  | _ => s

theorem refusal_handled {d : Dispatch} {i : Nat} {s : Sys} {st : St} {r : Reply} {v : Status} (hr : refusing r = some v)
    (h : (s.kids i).ctx.state = st) (hst : inContent st) (he : (s.kids i).evaluation = false) :
    handle d i (.reply r) s =
      (do emitReplyForMessage st; abortAll d : M Unit)
        (voted (withCtx (coded s r) i { (s.kids i).ctx with processingMessage := false }) st v) := by
  have key : ∀ (u : Sys), u.kids = s.kids → cbRefuse d i v u =
      (do emitReplyForMessage st; abortAll d : M Unit)
        (voted (withCtx u i { (s.kids i).ctx with processingMessage := false }) st v) := by
    intro u hu
    unfold cbRefuse
    obtain ⟨w, hw⟩ : ∃ w, w = voted (withCtx u i { (s.kids i).ctx with processingMessage := false }) st v := ⟨_, rfl⟩
    rw [get_bind, ← hw, hu]
    simp only [he, Bool.false_eq_true, if_false]
    generalize hq : (s.kids i).ctx.state = q
    rw [h] at hq
    subst hq
    rw [hw, ← hu]
    rcases hst with rfl | rfl | rfl | rfl <;> rfl
  cases r <;> first | (simp [refusing] at hr; done) | skip
  case reject => cases hr; exact key s rfl
  case temporaryFailure => cases hr; exact key s rfl
  case discard => cases hr; exact key s rfl
  case replyCode code x m =>
    have : v = (if code / 100 = 4 then Status.temporaryFailure else .reject) := by
      simp only [refusing] at hr
      split at hr
      · cases hr; rw [if_pos ‹_›]
      · split at hr
        · cases hr; rw [if_neg ‹_›]
        · cases hr
    subst this
    exact key { s with code := some (code, x, m) } rfl

theorem refusal_told {s : Sys} {st : St} {r : Reply} {v : Status} (hr : refusing r = some v) (h : s.statuses st = v)
    (hc : s.code = none ∨ ∃ a b c, r = .replyCode a b c) :
    ∃ y, emitStatusOf st (coded s r) = some ((), if st = .endOfMessage then messageDisposed { logged s (.emit (.reply r)) with code := y }
      else { logged s (.emit (.reply r)) with code := y }) := by
  cases r <;> first | (simp [refusing] at hr; done) | skip
  case replyCode a b c =>
    refine ⟨none, ?_⟩
    unfold emitStatusOf
    rw [get_bind]
    show (if (a / 100 = 4 ∧ s.statuses st = .temporaryFailure) ∨ (a / 100 = 5 ∧ s.statuses st = .reject) then _ else _ : M Unit) _ = _
    rw [h]
    have : (a / 100 = 4 ∧ v = .temporaryFailure) ∨ (a / 100 = 5 ∧ v = .reject) := by
      simp only [refusing] at hr
      split at hr
      · cases hr; exact Or.inl ⟨‹_›, rfl⟩
      · split at hr
        · cases hr; exact Or.inr ⟨‹_›, rfl⟩
        · cases hr
    rw [if_pos this]
    by_cases he : st = .endOfMessage
    · subst he; rfl
    · simp only [if_neg he]; rfl
  all_goals
    cases hr
    have hc : s.code = none := hc.resolve_right (by rintro ⟨_, _, _, h⟩; cases h)
    refine ⟨none, ?_⟩
    unfold emitStatusOf
    rw [get_bind]
    simp only [coded, h, hc]
    rw [← hc]
    by_cases he : st = .endOfMessage
    · subst he; rfl
    · simp only [if_neg he]; rfl

theorem clearBody_blank {c : Server.State} (h : Spec.Phase.MsgBlank c) : Server.clearBody c = c := by
  obtain ⟨h1, h2, h3, h4, h5⟩ := h
  unfold Server.clearBody
  cases c
  simp only at h2 h4
  simp [h2, h4]

/-- a context without a result does not report one -/
theorem refusal_resume {n i : Nat} {u : Sys} {st : St} {stk : List (List Server.Action)} {r : Reply} {v : Status}
    (hr : refusing r = some v) (hst : inContent st) (hb : Spec.Phase.MsgBlank (u.kids i).ctx)
    (ho : u.oracle = []) (hl : (u.kids i).linked = true)
    (hs : (u.kids i).ctx.stack = refusalFrame r :: stk) (he : (u.kids i).ctx.state = st) :
    ∃ y w, dispatch (n + 2) (.resume i) u = some ((), w) ∧ y = { (u.kids i).ctx with stack := stk, result := y.result } ∧
      (w = withCtx u i y ∨ ∃ sig, w = logged (withCtx u i y) (.heard i sig)) := by
  obtain ⟨b, hbb⟩ : ∃ b : List Server.Action, b = if (refusalFrame r).length = 2 then [.clearIfBody] else [] := ⟨_, rfl⟩
  have cl : ∀ x, Server.clearBody { (u.kids i).ctx with stack := stk, result := x } = { (u.kids i).ctx with stack := stk, result := x } :=
    fun x => clearBody_blank hb
  cases hres : (u.kids i).ctx.result with
  | none =>
    have cl0 : Server.clearBody { (u.kids i).ctx with stack := stk } = { (u.kids i).ctx with stack := stk } := clearBody_blank hb
    refine ⟨{ (u.kids i).ctx with stack := stk }, _, resume_eq ho hs ?_, rfl, Or.inl rfl⟩
    cases r <;> first | (simp [refusing] at hr; done) | skip
    all_goals
      rcases hst with rfl | rfl | rfl | rfl <;>
      simp [refusalFrame, Server.exec, Server.act, Server.Cond.holds, he, hres, Server.go, St.rank]
    all_goals
      rw [← he, ← hres]
      exact cl0
  | some res =>
    obtain ⟨g, hg⟩ : ∃ g : List Server.Action, g = .dropResult :: b := ⟨_, rfl⟩
    obtain ⟨u1, hu1⟩ : ∃ u1, u1 = withCtx u i { (u.kids i).ctx with stack := g :: stk } := ⟨_, rfl⟩
    have k1 : (u1.kids i).ctx = { (u.kids i).ctx with stack := g :: stk } := by rw [hu1]; exact withCtx_ctx _ _ _
    have l1 : (u1.kids i).linked = true := by rw [hu1, withCtx_kid]; exact hl
    obtain ⟨sig, hsig⟩ : ∃ sig, sig = Server.Signal.messageProcessed (u.kids i).ctx.status (res.reported (u.kids i).ctx.state) := ⟨_, rfl⟩
    have e : Server.exec { (u.kids i).ctx with stack := stk } true (refusalFrame r) =
        ({ (u.kids i).ctx with stack := g :: stk }, [.emit sig]) := by
      rw [hsig, hg, hbb]
      cases r <;> first | (simp [refusing] at hr; done) | skip
      all_goals
        rcases hst with rfl | rfl | rfl | rfl <;>
        simp [refusalFrame, Server.exec, Server.act, Server.Cond.holds, he, hres, Server.pause, St.rank]
    have e2 : dispatch (n + 1) (.resume i) (logged u1 (.heard i sig)) =
        some ((), withCtx (logged u1 (.heard i sig)) i { (u.kids i).ctx with stack := stk, result := none }) := by
      refine resume_eq (f := g) (stack := stk) (by rw [hu1]; exact ho) ?_ ?_
      · show ((u1.kids i).ctx).stack = _
        rw [k1]
      · show Server.exec { (u1.kids i).ctx with stack := stk } true _ = _
        rw [k1, hg, hbb]
        split
        · by_cases hbody : (u.kids i).ctx.state = .body
          · simp only [Server.exec, Server.act, Server.go, hbody, if_true]
            have := cl none
            simp only [hbody] at this
            simp [this]
          · simp [Server.exec, Server.act, Server.go, hbody]
        · simp [Server.exec, Server.act, Server.go]
    refine ⟨{ (u.kids i).ctx with stack := stk, result := none }, _, ?_, rfl, Or.inr ⟨sig, rfl⟩⟩
    unfold dispatch
    dsimp only
    rw [bind_eq (ask_eq ho)]
    show (stepCtx (dispatch (n + 1)) i (.handlerReturns true) >>= fun _ => pure ()) u = _
    have : stepCtx (dispatch (n + 1)) i (.handlerReturns true) u =
        some (true, withCtx (logged u1 (.heard i sig)) i { (u.kids i).ctx with stack := stk, result := none }) := by
      rw [stepCtx_eq]
      simp only [Server.step, hs, e]
      rw [← hu1]
      exact drive_emit (signal_ignored l1 (Or.inr ⟨_, _, hsig⟩)) e2
    rw [bind_eq this]
    show some ((), withCtx (logged u1 (.heard i sig)) i _) = _
    rw [hu1]
    show some ((), logged (withCtx (withCtx u i _) i _) _) = _
    rw [withCtx_twice]

/-- what a milter's refusal comes to -/
structure Refusal (i : Nat) (s s' : Sys) (x : List (Nat × Cmd)) : Prop where
  commands : commands s'.out = commands s.out ++ x
  only : ∀ p ∈ x, p.2 = .abort
  aborted : ∀ j < s.count, j ≠ i → inMessage (s.kids j) = true → (j, .abort) ∈ x
  over : ∀ j < s.count, inMessage (s'.kids j) = false
  oracle : s'.oracle = []
  pending : s'.pending = none
  running : s'.allExpired = s.allExpired
  count : s'.count = s.count
  blank : Spec.Phase.Blank s'
  others : ∀ j, j ≠ i → Phase.Apart (s.kids j) (s'.kids j)
  self : Phase.Apart { (s.kids i) with ctx := { (s.kids i).ctx with timer := none } } (s'.kids i)
  due : ∀ j, Phase.due s' j ≤ Phase.due s j + 1
  settled : Spec.Phase.MsgBlank (s'.kids i).ctx

/-- milter `i` refuses the message: the MTA gets the refusal, at the end of the message after the changes, and everybody who
follows the message is told to abort -/
theorem refusing_event {n i : Nat} {rest : List Nat} {s : Sys} {st : St} {original : List Header} {r : Reply} {v : Status}
    (h : Giving s i st rest) (hi : (i < s.count ∧ (s.kids i).ctx.negotiated = true) ∨ st ≠ .body) (ho : st = .endOfMessage → s.originalHeaders = some original) (hr : refusing r = some v)
    (he : (s.kids i).evaluation = false) (hv : Status.compile (s.statuses st) v = v)
    (hc : s.code = none ∨ ∃ a b c, r = .replyCode a b c) :
    ∃ s' x, next (n + 2) s (.reply i r) [] = some s' ∧ Refusal i s s' x ∧
      told s'.out = told s.out ++ (if st = .endOfMessage then changes original (pieces s.chunkSize (stored s)) (draft s) else []) ++
        [.reply r] := by
  obtain ⟨z, hz⟩ : ∃ z, z = refusalCtx (s.kids i).ctx st r := ⟨_, rfl⟩
  obtain ⟨u1, hu1⟩ : ∃ u1, u1 = withCtx s i z := ⟨_, rfl⟩
  obtain ⟨u2, hu2⟩ : ∃ u2, u2 = logged u1 (.heard i (.reply r)) := ⟨_, rfl⟩
  have zs : z.state = st := by rw [hz]; exact h.at'.state
  have k2 : (u2.kids i).ctx = z := by
    rw [hu2, hu1]; exact withCtx_ctx _ _ _
  have l1 : (u1.kids i).linked = true := by rw [hu1, withCtx_kid]; exact h.linked
  have ev2 : (u2.kids i).evaluation = false := by
    rw [hu2, hu1]
    show ((withCtx s i _).kids i).evaluation = _
    rw [withCtx_kid]; exact he
  -- the state the status is told from, without the code
  obtain ⟨u3, hu3⟩ : ∃ u3 : Sys, u3 = voted (withCtx u2 i { z with processingMessage := false }) st v := ⟨_, rfl⟩
  have c3 : voted (withCtx (coded u2 r) i { z with processingMessage := false }) st v = coded u3 r := by
    rw [hu3]; cases r <;> rfl
  obtain ⟨u4, hu4⟩ : ∃ u4 : Sys, u4 = { u3 with emittedReply := true } := ⟨_, rfl⟩
  obtain ⟨em, hem⟩ : ∃ em : List Emit, em = if st = .endOfMessage then eomEmits u4 else [] := ⟨_, rfl⟩
  obtain ⟨u5, hu5⟩ : ∃ u5 : Sys, u5 = { u4 with out := u4.out ++ em.map .emit } := ⟨_, rfl⟩
  have st5 : u5.statuses st = v := by
    rw [hu5, hu4, hu3, hu2, hu1]
    show setStatusOf s.statuses st (Status.compile (s.statuses st) v) st = _
    simp [setStatusOf, hv]
  obtain ⟨yc, h6⟩ := refusal_told hr st5 (by rw [hu5, hu4, hu3, hu2, hu1]; exact hc)
  obtain ⟨x6, hx6⟩ : ∃ x6 : Sys, x6 = { logged u5 (.emit (.reply r)) with code := yc } := ⟨_, rfl⟩
  rw [← hx6] at h6
  obtain ⟨u6, hu6⟩ : ∃ u6 : Sys, u6 = if st = .endOfMessage then messageDisposed x6 else x6 := ⟨_, rfl⟩
  rw [← hu6] at h6
  have f6 : u6.oracle = [] ∧ u6.kids = x6.kids ∧ u6.count = x6.count ∧ u6.out = x6.out ∧ u6.allExpired = x6.allExpired := by
    rw [hu6]
    have : x6.oracle = [] := by rw [hx6, hu5, hu4, hu3, hu2, hu1]; exact h.oracle
    split <;> exact ⟨this, rfl, rfl, rfl, rfl⟩
  obtain ⟨o6', k6', cn6, ou6, ex6⟩ := f6
  obtain ⟨u7, x, h7, a7, m7, in7, only7, out7, due7, blank7, pend7, set7⟩ := Phase.abort_all' (d := dispatch (n + 1)) (u := u6) o6'
  have hh : handle (dispatch (n + 1)) i (.reply r) u2 = some ((), u7) := by
    rw [refusal_handled hr (by rw [k2]; exact zs) h.content ev2, k2, c3]
    refine (bind_eq (a := ()) (s' := u6) ?_).trans h7
    unfold emitReplyForMessage
    have ee : (coded u3 r).emittedReply = false := by
      have : u3.emittedReply = false := by rw [hu3, hu2, hu1]; exact h.emitted
      rw [← this]; cases r <;> rfl
    have eo : (coded u3 r).out = u3.out := by cases r <;> rfl
    rw [get_bind, ee, if_neg (by simp), modify_bind]
    by_cases heom : st = .endOfMessage
    · have e5 : ({ { coded u3 r with emittedReply := true } with out := u3.out ++ (eomEmits { coded u3 r with emittedReply := true }).map .emit } : Sys) = coded u5 r := by
        rw [hu5, hem, if_pos heom, hu4]; cases r <;> rfl
      rw [if_pos heom, modify_bind]
      rw [← eo] at e5
      show emitStatusOf st ({ { coded u3 r with emittedReply := true } with out := (coded u3 r).out ++ (eomEmits { coded u3 r with emittedReply := true }).map .emit } : Sys) = _
      rw [e5]
      exact h6
    · rw [if_neg heom]
      have e5 : ({ coded u3 r with emittedReply := true } : Sys) = coded u5 r := by
        have : u5 = u4 := by rw [hu5, hem, if_neg heom]; cases u4; simp
        rw [this, hu4]; cases r <;> rfl
      show emitStatusOf st ({ coded u3 r with emittedReply := true } : Sys) = _
      rw [e5]
      exact h6
  have k6 : u6.kids = (withCtx u2 i { z with processingMessage := false }).kids := by rw [k6', hx6, hu5, hu4, hu3]; rfl
  have cnt : u6.count = s.count := by rw [cn6, hx6, hu5, hu4, hu3, hu2, hu1]; rfl
  have kj : ∀ j, j ≠ i → u6.kids j = s.kids j := by
    intro j hj
    rw [k6, withCtx_other _ _ _ _ hj, hu2, hu1]
    exact withCtx_other _ _ _ _ hj
  have ki : u6.kids i = { (s.kids i) with ctx := { z with processingMessage := false } } := by
    rw [k6, withCtx_kid, hu2, hu1]
    show ({ (withCtx s i z).kids i with ctx := _ } : Kid) = _
    rw [withCtx_kid]
  have zq : z.quitted = false ∧ z.body = [] := by rw [hz]; exact ⟨h.at'.quitted, h.at'.body⟩
  have t7 := a7.kids i
  have b7 : Spec.Phase.MsgBlank (u7.kids i).ctx := by
    rcases hi with hi | hi
    case inr =>
      refine t7.body ?_
      rw [ki, hz]
      have a := h.at'
      refine ⟨a.body, ?_, a.count, a.sentEom, a.skip⟩
      have hq := a.queue
      rw [if_neg hi] at hq
      show refusalQueue (s.kids i).ctx st r = []
      unfold refusalQueue
      split
      · split
        · rfl
        · exact hq
      · exact hq
    refine set7 i (by rw [cnt]; exact hi.1) ?_ ?_ ?_ ?_
    · rw [ki]; simp [inMessage]
    · rw [ki]
      show z.state ≠ _
      rw [zs]
      intro hx
      have := h.content
      rw [hx] at this
      simp [inContent] at this
    · rw [ki]
      have zn : z.negotiated = true := by rw [hz]; exact hi.2
      simp [isAlive, zq.1, zn]
    · rw [ki]; exact zq.2
  obtain ⟨y, w, e1, e2, e8⟩ := refusal_resume (n := n) (u := u7) (i := i) (st := st) (stk := (s.kids i).ctx.stack) hr h.content b7
    (by rw [a7.oracle]; exact o6')
    (by rw [t7.linked, k6, withCtx_kid, hu2]; exact l1)
    (by rw [t7.stack, k6, withCtx_ctx, hz]; rfl) (by rw [t7.state, k6, withCtx_ctx]; exact zs)
  obtain ⟨ex, hex, hcm, htl⟩ : ∃ ex : List Out, w.out = u7.out ++ ex ∧ Spec.Children.commands ex = [] ∧ told ex = [] := by
    rcases e8 with rfl | ⟨sig, rfl⟩
    · exact ⟨[], by simp [withCtx], rfl, rfl⟩
    · exact ⟨[.heard i sig], rfl, rfl, rfl⟩
  have hwk : ∀ j, inMessage (w.kids j) = inMessage (u7.kids j) := by
    intro j
    have : w.kids j = (withCtx u7 i y).kids j := by
      rcases e8 with rfl | ⟨sig, rfl⟩ <;> rfl
    rw [this]
    by_cases hj : j = i
    · subst hj
      rw [withCtx_kid]
      rw [e2]
      rfl
    · rw [withCtx_other _ _ _ _ hj]
  have o6 : u6.out = s.out ++ [.heard i (.reply r)] ++
      (if st = .endOfMessage then changes original (pieces s.chunkSize (stored s)) (draft s) else []).map .emit ++ [.emit (.reply r)] := by
    have e : em = if st = .endOfMessage then changes original (pieces s.chunkSize (stored s)) (draft s) else [] := by
      rw [hem]
      by_cases heom : st = .endOfMessage
      · rw [if_pos heom, if_pos heom]
        have := eomEmits_eq (s := u4) (original := original) (by rw [hu4, hu3, hu2, hu1]; exact ho heom)
        rw [this, hu4, hu3, hu2, hu1]
        rfl
      · rw [if_neg heom, if_neg heom]
    rw [ou6, hx6]
    show u5.out ++ _ = _
    rw [hu5]
    show (u4.out ++ _) ++ _ = _
    rw [e, hu4, hu3, hu2, hu1]
    rfl
  have w8 : w.oracle = u7.oracle ∧ w.pending = u7.pending ∧ w.allExpired = u7.allExpired ∧ w.count = u7.count ∧
      (Spec.Phase.Blank u7 → Spec.Phase.Blank w) ∧ w.kids = (withCtx u7 i y).kids := by
    rcases e8 with rfl | ⟨sig, rfl⟩ <;> exact ⟨rfl, rfl, rfl, rfl, id, rfl⟩
  have x6' : u6.allExpired = s.allExpired := by rw [ex6, hx6, hu5, hu4, hu3, hu2, hu1]; rfl
  refine ⟨w, x, next_eq h.oracle ?_, ⟨?_, only7, ?_, ?_, w8.1.trans (a7.oracle.trans o6'), w8.2.1.trans pend7,
    w8.2.2.1.trans (a7.frame.1.trans x6'), w8.2.2.2.1.trans (a7.count.trans cnt), w8.2.2.2.2.1 blank7,
    fun j hj => ?_, ?_, fun j => ?_, ?_⟩, ?_⟩
  · rw [reply_step h.oracle]
    have : stepCtx (dispatch (n + 2)) i (.reply r true) s = some (true, w) := by
      rw [stepCtx_eq]
      simp only [Server.step, refusal_ctx hr h.at' h.content]
      rw [← hz, ← hu1]
      refine drive_emit (s1 := u7) ?_ e1
      rw [signal_reply l1, ← hu2]
      exact hh
    rw [bind_eq this]
    rfl
  · rw [hex, commands_append, hcm, m7, o6, commands_append, commands_append, commands_append]
    simp [Spec.Children.commands, List.filterMap_map, Function.comp_def]
  · intro j hj hji hm
    refine in7 j (by rw [cnt]; exact hj) ?_
    rw [kj j hji]
    exact hm
  · intro j hj
    rw [hwk]
    exact out7 j (by rw [cnt]; exact hj)
  · rw [w8.2.2.2.2.2, withCtx_other _ _ _ _ hj, ← kj j hj]
    exact (a7.kids j).apart
  · rw [w8.2.2.2.2.2, withCtx_kid]
    have t := (a7.kids i).apart
    rw [ki] at t
    have t2 : Phase.Apart (u7.kids i) { (u7.kids i) with ctx := y } := by
      rw [e2]
      exact ⟨rfl, rfl, rfl, rfl, rfl, rfl, id, rfl, fun _ => .inl, id, id⟩
    have t1 : Phase.Apart { (s.kids i) with ctx := { (s.kids i).ctx with timer := none } }
        { (s.kids i) with ctx := { z with processingMessage := false } } := by
      rw [hz]
      refine ⟨rfl, rfl, rfl, rfl, rfl, rfl, fun h => by simp [inMessage] at h, rfl, fun _ => .inl, id, fun hb => ?_⟩
      refine ⟨hb.1, ?_, hb.2.2.1, hb.2.2.2.1, hb.2.2.2.2⟩
      have hq : (s.kids i).ctx.bodyQueue = [] := hb.2.1
      show refusalQueue (s.kids i).ctx st r = []
      unfold refusalQueue
      split
      · split
        · rfl
        · exact hq
      · exact hq
    exact (t1.trans t).trans t2
  · have e : Phase.due w j = Phase.due u7 j := by
      unfold Phase.due
      rw [w8.2.2.2.2.2]
      by_cases hj : j = i
      · subst hj
        rw [withCtx_ctx, e2]
      · rw [withCtx_other _ _ _ _ hj]
    have e' : Phase.due u6 j = Phase.due s j := by
      unfold Phase.due
      by_cases hj : j = i
      · subst hj
        rw [ki, hz]
        rfl
      · rw [kj j hj]
    rw [e, ← e']
    exact due7 j
  · rw [w8.2.2.2.2.2, withCtx_ctx, e2]
    exact b7
  · rw [hex, told_append, htl, a7.told, o6, told_append, told_append, told_append]
    simp [told, List.filterMap_map, Function.comp_def]

/-- milter `i` refusing the message at its end: the MTA gets the changes and the refusal, everybody who
follows the message is told to abort -/
theorem refusal_event {n i : Nat} {rest : List Nat} {s : Sys} {original : List Header} {r : Reply} {v : Status}
    (h : Closing s i rest) (ho : s.originalHeaders = some original) (hr : refusing r = some v)
    (he : (s.kids i).evaluation = false) (hv : Status.compile (s.statuses .endOfMessage) v = v)
    (hc : s.code = none ∨ ∃ a b c, r = .replyCode a b c) :
    ∃ s' x, next (n + 2) s (.reply i r) [] = some s' ∧ commands s'.out = commands s.out ++ x ∧
      (∀ p ∈ x, p.2 = .abort) ∧ (∀ j < s.count, j ≠ i → inMessage (s.kids j) = true → (j, .abort) ∈ x) ∧
      (∀ j < s.count, inMessage (s'.kids j) = false) ∧
      told s'.out = told s.out ++ changes original (pieces s.chunkSize (stored s)) (draft s) ++ [.reply r] ∧
      s'.oracle = [] ∧ s'.pending = none ∧ s'.allExpired = s.allExpired ∧ s'.count = s.count ∧ Spec.Phase.Blank s' ∧
      (∀ j, j ≠ i → Phase.Apart (s.kids j) (s'.kids j)) ∧
      Phase.Apart { (s.kids i) with ctx := { (s.kids i).ctx with timer := none } } (s'.kids i) ∧
      ∀ j, Phase.due s' j ≤ Phase.due s j + 1 := by
  obtain ⟨s', x, e, f, t⟩ := refusing_event (n := n) (original := original) h.giving (Or.inr (by simp)) (fun _ => ho) hr he hv hc
  rw [if_pos rfl] at t
  exact ⟨s', x, e, f.commands, f.only, f.aborted, f.over, t, f.oracle, f.pending, f.running, f.count, f.blank, f.others, f.self, f.due⟩

end Verif.Children
