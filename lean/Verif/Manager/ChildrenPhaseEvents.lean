import Verif.Manager.ChildrenPhaseRun
/-
Commands that go to all milters at once: event by event.
-/
namespace Verif.Children
namespace Phase
open Verif
open Verif.Server (St)
open Verif.Spec.Children
open Verif.Spec.Phase

/-! ## What makes no difference -/

/-- only the interrupted functions and the result kept for statistics differ -/
def Like (k k' : Kid) : Prop := ∃ x r, (r = none ∨ r = k.ctx.result) ∧ k' = { k with ctx := { k.ctx with stack := x, result := r } }

theorem Like.refl (k : Kid) : Like k k := ⟨k.ctx.stack, k.ctx.result, .inr rfl, rfl⟩

theorem Like.trans {a b c : Kid} (h : Like a b) (h' : Like b c) : Like a c := by
  obtain ⟨x, r, hr, rfl⟩ := h
  obtain ⟨x', r', hr', rfl⟩ := h'
  exact ⟨x', r', hr'.elim .inl fun h => hr.imp h.trans h.trans, rfl⟩

theorem Like.kept {k0 k k' : Kid} (h : Kept k0 k) (l : Like k k') : Kept k0 k' := by
  obtain ⟨x, r, hr, rfl⟩ := l
  exact ⟨h.fallback, h.evaluation, h.option, h.retry, h.body⟩

theorem Like.at' {k k' : Kid} {st : St} {p : Pos} (h : At k st p) (l : Like k k') : At k' st p := by
  obtain ⟨x, r, hr, rfl⟩ := l
  cases p with
  | none => trivial
  | waiting => exact ⟨⟨h.1.linked, h.1.retry, h.1.alive, h.1.nextStates, h.1.timer, h.1.option⟩, h.2⟩
  | written => exact ⟨h.1, ⟨h.2.nextStates, h.2.quitted, h.2.negotiated, h.2.recipient, h.2.following⟩⟩
  | asked => exact ⟨h.1, ⟨h.2.state, h.2.nextStates, h.2.timer, h.2.quitted, h.2.negotiated, h.2.recipient, h.2.following⟩⟩
  | leaving => exact ⟨h.1, h.2.1.imp id fun h => ⟨h.1, hr.elim id fun e => e.trans h.2⟩, h.2.2⟩
  | left => exact h
  | answered => exact h
  | settled => exact h
  | lost => exact h

theorem Like.stays {k k' : Kid} {st : St} {p : Pos} (h : Stays k st p) (l : Like k k') : Stays k' st p := by
  obtain ⟨x, r, hr, rfl⟩ := l
  exact ⟨h.linked, h.state, h.nextStates, h.quitted, h.negotiated, h.following, h.apart⟩

theorem Like.accepted {k k' : Kid} (l : Like k k') (h : Server.hasAcceptedRecipient k.ctx = true) :
    Server.hasAcceptedRecipient k'.ctx = true := by
  obtain ⟨x, r, hr, rfl⟩ := l
  rcases hr with rfl | rfl
  · rfl
  · exact h

theorem Like.apart {k k' : Kid} (l : Like k k') : Apart k k' := by
  obtain ⟨x, r, hr, rfl⟩ := l
  exact ⟨rfl, rfl, rfl, rfl, rfl, rfl, id, rfl, fun _ h => .inl h, id, id⟩

theorem Like.message {k k' : Kid} (l : Like k k') : inMessage k' = inMessage k := by
  obtain ⟨x, r, hr, rfl⟩ := l
  rfl

/-- nothing happened as far as the conversation is concerned -/
structure Hush (u u' : Sys) : Prop where
  oracle : u'.oracle = u.oracle
  queue : u'.replyQueue = u.replyQueue
  count : u'.count = u.count
  state : u'.processingState = u.processingState
  pending : u'.pending = u.pending
  statuses : u'.statuses = u.statuses
  code : u'.code = u.code
  told : told u'.out = told u.out
  sent : commands u'.out = commands u.out
  kids : ∀ i, Like (u.kids i) (u'.kids i)
  frame : Frame u u'
  current : u'.state = u.state

theorem Hush.trans {a b c : Sys} (h : Hush a b) (h' : Hush b c) : Hush a c :=
  ⟨h'.oracle.trans h.oracle, h'.queue.trans h.queue, h'.count.trans h.count, h'.state.trans h.state, h'.pending.trans h.pending,
    h'.statuses.trans h.statuses, h'.code.trans h.code, h'.told.trans h.told, h'.sent.trans h.sent,
    fun i => (h.kids i).trans (h'.kids i), h.frame.trans h'.frame, h'.current.trans h.current⟩

theorem Hush.due {u u' : Sys} (h : Hush u u') (i : Nat) : due u' i = due u i := by
  obtain ⟨x, r, _, e⟩ := h.kids i
  unfold Phase.due
  rw [e]

theorem Inv.hush {held : Option Pending} {s u u' : Sys} {base : List (Nat × Cmd)} {who : List Nat} {st : St} {t : Talk} (h : Inv s base who st t u held)
    (q : Hush u u') : Inv s base who st t u' held := by
  have hc := h.core
  have hf : Following who st t u → Following who st t u' := fun f i hi hp => Like.stays (f i hi hp) (q.kids i)
  refine ⟨⟨hc.parallel, hc.distinct, hc.nonempty, hc.range, q.count.trans hc.count, q.oracle.trans hc.oracle,
    fun i hi => Like.kept (hc.kept i hi) (q.kids i), fun i hi => Like.at' (hc.at' i hi) (q.kids i), hc.outside, hc.inside,
    hc.options, hc.spoken, hc.proper, hc.fallbacks, fun i hi => (hc.others i hi).trans (q.kids i).apart,
    hc.frame.trans q.frame, fun hd i hi hx => (q.kids i).accepted (hc.accepted hd i hi hx)⟩, q.queue.trans h.queue, fun ho => ?_, fun hs => ?_⟩
  · obtain ⟨a, b⟩ := h.undecided ho
    exact ⟨⟨q.state.trans a.state, q.current.trans a.current, q.pending.trans a.pending, by rw [q.statuses]; exact a.status, q.code.trans a.code,
      q.told.trans a.told, q.sent.trans a.sent, fun i hi => by rw [q.due]; exact a.due i hi⟩, hf b⟩
  · have a := h.settled hs
    refine ⟨q.pending.trans a.pending, by rw [q.code]; exact a.code, fun i hi hp => ?_,
      fun i hi => by rw [q.due]; exact a.due i hi, q.told.trans a.told, fun he => ?_, fun he => ?_⟩
    · obtain ⟨b1, b2, b3, b4⟩ := a.rest i hi hp
      have l := (q.kids i).apart
      exact ⟨l.linked.trans b1, l.alive.trans b2, fun x hx => (l.next x hx).elim (b3 x) id, by rw [q.due]; exact b4⟩
    · obtain ⟨f, y, c⟩ := a.going he
      exact ⟨hf f, q.current.trans y, q.sent.trans c⟩
    · obtain ⟨f, x, c, rest⟩ := a.over he
      refine ⟨fun i hi => ?_, x, q.sent.trans c, rest⟩
      rw [(q.kids i).message]; exact f i hi

theorem hush_heard (u : Sys) (i : Nat) (sig : Server.Signal) : Hush u (logged u (.heard i sig)) :=
  ⟨rfl, rfl, rfl, rfl, rfl, rfl, rfl, by simp [logged, told], by simp [logged, commands], fun _ => .refl _, .refl u, rfl⟩

theorem hush_closed (u : Sys) (i : Nat) : Hush u (logged u (.closed i)) :=
  ⟨rfl, rfl, rfl, rfl, rfl, rfl, rfl, by simp [logged, told], by simp [logged, commands], fun _ => .refl _, .refl u, rfl⟩

theorem hush_ctx (u : Sys) (i : Nat) (x : List (List Server.Action)) (r : Option Server.Result)
    (hr : r = none ∨ r = (u.kids i).ctx.result := by exact .inr rfl) :
    Hush u (withCtx u i { (u.kids i).ctx with stack := x, result := r }) := by
  refine ⟨rfl, rfl, rfl, rfl, rfl, rfl, rfl, rfl, rfl, fun j => ?_, .refl u, rfl⟩
  by_cases h : j = i
  · subst h; rw [withCtx_kid]; exact ⟨x, r, hr, rfl⟩
  · rw [withCtx_other _ _ _ _ h]; exact .refl _

/-! ## Interrupted functions -/

theorem resume_nil {n i : Nat} {u : Sys} {stack : List (List Server.Action)} (ho : u.oracle = [])
    (hs : (u.kids i).ctx.stack = [] :: stack) :
    ∃ u', dispatch (n + 1) (.resume i) u = some ((), u') ∧ Hush u u' ∧ (u'.kids i).ctx.stack = stack := by
  refine ⟨_, resume_eq (f := []) ho hs rfl, hush_ctx u i stack (u.kids i).ctx.result, ?_⟩
  rw [withCtx_ctx]

theorem resume_step {n i : Nat} {u : Sys} (ho : u.oracle = []) :
    dispatch (n + 1) (.resume i) u = (stepCtx (dispatch n) i (.handlerReturns true) >>= fun _ => pure ()) u := by
  show (ask >>= fun x => match x with | (_, ok) => (do let _ ← stepCtx (dispatch n) i (.handlerReturns ok) : M Unit)) u = _
  rw [bind_eq (ask_eq ho)]

theorem exec_go {c c' : Server.State} {a : Server.Action} {rest : List Server.Action} (h : Server.act c true a = Server.go c') :
    Server.exec c true (a :: rest) = Server.exec c' true rest := by
  show (let o := Server.act c true a
    if o.paused then ({ o.st with stack := (o.after ++ rest) :: o.st.stack }, o.out)
    else
      let (s', out) := Server.exec o.st true rest
      (s', o.out ++ out)) = _
  rw [h]
  rfl

theorem exec_pause {c c' : Server.State} {a : Server.Action} {rest after : List Server.Action} {out : List Server.Item}
    (h : Server.act c true a = Server.pause c' out after) :
    Server.exec c true (a :: rest) = ({ c' with stack := (after ++ rest) :: c'.stack }, out) := by
  show (let o := Server.act c true a
    if o.paused then ({ o.st with stack := (o.after ++ rest) :: o.st.stack }, o.out)
    else
      let (s', out) := Server.exec o.st true rest
      (s', o.out ++ out)) = _
  rw [h]
  rfl

theorem abort_quit_flushed {c : Server.State} (h : c.nextStates = [.abort, .quit]) (hr : c.result = none) :
    ∃ c' : Server.State, Server.flushed c true =
        ({ c' with stack := [.enter .quit, .transited .quit] :: c'.stack }, [.emit (.stateTransited .abort)]) ∧
      c'.timer = none ∧ c'.stack = c.stack ∧ c'.option = c.option ∧ (MsgBlank c → MsgBlank c') ∧ c'.result = none := by
  have hx : ∃ v, Server.abortFlushed { c with nextStates := [] } =
      Server.setState { c with nextStates := [], timer := none, status := v } .abort := by
    unfold Server.abortFlushed
    dsimp only
    split
    · split <;> exact ⟨_, rfl⟩
    · exact ⟨_, rfl⟩
  obtain ⟨v, hx⟩ := hx
  refine ⟨Server.resetMessage (Server.setState { c with nextStates := [], timer := none, status := v } .abort), ?_, rfl, rfl, rfl,
    fun h => ⟨h.1, rfl, rfl, rfl, rfl⟩, rfl⟩
  have e : Server.flushed c true = Server.exec { c with nextStates := [] } true
      [.abortFlushed, .processed .always, .resetMessage, .transited .abort, .enter .quit, .transited .quit] := by
    unfold Server.flushed
    rw [h]
    rfl
  rw [e]
  refine (exec_go rfl).trans ?_
  rw [hx]
  refine (exec_go (c' := Server.setState { c with nextStates := [], timer := none, status := v } .abort) ?_).trans ?_
  · simp [Server.act, Server.setState, Server.Cond.holds, hr]
  refine (exec_go rfl).trans ?_
  exact exec_pause (after := []) rfl

theorem resume_shutdown {n i : Nat} {u : Sys} {stack : List (List Server.Action)} (ho : u.oracle = [])
    (hs : (u.kids i).ctx.stack = [.shutdownAgent] :: stack) :
    ∃ u', dispatch (n + 1) (.resume i) u = some ((), u') ∧ Hush u u' ∧ (u'.kids i).ctx.stack = stack := by
  refine ⟨logged (withCtx u i { (u.kids i).ctx with stack := stack }) (.closed i), ?_,
    (hush_ctx u i stack (u.kids i).ctx.result).trans (hush_closed _ i), ?_⟩
  · rw [resume_step ho]
    have : stepCtx (dispatch n) i (.handlerReturns true) u =
        some (true, logged (withCtx u i { (u.kids i).ctx with stack := stack }) (.closed i)) := by
      rw [stepCtx_eq]
      simp only [Server.step, hs, Server.exec, Server.act, Server.go]
      rfl
    rw [bind_eq this]
    rfl
  · show ((withCtx u i _).kids i).ctx.stack = stack
    rw [withCtx_ctx]

theorem exec_tail {c : Server.State} {g : List Server.Action} (hg : g = [] ∨ g = [.clearIfBody]) (hb : c.state ≠ .body) :
    Server.exec c true g = (c, []) := by
  rcases hg with rfl | rfl
  · rfl
  · simp [Server.exec, Server.act, hb, Server.go]

theorem retry_none {d : Dispatch} {i : Nat} {u : Sys} {sig : Server.Signal} (hr : (u.kids i).tryRetry = none) :
    tryHandler d i sig u = some ((), u) := by
  unfold tryHandler
  rw [get_bind, hr]
  rfl

/-- the notice that a message was processed is of no interest -/
theorem processed_signal {n i : Nat} {u : Sys} {v : Status} {r : Server.Result} (hr : (u.kids i).tryRetry = none) :
    ∃ u', dispatch (n + 1) (.signal i (.messageProcessed v r)) u = some ((), u') ∧ Hush u u' ∧ u'.kids = u.kids := by
  rw [dispatch_signal, bind_eq (retry_none hr), get_bind]
  cases hl : (u.kids i).linked with
  | true => exact ⟨_, rfl, hush_heard u i _, rfl⟩
  | false =>
    exact ⟨u, rfl, ⟨rfl, rfl, rfl, rfl, rfl, rfl, rfl, rfl, rfl, fun _ => .refl _, .refl u, rfl⟩, rfl⟩

theorem resume_frame {n i : Nat} {u : Sys} {f : List Server.Action} {stack : List (List Server.Action)} (ho : u.oracle = [])
    (hs : (u.kids i).ctx.stack = f :: stack) (hf : IsFrame f) (hb : (u.kids i).ctx.state ≠ .body)
    (hr : (u.kids i).tryRetry = none) :
    ∃ u', dispatch (n + 2) (.resume i) u = some ((), u') ∧ Hush u u' := by
  obtain ⟨c, g, rfl, hg⟩ := hf
  obtain ⟨k, hk⟩ : ∃ k, k = (u.kids i).ctx := ⟨_, rfl⟩
  have simple : (∀ x : Server.State, x.state = k.state → x.result = k.result → x.status = k.status →
      Server.act x true (.processed c) = Server.go x) →
      ∃ u', dispatch (n + 2) (.resume i) u = some ((), u') ∧ Hush u u' := by
    intro hact
    refine ⟨_, resume_eq (n := n + 1) ho hs (x := { k with stack := stack }) ?_, ?_⟩
    · rw [← hk]
      exact (exec_go (hact { k with stack := stack } rfl rfl rfl)).trans (exec_tail hg (by rw [hk]; exact hb))
    · rw [hk]; exact hush_ctx u i stack (u.kids i).ctx.result
  cases hc : c.holds k with
  | false =>
    refine simple fun x h1 h2 h3 => ?_
    have : c.holds x = false := by
      rw [← hc]; cases c <;> simp only [Server.Cond.holds, h1]
    simp [Server.act, this]
  | true =>
    cases hres : k.result with
    | none =>
      refine simple fun x h1 h2 h3 => ?_
      have : c.holds x = true := by
        rw [← hc]; cases c <;> simp only [Server.Cond.holds, h1]
      simp [Server.act, this, h2, hres]
    | some r =>
      obtain ⟨u1, hu1⟩ : ∃ u1, u1 = withCtx u i { k with stack := (.dropResult :: g) :: stack } := ⟨_, rfl⟩
      have q1 : Hush u u1 := by
        have := hush_ctx u i ((.dropResult :: g) :: stack) (u.kids i).ctx.result
        rw [hu1, hk]; exact this
      have r1 : (u1.kids i).tryRetry = none := by rw [hu1, withCtx_kid]; exact hr
      obtain ⟨u2, h2, q2, k2⟩ := processed_signal (n := n) (i := i) (u := u1) (v := k.status) (r := r.reported k.state) r1
      have c2 : (u2.kids i).ctx = { k with stack := (.dropResult :: g) :: stack } := by rw [k2, hu1, withCtx_ctx]
      obtain ⟨u3, hu3⟩ : ∃ u3, u3 = withCtx u2 i { k with stack := stack, result := none } := ⟨_, rfl⟩
      have q3 : Hush u2 u3 := by
        have := hush_ctx u2 i stack none (.inl rfl)
        rw [c2] at this
        rw [hu3]; exact this
      refine ⟨u3, ?_, (q1.trans q2).trans q3⟩
      rw [resume_step ho]
      have : stepCtx (dispatch (n + 1)) i (.handlerReturns true) u = some (true, u3) := by
        have hh : c.holds { k with stack := stack } = true := by
          rw [← hc]; cases c <;> rfl
        have hx : Server.exec { k with stack := stack } true (.processed c :: g) =
            ({ k with stack := (.dropResult :: g) :: stack }, [.emit (.messageProcessed k.status (r.reported k.state))]) := by
          have : Server.act { k with stack := stack } true (.processed c) =
              Server.pause { k with stack := stack } [.emit (.messageProcessed k.status (r.reported k.state))] [.dropResult] := by
            show (if Server.Cond.holds _ c = true then _ else _) = _
            rw [hh, if_pos rfl]
            simp only [hres]
          exact exec_pause this
        rw [stepCtx_eq]
        simp only [Server.step, hs]
        rw [← hk, hx, ← hu1]
        refine drive_emit (s1 := u2) h2 ?_
        rw [hu3]
        refine resume_eq (n := n) (f := .dropResult :: g) (stack := stack) ?_ (by rw [c2]) ?_
        · rw [q2.oracle, q1.oracle, ho]
        · rw [c2]
          exact (exec_go (c' := { k with stack := stack, result := none }) rfl).trans (exec_tail hg (by rw [hk]; exact hb))
      rw [bind_eq this]
      rfl

/-! ## A step of one milter -/

/-- only milter `i` has changed -/
structure Near (u y : Sys) (i : Nat) : Prop where
  oracle : y.oracle = u.oracle
  queue : y.replyQueue = u.replyQueue
  count : y.count = u.count
  state : y.processingState = u.processingState
  pending : y.pending = u.pending
  statuses : y.statuses = u.statuses
  code : y.code = u.code
  told : told y.out = told u.out
  sent : commands y.out = commands u.out
  kids : ∀ j, j ≠ i → y.kids j = u.kids j
  frame : Frame u y
  current : y.state = u.state

theorem Near.trans {a b c : Sys} {i : Nat} (h : Near a b i) (h' : Near b c i) : Near a c i :=
  ⟨h'.oracle.trans h.oracle, h'.queue.trans h.queue, h'.count.trans h.count, h'.state.trans h.state, h'.pending.trans h.pending,
    h'.statuses.trans h.statuses, h'.code.trans h.code, h'.told.trans h.told, h'.sent.trans h.sent,
    fun j hj => (h'.kids j hj).trans (h.kids j hj), h.frame.trans h'.frame, h'.current.trans h.current⟩

theorem near_ctx (u : Sys) (i : Nat) (c : Server.State) : Near u (withCtx u i c) i :=
  ⟨rfl, rfl, rfl, rfl, rfl, rfl, rfl, rfl, rfl, fun _ hj => withCtx_other _ _ _ _ hj, .refl u, rfl⟩

theorem near_heard (u : Sys) (i : Nat) (sig : Server.Signal) : Near u (logged u (.heard i sig)) i :=
  ⟨rfl, rfl, rfl, rfl, rfl, rfl, rfl, by simp [logged, told], by simp [logged, commands], fun _ _ => rfl, .refl u, rfl⟩

theorem near_closed (u : Sys) (i : Nat) : Near u (logged u (.closed i)) i :=
  ⟨rfl, rfl, rfl, rfl, rfl, rfl, rfl, by simp [logged, told], by simp [logged, commands], fun _ _ => rfl, .refl u, rfl⟩

theorem Near.refl (u : Sys) (i : Nat) : Near u u i := ⟨rfl, rfl, rfl, rfl, rfl, rfl, rfl, rfl, rfl, fun _ _ => rfl, .refl u, rfl⟩

theorem erase_filter {who : List Nat} (hd : who.Nodup) (t t' : Talk) (i : Nat) {p : Pos} (hpos : t'.pos = (t.put i p).pos)
    (hp : p.isOpen = false) :
    (who.filter fun j => (t.pos j).isOpen).erase i = who.filter fun j => (t'.pos j).isOpen := by
  rw [List.Nodup.erase_eq_filter (hd.filter _), List.filter_filter]
  apply List.filter_congr
  intro j _
  rw [hpos]
  by_cases h : j = i
  · subst h; simp [Talk.put, hp]
  · simp [Talk.put, h]

theorem same_filter {who : List Nat} (t t' : Talk) (i : Nat) {p : Pos} (hpos : t'.pos = (t.put i p).pos)
    (hp : p.isOpen = (t.pos i).isOpen) :
    (who.filter fun j => (t.pos j).isOpen) = who.filter fun j => (t'.pos j).isOpen := by
  apply List.filter_congr
  intro j _
  rw [hpos]
  by_cases h : j = i
  · subst h; simp [Talk.put, hp]
  · simp [Talk.put, h]

section
variable {held : Option Pending} {s u x : Sys} {base : List (Nat × Cmd)} {who : List Nat} {st : St} {t t' : Talk} {i : Nat}

theorem Inv.isOpen (_h : Inv s base who st t u held) (hi : i ∈ who) (ho : (t.pos i).isOpen = true) : t.isOpen who = true :=
  List.any_eq_true.mpr ⟨i, hi, ho⟩

theorem same_result {c c' : Server.State} (h : Server.hasAcceptedRecipient c = true) (hr : c'.result = c.result) :
    Server.hasAcceptedRecipient c' = true := by
  unfold Server.hasAcceptedRecipient at h ⊢
  rw [hr]
  exact h

/-- milter `i` moves on to `p` -/
theorem update {p : Pos} {base' : List (Nat × Cmd)} (h : Inv s base who st t u held) (hi : i ∈ who) (hopen : t.isOpen who = true)
    (hpos : t'.pos = (t.put i p).pos) (hkids : ∀ j, j ≠ i → x.kids j = u.kids j) (hkept : Kept (s.kids i) (x.kids i))
    (hat : At (x.kids i) st p) (hans : stays p = true → Stays (x.kids i) st p) (hp : p ≠ .none)
    (hframe : Frame u x) (hcur : x.state = u.state) (hcount : x.count = u.count) (hor : x.oracle = u.oracle) (hstate : x.processingState = u.processingState)
    (hpend : x.pending = u.pending) (hstat : x.statuses st = worst t') (hcode : x.code = t'.code)
    (htold : told x.out = told u.out) (hsent : commands x.out = base' ++ t'.dismissed.map (·, .quit))
    (hvotes : ∀ v ∈ t'.votes, Proper v) (hsp : spokeAt p = true → t'.votes ≠ []) (hmono : t.votes ≠ [] → t'.votes ≠ [])
    (hacc : st = .data → Server.hasAcceptedRecipient (u.kids i).ctx = true → Server.hasAcceptedRecipient (x.kids i).ctx = true) :
    Core s who st t' x ∧ Undecided s base' who st t' x held ∧ Following who st t' x := by
  have hc := h.core
  obtain ⟨hu, hf⟩ := h.undecided hopen
  have hpi : t'.pos i = p := by rw [hpos]; simp [Talk.put]
  have hpj : ∀ j, j ≠ i → t'.pos j = t.pos j := fun j hj => by rw [hpos]; simp [Talk.put, hj]
  refine ⟨⟨hc.parallel, hc.distinct, hc.nonempty, hc.range, hcount.trans hc.count, hor.trans hc.oracle, fun j hj => ?_, fun j hj => ?_,
    fun j hj => ?_, fun j hj => ?_, hc.options, fun j hj hsj => ?_, hvotes, hc.fallbacks, fun j hj => ?_,
      hc.frame.trans hframe, fun hd j hj hx => ?_⟩,
    ⟨hstate.trans hu.state, hcur.trans hu.current, hpend.trans hu.pending, hstat, hcode, htold.trans hu.told, hsent, fun j hj => ?_⟩,
    fun j hj hpj' => ?_⟩
  · by_cases hji : j = i
    · subst hji; exact hkept
    · rw [hkids j hji]; exact hc.kept j hj
  · by_cases hji : j = i
    · subst hji; rw [hpi]; exact hat
    · rw [hkids j hji, hpj j hji]; exact hc.at' j hj
  · have hji : j ≠ i := fun e => hj (by rw [e]; exact hi)
    rw [hpj j hji]; exact hc.outside j hj
  · by_cases hji : j = i
    · subst hji; rw [hpi]; exact hp
    · rw [hpj j hji]; exact hc.inside j hj
  · by_cases hji : j = i
    · subst hji; rw [hpi] at hsj; exact hsp hsj
    · rw [hpj j hji] at hsj; exact hmono (hc.spoken j hj hsj)
  · have hji : j ≠ i := fun e => hj (by rw [e]; exact hi)
    rw [hkids j hji]; exact hc.others j hj
  · have := hc.accepted hd j hj hx
    by_cases hji : j = i
    · subst hji; exact hacc hd this
    · rw [hkids j hji]; exact this
  · have hji : j ≠ i := fun e => hj (by rw [e]; exact hi)
    have := hu.due j hj
    unfold Phase.due at this ⊢
    rw [hkids j hji]; exact this
  · by_cases hji : j = i
    · subst hji; rw [hpi] at hpj' ⊢; exact hans hpj'
    · rw [hpj j hji] at hpj' ⊢; rw [hkids j hji]; exact hf j hj hpj'

/-- it stays involved, or its part was over before -/
theorem update_inv {p : Pos} {base' : List (Nat × Cmd)} (h : Inv s base who st t u held) (hopen : t.isOpen who = true)
    (hpos : t'.pos = (t.put i p).pos) (hp : p.isOpen = (t.pos i).isOpen) (hq : x.replyQueue = u.replyQueue)
    (hx : Core s who st t' x ∧ Undecided s base' who st t' x held ∧ Following who st t' x) : Inv s base' who st t' x held := by
  have hsame := same_filter (who := who) t t' i hpos hp
  have : t'.isOpen who = true := by
    cases ho : t'.isOpen who with
    | true => rfl
    | false =>
      rw [isOpen_iff, ← hsame, ← isOpen_iff, hopen] at ho
      cases ho
  refine ⟨hx.1, by rw [hq, h.queue, hsame], fun _ => hx.2, fun ho => ?_⟩
  rw [this] at ho
  cases ho

/-- the same milter, as far as what it was doing is concerned -/
structure Firm (k k' : Kid) : Prop where
  stack : k'.ctx.stack = k.ctx.stack
  state : k'.ctx.state = k.ctx.state
  retry : k'.tryRetry = k.tryRetry
  linked : k'.linked = k.linked

theorem Tame.firm {k k' : Kid} (h : Tame k k') : Firm k k' := ⟨h.stack, h.state, h.retry, h.linked⟩

/-- what is reached when the part of a milter is over -/
structure Reach (held : Option Pending) (s : Sys) (base : List (Nat × Cmd)) (who : List Nat) (st : St) (t : Talk) (Q : Sys → Prop) :
    Prop where
  hush : ∀ {u u' : Sys}, Q u → Hush u u' → Q u'
  oracle : ∀ {u : Sys}, Q u → u.oracle = []
  still : ∀ {u : Sys}, t.isOpen who = true → Inv s base who st t u held → Q u
  remove : ∀ {d : Dispatch} {u : Sys} {i : Nat}, Core s who st t u → Undecided s base who st t u held → Following who st t u →
    (u.replyQueue.erase i = who.filter fun i => (t.pos i).isOpen) →
    ∃ u', removeFromQueue d i u = some ((), u') ∧ Q u' ∧ ∀ j, Firm (u.kids j) (u'.kids j)

theorem Reach.inv (h : Fits held t who) : Reach held s base who st t fun u => Inv s base who st t u held :=
  ⟨fun h q => h.hush q, fun h => h.core.oracle, fun _ h => h, fun hc hu hf hq => by
    obtain ⟨u', h1, h2, h3⟩ := Phase.remove hc hu hf hq h
    exact ⟨u', h1, h2, fun j => (h3 j).firm⟩⟩

/-- its part is over now -/
theorem update_remove {d : Dispatch} {p : Pos} (h : Inv s base who st t u held)
    (hpos : t'.pos = (t.put i p).pos) (hp : p.isOpen = false) (hq : x.replyQueue = u.replyQueue)
    (hx : Core s who st t' x ∧ Undecided s base who st t' x held ∧ Following who st t' x)
    {Q : Sys → Prop} (hQ : Reach held s base who st t' Q) :
    ∃ u', removeFromQueue d i x = some ((), u') ∧ Q u' ∧ ∀ j, Firm (x.kids j) (u'.kids j) := by
  refine hQ.remove hx.1 hx.2.1 hx.2.2 ?_
  rw [hq, h.queue]
  exact erase_filter h.core.distinct t t' i hpos hp

theorem worst_vote (t : Talk) (v : Status) (t' : Talk) (h : t'.votes = t.votes ++ [v]) :
    worst t' = Status.compile (worst t) v := by
  unfold worst Status.compileAll
  rw [h, List.foldl_append]
  rfl

/-! ## Failures -/

def expired' (k : Kid) : Kid := { k with ctx := { k.ctx with quitted := true }, linked := false }

theorem expire_eq (y : Sys) (i : Nat) : expire i y = some ((), { y with kids := updKid y.kids i (expired' (y.kids i)) }) := rfl

/-- milter `i` has failed after it got the command -/
theorem failed {d : Dispatch} {y : Sys} (h : Inv s base who st t u held) (hi : i ∈ who) (hp : (t.pos i).isOpen = true) (hn : Near u y i)
    (hk : Kept (s.kids i) (y.kids i)) (hs : (y.kids i).ctx.state = st)
    (hacc : Server.hasAcceptedRecipient (u.kids i).ctx = true → Server.hasAcceptedRecipient (y.kids i).ctx = true)
    {Q : Sys → Prop} (hQ : Reach held s base who st ((t.put i .lost).vote (s.kids i).fallback) Q) :
    ∃ u', cbFailed d i y = some ((), u') ∧ Q u' ∧
      (u'.kids i).ctx.stack = (y.kids i).ctx.stack := by
  have hopen := h.isOpen hi hp
  obtain ⟨hu, hf⟩ := h.undecided hopen
  obtain ⟨z, hz⟩ : ∃ z : Sys, z = { voted y st (y.kids i).fallback with
    kids := updKid y.kids i (expired' (y.kids i)) } := ⟨_, rfl⟩
  have hki : z.kids i = expired' (y.kids i) := by rw [hz]; simp [updKid]
  obtain ⟨u', h1, h2, h3⟩ := update_remove (d := d) (x := z) (t' := (t.put i .lost).vote (s.kids i).fallback) (p := .lost) h rfl rfl
    (by rw [hz]; exact hn.queue)
    (update h hi hopen rfl (fun j hj => by rw [hz]; simp [updKid, hj]; exact hn.kids j hj)
      (by rw [hki]; exact ⟨hk.fallback, hk.evaluation, hk.option, hk.retry, hk.body⟩)
      (by rw [hki]; exact ⟨rfl, rfl⟩) (fun h => nomatch h) (fun h => nomatch h) (by rw [hz]; exact hn.frame) (by rw [hz]; exact hn.current)
      (by rw [hz]; exact hn.count) (by rw [hz]; exact hn.oracle)
      (by rw [hz]; exact hn.state) (by rw [hz]; exact hn.pending)
      (by
        rw [worst_vote t (s.kids i).fallback _ rfl, ← hu.status, ← hn.statuses, ← hk.fallback, hz]
        simp [voted, setStatusOf])
      (by rw [hz]; exact hn.code.trans hu.code) (by rw [hz]; exact hn.told) (by rw [hz]; exact hn.sent.trans hu.sent)
      (fun v hv => by
        rcases List.mem_append.mp hv with hv | hv
        · exact h.core.proper v hv
        · rw [List.mem_singleton.mp hv]; exact h.core.fallbacks i hi)
      (fun _ => by simp [Talk.vote]) (fun _ => by simp [Talk.vote]) (fun _ h => by rw [hki]; exact hacc h)) hQ
  refine ⟨u', ?_, h2, ?_⟩
  · unfold cbFailed
    rw [get_bind, compile_eq, hs, bind_eq (expire_eq _ _)]
    rw [hz] at h1
    exact h1
  · rw [(h3 i).stack, hki]; rfl

/-! ## Events -/

theorem flush_written {n : Nat} (h : Inv s base who st t u held) (hp : t.pos i = .written) :
    ∃ u', next (n + 1) u (.flushed i) [] = some u' ∧ Inv s base who st (t.put i .asked) u' held := by
  have hi : i ∈ who := by
    by_cases hi : i ∈ who
    · exact hi
    · rw [h.core.outside i hi] at hp; cases hp
  have hop : (t.pos i).isOpen = true := by rw [hp]; rfl
  have hopen := h.isOpen hi hop
  obtain ⟨hu, hf⟩ := h.undecided hopen
  have hat := h.core.at' i hi
  rw [hp] at hat
  obtain ⟨hl, hw⟩ := hat
  have hk := h.core.kept i hi
  obtain ⟨c', h1, h2, h3, h4, h40, h41⟩ := flushed_asked hw h.core.parallel (by rw [hk.option]; exact h.core.options i hi)
  obtain ⟨u1, hu1⟩ : ∃ u1, u1 = withCtx u i { c' with stack := [] :: c'.stack } := ⟨_, rfl⟩
  have k1 : u1.kids i = { (u.kids i) with ctx := { c' with stack := [] :: c'.stack } } := by rw [hu1, withCtx_kid]
  have n1 : Near u u1 i := by rw [hu1]; exact near_ctx _ _ _
  have inv1 : Inv s base who st (t.put i .asked) u1 held :=
    update_inv (p := .asked) h hopen rfl (by rw [hp]; rfl) n1.queue
      (update h hi hopen rfl n1.kids (by rw [k1]; exact ⟨hk.fallback, hk.evaluation, h4.trans hk.option, hk.retry, fun x => h40 (hk.body x)⟩)
        (by rw [k1]; exact ⟨hl, ⟨h2.state, h2.nextStates, h2.timer, h2.quitted, h2.negotiated, h2.recipient, h2.following⟩⟩)
        (fun h => nomatch h) (fun h => nomatch h) n1.frame n1.current n1.count n1.oracle n1.state n1.pending
        (by rw [n1.statuses]; exact hu.status) (n1.code.trans hu.code) n1.told (n1.sent.trans hu.sent) h.core.proper
        (fun h => nomatch h) id (fun _ h => by rw [k1]; exact same_result h h41))
  have l1 : (u1.kids i).linked = true := by rw [k1]; exact hl
  obtain ⟨u2, hu2⟩ : ∃ u2, u2 = logged u1 (.heard i (.stateTransited st)) := ⟨_, rfl⟩
  obtain ⟨u3, h5, h6, _⟩ := resume_nil (n := n) (i := i) (u := u2) (stack := c'.stack)
    (by rw [hu2]; exact inv1.core.oracle)
    (by rw [hu2]; show (u1.kids i).ctx.stack = _; rw [k1])
  refine ⟨u3, next_eq h.core.oracle ?_, inv1.hush ((by rw [hu2]; exact hush_heard _ _ _ : Hush u1 u2).trans h6)⟩
  rw [flushed_step h.core.oracle]
  have : stepCtx (dispatch (n + 1)) i (.flushed true) u = some (true, u3) := by
    rw [stepCtx_eq]
    simp only [Server.step, h1]
    rw [← hu1]
    exact drive_emit (s1 := u2) (by rw [hu2]; exact signal_ignored l1 (.inl ⟨st, rfl⟩)) h5
  rw [bind_eq this]
  rfl

theorem flush_quit {n : Nat} (h : Inv s base who st t u held) (hi : i ∈ who) (hp : t.pos i = .leaving)
    (hl : (u.kids i).linked = true) (hw : (u.kids i).ctx.nextStates = [.quit]) :
    ∃ u', next (n + 1) u (.flushed i) [] = some u' ∧ Inv s base who st (t.put i .left) u' held := by
  have hop : (t.pos i).isOpen = true := by rw [hp]; rfl
  have hopen := h.isOpen hi hop
  obtain ⟨hu, hf⟩ := h.undecided hopen
  have hk := h.core.kept i hi
  obtain ⟨c', h1, h2, h3, h4, h40, h41⟩ := quit_flushed hw
  obtain ⟨u0, hu0⟩ : ∃ u0, u0 = withCtx u i { c' with stack := [] :: c'.stack } := ⟨_, rfl⟩
  obtain ⟨u1, hu1⟩ : ∃ u1, u1 = logged u0 (.closed i) := ⟨_, rfl⟩
  have k1 : u1.kids i = { (u.kids i) with ctx := { c' with stack := [] :: c'.stack } } := by
    rw [hu1, hu0]; exact withCtx_kid _ _ _
  have n1 : Near u u1 i := by rw [hu1, hu0]; exact (near_ctx _ _ _).trans (near_closed _ _)
  have inv1 : Inv s base who st (t.put i .left) u1 held :=
    update_inv (p := .left) h hopen rfl (by rw [hp]; rfl) n1.queue
      (update h hi hopen rfl n1.kids (by rw [k1]; exact ⟨hk.fallback, hk.evaluation, h4.trans hk.option, hk.retry, fun x => h40 (hk.body x)⟩)
        (by rw [k1]; exact ⟨hl, h2⟩)
        (fun h => nomatch h) (fun h => nomatch h) n1.frame n1.current n1.count n1.oracle n1.state n1.pending
        (by rw [n1.statuses]; exact hu.status) (n1.code.trans hu.code) n1.told (n1.sent.trans hu.sent) h.core.proper
        (fun _ => h.core.spoken i hi (by rw [hp]; rfl)) id (fun _ h => by rw [k1]; exact same_result h h41))
  have l1 : (u1.kids i).linked = true := by rw [k1]; exact hl
  obtain ⟨u2, hu2⟩ : ∃ u2, u2 = logged u1 (.heard i (.stateTransited .quit)) := ⟨_, rfl⟩
  obtain ⟨u3, h5, h6, _⟩ := resume_nil (n := n) (i := i) (u := u2) (stack := c'.stack)
    (by rw [hu2]; exact inv1.core.oracle)
    (by rw [hu2]; show (u1.kids i).ctx.stack = _; rw [k1])
  refine ⟨u3, next_eq h.core.oracle ?_, inv1.hush ((by rw [hu2]; exact hush_heard _ _ _ : Hush u1 u2).trans h6)⟩
  rw [flushed_step h.core.oracle]
  have : stepCtx (dispatch (n + 1)) i (.flushed true) u = some (true, u3) := by
    rw [stepCtx_eq]
    simp only [Server.step, h1]
    rw [← hu0]
    show (log (.closed i) >>= fun _ => drive (dispatch (n + 1)) i [.emit (.stateTransited .quit)]) u0 = _
    rw [log_bind, ← hu1]
    exact drive_emit (s1 := u2) (by rw [hu2]; exact signal_ignored l1 (.inl ⟨.quit, rfl⟩)) h5
  rw [bind_eq this]
  rfl

theorem flush_leaving {n : Nat} (h : Inv s base who st t u held) (hp : t.pos i = .leaving) :
    ∃ u', next (n + 2) u (.flushed i) [] = some u' ∧ Inv s base who st (t.put i .left) u' held := by
  have hi : i ∈ who := by
    by_cases hi : i ∈ who
    · exact hi
    · rw [h.core.outside i hi] at hp; cases hp
  have hop : (t.pos i).isOpen = true := by rw [hp]; rfl
  have hopen := h.isOpen hi hop
  obtain ⟨hu, hf⟩ := h.undecided hopen
  have hat := h.core.at' i hi
  rw [hp] at hat
  obtain ⟨hl, hw, _⟩ := hat
  have hk := h.core.kept i hi
  rcases hw with hw | ⟨hw, hres⟩
  · exact flush_quit h hi hp hl hw
  obtain ⟨c', h1, h2, h3, h4, h40, h41⟩ := abort_quit_flushed hw hres
  obtain ⟨u1, hu1⟩ : ∃ u1, u1 = withCtx u i { c' with stack := [.enter .quit, .transited .quit] :: c'.stack } := ⟨_, rfl⟩
  have k1 : u1.kids i = { (u.kids i) with ctx := { c' with stack := [.enter .quit, .transited .quit] :: c'.stack } } := by
    rw [hu1]; exact withCtx_kid _ _ _
  obtain ⟨u2, hu2⟩ : ∃ u2, u2 = logged u1 (.heard i (.stateTransited .abort)) := ⟨_, rfl⟩
  have k2 : u2.kids i = u1.kids i := by rw [hu2]; rfl
  obtain ⟨c3, hc3⟩ : ∃ c3 : Server.State, c3 = Server.setState { c' with timer := none } .quit := ⟨_, rfl⟩
  obtain ⟨u3, hu3⟩ : ∃ u3, u3 = withCtx u2 i { c3 with stack := [] :: c'.stack } := ⟨_, rfl⟩
  obtain ⟨u4, hu4⟩ : ∃ u4, u4 = logged u3 (.closed i) := ⟨_, rfl⟩
  have k4 : u4.kids i = { (u.kids i) with ctx := { c3 with stack := [] :: c'.stack } } := by
    rw [hu4]
    show u3.kids i = _
    rw [hu3, withCtx_kid, k2, k1]
  have n1 : Near u u4 i := by
    rw [hu4, hu3, hu2, hu1]
    exact (((near_ctx _ _ _).trans (near_heard _ _ _)).trans (near_ctx _ _ _)).trans (near_closed _ _)
  have inv1 : Inv s base who st (t.put i .left) u4 held :=
    update_inv (p := .left) h hopen rfl (by rw [hp]; rfl) n1.queue
      (update h hi hopen rfl n1.kids
        (by
          rw [k4, hc3]
          exact ⟨hk.fallback, hk.evaluation, h4.trans hk.option, hk.retry, fun x => h40 (hk.body x)⟩)
        (by rw [k4, hc3]; exact ⟨hl, rfl⟩)
        (fun h => nomatch h) (fun h => nomatch h) n1.frame n1.current n1.count n1.oracle n1.state n1.pending
        (by rw [n1.statuses]; exact hu.status) (n1.code.trans hu.code) n1.told (n1.sent.trans hu.sent) h.core.proper
        (fun _ => h.core.spoken i hi (by rw [hp]; rfl)) id (fun _ h => by rw [k4, hc3]; exact same_result h (h41.trans hres.symm)))
  obtain ⟨u5, hu5⟩ : ∃ u5, u5 = logged u4 (.heard i (.stateTransited .quit)) := ⟨_, rfl⟩
  obtain ⟨u6, h5, h6, _⟩ := resume_nil (n := n) (i := i) (u := u5) (stack := c'.stack)
    (by rw [hu5]; exact inv1.core.oracle)
    (by rw [hu5]; show (u4.kids i).ctx.stack = _; rw [k4])
  refine ⟨u6, next_eq h.core.oracle ?_, inv1.hush ((by rw [hu5]; exact hush_heard _ _ _ : Hush u4 u5).trans h6)⟩
  rw [flushed_step h.core.oracle]
  have o2 : u2.oracle = [] := by rw [hu2, hu1]; exact h.core.oracle
  have hres2 : dispatch (n + 2) (.resume i) u2 = some ((), u6) := by
    rw [resume_step o2]
    have : stepCtx (dispatch (n + 1)) i (.handlerReturns true) u2 = some (true, u6) := by
      have hx : Server.step (u2.kids i).ctx (.handlerReturns true) =
          ({ c3 with stack := [] :: c'.stack }, [.shutdown, .emit (.stateTransited .quit)]) := by
        rw [k2, k1, hc3]
        simp [Server.step, Server.exec, Server.act, Server.enter, Server.setState, Server.go, Server.pause]
      rw [stepCtx_eq, hx, ← hu3]
      show (log (.closed i) >>= fun _ => drive (dispatch (n + 1)) i [.emit (.stateTransited .quit)]) u3 = _
      rw [log_bind, ← hu4]
      exact drive_emit (s1 := u5) (by rw [hu5]; exact signal_ignored (by rw [k4]; exact hl) (.inl ⟨.quit, rfl⟩)) h5
    rw [bind_eq this]
    rfl
  have : stepCtx (dispatch (n + 2)) i (.flushed true) u = some (true, u6) := by
    rw [stepCtx_eq]
    simp only [Server.step, h1]
    rw [← hu1]
    exact drive_emit (s1 := u2) (by rw [hu2]; exact signal_ignored (by rw [k1]; exact hl) (.inl ⟨.abort, rfl⟩)) hres2
  rw [bind_eq this]
  rfl

theorem in_who (h : Inv s base who st t u held) (hp : t.pos i ≠ .none) : i ∈ who := by
  by_cases hi : i ∈ who
  · exact hi
  · exact absurd (h.core.outside i hi) hp

/-- a signal of a milter that is handled -/
theorem signal_handled {n : Nat} {sig : Server.Signal} {y : Sys} (hl : (y.kids i).linked = true)
    (hr : (y.kids i).tryRetry = none) :
    dispatch (n + 1) (.signal i sig) y = handle (dispatch n) i sig (logged y (.heard i sig)) := by
  rw [dispatch_signal, bind_eq (retry_none hr), get_bind, if_pos hl, log_bind]

theorem event_error {n : Nat} (h : Inv s base who st t u held) (hp : t.pos i = .asked)
    {Q : Sys → Prop} (hQ : Reach held s base who st ((t.put i .lost).vote (s.kids i).fallback) Q) :
    ∃ u', next (n + 1) u (.error i) [] = some u' ∧ Q u' := by
  have hi := in_who (i := i) h (by rw [hp]; exact fun h => nomatch h)
  have hat := h.core.at' i hi
  rw [hp] at hat
  have hk := h.core.kept i hi
  obtain ⟨u', h1, h2, _⟩ := failed (d := dispatch n) h hi (by rw [hp]; rfl) (near_heard u i (.error .ioError)) hk hat.2.state id hQ
  refine ⟨u', next_eq h.core.oracle ?_, h2⟩
  show dispatch (n + 1) (.signal i (.error .ioError)) u = _
  rw [signal_handled hat.1 hk.retry]
  exact h1

theorem event_timeout {n : Nat} (h : Inv s base who st t u held) (hp : t.pos i = .asked)
    {Q : Sys → Prop} (hQ : Reach held s base who st ((t.put i .lost).vote (s.kids i).fallback) Q) :
    ∃ u', next (n + 1) u (.timeout i) [] = some u' ∧ Q u' := by
  have hi := in_who (i := i) h (by rw [hp]; exact fun h => nomatch h)
  have hat := h.core.at' i hi
  rw [hp] at hat
  have hk := h.core.kept i hi
  have h1 := timeout_asked hat.2
  obtain ⟨u1, hu1⟩ : ∃ u1, u1 = withCtx u i
    { (u.kids i).ctx with timer := some .fired, stack := [.shutdownAgent] :: (u.kids i).ctx.stack } := ⟨_, rfl⟩
  have k1 : u1.kids i = { (u.kids i) with ctx :=
    { (u.kids i).ctx with timer := some .fired, stack := [.shutdownAgent] :: (u.kids i).ctx.stack } } := by
    rw [hu1, withCtx_kid]
  have n1 : Near u (logged u1 (.heard i .readingTimeout)) i := by
    rw [hu1]; exact (near_ctx _ _ _).trans (near_heard _ _ _)
  obtain ⟨u2, h2, h3, h4⟩ := failed (d := dispatch n) (y := logged u1 (.heard i .readingTimeout)) h hi (by rw [hp]; rfl) n1
    (by show Kept _ (u1.kids i); rw [k1]; exact ⟨hk.fallback, hk.evaluation, hk.option, hk.retry, hk.body⟩)
    (by show (u1.kids i).ctx.state = st; rw [k1]; exact hat.2.state) (fun h => by show Server.hasAcceptedRecipient (u1.kids i).ctx = true; rw [k1]; exact h) hQ
  obtain ⟨u3, h5, h6, _⟩ := resume_shutdown (n := n) (i := i) (u := u2) (stack := (u.kids i).ctx.stack) (hQ.oracle h3)
    (by rw [h4]; show (u1.kids i).ctx.stack = _; rw [k1])
  refine ⟨u3, next_eq h.core.oracle ?_, hQ.hush h3 h6⟩
  show (stepCtx (dispatch (n + 1)) i .timeout >>= fun _ => pure ()) u = _
  have : stepCtx (dispatch (n + 1)) i .timeout u = some (true, u3) := by
    rw [stepCtx_eq]
    simp only [Server.step, h1]
    rw [← hu1]
    refine drive_emit (s1 := u2) ?_ h5
    rw [signal_handled (by rw [k1]; exact hat.1) (by rw [k1]; exact hk.retry)]
    exact h2
  rw [bind_eq this]
  rfl

theorem event_senseless {n : Nat} {r : Reply} (h : Inv s base who st t u held) (hp : t.pos i = .asked) (hr : isSenseless r = true)
    {Q : Sys → Prop} (hQ : Reach held s base who st ((t.put i .lost).vote (s.kids i).fallback) Q) :
    ∃ u', next (n + 1) u (.reply i r) [] = some u' ∧ Q u' := by
  have hi := in_who (i := i) h (by rw [hp]; exact fun h => nomatch h)
  have hat := h.core.at' i hi
  rw [hp] at hat
  have hk := h.core.kept i hi
  obtain ⟨c', h1, h7, h8, h9, h90, h91⟩ := reply_senseless hat.2 h.core.parallel hr
  obtain ⟨u1, hu1⟩ : ∃ u1, u1 = withCtx u i { c' with stack := [] :: c'.stack } := ⟨_, rfl⟩
  have k1 : u1.kids i = { (u.kids i) with ctx := { c' with stack := [] :: c'.stack } } := by
    rw [hu1, withCtx_kid]
  have n1 : Near u (logged u1 (.heard i (.error .invalidState))) i := by
    rw [hu1]; exact (near_ctx _ _ _).trans (near_heard _ _ _)
  obtain ⟨u2, h2, h3, h4⟩ := failed (d := dispatch n) (y := logged u1 (.heard i (.error .invalidState))) h hi (by rw [hp]; rfl) n1
    (by show Kept _ (u1.kids i); rw [k1]; exact ⟨hk.fallback, hk.evaluation, h9.trans hk.option, hk.retry, fun x => h90 (hk.body x)⟩)
    (by show (u1.kids i).ctx.state = st; rw [k1]; exact h7)
    (fun h => by show Server.hasAcceptedRecipient (u1.kids i).ctx = true; rw [k1]; exact same_result h h91) hQ
  obtain ⟨u3, h5, h6, _⟩ := resume_nil (n := n) (i := i) (u := u2) (stack := c'.stack) (hQ.oracle h3)
    (by rw [h4]; show (u1.kids i).ctx.stack = _; rw [k1])
  refine ⟨u3, next_eq h.core.oracle ?_, hQ.hush h3 h6⟩
  rw [reply_step h.core.oracle]
  have : stepCtx (dispatch (n + 1)) i (.reply r true) u = some (true, u3) := by
    rw [stepCtx_eq]
    simp only [Server.step, h1]
    rw [← hu1]
    refine drive_emit (s1 := u2) ?_ h5
    rw [signal_handled (by rw [k1]; exact hat.1) (by rw [k1]; exact hk.retry)]
    exact h2
  rw [bind_eq this]
  rfl

end

end Phase
end Verif.Children
