import Verif.Manager.ChildrenPass
/-
A message on its way from the MTA to the first milter.
-/
namespace Verif.Children
open Verif
open Verif.Server (St)
open Verif.Spec.Children

/-! ## An exchange -/

/-- the state after a command has gone out -/
def gone (u : Sys) (i : Nat) (c : Server.State) (st : St) : Sys :=
  logged (withCtx u i c) (.heard i (.stateTransited st))

theorem gone_event {n i : Nat} {u : Sys} {st : St} (ho : u.oracle = []) (hl : (u.kids i).linked = true)
    (hw : Wait (u.kids i).ctx st) (hst : inContent st) :
    ∃ c, next (n + 1) u (.flushed i) [] = some (gone u i c st) ∧ At c st ∧ c.stack = (u.kids i).ctx.stack ∧
      c.option = (u.kids i).ctx.option ∧ (attending (u.kids i).ctx → attending c) := by
  obtain ⟨c', h1, h2, h3, h4⟩ := flushed_ctx hw hst
  have h5 := flushed_keeps hw hst
  rw [h1] at h5
  dsimp only at h5
  refine ⟨c', next_eq ho ?_, h3, h2, h4, fun h => ⟨h5.1.trans h.1, h5.2.trans h.2⟩⟩
  rw [flushed_step ho]
  obtain ⟨u1, hu1⟩ : ∃ u1, u1 = withCtx u i { c' with stack := [] :: (u.kids i).ctx.stack } := ⟨_, rfl⟩
  have k1 : (u1.kids i).ctx = { c' with stack := [] :: (u.kids i).ctx.stack } := by rw [hu1]; exact withCtx_ctx _ _ _
  have l1 : (u1.kids i).linked = true := by rw [hu1, withCtx_kid]; exact hl
  have : stepCtx (dispatch (n + 1)) i (.flushed true) u = some (true, gone u i c' st) := by
    rw [stepCtx_eq]
    simp only [Server.step, h1]
    rw [← hu1]
    refine drive_emit (signal_ignored l1 (Or.inl ⟨st, rfl⟩)) ?_
    have e : gone u i c' st = withCtx (logged u1 (.heard i (.stateTransited st))) i { c' with stack := (u.kids i).ctx.stack } := by
      rw [hu1]
      show logged (withCtx u i c') _ = logged (withCtx (withCtx u i _) i _) _
      rw [withCtx_twice, ← h2]
    rw [e]
    refine resume_eq (f := []) (stack := (u.kids i).ctx.stack) (by rw [hu1]; exact ho) ?_ ?_
    · show (u1.kids i).ctx.stack = _
      rw [k1]
    · show Server.exec { (u1.kids i).ctx with stack := _ } true [] = _
      rw [k1]
      rfl
  rw [bind_eq this]
  rfl

/-- the command leading to `st` was the last one the MTA has given so far -/
structure Latest (u : Sys) (st : St) : Prop where
  state : u.state = st
  last : nextIn (stateCommand st) u.commandQueue = none
  headers : st = .header → ∃ hs, u.headers = some hs ∧ hs.length ≤ u.headerIndex
  sending : st = .body → u.sendingBody = false

/-- the MTA is told to go on -/
def onward (u : Sys) (i : Nat) (c : Server.State) (st : St) : Sys :=
  logged (logged (voted (withCtx u i c) st .continue_) (.heard i (.reply .cont))) (.emit (.reply .cont))

theorem latest_cont {d : Dispatch} {i : Nat} {u : Sys} {st : St} (h : Latest u st) (hs : (u.kids i).ctx.state = st)
    (hst : st = .header ∨ st = .endOfHeader ∨ st = .body) :
    cbContinue d i u = some ((), logged (voted u st .continue_) (.emit (.reply .cont))) := by
  have start : cbContinue d i u = afterContinue d i st (voted u st .continue_) := by
    rw [← hs]
    rfl
  have nothing : sendNextCommand d i st (voted u st .continue_) = some (.notChange, voted u st .continue_) := by
    unfold sendNextCommand
    rw [get_bind, show (voted u st .continue_).commandQueue = u.commandQueue from rfl, h.last]
    rfl
  have last : (do handleStatus (← sendNextCommand d i st) : M Unit) (voted u st .continue_) =
      some ((), logged (voted u st .continue_) (.emit (.reply .cont))) := by
    rw [bind_eq nothing]
    rfl
  rw [start]
  unfold afterContinue
  have hr : ¬ (voted u st .continue_).state.rank < st.rank := by
    show ¬ u.state.rank < _
    rw [h.state]
    exact Nat.lt_irrefl _
  rcases hst with rfl | rfl | rfl
  · obtain ⟨hs, h1, h2⟩ := h.headers rfl
    dsimp only
    rw [get_bind, if_neg hr, show (voted u St.header .continue_).headers = some hs from h1]
    dsimp only
    rw [if_neg (by show ¬ u.headerIndex < _; omega)]
    exact last
  · exact last
  · dsimp only
    rw [get_bind, if_neg hr, show (voted u St.body .continue_).sendingBody = false from h.sending rfl]
    simp only [Bool.false_eq_true, if_false]
    rw [pure_bind']
    simp only [if_true]
    exact last

theorem onward_event {n i : Nat} {u : Sys} {st : St} (h : Latest u st) (ho : u.oracle = []) (hl : (u.kids i).linked = true)
    (ha : At (u.kids i).ctx st) (hst : st = .header ∨ st = .endOfHeader ∨ st = .body) :
    ∃ c, next (n + 1) u (.reply i .cont) [] = some (onward u i c st) ∧ Ready c ∧ c.option = (u.kids i).ctx.option ∧
      (attending (u.kids i).ctx → attending c) := by
  obtain ⟨c', h1, h2, h3, h4, h5⟩ := cont_ctx ha hst
  have h6 := cont_keeps ha hst
  rw [h1] at h6
  dsimp only at h6
  refine ⟨c', next_eq ho ?_, h3, h5, fun h => ⟨h6.1.trans h.1, h6.2.trans h.2⟩⟩
  rw [reply_step ho]
  obtain ⟨u1, hu1⟩ : ∃ u1, u1 = withCtx u i { c' with stack := frame st :: (u.kids i).ctx.stack } := ⟨_, rfl⟩
  obtain ⟨u2, hu2⟩ : ∃ u2, u2 = logged u1 (.heard i (.reply .cont)) := ⟨_, rfl⟩
  have k2 : (u2.kids i).ctx = { c' with stack := frame st :: (u.kids i).ctx.stack } := by
    rw [hu2, hu1]; exact withCtx_ctx _ _ _
  have l1 : (u1.kids i).linked = true := by rw [hu1, withCtx_kid]; exact hl
  have lt2 : Latest u2 st := by rw [hu2, hu1]; exact ⟨h.state, h.last, h.headers, h.sending⟩
  have hne : st ≠ .endOfMessage := by rcases hst with rfl | rfl | rfl <;> simp
  have cb := latest_cont (d := dispatch n) (i := i) lt2 (by rw [k2]; exact h4) hst
  have : stepCtx (dispatch (n + 1)) i (.reply .cont true) u = some (true, onward u i c' st) := by
    rw [stepCtx_eq]
    simp only [Server.step, h1]
    rw [← hu1]
    refine drive_emit (s1 := logged (voted u2 st .continue_) (.emit (.reply .cont))) ?_ ?_
    · rw [signal_reply l1, ← hu2]
      exact cb
    · have e : onward u i c' st = withCtx (logged (voted u2 st .continue_) (.emit (.reply .cont))) i
          { c' with stack := (u.kids i).ctx.stack } := by
        rw [hu2, hu1]
        show logged (logged (voted (withCtx u i c') _ _) _) _ = logged (logged (voted (withCtx (withCtx u i _) i _) _ _) _) _
        rw [withCtx_twice, ← h2]
      rw [e]
      refine resume_eq (f := frame st) (stack := (u.kids i).ctx.stack) (by rw [hu2, hu1]; exact ho) ?_ ?_
      · show (u2.kids i).ctx.stack = _
        rw [k2]
      · show Server.exec { (u2.kids i).ctx with stack := _ } true _ = _
        rw [k2]
        exact frame_ctx h3.body h3.sentEom (by rw [h4]; exact hne)
  rw [bind_eq this]
  rfl

/-- after a command of the MTA was sent to milter `i`, which said continue -/
def taken (v : Sys) (i : Nat) (c : Server.State) (st : St) (cmd : Cmd) : Sys :=
  { withCtx v i c with
    statuses := setStatusOf v.statuses st (Status.compile (v.statuses st) .continue_)
    out := v.out ++ [.sent i cmd, .heard i (.stateTransited st), .heard i (.reply .cont), .emit (.reply .cont)] }

/-- a command that is taken -/
theorem next_command {n : Nat} {s s' : Sys} {e : Event} {ok : Bool} (h : command (dispatch n) e { s with oracle := [] } = some (ok, s')) :
    next n s e [] = some s' := by
  unfold next
  rw [step_command, h]
  rfl

/-- the children object takes a command of the MTA (its function returns TRUE) -/
def Taken (n : Nat) (s : Sys) (e : Event) : Prop := ∃ m, command (dispatch n) e { s with oracle := [] } = some (true, m)

/-- a command of the MTA has been passed on to milter `i` -/
def passed (v : Sys) (i : Nat) (c : Server.State) (st : St) (cmd : Cmd) : Sys :=
  { withCtx v i c with out := v.out ++ [.sent i cmd, .heard i (.stateTransited st)] }

/-- a command of the MTA is passed on to milter `i` -/
theorem pass_on {n i : Nat} {s v : Sys} {e : Event} {cmd : Cmd} {st : St} (ho : s.oracle = []) (hv : v.oracle = [])
    (hl : (v.kids i).linked = true) (hr : Ready (v.kids i).ctx) (hm : attending (v.kids i).ctx) (hc : isContent cmd)
    (hst : cmdState cmd = st) (hst' : st = .header ∨ st = .endOfHeader ∨ st = .body)
    (hstep : ∀ c, call (dispatch (n + 1)) i cmd v = some (true, logged (withCtx v i c) (.sent i cmd)) →
      Server.needReply c.option st = some true →
      command (dispatch (n + 1)) e s = some (true, logged (withCtx v i c) (.sent i cmd))) :
    ∃ c, Taken (n + 1) s e ∧ run (n + 1) s (quietly [e, .flushed i]) = some (passed v i c st cmd) ∧ At c st ∧
      c.option = (v.kids i).ctx.option ∧ attending c := by
  obtain ⟨c1, h1, h2, h3, h4, h5⟩ := command_ctx hr hc
  have hk := command_keeps hr hc
  rw [h1] at hk
  dsimp only at hk
  have m1 : attending c1 := ⟨hk.1.trans hm.1, hk.2.trans hm.2⟩
  rw [hst] at h2
  have hos : ({ s with oracle := [] } : Sys) = s := by cases s; simp only at ho; rw [ho]
  have e0 := hstep c1 (call_eq hv h1) (answer_needed h2.option hst')
  rw [← hos] at e0
  have e1 := next_command e0
  obtain ⟨u1, hu1⟩ : ∃ u1, u1 = logged (withCtx v i c1) (.sent i cmd) := ⟨_, rfl⟩
  have k1 : (u1.kids i).ctx = c1 := by rw [hu1]; exact withCtx_ctx _ _ _
  have l1 : (u1.kids i).linked = true := by
    rw [hu1]; show ((withCtx v i c1).kids i).linked = true; rw [withCtx_kid]; exact hl
  obtain ⟨c2, e2, a2, s2, o2, m2⟩ := gone_event (n := n) (i := i) (u := u1) (st := st) (by rw [hu1]; exact hv) l1
    (by rw [k1]; exact h2) (by rcases hst' with h | h | h <;> simp [inContent, h])
  rw [k1] at o2 m2
  refine ⟨c2, ⟨_, e0⟩, ?_, a2, o2.trans h5, m2 m1⟩
  rw [← hu1] at e1
  have : gone u1 i c2 st = passed v i c2 st cmd := by
    rw [hu1]
    show logged (logged (withCtx (withCtx v i c1) i c2) _) _ = _
    rw [withCtx_twice]
    simp [logged, passed, withCtx]
  rw [← this]
  exact run_trans (h' := quietly [.flushed i]) (run_one e1) (run_one e2)

/-- a command of the MTA is passed on to milter `i`, which says continue -/
theorem exchange {n i : Nat} {s v : Sys} {e : Event} {cmd : Cmd} {st : St} (ho : s.oracle = []) (hv : v.oracle = [])
    (hl : (v.kids i).linked = true) (hr : Ready (v.kids i).ctx) (hm : attending (v.kids i).ctx) (hc : isContent cmd)
    (hst : cmdState cmd = st) (hst' : st = .header ∨ st = .endOfHeader ∨ st = .body) (hlate : Latest v st)
    (hstep : ∀ c, call (dispatch (n + 1)) i cmd v = some (true, logged (withCtx v i c) (.sent i cmd)) →
      Server.needReply c.option st = some true →
      command (dispatch (n + 1)) e s = some (true, logged (withCtx v i c) (.sent i cmd))) :
    ∃ c, Taken (n + 1) s e ∧ run (n + 1) s (quietly [e, .flushed i, .reply i .cont]) = some (taken v i c st cmd) ∧ Ready c ∧
      c.option = (v.kids i).ctx.option ∧ attending c := by
  obtain ⟨c2, tk, e2, a2, o2, m2⟩ := pass_on (n := n) (e := e) ho hv hl hr hm hc hst hst' hstep
  obtain ⟨u2, hu2⟩ : ∃ u2, u2 = passed v i c2 st cmd := ⟨_, rfl⟩
  have k2 : (u2.kids i).ctx = c2 := by rw [hu2]; exact withCtx_ctx _ _ _
  have l2 : (u2.kids i).linked = true := by
    rw [hu2]; show ((withCtx v i c2).kids i).linked = true; rw [withCtx_kid]; exact hl
  obtain ⟨c3, e3, r3, o3, m3⟩ := onward_event (n := n) (i := i) (u := u2) (st := st)
    (by rw [hu2]; exact ⟨hlate.state, hlate.last, hlate.headers, hlate.sending⟩)
    (by rw [hu2]; exact hv) l2 (by rw [k2]; exact a2) hst'
  rw [k2] at o3 m3
  refine ⟨c3, tk, ?_, r3, by rw [o3, o2], m3 m2⟩
  rw [← hu2] at e2
  have : onward u2 i c3 st = taken v i c3 st cmd := by
    rw [hu2]
    have e : withCtx (passed v i c2 st cmd) i c3 = { withCtx v i c3 with out := v.out ++ [.sent i cmd, .heard i (.stateTransited st)] } := by
      show ({ withCtx (withCtx v i c2) i c3 with out := v.out ++ [.sent i cmd, .heard i (.stateTransited st)] } : Sys) = _
      rw [withCtx_twice]
    unfold onward taken
    rw [e]
    simp [logged, voted, withCtx]
  rw [← this]
  exact run_trans (h := quietly [e, .flushed i]) (h' := quietly [.reply i .cont]) e2 (run_one e3)

/-! ## The message so far -/

/-- milter `i` is the first to get the message, `rest` are to follow; `hs` and `b` have arrived -/
structure Taking (s : Sys) (i : Nat) (rest : List Nat) (hs : List Header) (b : Bytes) (q : List St) : Prop where
  oracle : s.oracle = []
  linked : (s.kids i).linked = true
  ready : Ready (s.kids i).ctx
  message : attending (s.kids i).ctx
  known : i < s.count
  waiting : s.waitingQueue = i :: rest ∨
    (s.waitingQueue = [] ∧ (milters s).filter (isProcessingMessage s) = i :: rest ∧
      ∀ j ∈ i :: rest, hasAccepted s j = true)
  nodup : (i :: rest).Nodup
  chunkPos : 0 < s.chunkSize
  chunkMax : s.chunkSize ≤ Enc.chunkSize
  option : ∃ o, s.option = some o
  headers : s.headers.getD [] = hs
  index : (q = [] ∨ q = [.header]) → s.headerIndex = hs.length
  queue : s.commandQueue = q
  stored : stored s = b
  tail : ∀ f, s.bodyFile = some f → s.body = none ∧ f.2 = f.1.length
  fresh : s.replacedForEach = false
  state : s.state ≠ .envelopeRecipient
  emitted : s.emittedReply = false
  original : s.originalHeaders = none
  others : ∀ j ∈ rest, (s.kids j).linked = true ∧ Ready (s.kids j).ctx

theorem waiting_loop {d : Dispatch} : ∀ (l : List Nat) (s : Sys),
    (∀ j ∈ l, isProcessingMessage s j = true → hasAccepted s j = true) →
    initWaitingLoop d l s = some ((), { s with waitingQueue := s.waitingQueue ++ l.filter (isProcessingMessage s) }) := by
  intro l
  induction l with
  | nil => intro s _; simp [initWaitingLoop, pure_eq]
  | cons j l ih =>
    intro s h
    unfold initWaitingLoop
    rw [get_bind]
    cases hp : isProcessingMessage s j with
    | false =>
      simp only [Bool.false_eq_true, if_false]
      rw [ih s fun k hk => h k (by simp [hk]), List.filter_cons_of_neg (by simp [hp])]
    | true =>
      simp only [if_true, h j (by simp) hp]
      rw [modify_bind]
      rw [ih]
      · rw [List.filter_cons_of_pos hp]
        simp only [List.append_assoc, List.cons_append, List.nil_append]
        rfl
      · intro k hk
        exact h k (by simp [hk])

theorem waiting_eq {d : Dispatch} {s : Sys} {i : Nat} {rest : List Nat} {c : St}
    (h : s.waitingQueue = i :: rest ∨ (s.waitingQueue = [] ∧ (milters s).filter (isProcessingMessage s) = i :: rest ∧
      ∀ j ∈ i :: rest, hasAccepted s j = true)) :
    initWaitingQueue d c s = some ((), { s with
      commandQueue := if c ∈ s.commandQueue then s.commandQueue else s.commandQueue ++ [c]
      waitingQueue := i :: rest }) := by
  unfold initWaitingQueue
  rw [modify_bind, get_bind]
  rcases h with h | ⟨h1, h2, h3⟩
  · rw [if_neg (by show ¬ s.waitingQueue = []; rw [h]; simp)]
    rw [pure_eq, h]
  · rw [if_pos (by exact h1), waiting_loop]
    · show some ((), ({ s with commandQueue := _, waitingQueue := s.waitingQueue ++ (milters s).filter (isProcessingMessage s) } : Sys)) = _
      rw [h1, h2]
      rfl
    · intro j hj hp
      refine h3 j ?_
      rw [← h2]
      exact List.mem_filter.mpr ⟨hj, hp⟩

theorem processing_eq {s : Sys} {i : Nat} (h1 : i < s.count) (h2 : attending (s.kids i).ctx) (h3 : (s.kids i).ctx.quitted = false) :
    checkProcessing s = some (true, s) := by
  unfold checkProcessing
  rw [get_bind, if_pos]
  · rfl
  · rw [List.any_eq_true]
    refine ⟨i, by simp [milters, h1], ?_⟩
    simp [isProcessingMessage, Server.isProcessingMessage, h2.1, h2.2, h3]

theorem emulation_eq {s u : Sys} (h : s.state ≠ .envelopeRecipient) : needEmulation s u = some (false, u) := by
  unfold needEmulation
  rw [if_neg h]
  rfl

/-- what does not change while a message comes in -/
structure Still (i : Nat) (s s' : Sys) : Prop where
  roles : SameRoles s s'
  chunkSize : s'.chunkSize = s.chunkSize
  changeFrom : s'.changeFrom = s.changeFrom
  quarantine : s'.quarantine = s.quarantine
  replaced : s'.replaced = s.replaced
  status : s'.statuses .endOfMessage = s.statuses .endOfMessage
  code : s'.code = s.code
  others : ∀ k, k ≠ i → s'.kids k = s.kids k
  refused : refused s' = refused s

theorem Still.refl (i : Nat) (s : Sys) : Still i s s := ⟨.refl s, rfl, rfl, rfl, rfl, rfl, rfl, fun _ _ => rfl, rfl⟩

theorem Still.trans {i : Nat} {a b c : Sys} (h1 : Still i a b) (h2 : Still i b c) : Still i a c :=
  ⟨h1.1.trans h2.1, h2.2.trans h1.2, h2.3.trans h1.3, h2.4.trans h1.4, h2.5.trans h1.5, h2.6.trans h1.6, h2.7.trans h1.7,
    fun k hk => (h2.8 k hk).trans (h1.8 k hk), h2.9.trans h1.9⟩

theorem taking_taken {v : Sys} {i : Nat} {rest : List Nat} {hs : List Header} {b : Bytes} {q : List St} {c : Server.State}
    {st : St} {cmd : Cmd} (h : Taking v i rest hs b q) (hw : v.waitingQueue = i :: rest) (hr : Ready c) (hm : attending c) :
    Taking (taken v i c st cmd) i rest hs b q := by
  have o : ∀ j ∈ rest, (withCtx v i c).kids j = v.kids j := by
    intro j hj
    refine withCtx_other _ _ _ _ ?_
    rintro rfl
    exact (List.nodup_cons.mp h.nodup).1 hj
  refine ⟨h.oracle, ?_, ?_, ?_, h.known, Or.inl hw, h.nodup, h.chunkPos, h.chunkMax, h.option, h.headers, h.index, h.queue, h.stored,
    h.tail, h.fresh, h.state, h.emitted, h.original, ?_⟩
  · show ((withCtx v i c).kids i).linked = true
    rw [withCtx_kid]; exact h.linked
  · show Ready ((withCtx v i c).kids i).ctx
    rw [withCtx_ctx]; exact hr
  · show attending ((withCtx v i c).kids i).ctx
    rw [withCtx_ctx]; exact hm
  · intro j hj
    show ((withCtx v i c).kids j).linked = true ∧ Ready ((withCtx v i c).kids j).ctx
    rw [o j hj]; exact h.others j hj

theorem still_taken {v : Sys} {i : Nat} {c : Server.State} {st : St} {cmd : Cmd} (hc : c.option = (v.kids i).ctx.option)
    (hst : st ≠ .endOfMessage) : Still i v (taken v i c st cmd) := by
  have r : SameRoles v (taken v i c st cmd) :=
    (sameRoles_ctx (s := v) (i := i) (c := c) hc).trans ⟨rfl, fun _ => rfl, fun _ => rfl, rfl⟩
  refine ⟨r, rfl, rfl, rfl, rfl, ?_, rfl, fun k hk => withCtx_other _ _ _ _ hk, refused_set _ _ _ (.inl rfl)⟩
  show setStatusOf v.statuses st _ .endOfMessage = _
  unfold setStatusOf
  rw [if_neg (Ne.symm hst)]

theorem commands_taken (v : Sys) (i : Nat) (c : Server.State) (st : St) (cmd : Cmd) :
    commands (taken v i c st cmd).out = commands v.out ++ [(i, cmd)] := by
  show commands (v.out ++ _) = _
  rw [commands_append]
  rfl

theorem told_taken (v : Sys) (i : Nat) (c : Server.State) (st : St) (cmd : Cmd) :
    told (taken v i c st cmd).out = told v.out ++ [.reply .cont] := by
  show told (v.out ++ _) = _
  rw [told_append]
  rfl

/-- the MTA's command `e` becomes the command `cmd` for milter `i` -/
structure Entry (n i : Nat) (rest : List Nat) (s v : Sys) (e : Event) (cmd : Cmd) (st : St) (hs : List Header) (b : Bytes)
    (q : List St) : Prop where
  taking : Taking v i rest hs b q
  waiting : v.waitingQueue = i :: rest
  still : Still i s v
  out : v.out = s.out
  kids : v.kids = s.kids
  latest : Latest v st
  state : cmdState cmd = st
  early : st = .header ∨ st = .endOfHeader ∨ st = .body
  content : isContent cmd
  steps : ∀ (d : Dispatch) c, call d i cmd v = some (true, logged (withCtx v i c) (.sent i cmd)) →
    Server.needReply c.option st = some true →
    command d e s = some (true, logged (withCtx v i c) (.sent i cmd))

/-- milter `i` says continue -/
theorem Entry.continues {n i : Nat} {rest : List Nat} {s v : Sys} {e : Event} {cmd : Cmd} {st : St} {hs : List Header} {b : Bytes}
    {q : List St} (h : Entry n i rest s v e cmd st hs b q) (ho : s.oracle = []) :
    ∃ s', Taken (n + 1) s e ∧ run (n + 1) s (quietly [e, .flushed i, .reply i .cont]) = some s' ∧
      Taking s' i rest hs b q ∧ Still i s s' ∧ commands s'.out = commands s.out ++ [(i, cmd)] ∧
      told s'.out = told s.out ++ [.reply .cont] := by
  have tv := h.taking
  obtain ⟨c, tk, e, r, o, m⟩ := exchange (n := n) (s := s) (v := v) ho tv.oracle tv.linked tv.ready tv.message h.content h.state
    h.early h.latest (h.steps _)
  have hne : st ≠ .endOfMessage := by rcases h.early with rfl | rfl | rfl <;> simp
  refine ⟨_, tk, e, taking_taken tv h.waiting r m, h.still.trans (still_taken o hne), ?_, ?_⟩
  · rw [commands_taken, h.out]
  · rw [told_taken, h.out]

/-- a header arrives -/
theorem enter_header {n i : Nat} {rest : List Nat} {hs : List Header} {b : Bytes} {q : List St} {s : Sys} (name value : Bytes)
    (h : Taking s i rest hs b q) (hq : q = [] ∨ q = [.header]) :
    ∃ v, Entry n i rest s v (.header name value) (.header name (unspaced (converts s i) value)) .header
      (hs ++ [⟨name, some value⟩]) b [.header] := by
  obtain ⟨v, hv⟩ : ∃ v : Sys, v = { s with
    state := .header, processingState := .header, headers := some (hs ++ [⟨name, some value⟩]), headerIndex := hs.length + 1
    commandQueue := [.header], waitingQueue := i :: rest } := ⟨_, rfl⟩
  have tv : Taking v i rest (hs ++ [⟨name, some value⟩]) b [.header] := by
    subst hv
    exact ⟨h.oracle, h.linked, h.ready, h.message, h.known, Or.inl rfl, h.nodup, h.chunkPos, h.chunkMax, h.option, rfl,
      fun _ => by simp, rfl, h.stored, h.tail, h.fresh, by simp, h.emitted, h.original, h.others⟩
  have sv : Still i s v := by subst hv; exact ⟨⟨rfl, fun _ => rfl, fun _ => rfl, rfl⟩, rfl, rfl, rfl, rfl, rfl, rfl, fun _ _ => rfl, rfl⟩
  have ov : v.out = s.out := by rw [hv]
  have cv : converts v i = converts s i := sv.roles.converts i
  have eu : unspaced (converts s i) value = sentValue (converts s i) (some value) := (unspaced_eq (v := some value) (c := converts s i)).symm
  rw [eu]
  refine ⟨v, tv, by rw [hv], sv, ov, by rw [hv],
    (by
      subst hv
      exact ⟨rfl, rfl, fun _ => ⟨_, rfl, by simp⟩, fun h => nomatch h⟩), rfl, Or.inl rfl, trivial,
    (by
      intro d c hcall hneed
      show header d name value s = _
      have : header d name value s =
          some (true, logged (withCtx v i c) (.sent i (.header name (sentValue (converts s i) (some value))))) := by
        unfold header
        rw [bind_eq (processing_eq h.known h.message h.ready.quitted)]
        simp only [Bool.not_true, Bool.false_eq_true, if_false]
        rw [get_bind, bind_eq (emulation_eq h.state)]
        simp only [Bool.false_eq_true, if_false]
        rw [modify_bind]
        obtain ⟨w0, hw0⟩ : ∃ w0 : Sys, w0 = { s with
          state := .header, processingState := .header
          headers := some (Headers.append (s.headers.getD []) name (some value)) } := ⟨_, rfl⟩
        rw [← hw0, bind_eq (waiting_eq (i := i) (rest := rest) (by rw [hw0]; exact h.waiting))]
        have hqq : (if St.header ∈ s.commandQueue then s.commandQueue else s.commandQueue ++ [.header]) = [.header] := by
          rw [h.queue]; rcases hq with rfl | rfl <;> rfl
        obtain ⟨w, hw⟩ : ∃ w : Sys, w = { s with
          state := .header, processingState := .header, headers := some (hs ++ [⟨name, some value⟩]),
          commandQueue := [.header], waitingQueue := i :: rest } := ⟨_, rfl⟩
        have ew : ({ w0 with
            commandQueue := if St.header ∈ w0.commandQueue then w0.commandQueue else w0.commandQueue ++ [.header]
            waitingQueue := i :: rest } : Sys) = w := by
          rw [show w0.commandQueue = s.commandQueue by rw [hw0], hqq, hw0, hw, h.headers]; rfl
        rw [ew]
        unfold sendToFirst
        rw [get_bind, show w.waitingQueue = i :: rest by rw [hw]]
        dsimp only
        have es : sendCommand d i .header w =
            some (.progress, logged (withCtx v i c) (.sent i (.header name (sentValue (converts s i) (some value))))) := by
          show sendNextHeader d i w = _
          unfold sendNextHeader
          rw [modify_bind, get_bind]
          have evw : ({ w with processingState := .header, headerIndex := w.headerIndex + 1 } : Sys) = v := by
            rw [show w.headerIndex = hs.length by rw [hw]; exact h.index hq, hw, hv]
          rw [evw]
          have e1 : v.headers = some (hs ++ [⟨name, some value⟩]) := by rw [hv]
          have e2 : Headers.getNth (hs ++ [⟨name, some value⟩]) v.headerIndex = some ⟨name, some value⟩ := by
            rw [show v.headerIndex = hs.length + 1 by rw [hv], getNth_next]
            simp
          simp only [e1, e2]
          rw [bind_eq (conversion_eq tv.option), cv, bind_eq hcall]
          simp only [if_true]
          rw [get_bind, bind_eq (needReply_eq (b := true) (by rw [ctx_call]; rw [hv]; exact hneed))]
          rfl
        rw [bind_eq es]
        rfl
      exact this)⟩

/-- the headers are complete -/
theorem enter_endOfHeader {n i : Nat} {rest : List Nat} {hs : List Header} {b : Bytes} {q : List St} {s : Sys}
    (h : Taking s i rest hs b q) (hq : q = [] ∨ q = [.header]) :
    ∃ v, Entry n i rest s v .endOfHeader .endOfHeader .endOfHeader hs b (q ++ [.endOfHeader]) := by
  obtain ⟨v, hv⟩ : ∃ v : Sys, v = { s with
    state := .endOfHeader, processingState := .endOfHeader
    commandQueue := q ++ [.endOfHeader], waitingQueue := i :: rest } := ⟨_, rfl⟩
  have tv : Taking v i rest hs b (q ++ [.endOfHeader]) := by
    subst hv
    exact ⟨h.oracle, h.linked, h.ready, h.message, h.known, Or.inl rfl, h.nodup, h.chunkPos, h.chunkMax, h.option, h.headers,
      (fun h => by rcases hq with rfl | rfl <;> simp at h), rfl, h.stored, h.tail, h.fresh, by simp, h.emitted, h.original, h.others⟩
  have sv : Still i s v := by subst hv; exact ⟨⟨rfl, fun _ => rfl, fun _ => rfl, rfl⟩, rfl, rfl, rfl, rfl, rfl, rfl, fun _ _ => rfl, rfl⟩
  have ov : v.out = s.out := by rw [hv]
  refine ⟨v, tv, by rw [hv], sv, ov, by rw [hv],
    (by
      refine ⟨by rw [hv], ?_, (fun h => nomatch h), fun h => nomatch h⟩
      rw [tv.queue]
      rcases hq with rfl | rfl <;> rfl), rfl, Or.inr (Or.inl rfl), trivial,
    (by
      intro d c hcall hneed
      show endOfHeader d s = _
      have : endOfHeader d s = some (true, logged (withCtx v i c) (.sent i .endOfHeader)) := by
        unfold endOfHeader
        rw [bind_eq (processing_eq h.known h.message h.ready.quitted)]
        simp only [Bool.not_true, Bool.false_eq_true, if_false]
        rw [get_bind, bind_eq (emulation_eq h.state)]
        simp only [Bool.false_eq_true, if_false]
        rw [modify_bind]
        obtain ⟨w0, hw0⟩ : ∃ w0 : Sys, w0 = { s with state := .endOfHeader, processingState := .endOfHeader } := ⟨_, rfl⟩
        rw [← hw0, bind_eq (waiting_eq (i := i) (rest := rest) (by rw [hw0]; exact h.waiting))]
        have hqq : (if St.endOfHeader ∈ s.commandQueue then s.commandQueue else s.commandQueue ++ [.endOfHeader]) =
            q ++ [.endOfHeader] := by
          rw [h.queue]; rcases hq with rfl | rfl <;> rfl
        have ew : ({ w0 with
            commandQueue := if St.endOfHeader ∈ w0.commandQueue then w0.commandQueue else w0.commandQueue ++ [.endOfHeader]
            waitingQueue := i :: rest } : Sys) = v := by
          rw [show w0.commandQueue = s.commandQueue by rw [hw0], hqq, hw0, hv]
        rw [ew]
        unfold sendToFirst
        rw [get_bind, show v.waitingQueue = i :: rest by rw [hv]]
        dsimp only
        have es : sendCommand d i .endOfHeader v =
            some (.progress, logged (withCtx v i c) (.sent i .endOfHeader)) := by
          unfold sendCommand
          rw [get_bind]
          dsimp only
          rw [modify_bind, show ({ v with processingState := .endOfHeader } : Sys) = v by rw [hv], bind_eq hcall]
          simp only [if_true]
          rw [get_bind, bind_eq (needReply_eq (b := true) (by rw [ctx_call]; rw [hv]; exact hneed))]
          rfl
        rw [bind_eq es]
        rfl
      exact this)⟩

/-- a piece of the body arrives -/
theorem enter_body {n i : Nat} {rest : List Nat} {hs : List Header} {b : Bytes} {q : List St} {s : Sys} (chunk : Bytes)
    (hc : chunk.length ≤ Enc.chunkSize) (h : Taking s i rest hs b q) {q' : List St}
    (hq : q' = [.endOfHeader] ∨ q' = [.header, .endOfHeader]) (hqq : q = q' ∨ q = q' ++ [.body]) :
    ∃ v, Entry n i rest s v (.body chunk) (.body chunk) .body hs (b ++ chunk) (q' ++ [.body]) := by
  obtain ⟨u, hu⟩ : ∃ u : Sys, u = { s with commandQueue := q' ++ [.body], waitingQueue := i :: rest } := ⟨_, rfl⟩
  obtain ⟨v, hv⟩ : ∃ v : Sys, v = { bodyWritten u chunk with
    state := .body, processingState := .body, replacedForEach := false, sendingBody := false } := ⟨_, rfl⟩
  obtain ⟨x, f, hx⟩ : ∃ x f, bodyWritten u chunk = { u with body := x, bodyFile := f } := by
    unfold bodyWritten
    split
    · exact ⟨_, _, rfl⟩
    · dsimp only
      split <;> exact ⟨_, _, rfl⟩
  have hwr : stored (bodyWritten u chunk) = stored u ++ chunk := stored_written (by rw [hu]; exact h.tail)
  have hwt := tail_written (s := u) (b := chunk) (by rw [hu]; exact h.tail)
  have tv : Taking v i rest hs (b ++ chunk) (q' ++ [.body]) := by
    have e1 : stored v = b ++ chunk := by
      rw [show stored v = stored (bodyWritten u chunk) by rw [hv]; rfl, hwr, ← h.stored, hu]
      rfl
    have e2 : ∀ f, v.bodyFile = some f → v.body = none ∧ f.2 = f.1.length := by rw [hv]; exact hwt
    rw [hv] at e1 e2 ⊢
    rw [hx, hu] at e1 e2 ⊢
    exact ⟨h.oracle, h.linked, h.ready, h.message, h.known, Or.inl rfl, h.nodup, h.chunkPos, h.chunkMax, h.option, h.headers,
      (fun h => by rcases hq with rfl | rfl <;> simp at h), rfl, e1, e2, rfl, by simp, h.emitted, h.original, h.others⟩
  have sv : Still i s v := by rw [hv, hx, hu]; exact ⟨⟨rfl, fun _ => rfl, fun _ => rfl, rfl⟩, rfl, rfl, rfl, rfl, rfl, rfl, fun _ _ => rfl, rfl⟩
  have ov : v.out = s.out := by rw [hv, hx, hu]
  have kv : v.kids = s.kids := by rw [hv, hx, hu]
  refine ⟨v, tv, by rw [hv, hx, hu], sv, ov, kv,
    (by
      refine ⟨by rw [hv], ?_, (fun h => nomatch h), fun _ => by rw [hv]⟩
      rw [tv.queue]
      rcases hq with rfl | rfl <;> rfl), rfl, Or.inr (Or.inr rfl), hc,
    (by
      intro d c hcall _
      show body d chunk s = _
      have : body d chunk s = some (true, logged (withCtx v i c) (.sent i (.body chunk))) := by
        unfold body
        rw [bind_eq (processing_eq h.known h.message h.ready.quitted)]
        simp only [Bool.not_true, Bool.false_eq_true, if_false]
        rw [get_bind, bind_eq (emulation_eq h.state)]
        simp only [Bool.false_eq_true, if_false]
        rw [bind_eq (waiting_eq (i := i) (rest := rest) h.waiting)]
        have hqq' : (if St.body ∈ s.commandQueue then s.commandQueue else s.commandQueue ++ [.body]) = q' ++ [.body] := by
          rw [h.queue]; rcases hqq with rfl | rfl <;> rcases hq with rfl | rfl <;> rfl
        rw [hqq', ← hu, get_bind, show u.waitingQueue = i :: rest by rw [hu]]
        dsimp only
        rw [modify_bind, modify_bind, ← hv, get_bind]
        have hsk : (v.kids i).ctx.skipBody = false := by rw [kv]; exact h.ready.skip
        rw [hsk, if_neg (by simp)]
        exact hcall
      exact this)⟩

/-- the message is complete -/
theorem take_endOfMessage {n i : Nat} {rest : List Nat} {hs : List Header} {b : Bytes} {q : List St} {s : Sys} (last : Bytes)
    (h : Taking s i rest hs b q) {hh hb : Bool} (hq : q ++ [.endOfMessage] = queueOf hh hb) :
    ∃ s', Taken (n + 1) s (.endOfMessage last) ∧ run (n + 1) s (quietly [.endOfMessage last, .flushed i]) = some s' ∧
      Closing s' i rest ∧ Still i s s' ∧ s'.headers = some hs ∧ s'.originalHeaders = some hs ∧ stored s' = b ∧
      s'.commandQueue = queueOf hh hb ∧ s'.eomChunk = last ∧ s'.replacedForEach = false ∧
      commands s'.out = commands s.out ++ [(i, .endOfMessage last)] ∧ told s'.out = told s.out := by
  obtain ⟨v, hv⟩ : ∃ v : Sys, v = { s with
    headerIndex := 0, headers := some hs, originalHeaders := some hs, eomChunk := last
    bodyFile := s.bodyFile.map fun f => (f.1, 0)
    state := .endOfMessage, processingState := .endOfMessage
    commandQueue := queueOf hh hb, waitingQueue := i :: rest } := ⟨_, rfl⟩
  have sv : Still i s v := by rw [hv]; exact ⟨⟨rfl, fun _ => rfl, fun _ => rfl, rfl⟩, rfl, rfl, rfl, rfl, rfl, rfl, fun _ _ => rfl, rfl⟩
  have ov : v.out = s.out := by rw [hv]
  have kv : v.kids = s.kids := by rw [hv]
  have stv : stored v = b := by
    rw [← h.stored, hv]
    unfold stored
    cases s.body with
    | some b => rfl
    | none => cases s.bodyFile <;> rfl
  obtain ⟨c1, h1, h2, h3, h4, h5⟩ := command_ctx (c := (v.kids i).ctx) (cmd := .endOfMessage last) (by rw [kv]; exact h.ready) trivial
  have hcall := call_eq (d := dispatch (n + 1)) (s := v) (by rw [hv]; exact h.oracle) h1
  have hstep : endOfMessage (dispatch (n + 1)) last s = some (true, logged (withCtx v i c1) (.sent i (.endOfMessage last))) := by
    unfold endOfMessage
    rw [bind_eq (processing_eq h.known h.message h.ready.quitted)]
    simp only [Bool.not_true, Bool.false_eq_true, if_false]
    rw [get_bind, bind_eq (emulation_eq h.state)]
    simp only [Bool.false_eq_true, if_false]
    rw [bind_eq (waiting_eq (i := i) (rest := rest) h.waiting)]
    have hqq : (if St.endOfMessage ∈ s.commandQueue then s.commandQueue else s.commandQueue ++ [.endOfMessage]) = queueOf hh hb := by
      rw [h.queue, ← hq, if_neg]
      intro hin
      have : (q ++ [St.endOfMessage]).count .endOfMessage = 1 := by rw [hq]; cases hh <;> cases hb <;> rfl
      rw [List.count_append] at this
      have := List.count_pos_iff.mpr hin
      simp only [List.count_singleton_self] at *
      omega
    rw [hqq, modify_bind]
    have ev : ∀ w : Sys, w = { s with commandQueue := queueOf hh hb, waitingQueue := i :: rest } →
        ({ w with
          headerIndex := 0
          headers := some (w.headers.getD [])
          originalHeaders := some (w.originalHeaders.getD (w.headers.getD []))
          eomChunk := last
          bodyFile := w.bodyFile.map fun f => (f.1, 0)
          state := .endOfMessage
          processingState := .endOfMessage } : Sys) = v := by
      intro w hw
      rw [show w.headers.getD [] = hs by rw [hw]; exact h.headers,
        show w.originalHeaders = none by rw [hw]; exact h.original, hw, hv]
      rfl
    rw [ev _ rfl]
    unfold sendToFirst
    rw [get_bind, show v.waitingQueue = i :: rest by rw [hv]]
    dsimp only
    have es : sendCommand (dispatch (n + 1)) i .endOfMessage v =
        some (.progress, logged (withCtx v i c1) (.sent i (.endOfMessage last))) := by
      unfold sendCommand
      rw [get_bind]
      dsimp only
      rw [modify_bind, show ({ v with headerIndex := 0, processingState := .endOfMessage } : Sys) = v by rw [hv], get_bind,
        show v.eomChunk = last by rw [hv], bind_eq hcall]
      rfl
    rw [bind_eq es]
    rfl
  obtain ⟨u1, hu1⟩ : ∃ u1, u1 = logged (withCtx v i c1) (.sent i (.endOfMessage last)) := ⟨_, rfl⟩
  have k1 : (u1.kids i).ctx = c1 := by rw [hu1]; exact withCtx_ctx _ _ _
  have l1 : (u1.kids i).linked = true := by
    rw [hu1]; show ((withCtx v i c1).kids i).linked = true; rw [withCtx_kid, kv]; exact h.linked
  obtain ⟨c2, e2, a2, s2, o2, m2⟩ := gone_event (n := n) (i := i) (u := u1) (st := .endOfMessage)
    (by rw [hu1, hv]; exact h.oracle) l1 (by rw [k1]; exact h2) (by simp [inContent])
  rw [k1] at o2
  have others : ∀ j ∈ rest, (gone u1 i c2 .endOfMessage).kids j = s.kids j := by
    intro j hj
    have hne : j ≠ i := by rintro rfl; exact (List.nodup_cons.mp h.nodup).1 hj
    show (withCtx u1 i c2).kids j = _
    rw [withCtx_other _ _ _ _ hne, hu1]
    show (withCtx v i c1).kids j = _
    rw [withCtx_other _ _ _ _ hne, kv]
  have st2 : Still i v (gone u1 i c2 .endOfMessage) := by
    have r : SameRoles v u1 := by
      rw [hu1]
      exact (sameRoles_ctx (s := v) (i := i) (c := c1) h5).trans ⟨rfl, fun _ => rfl, fun _ => rfl, rfl⟩
    have r2 : SameRoles u1 (gone u1 i c2 .endOfMessage) :=
      (sameRoles_ctx (s := u1) (i := i) (c := c2) (by rw [k1]; exact o2)).trans ⟨rfl, fun _ => rfl, fun _ => rfl, rfl⟩
    refine ⟨r.trans r2, ?_, ?_, ?_, ?_, ?_, ?_, fun k hk => ?_, ?_⟩
    case refine_7 =>
      show (withCtx u1 i c2).kids k = _
      rw [withCtx_other _ _ _ _ hk, hu1]
      exact withCtx_other _ _ _ _ hk
    all_goals
      rw [hu1]
      rfl
  have hos : ({ s with oracle := [] } : Sys) = s := by
    have := h.oracle
    cases s; simp only at this; rw [this]
  refine ⟨gone u1 i c2 .endOfMessage, ⟨_, by rw [hos]; exact hstep⟩, ?_, ?_, sv.trans st2, by rw [hu1, hv]; rfl, by rw [hu1, hv]; rfl, ?_, by rw [hu1, hv]; rfl,
    by rw [hu1, hv]; rfl, by rw [hu1, hv]; exact h.fresh, ?_, ?_⟩
  · refine run_trans (h' := quietly [.flushed i]) (s' := u1) (run_one (next_eq h.oracle ?_)) (run_one e2)
    show (endOfMessage (dispatch (n + 1)) last >>= fun _ => pure ()) s = _
    rw [bind_eq hstep, hu1]
    rfl
  · refine ⟨by rw [hu1, hv]; exact h.oracle, ?_, ?_, by rw [hu1, hv]; rfl, by rw [hu1, hv]; rfl, h.nodup, by rw [hu1, hv]; exact h.chunkPos,
      by rw [hu1, hv]; exact h.chunkMax, by rw [hu1, hv]; exact h.option, ⟨hs, by rw [hu1, hv]; rfl⟩, ⟨hh, hb, by rw [hu1, hv]; rfl⟩, ?_,
      by rw [hu1, hv]; exact h.emitted, ?_⟩
    · show ((withCtx u1 i c2).kids i).linked = true
      rw [withCtx_kid]; exact l1
    · show At ((withCtx u1 i c2).kids i).ctx _
      rw [withCtx_ctx]; exact a2
    · intro hf
      exfalso
      rw [show (gone u1 i c2 .endOfMessage).replacedForEach = s.replacedForEach by rw [hu1, hv]; rfl, h.fresh] at hf
      cases hf
    · intro j hj
      rw [others j hj]
      exact h.others j hj
  · rw [← stv, hu1]
    rfl
  · rw [hu1]
    show commands ((v.out ++ _) ++ _) = _
    rw [ov, commands_append, commands_append]
    simp [commands]
  · rw [hu1]
    show told ((v.out ++ _) ++ _) = _
    rw [ov, told_append, told_append]
    simp [told]

/-- the MTA sends commands that milter `i` answers with continue, and the MTA is told so after each of them -/
inductive Exchanges (n i : Nat) : Sys → List Event → Sys → Prop where
  | nil (s : Sys) : Exchanges n i s [] s
  | cons {s s1 s2 : Sys} {e : Event} {es : List Event} (taken : Taken n s e)
      (happens : run n s (quietly [e, .flushed i, .reply i .cont]) = some s1)
      (tells : told s1.out = told s.out ++ [.reply .cont]) (rest : Exchanges n i s1 es s2) : Exchanges n i s (e :: es) s2

theorem Exchanges.append {n i : Nat} {s s1 s2 : Sys} {a b : List Event} (h : Exchanges n i s a s1) (h' : Exchanges n i s1 b s2) :
    Exchanges n i s (a ++ b) s2 := by
  induction h with
  | nil => exact h'
  | cons t r o _ ih => exact .cons t r o (ih h')

/-- the commands of a message before its end -/
def beforeEnd (m : Message) : List Event :=
  m.headers.map (fun h => .header h.1 h.2) ++ [.endOfHeader] ++ m.chunks.map .body

theorem take_headers {n i : Nat} {rest : List Nat} {b : Bytes} : ∀ (l : List (Bytes × Bytes)) {hs : List Header} {q : List St}
    {s : Sys}, Taking s i rest hs b q → (q = [] ∨ q = [.header]) →
    ∃ s', run (n + 1) s (quietly (l.flatMap fun h => [.header h.1 h.2, .flushed i, .reply i .cont])) = some s' ∧
      Taking s' i rest (hs ++ l.map fun h => ⟨h.1, some h.2⟩) b (if l = [] then q else [.header]) ∧ Still i s s' ∧
      commands s'.out = commands s.out ++ l.map (fun h => (i, .header h.1 (unspaced (converts s i) h.2))) ∧
      told s'.out = told s.out ++ (l.map fun _ => .reply .cont) ∧
      Exchanges (n + 1) i s (l.map fun h => .header h.1 h.2) s' := by
  intro l
  induction l with
  | nil =>
    intro hs q s h hq
    exact ⟨s, rfl, by simpa using h, .refl i s, by simp, by simp, .nil s⟩
  | cons x l ih =>
    intro hs q s h hq
    obtain ⟨v, hv⟩ := enter_header (n := n) x.1 x.2 h hq
    obtain ⟨s1, k1, e1, t1, st1, c1, o1⟩ := hv.continues h.oracle
    obtain ⟨s2, e2, t2, st2, c2, o2, x2⟩ := ih t1 (Or.inr rfl)
    refine ⟨s2, ?_, ?_, st1.trans st2, ?_, ?_, .cons k1 e1 o1 x2⟩
    · rw [List.flatMap_cons, quietly_append]
      exact run_trans e1 e2
    · rw [if_neg (by simp)]
      have : (if l = [] then [St.header] else [St.header]) = [.header] := by split <;> rfl
      rw [this] at t2
      simpa using t2
    · rw [c2, c1, st1.roles.converts]
      simp
    · rw [o2, o1]
      simp

theorem take_bodies {n i : Nat} {rest : List Nat} {hs : List Header} {q' : List St}
    (hq : q' = [.endOfHeader] ∨ q' = [.header, .endOfHeader]) : ∀ (l : List Bytes) {b : Bytes} {q : List St}
    {s : Sys}, Taking s i rest hs b q → (q = q' ∨ q = q' ++ [.body]) → (∀ c ∈ l, c.length ≤ Enc.chunkSize) →
    ∃ s', run (n + 1) s (quietly (l.flatMap fun b => [.body b, .flushed i, .reply i .cont])) = some s' ∧
      Taking s' i rest hs (b ++ l.flatten) (if l = [] then q else q' ++ [.body]) ∧ Still i s s' ∧
      commands s'.out = commands s.out ++ l.map (fun b => (i, .body b)) ∧
      told s'.out = told s.out ++ (l.map fun _ => .reply .cont) ∧ Exchanges (n + 1) i s (l.map .body) s' := by
  intro l
  induction l with
  | nil =>
    intro b q s h hq' _
    exact ⟨s, rfl, by simpa using h, .refl i s, by simp, by simp, .nil s⟩
  | cons x l ih =>
    intro b q s h hq' hl
    obtain ⟨v, hv⟩ := enter_body (n := n) x (hl x (by simp)) h hq hq'
    obtain ⟨s1, k1, e1, t1, st1, c1, o1⟩ := hv.continues h.oracle
    obtain ⟨s2, e2, t2, st2, c2, o2, x2⟩ := ih t1 (Or.inr rfl) fun c hc => hl c (by simp [hc])
    refine ⟨s2, ?_, ?_, st1.trans st2, ?_, ?_, .cons k1 e1 o1 x2⟩
    · rw [List.flatMap_cons, quietly_append]
      exact run_trans e1 e2
    · rw [if_neg (by simp)]
      have : (if l = [] then q' ++ [St.body] else q' ++ [St.body]) = q' ++ [.body] := by split <;> rfl
      rw [this] at t2
      simpa using t2
    · rw [c2, c1]
      simp
    · rw [o2, o1]
      simp

/-- nothing of the message has arrived -/
structure Opening (s : Sys) (i : Nat) (rest : List Nat) : Prop where
  taking : Taking s i rest [] [] []
  replaced : s.replaced = false
  changeFrom : s.changeFrom = none
  quarantine : s.quarantine = none

/-- the message arrives -/
theorem intake {n i : Nat} {rest : List Nat} {s : Sys} (m : Message) (h : Opening s i rest)
    (hl : ∀ c ∈ m.chunks, c.length ≤ Enc.chunkSize) :
    ∃ s', run (n + 1) s (quietly (m.arrives i)) = some s' ∧ Closing s' i rest ∧ Still i s s' ∧ draft s' = m.draft ∧
      s'.originalHeaders = some m.draft.headers ∧ s'.eomChunk = m.last ∧ s'.replacedForEach = false ∧
      (St.header ∈ s'.commandQueue ↔ m.headers ≠ []) ∧ (St.body ∈ s'.commandQueue ↔ m.chunks ≠ []) ∧
      commands s'.out = commands s.out ++ (m.first (converts s i)).map (i, ·) ∧
      told s'.out = told s.out ++ List.replicate ((m.first (converts s i)).length - 1) (.reply .cont) ∧
      ∃ u, Exchanges (n + 1) i s (beforeEnd m) u ∧ Taken (n + 1) u (.endOfMessage m.last) ∧
        run (n + 1) u (quietly [.endOfMessage m.last, .flushed i]) = some s' ∧ told s'.out = told u.out := by
  obtain ⟨s1, e1, t1, st1, c1, o1, x1⟩ := take_headers (n := n) m.headers h.taking (Or.inl rfl)
  obtain ⟨v, hv⟩ := enter_endOfHeader (n := n) t1 (by split <;> simp)
  obtain ⟨s2, k2, e2, t2, st2, c2, o2⟩ := hv.continues t1.oracle
  obtain ⟨s3, e3, t3, st3, c3, o3, x3⟩ := take_bodies (n := n)
    (q' := if m.headers = [] then [.endOfHeader] else [.header, .endOfHeader])
    (by split <;> simp) m.chunks t2 (by split <;> simp) hl
  obtain ⟨s4, k4, e4, t4, st4, h4, o4, b4, q4, m4, f4, c5, o5⟩ := take_endOfMessage (n := n) m.last t3
    (hh := decide (m.headers ≠ [])) (hb := decide (m.chunks ≠ []))
    (by by_cases ha : m.headers = [] <;> by_cases hb : m.chunks = [] <;> simp [ha, hb, queueOf])
  have st := ((st1.trans st2).trans st3).trans st4
  refine ⟨s4, ?_, t4, st, ?_, ?_, m4, f4, ?_, ?_, ?_, ?_, s3, (x1.append (.cons k2 e2 o2 (.nil s2))).append x3, k4, e4, o5⟩
  · unfold Message.arrives
    rw [quietly_append, quietly_append, quietly_append]
    exact run_trans (run_trans (run_trans e1 e2) e3) e4
  · unfold draft Message.draft
    rw [h4, b4, st.changeFrom, st.quarantine, st.replaced, h.replaced, h.changeFrom, h.quarantine]
    simp
  · rw [o4]; simp [Message.draft]
  · rw [q4]; by_cases ha : m.headers = [] <;> by_cases hb : m.chunks = [] <;> simp [ha, hb, queueOf]
  · rw [q4]; by_cases ha : m.headers = [] <;> by_cases hb : m.chunks = [] <;> simp [ha, hb, queueOf]
  · rw [c5, c3, c2, c1]
    simp [Message.first, chain, Message.draft, Function.comp_def]
  · rw [o5, o3, o2, o1]
    have e : ∀ {α : Type} (l : List α), (l.map fun _ => Emit.reply .cont) = List.replicate l.length (.reply .cont) := by
      intro α l; induction l with
      | nil => rfl
      | cons x l ih => simp [ih, List.replicate_succ]
    have len : (m.first (converts s i)).length - 1 = m.headers.length + (1 + m.chunks.length) := by
      simp [Message.first, chain, Message.draft]
      omega
    rw [e, e, len, ← List.replicate_append_replicate, ← List.replicate_append_replicate]
    simp [List.append_assoc]

/-! ## Checking -/

def readyB (c : Server.State) : Bool :=
  !c.quitted && decide (c.nextStates = []) && decide (c.timer = none) && decide (c.body = []) && decide (c.bodyQueue = []) &&
  decide (c.processBodyCount = 0) && !c.sentEom && !c.skipBody &&
  match c.option with
  | some o => [0x10, 0x20, 0x40, 0x80, 0x40000, 0x80000].all fun m => o.step &&& m == 0
  | none => false

theorem readyB_ready {c : Server.State} (h : readyB c = true) : Ready c := by
  simp only [readyB, Bool.and_eq_true, Bool.not_eq_true', decide_eq_true_eq] at h
  obtain ⟨⟨⟨⟨⟨⟨⟨⟨h1, h2⟩, h3⟩, h4⟩, h5⟩, h6⟩, h7⟩, h8⟩, h9⟩ := h
  refine ⟨h1, h2, h3, h4, h5, h6, h7, h8, ?_⟩
  cases ho : c.option with
  | none => rw [ho] at h9; cases h9
  | some o =>
    rw [ho] at h9
    refine ⟨o, rfl, fun m hm => ?_⟩
    have := List.all_eq_true.mp h9 m hm
    simpa using this

def openingB (s : Sys) (i : Nat) (rest : List Nat) : Bool :=
  s.oracle.isEmpty && (s.kids i).linked && readyB (s.kids i).ctx && (s.kids i).ctx.negotiated &&
  (s.kids i).ctx.processingMessage && decide (i < s.count) && s.waitingQueue.isEmpty &&
  decide ((milters s).filter (isProcessingMessage s) = i :: rest) && (i :: rest).all (hasAccepted s) &&
  decide (i :: rest).Nodup && decide (0 < s.chunkSize) && decide (s.chunkSize ≤ 4096) && s.option.isSome && s.headers.isNone &&
  decide (s.headerIndex = 0) && s.commandQueue.isEmpty && s.body.isNone && s.bodyFile.isNone && !s.replacedForEach &&
  decide (s.state ≠ .envelopeRecipient) && !s.emittedReply && s.originalHeaders.isNone &&
  rest.all (fun j => (s.kids j).linked && readyB (s.kids j).ctx) && !s.replaced && s.changeFrom.isNone && s.quarantine.isNone

unseal Enc.chunkSize in
theorem openingB_opening {s : Sys} {i : Nat} {rest : List Nat} (h : openingB s i rest = true) : Opening s i rest := by
  simp only [openingB, Bool.and_eq_true, Bool.not_eq_true', decide_eq_true_eq, List.isEmpty_iff, Option.isNone_iff_eq_none] at h
  obtain ⟨⟨⟨⟨⟨⟨⟨⟨⟨⟨⟨⟨⟨⟨⟨⟨⟨⟨⟨⟨⟨⟨⟨⟨⟨h1, h2⟩, h3⟩, h4⟩, h5⟩, h6⟩, h7⟩, h8⟩, h9⟩, h10⟩, h11⟩, h12⟩, h13⟩, h14⟩, h15⟩, h16⟩, h17⟩,
    h18⟩, h19⟩, h20⟩, h21⟩, h22⟩, h23⟩, h24⟩, h25⟩, h26⟩ := h
  refine ⟨⟨h1, h2, readyB_ready h3, ⟨h4, h5⟩, h6, Or.inr ⟨h7, h8, List.all_eq_true.mp h9⟩, h10, h11, ?_,
    Option.isSome_iff_exists.mp h13, by rw [h14]; rfl, fun _ => h15, h16, ?_, ?_, h19, h20, h21, h22, ?_⟩, h24, h25, h26⟩
  · exact Nat.le_trans h12 (by decide)
  · unfold stored; rw [h17, h18]
  · intro f hf; rw [h18] at hf; cases hf
  · intro j hj
    have := List.all_eq_true.mp h23 j hj
    simp only [Bool.and_eq_true] at this
    exact ⟨this.1, readyB_ready this.2⟩

end Verif.Children
