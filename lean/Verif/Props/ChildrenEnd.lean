import Verif.Props.ChildrenPhase
import Verif.Props.ChildrenMessage
import Verif.Manager.ChildrenKept
/-
C100: the end of a session.  C101: DATA is asked about before the message even if the MTA does not send it.
C27: reports of progress before the end of the message.
-/
namespace Verif.Props
open Verif Verif.Children Verif.Spec.Children Verif.Spec.Phase
open Verif.Server (St)
open Cases ChildrenLemmas

namespace EndLemmas

theorem quit_written (c : Server.State) :
    Server.command c .quit false true =
      ({ c with quitted := true, nextStates := c.nextStates ++ [.quit] }, [.wrote .quit, .ret true]) := by
  simp [Server.command, Server.returning, Server.writePacket, Server.andThen, Server.go, Server.exec]

/-- there is somebody to say good-bye to -/
def present (k : Kid) : Bool := isAlive k && decide (k.ctx.state ≠ .quit)

/-- told to quit -/
def dismissed (k : Kid) : Kid :=
  { k with ctx := { k.ctx with quitted := true, nextStates := k.ctx.nextStates ++ [.quit] } }

theorem quit_loop {d : Dispatch} {l : List Nat} : ∀ {u : Sys}, u.oracle = [] → l.Nodup →
    ∃ u', quitLoop d l u = some ((), u') ∧ u'.finished = u.finished ∧
      u'.out = u.out ++ (l.filter fun i => present (u.kids i)).map (.sent · .quit) ∧
      ∀ j, u'.kids j = if j ∈ l ∧ present (u.kids j) = true then dismissed (u.kids j) else u.kids j := by
  induction l with
  | nil => intro u _ _; exact ⟨u, rfl, rfl, by simp, by simp⟩
  | cons i l ih =>
    intro u ho hnd
    obtain ⟨hnot, hnd⟩ := List.nodup_cons.mp hnd
    unfold quitLoop
    rw [get_bind]
    have hiff : (!isQuitted u i) = true ∧ (u.kids i).ctx.state ≠ .quit ↔ present (u.kids i) = true := by
      rw [Children.Phase.alive_iff]; simp [present]
    by_cases hp : present (u.kids i) = true
    · rw [if_pos (hiff.mpr hp)]
      obtain ⟨u1, hu1⟩ : ∃ u1, u1 = logged (withCtx u i { (u.kids i).ctx with
        quitted := true, nextStates := (u.kids i).ctx.nextStates ++ [.quit] }) (.sent i .quit) := ⟨_, rfl⟩
      have k1 : ∀ j, u1.kids j = if j = i then dismissed (u.kids i) else u.kids j := by
        intro j
        rw [hu1]
        show (withCtx u i _).kids j = _
        by_cases h : j = i
        · subst h; rw [withCtx_kid, if_pos rfl]; rfl
        · rw [withCtx_other _ _ _ _ h, if_neg h]
      have hsame : (l.filter fun j => present (u1.kids j)) = l.filter fun j => present (u.kids j) :=
        List.filter_congr fun j hj => by rw [k1 j, if_neg (fun (h : j = i) => hnot (h ▸ hj))]
      obtain ⟨u2, h2, f2, o2, k2⟩ := ih (u := u1) (by rw [hu1]; exact ho) hnd
      refine ⟨u2, ?_, by rw [f2, hu1]; rfl, ?_, fun j => ?_⟩
      · rw [bind_eq (call_eq (d := d) ho (quit_written _)), ← hu1]
        exact h2
      · rw [o2, hsame, List.filter_cons, if_pos hp, hu1]
        simp [logged, withCtx]
      · rw [k2 j, k1 j]
        by_cases h : j = i
        · subst h; simp [hnot, hp]
        · simp [h]
    · rw [if_neg (fun h => hp (hiff.mp h))]
      obtain ⟨u2, h2, f2, o2, k2⟩ := ih (u := u) ho hnd
      refine ⟨u2, h2, f2, by rw [o2, List.filter_cons, if_neg hp], fun j => ?_⟩
      rw [k2 j]
      by_cases h : j = i
      · subst h; simp [hp]
      · simp [h]

end EndLemmas

open EndLemmas

/-- **C100**: whatever state a session is in, when the MTA ends it each milter that is still there is told to quit, once and
in the order of the configuration; nobody is sent anything else; the end of the session is announced unless it has been
before; and no milter is left that would be sent commands. -/
theorem C100_quit (n : Nat) (s : Sys) :
    ∃ s', next n s .quit [] = some s' ∧
      s'.out = s.out ++
        ((List.range s.count).filter fun i => isAlive (s.kids i) && decide ((s.kids i).ctx.state ≠ .quit)).map (.sent · .quit) ++
        (if s.finished then [] else [.emit .finished]) ∧
      s'.finished = true ∧
      ∀ i < s.count, isAlive (s'.kids i) = true → isAlive (s.kids i) = true ∧ (s.kids i).ctx.state = .quit := by
  obtain ⟨u, h1, h2, h3, h4⟩ := quit_loop (d := dispatch n) (l := List.range s.count)
    (u := { s with oracle := [], state := .quit, processingState := .quit }) rfl List.nodup_range
  have hkids : ∀ i < s.count, isAlive (u.kids i) = true → isAlive (s.kids i) = true ∧ (s.kids i).ctx.state = .quit := by
    intro i hi ha
    rw [h4 i] at ha
    dsimp only at ha
    by_cases hp : present (s.kids i) = true
    · rw [if_pos ⟨List.mem_range.mpr hi, hp⟩] at ha
      simp [isAlive, dismissed] at ha
    · rw [if_neg (fun h => hp h.2)] at ha
      refine ⟨ha, Classical.byContradiction fun hq => hp ?_⟩
      simp [present, ha, hq]
  obtain ⟨s0, hs0⟩ : ∃ s0 : Sys, s0 = { s with oracle := [] } := ⟨_, rfl⟩
  have hrun : step (dispatch n) .quit s0 =
      (if !u.finished then (do modify fun s => { s with finished := true }; emit .finished : M Unit) u else some ((), u)) := by
    simp only [step]
    unfold quit
    rw [modify_bind, get_bind, hs0]
    show (quitLoop (dispatch n) (List.range s.count) >>= _) _ = _
    rw [bind_eq h1, get_bind]
    split <;> rfl
  have hf : u.finished = s.finished := h2
  cases hfin : s.finished with
  | false =>
    rw [hf, hfin] at hrun
    refine ⟨{ u with finished := true, out := u.out ++ [.emit .finished] }, ?_, ?_, rfl, hkids⟩
    · unfold next
      rw [← hs0, hrun]
      rfl
    · show u.out ++ _ = _
      rw [h3]
      simp [present]
  | true =>
    rw [hf, hfin] at hrun
    refine ⟨u, ?_, ?_, by rw [hf, hfin], hkids⟩
    · unfold next
      rw [← hs0, hrun]
      rfl
    · rw [h3]
      simp [present]

/-- three milters, the second of which cannot be reached: the two others are told to quit; if the MTA says so again nothing
happens -/
example : (run 20 (init [{}, {}, {}] 4) (plain [.negotiate ⟨6, 0x1ff, 0x1fffff⟩, .connected 0 true, .connected 1 false,
      .connected 2 true, .flushed 0, .flushed 2, .reply 0 (.negotiate ⟨6, 0, 0⟩ none), .reply 2 (.negotiate ⟨6, 0, 0⟩ none)])).any
    (fun s => (next 20 s .quit []).any fun s' =>
      decide (s'.out = s.out ++ [.sent 0 .quit, .sent 2 .quit, .emit .finished]) &&
      (next 20 s' .quit []).any fun s'' => decide (s''.out = s'.out)) = true := by decide +kernel

/-- how often the end of the session is announced, and that it comes from a quit of the MTA -/
structure Announced (h : History) (s : Sys) : Prop where
  count : (told s.out).count .finished = if s.finished then 1 else 0
  quit : s.finished = true → Event.quit ∈ events h

theorem Announced.same {h : History} {s s' : Sys} (a : Announced h s) (h1 : s'.finished = s.finished)
    (h2 : (told s'.out).count .finished = (told s.out).count .finished) : Announced h s' :=
  ⟨by rw [h2, h1]; exact a.count, fun h => a.quit (h1 ▸ h)⟩

theorem told_new (out new : List Out) : told (out ++ new) = told out ++ told new := by simp [told]

theorem finished_eom (s : Sys) : Emit.finished ∉ eomEmits s := by
  simp only [eomEmits, replaceBodyEmits, List.mem_append, not_or]
  refine ⟨⟨⟨?_, ?_⟩, ?_⟩, ?_⟩
  · split
    · split
      · simp
      · split <;> simp
    · simp
  all_goals split <;> simp

theorem Announced.steps {h : History} {e : Event} {s0 t s : Sys} (he : e ∈ events h) (hs : Steps s0 e t s)
    (a : Announced h t) : Announced h s := by
  induction hs with
  | start => exact a
  | step _ op ih =>
    cases op
    case quiet hq => exact ih.same hq.finished (by rw [hq.out])
    case decide st =>
      refine ih.same (by simp only [decided]; split <;> rfl) ?_
      rw [decided_out, told_new, List.count_append]
      have : ∀ l : List Reply, (told (l.map fun r => Out.emit (.reply r))).count Emit.finished = 0 := by
        intro l; induction l with
        | nil => rfl
        | cons r l ih' => simpa [told] using ih'
      rw [this]; omega
    case mtaBody chunk _ => exact ih.same (bodyWritten_same _ chunk).finished (by rw [(bodyWritten_same _ chunk).out])
    case replace _ chunk _ => exact ih.same (bodyReplaced_same _ chunk).finished (by rw [(bodyReplaced_same _ chunk).out])
    case eom =>
      rename_i u _
      refine ih.same rfl ?_
      rw [told_new, List.count_append]
      have : ∀ l : List Emit, told (l.map .emit) = l := by
        intro l; induction l with
        | nil => rfl
        | cons r l ih' => simpa [told] using ih'
      rw [this, List.count_eq_zero_of_not_mem (finished_eom _)]; omega
    case announce hq hf =>
      refine ⟨?_, fun _ => hq ▸ he⟩
      rw [told_new, List.count_append, ih.count, hf]
      rfl
    case note x hx =>
      refine ih.same rfl ?_
      rw [logged, told_new, List.count_append]
      rcases hx with rfl | ⟨_, rfl⟩ <;> simp [told]
    all_goals exact ih.same rfl (by simp [logged, voted, messageDisposed, bodyDisposed, told])

/-- **C100**: in every history the end of the session is announced at most once, and only if the MTA has ended it. -/
theorem C100_once (n : Nat) (kids : List Kid) (chunkSize : Nat) (h : History) (s : Sys)
    (hrun : run n (init kids chunkSize) h = some s) :
    (told s.out).count .finished ≤ 1 ∧ (Emit.finished ∈ told s.out → Event.quit ∈ events h) := by
  have := run_induction (P := Announced) (n := n) (s0 := init kids chunkSize) ⟨rfl, fun h => nomatch h⟩
    (fun h s e a s' hp hs => Announced.steps (h := h ++ [(e, a)]) (by simp [events]) hs
      ⟨hp.count, fun hf => by have := hp.quit hf; simp only [events, List.map_append, List.mem_append]; exact .inl this⟩) h s hrun
  refine ⟨by rw [this.count]; split <;> omega, fun hm => this.quit ?_⟩
  have hpos := List.count_pos_iff.mpr hm
  rw [this.count] at hpos
  cases hf : s.finished with
  | true => rfl
  | false => rw [hf] at hpos; simp at hpos

/-- **C100**: once the end of a session has been announced, no result of a negotiation is told, whatever the milters still
answer (if there are milters at all: `idleReply`). -/
theorem C100_no_offer (n : Nat) (s s' : Sys) (h : History) (hf : s.finished = true) (hidle : Event.idleReply ∉ events h)
    (hrun : run n s h = some s') :
    ∃ new, s'.out = s.out ++ new ∧ ∀ o, Emit.negotiateReply o ∉ told new := by
  have hsteps : ∀ {e : Event} {s0 t u : Sys}, e ≠ .idleReply → Steps s0 e t u → t.finished = true →
      u.finished = true ∧ ∃ new, u.out = t.out ++ new ∧ ∀ o, Emit.negotiateReply o ∉ told new := by
    intro e s0 t u hne hs ht
    have hfin : ∀ {u}, Steps s0 e t u → u.finished = true := by
      intro u hs
      induction hs with
      | start => exact ht
      | step _ op ih =>
        cases op
        case quiet hq => rw [hq.finished]; exact ih
        case decide st => simp only [decided]; split <;> exact ih
        case mtaBody chunk _ => rw [(bodyWritten_same _ chunk).finished]; exact ih
        case replace _ chunk _ => rw [(bodyReplaced_same _ chunk).finished]; exact ih
        all_goals first | exact ih | rfl
    obtain ⟨new, h1, h2⟩ := hs.news
    refine ⟨hfin hs, new, h1, fun o ho => ?_⟩
    have hm : Out.emit (.negotiateReply o) ∈ new := by
      simp only [told, List.mem_filterMap] at ho
      obtain ⟨x, hx, hxe⟩ := ho
      cases x <;> simp at hxe
      subst hxe; exact hx
    obtain ⟨v, hv, hn⟩ := h2 _ hm
    generalize hx : Out.emit (.negotiateReply o) = x at hn
    cases hn <;> cases hx
    case note hx => rcases hx with hx | ⟨_, hx⟩ <;> cases hx
    case eom hx => exact absurd hx (eomEmits_negotiateReply _ _)
    case offer hx =>
      rcases hx with hx | hx
      · rw [hfin hv] at hx; cases hx
      · exact hne hx
  induction h generalizing s with
  | nil => cases hrun; exact ⟨[], by simp, by simp [told]⟩
  | cons x h ih =>
    obtain ⟨e, a⟩ := x
    simp only [run] at hrun
    simp only [events, List.map_cons, List.mem_cons, not_or] at hidle
    cases hn : next n s e a with
    | none => rw [hn] at hrun; cases hrun
    | some s1 =>
      rw [hn] at hrun
      obtain ⟨f1, new1, o1, k1⟩ := hsteps (Ne.symm hidle.1) (next_steps hn) hf
      obtain ⟨new2, o2, k2⟩ := ih s1 f1 hidle.2 hrun
      refine ⟨new1 ++ new2, by rw [o2, o1]; simp, fun o ho => ?_⟩
      rw [told_new] at ho
      rcases List.mem_append.mp ho with ho | ho
      · exact k1 o ho
      · exact k2 o ho

/-- the MTA leaves before the second milter has answered: its answer leads to nothing -/
example : (run 20 (init [{}, {}] 4) (plain [.negotiate ⟨6, 0x1ff, 0x1fffff⟩, .connected 0 true, .connected 1 true,
      .flushed 0, .flushed 1, .reply 0 (.negotiate ⟨6, 0, 0⟩ none), .quit])).any (fun s => s.finished &&
      (run 20 s (plain [.reply 1 (.negotiate ⟨6, 0, 0⟩ none)])).any fun s' =>
        decide (told s'.out = told s.out) && decide (s'.replyQueue = [])) = true := by decide +kernel

/-! ## C101 -/

/-- the answer of the function does not matter for what is done -/
theorem keep_data {d : Dispatch} {p : Pending} {s : Sys} :
    keep d p s = (data d s).map fun x => (x.1, if x.1 then { x.2 with pending := some p } else x.2) := by
  unfold keep
  show ((data d s).bind fun x => _) = _
  cases data d s with
  | none => rfl
  | some x =>
    obtain ⟨b, u⟩ := x
    cases b <;> rfl

theorem message_command {d : Dispatch} {e : Event} {p : Pending} {s : Sys} {o : Opt} (hp : pendingOf e = some p)
    (hstate : s.state = .envelopeRecipient) (ho : s.option = some o) (hv : 4 ≤ o.version) :
    (step d e s).map (·.2) = (data d s).map fun x => if x.1 then { x.2 with pending := some p } else x.2 := by
  have hemu : needEmulation s s = some (true, s) := by
    unfold needEmulation
    rw [if_pos hstate, ho]
    simp only [decide_eq_true hv]
    rfl
  have hdata : ∀ {m : M Bool}, (do
      if !(← checkProcessing) then return false
      else if ← needEmulation (← get) then keep d p
      else m : M Bool) s = keep d p s := by
    intro m
    by_cases hc : ((milters s).any fun i => isProcessingMessage s i) = true
    · have h1 : checkProcessing s = some (true, s) := by
        unfold checkProcessing; rw [get_bind, if_pos hc]; rfl
      rw [bind_eq h1]
      simp only [Bool.not_true, Bool.false_eq_true, if_false]
      rw [get_bind, bind_eq hemu]
      rfl
    · have h1 : checkProcessing s = some (false, logged s (.emit (.error true))) := by
        unfold checkProcessing; rw [get_bind, if_neg hc]; rfl
      rw [bind_eq h1, keep_data]
      unfold data toAll
      rw [get_bind, bind_eq h1]
      rfl
  have hmap : (step d e s).map (·.2) = (keep d p s).map (·.2) := by
    rw [step_command]
    cases e <;> simp only [pendingOf, reduceCtorEq, Option.some.injEq] at hp <;> subst hp <;> simp only [Children.command]
    · unfold header; exact congrArg _ hdata
    · unfold endOfHeader; exact congrArg _ hdata
    · unfold body; exact congrArg _ hdata
    · unfold endOfMessage; exact congrArg _ hdata
  rw [hmap, keep_data, Option.map_map]
  rfl

/-- **C101**: the MTA speaks a version of the protocol that has DATA, and goes on from the recipients to the message without it.
Then exactly that is done what would have been done at DATA; in addition the command may be kept, to be carried out later. -/
theorem C101_as_data (n : Nat) (s : Sys) (e : Event) (p : Pending) (o : Opt) (a : List (Bool × Bool)) (hp : pendingOf e = some p)
    (hstate : s.state = .envelopeRecipient) (ho : s.option = some o) (hv : 4 ≤ o.version) :
    ∃ kept : Bool, next n s e a = (next n s .data a).map fun s' => if kept then { s' with pending := some p } else s' := by
  have h := message_command (d := dispatch n) (s := { s with oracle := a }) hp hstate ho hv
  have hd : (step (dispatch n) .data { s with oracle := a }).map (·.2) = (data (dispatch n) { s with oracle := a }).map (·.2) :=
    step_command _ _ _
  unfold next
  rw [h, hd]
  cases data (dispatch n) { s with oracle := a } with
  | none => exact ⟨false, rfl⟩
  | some x =>
    obtain ⟨b, u⟩ := x
    exact ⟨b, by cases b <;> rfl⟩

/-- **C101**: if the manager is at rest and some milter of the message wants to be asked at DATA, the milters of the message are
sent DATA, nothing of the message; the MTA gets no answer yet, and its command is kept. -/
theorem C101_kept (n : Nat) (s : Sys) (e : Event) (p : Pending) (o : Opt) (hp : pendingOf e = some p)
    (hstate : s.state = .envelopeRecipient) (ho : s.option = some o) (hv : 4 ≤ o.version)
    (hcalm : Calm s (addressees s .data) .data) (hfallback : ∀ i ∈ addressees s .data, isFallback (s.kids i).fallback = true)
    (hask : ∃ i ∈ addressees s .data, declines (s.kids i) .data = false) :
    ∃ s', next (n + 1) s e [] = some s' ∧ s'.pending = some p ∧ told s'.out = told s.out ∧
      commands s'.out = commands s.out ++ opening s .data .data .data := by
  obtain ⟨u, h1, hinv⟩ := Children.Phase.command_asked (n := n) (cmd := .data) (st := .data) rfl hcalm
    fun i hi => isFallback_proper (hfallback i hi)
  have hs : { s with oracle := [] } = s := by cases s; simp [hcalm.oracle.symm]
  have h := message_command (d := dispatch (n + 1)) (s := s) hp hstate ho hv
  have hd : data (dispatch (n + 1)) s = some (true, u) := h1
  rw [hd] at h
  obtain ⟨i, hi, hdec⟩ := hask
  have hopen : (Talk.start s (addressees s .data) .data).isOpen (addressees s .data) = true := by
    refine List.any_eq_true.mpr ⟨i, hi, ?_⟩
    simp [Talk.start, hi, hdec, Pos.isOpen]
  obtain ⟨hun, -⟩ := hinv.undecided hopen
  refine ⟨{ u with pending := some p }, ?_, rfl, hun.told, ?_⟩
  · unfold next
    rw [hs, h]
    rfl
  · show commands u.out = _
    rw [hun.sent]
    simp [Talk.start]

/-- the conversation at DATA begins, with the MTA's command kept -/
theorem begun_kept (n : Nat) {s : Sys} {e : Event} {p : Pending} {o : Opt} (hp : pendingOf e = some p)
    (hstate : s.state = .envelopeRecipient) (ho : s.option = some o) (hv : 4 ≤ o.version)
    (hcalm : Calm s (addressees s .data) .data) (hfallback : ∀ i ∈ addressees s .data, isFallback (s.kids i).fallback = true)
    (hask : ∃ i ∈ addressees s .data, declines (s.kids i) .data = false) :
    ∃ s', next (n + 2) s e [] = some s' ∧ (Talk.start s (addressees s .data) .data).isOpen (addressees s .data) = true ∧
      Children.Phase.Inv s (commands s.out ++ opening s .data .data .data) (addressees s .data) .data
        (Talk.start s (addressees s .data) .data) s' (some p) := by
  obtain ⟨u, h1, hinv⟩ := Children.Phase.command_asked (n := n + 1) (cmd := .data) (st := .data) rfl hcalm
    fun i hi => isFallback_proper (hfallback i hi)
  have hs : { s with oracle := [] } = s := by cases s; simp [hcalm.oracle.symm]
  have h := message_command (d := dispatch (n + 2)) (s := s) hp hstate ho hv
  have hd : data (dispatch (n + 2)) s = some (true, u) := h1
  rw [hd] at h
  obtain ⟨i, hi, hdec⟩ := hask
  have hopen : (Talk.start s (addressees s .data) .data).isOpen (addressees s .data) = true := by
    refine List.any_eq_true.mpr ⟨i, hi, ?_⟩
    simp [Talk.start, hi, hdec, Pos.isOpen]
  obtain ⟨hun, hfo⟩ := hinv.undecided hopen
  have hn : next (n + 2) s e [] = some { u with pending := some p } := by
    unfold next
    rw [hs, h]
    rfl
  have hc := hinv.core
  exact ⟨_, hn, hopen, ⟨hc.parallel, hc.distinct, hc.nonempty, hc.range, hc.count, hc.oracle, hc.kept, hc.at', hc.outside, hc.inside,
      hc.options, hc.spoken, hc.proper, hc.fallbacks, hc.others, hc.frame, hc.accepted⟩, hinv.queue,
    fun _ => ⟨⟨hun.state, hun.current, rfl, hun.status, hun.code, hun.told, hun.sent, hun.due⟩, hfo⟩,
    fun h => by rw [hopen] at h; cases h⟩

/-- the conversation at DATA, with the MTA's command kept -/
theorem conversed_kept (n : Nat) {s : Sys} {e : Event} {p : Pending} {o : Opt} (hp : pendingOf e = some p)
    (hstate : s.state = .envelopeRecipient) (ho : s.option = some o) (hv : 4 ≤ o.version)
    (hcalm : Calm s (addressees s .data) .data) (hfallback : ∀ i ∈ addressees s .data, isFallback (s.kids i).fallback = true)
    (hask : ∃ i ∈ addressees s .data, declines (s.kids i) .data = false) {es : List Event} {t : Talk}
    (ht : (Talk.start s (addressees s .data) .data).moves s (addressees s .data) .data es = some t)
    (hfit : Children.Phase.Fits (some p) t (addressees s .data)) :
    ∃ s', run (n + 2) s (quietly (e :: es)) = some s' ∧
      Children.Phase.Inv s (commands s.out ++ opening s .data .data .data) (addressees s .data) .data t s' (some p) := by
  obtain ⟨u, hn, _, hkept⟩ := begun_kept n hp hstate ho hv hcalm hfallback hask
  obtain ⟨u', h3, h4⟩ := Children.Phase.conversation (n := n) hkept ht hfit
  refine ⟨u', ?_, h4⟩
  simp only [quietly, List.map_cons, run, hn]
  exact h3

/-- **C101**: as long as a milter has not answered at DATA - whatever has happened with them in any order - the command of the MTA
stays kept, nobody is shown anything of the message, and the MTA gets no answer. -/
theorem C101_waiting (n : Nat) (s : Sys) (e : Event) (p : Pending) (o : Opt) (hp : pendingOf e = some p)
    (hstate : s.state = .envelopeRecipient) (ho : s.option = some o) (hv : 4 ≤ o.version)
    (hcalm : Calm s (addressees s .data) .data) (hfallback : ∀ i ∈ addressees s .data, isFallback (s.kids i).fallback = true)
    (hask : ∃ i ∈ addressees s .data, declines (s.kids i) .data = false) (es : List Event) (t : Talk)
    (ht : (Talk.start s (addressees s .data) .data).moves s (addressees s .data) .data es = some t)
    (hopen : t.isOpen (addressees s .data) = true) :
    ∃ s', run (n + 2) s (quietly (e :: es)) = some s' ∧ s'.pending = some p ∧ told s'.out = told s.out ∧
      ∃ later, commands s'.out = commands s.out ++ opening s .data .data .data ++ later ∧ ∀ c ∈ later, c.2 = .quit := by
  obtain ⟨s', h1, h2⟩ := conversed_kept n hp hstate ho hv hcalm hfallback hask ht (.inr (.inl hopen))
  obtain ⟨hu, -⟩ := h2.undecided hopen
  refine ⟨s', h1, hu.pending, hu.told, _, hu.sent, fun c hc => ?_⟩
  obtain ⟨i, _, rfl⟩ := List.mem_map.mp hc
  rfl

/-- **C101**: when all milters have answered at DATA and one of them refuses the message, or all accept it, the MTA gets the most
severe of their decisions as the answer to its command.  The command is not kept any longer, and nobody has been shown anything of
the message. -/
theorem C101_decided (n : Nat) (s : Sys) (e : Event) (p : Pending) (o : Opt) (hp : pendingOf e = some p)
    (hstate : s.state = .envelopeRecipient) (ho : s.option = some o) (hv : 4 ≤ o.version)
    (hcalm : Calm s (addressees s .data) .data) (hfallback : ∀ i ∈ addressees s .data, isFallback (s.kids i).fallback = true)
    (hask : ∃ i ∈ addressees s .data, declines (s.kids i) .data = false) (es : List Event) (t : Talk)
    (ht : (Talk.start s (addressees s .data) .data).moves s (addressees s .data) .data es = some t)
    (hover : t.isOpen (addressees s .data) = false)
    (hdecided : (∃ v ∈ t.votes, refuses v = true) ∨ ∀ v ∈ t.votes, v = .accept) :
    ∃ v ∈ t.votes, (∀ w ∈ t.votes, severity w ≤ severity v) ∧
      ∃ s', run (n + 2) s (quietly (e :: es)) = some s' ∧ s'.pending = none ∧
        told s'.out = told s.out ++ [.reply (report v t.code)] ∧
        ∃ later, commands s'.out = commands s.out ++ opening s .data .data .data ++ later ∧ ∀ c ∈ later, c.2 = .quit ∨ c.2 = .abort := by
  have hf : ∀ i ∈ addressees s .data, Children.Phase.Proper (s.kids i).fallback := fun i hi => isFallback_proper (hfallback i hi)
  obtain ⟨hne, hpr⟩ := votes_ne n (e := .data) rfl hcalm hf ht hover
  obtain ⟨m1, m2⟩ := C13_max t.votes hne fun v hv => proper_decision (hpr v hv)
  have hw : Children.Phase.worst t ≠ .continue_ := by
    intro hw
    have hw' : Status.compileAll .notChange t.votes = .continue_ := hw
    rcases hdecided with ⟨v, hv, hr⟩ | hall
    · have := m2 v hv
      rw [hw'] at this
      cases v <;> simp [refuses, severity] at hr this
    · have := hall _ m1
      rw [hw'] at this
      cases this
  obtain ⟨s', h1, h2⟩ := conversed_kept n hp hstate ho hv hcalm hfallback hask ht (.inr (.inr hw))
  have hs := h2.settled hover
  refine ⟨_, m1, m2, s', h1, hs.pending, hs.told, ?_⟩
  cases he : ends .data (Children.Phase.worst t) with
  | false =>
    refine ⟨_, (hs.going he).2.2, fun c hc => ?_⟩
    obtain ⟨i, _, rfl⟩ := List.mem_map.mp hc
    exact .inl rfl
  | true =>
    obtain ⟨_, x, hx, ha, _⟩ := hs.over he
    refine ⟨t.dismissed.map (·, .quit) ++ x, by rw [hx]; simp, fun c hc => ?_⟩
    rcases List.mem_append.mp hc with hc | hc
    · obtain ⟨i, _, rfl⟩ := List.mem_map.mp hc
      exact .inl rfl
    · exact .inr (ha c hc)

/-- **C101**: when all milters have answered at DATA - in any order, whatever has become of them - and none of them refuses the message
but not all accept it, the kept command is carried out: the header, or the end of the headers, goes to the first milter that follows
the message and to no other.  The MTA has got no answer to it yet. -/
theorem C101_carried_out (n : Nat) (s : Sys) (e : Event) (o : Opt)
    (he : e = .endOfHeader ∨ ∃ name value, e = .header name value)
    (hstate : s.state = .envelopeRecipient) (ho : s.option = some o) (hv : 4 ≤ o.version) (hrest : AtRest s)
    (htrace : Traceless s) (hchunk : 0 < s.chunkSize ∧ s.chunkSize ≤ 65535)
    (hwants : ∀ i ∈ addressees s .data, ∃ o, (s.kids i).ctx.option = some o ∧ wantsMessage o)
    (hnobody : abandoned s .data = [])
    (hask : ∃ i ∈ addressees s .data, declines (s.kids i) .data = false) (es : List Event) (t : Talk)
    (ht : (Talk.start s (addressees s .data) .data).moves s (addressees s .data) .data es = some t)
    (hover : t.isOpen (addressees s .data) = false)
    (hgoes : (∀ v ∈ t.votes, refuses v = false) ∧ ∃ v ∈ t.votes, v ≠ .accept)
    (i : Nat) (rest : List Nat) (hwho : (addressees s .data).filter (fun j => t.pos j = .answered) = i :: rest) :
    ∃ s', run (n + 2) s (quietly (e :: es)) = some s' ∧ s'.pending = none ∧ told s'.out = told s.out ∧
      ∃ later, commands s'.out = commands s.out ++ opening s .data .data .data ++ later ++
          [(i, match e with | .header name value => .header name (unspaced (converts s i) value) | _ => .endOfHeader)] ∧
        ∀ c ∈ later, c.2 = .quit := by
  have hresting : ∀ i ∈ addressees s .data, Resting (s.kids i) := by
    intro j hj
    obtain ⟨h1, h2⟩ := List.mem_filter.mp hj
    simp only [Bool.and_eq_true, inMessage] at h2
    exact hrest.milters j (List.mem_range.mp h1) h2.1.1
  have hcalm : Calm s (addressees s .data) .data := by
    refine ⟨hrest.oracle, hrest.pending, hrest.running, ?_, fun j hj => ?_⟩
    · obtain ⟨j, hj, _⟩ := hask
      intro h
      rw [h] at hj
      cases hj
    · have k := hresting j hj
      obtain ⟨o, h1, h2⟩ := k.option
      exact ⟨k.linked, k.retry, Children.Phase.addressees_alive hj, k.nextStates, k.timer, o, h1, h2 .data .data .data rfl⟩
  have hfallback : ∀ i ∈ addressees s .data, isFallback (s.kids i).fallback = true := fun i hi => (hresting i hi).fallback
  have hf : ∀ i ∈ addressees s .data, Children.Phase.Proper (s.kids i).fallback := fun i hi => isFallback_proper (hfallback i hi)
  obtain ⟨hne, hpr⟩ := votes_ne n (e := .data) rfl hcalm hf ht hover
  obtain ⟨m1, m2⟩ := C13_max t.votes hne fun v hv => proper_decision (hpr v hv)
  have hw : Children.Phase.worst t = .continue_ := by
    show Status.compileAll .notChange t.votes = .continue_
    have hd := hpr _ m1
    have hr := hgoes.1 _ m1
    obtain ⟨v, hv, hva⟩ := hgoes.2
    have h1 := m2 v hv
    have h2 := hgoes.1 v hv
    have h3 := hpr v hv
    generalize Status.compileAll .notChange t.votes = w at *
    unfold Children.Phase.Proper at hd h3
    rcases hd with rfl | rfl | rfl | rfl | rfl <;> rcases h3 with rfl | rfl | rfl | rfl | rfl <;>
      first | rfl | (exact absurd rfl hva) | (exact absurd h1 (by decide)) | (exact absurd hr (by decide)) | exact absurd h2 (by decide)
  have hb : Children.Phase.Begins s := ⟨hrest.blank, htrace, fun j hj => (hresting j hj).body, hwants, hnobody, hchunk.1,
    by rw [Enc.chunkSize_eq]; exact hchunk.2, o, ho⟩
  obtain ⟨p, hp, hfirst, hkc⟩ : ∃ p, pendingOf e = some p ∧ Children.Phase.isFirst p ∧ Children.Phase.keptCommand s i p =
      (match e with | .header name value => .header name (unspaced (converts s i) value) | _ => .endOfHeader) := by
    rcases he with rfl | ⟨name, value, rfl⟩
    · exact ⟨.endOfHeader, rfl, trivial, rfl⟩
    · exact ⟨.header name value, rfl, trivial, rfl⟩
  obtain ⟨u, hn, hopen, hinv⟩ := begun_kept n hp hstate ho hv hcalm hfallback hask
  obtain ⟨s', h1, h2⟩ := Children.Phase.conversation_carried (n := n) hinv hopen ht hover
    (Children.Phase.reach_carried hb hfirst hover hw hwho)
  refine ⟨s', ?_, h2.pending, h2.told, t.dismissed.map (·, .quit), by rw [← hkc]; exact h2.sent, fun c hc => ?_⟩
  · simp only [quietly, List.map_cons, run, hn]
    exact h1
  · obtain ⟨j, _, rfl⟩ := List.mem_map.mp hc
    rfl

namespace Cases

/-- up to the answers to a recipient, with milters that take no part in `step` -/
def upToRecipient (n : Nat) (step : UInt32) : List Event :=
  negotiation n (fun _ => ⟨6, 0x1ff, step⟩) ++ [.connect [] .unspec] ++ answers n ++
  [.envelopeFrom [1]] ++ answers n ++ [.envelopeRecipient [2]] ++ answers n

end Cases

/-- the MTA goes on with a header: both milters are sent DATA; when both have said continue, the header goes to the first one -/
example : ((run 20 (init [{}, {}] 4) (plain (upToRecipient 2 0))).any fun s =>
      decide (s.state = .envelopeRecipient) && decide (s.oracle = []) && decide (s.pending = none) &&
      ((addressees s .data).any fun i => !declines (s.kids i) .data) &&
      (next 20 s (.header [3] [4]) []).any fun s1 =>
        decide (commands s1.out = commands s.out ++ [(0, .data), (1, .data)]) && decide (told s1.out = told s.out) &&
        (run 20 s1 (plain (answers 2))).any fun s2 =>
          decide (commands s2.out = commands s1.out ++ [(0, .header [3] [4])]) && decide (told s2.out = told s.out) &&
          decide (s2.pending = none)) = true := by decide +kernel

instance (s : Sys) : Decidable (Blank s) := by unfold Blank; infer_instance
instance (s : Sys) : Decidable (Traceless s) := by unfold Traceless; infer_instance
instance (c : Server.State) : Decidable (MsgBlank c) := by unfold MsgBlank; infer_instance

/-- the hypotheses of `C101_carried_out`: the first milter accepts, the second one fails and the third one gets the header -/
example : ((run 20 (init [{}, {}, {}] 4) (plain (upToRecipient 3 0))).any fun s =>
      decide (s.state = .envelopeRecipient) && decide (addressees s .data = [0, 1, 2]) && decide (abandoned s .data = []) &&
      decide (s.oracle = []) && decide (s.pending = none) && !s.allExpired && decide (Blank s) && decide (Traceless s) &&
      decide (s.chunkSize = 4) && decide (s.option.map (·.version) = some 6) &&
      (List.range 3).all (fun i => (s.kids i).linked && decide ((s.kids i).tryRetry = none) &&
        decide ((s.kids i).ctx.nextStates = []) && decide ((s.kids i).ctx.timer = none) && decide ((s.kids i).ctx.option.map (·.step) = some 0) &&
        isFallback (s.kids i).fallback && decide (MsgBlank (s.kids i).ctx) && !declines (s.kids i) .data) &&
      let es := [.flushed 0, .flushed 1, .flushed 2, .reply 0 .accept, .error 1, .reply 2 .cont, .finished 1]
      ((Talk.start s (addressees s .data) .data).moves s (addressees s .data) .data es).any fun t =>
        !t.isOpen (addressees s .data) && t.votes.all (fun v => !refuses v) && t.votes.any (fun v => decide (v ≠ .accept)) &&
        decide ((addressees s .data).filter (fun j => t.pos j = .answered) = [2]) &&
        (run 20 s (quietly (.header [3] [4] :: es))).any fun s' =>
          decide (told s'.out = told s.out) && decide (s'.pending = none) &&
          decide ((commands s'.out).getLast? = some (2, .header [3] [4]))) = true := by decide +kernel

/-- one of them refuses the message at DATA: the MTA gets that as the answer to its header, which nobody is shown -/
example : ((run 20 (init [{}, {}] 4) (plain (upToRecipient 2 0))).any fun s =>
      (((Talk.start s (addressees s .data) .data).moves s (addressees s .data) .data [.flushed 0, .flushed 1, .reply 0 .cont]).any
        fun t => t.isOpen (addressees s .data)) &&
      (((Talk.start s (addressees s .data) .data).moves s (addressees s .data) .data
          [.flushed 0, .flushed 1, .reply 0 .cont, .reply 1 .reject]).any
        fun t => !t.isOpen (addressees s .data) && t.votes.any refuses) &&
      (run 20 s (plain [.header [3] [4], .flushed 0, .flushed 1, .reply 0 .cont, .reply 1 .reject])).any fun s2 =>
          decide (told s2.out = told s.out ++ [.reply .reject]) && decide (s2.pending = none) &&
          ((commands s2.out).all fun c => decide (c.2 ≠ .header [3] [4]))) = true := by decide +kernel

/-- **C101**, where it fails: if no milter wants to be asked at DATA, the answer to the emulated command is complete before the
header is kept.  The MTA is told to continue although nobody has been shown the header; it is still kept when the
rest of the message arrives and is dropped at the end: the message passes, and no milter has ever been shown its first header. -/
theorem C101_header_lost_violated :
    ((run 20 (init [{}, {}] 4) (plain (upToRecipient 2 0x200))).any fun s =>
      (run 20 s (plain [.header [3] [4]])).any fun s1 =>
        decide (told s1.out = told s.out ++ [.reply .cont]) && decide (commands s1.out = commands s.out) &&
        (run 20 s1 (plain ([.header [5] [6], .flushed 0, .reply 0 .cont, .endOfHeader, .flushed 0, .reply 0 .cont,
            .body [7], .flushed 0, .reply 0 .cont, .endOfMessage [], .flushed 0, .reply 0 .cont] ++
            (List.replicate 4 [.flushed 1, .reply 1 .cont]).flatten))).any fun s2 =>
          decide (told s2.out = told s1.out ++ [.reply .cont, .reply .cont, .reply .cont, .reply .cont]) &&
          decide (s2.pending = none) &&
          decide (commands s2.out = commands s.out ++
            [(0, .header [5] [6]), (0, .endOfHeader), (0, .body [7]), (0, .endOfMessage []),
             (1, .header [5] [6]), (1, .endOfHeader), (1, .body [7]), (1, .endOfMessage [])])) = true := by
  decide +kernel

/-! ## C27: progress -/

/-- **C27**: a report of progress from a milter that has not been sent the end of the message has exactly the effect of a request
for a modification at that time. -/
theorem C27_progress (n : Nat) (s : Sys) (i : Nat) (a : List (Bool × Bool)) (hs : (s.kids i).ctx.state ≠ .endOfMessage) :
    next n s (.reply i .progress) a = next n s (.reply i (.deleteRecipient [])) a := by
  have hctx : ∀ ok (u : Sys), (u.kids i).ctx.state ≠ .endOfMessage →
      stepCtx (dispatch n) i (.reply .progress ok) u = stepCtx (dispatch n) i (.reply (.deleteRecipient []) ok) u := by
    intro ok u hu
    have he : Server.step (u.kids i).ctx (.reply .progress ok) =
        Server.step (u.kids i).ctx (.reply (.deleteRecipient []) ok) := by
      simp [Server.step, Server.reply, Server.modification, Server.invalidState, Server.andThen, Server.pause, hu]
    show (do
      modifyCtx i fun _ => (Server.step (u.kids i).ctx (.reply .progress ok)).1
      drive (dispatch n) i (Server.step (u.kids i).ctx (.reply .progress ok)).2 : M Bool) u = (do
      modifyCtx i fun _ => (Server.step (u.kids i).ctx (.reply (.deleteRecipient []) ok)).1
      drive (dispatch n) i (Server.step (u.kids i).ctx (.reply (.deleteRecipient []) ok)).2 : M Bool) u
    rw [he]
  unfold next
  congr 1
  simp only [step]
  cases a with
  | nil =>
    show ((stepCtx (dispatch n) i (.reply .progress true)) { s with oracle := [] } >>= fun p => _) =
      ((stepCtx (dispatch n) i (.reply (.deleteRecipient []) true)) { s with oracle := [] } >>= fun p => _)
    rw [hctx true { s with oracle := [] } hs]
  | cons p rest =>
    show ((stepCtx (dispatch n) i (.reply .progress p.2)) { s with oracle := rest } >>= fun p => _) =
      ((stepCtx (dispatch n) i (.reply (.deleteRecipient []) p.2)) { s with oracle := rest } >>= fun p => _)
    rw [hctx p.2 { s with oracle := rest } hs]

/-- a milter reports progress while it is sent the headers: it is given up, the MTA is not told -/
example : ((run 20 (init [{}, {}] 4) (plain (upToData 2 ++ [.header [3] [4], .flushed 0]))).any fun s =>
      decide ((s.kids 0).ctx.state ≠ .endOfMessage) &&
      (next 20 s (.reply 0 .progress) []).any fun s' =>
        isQuitted s' 0 && decide (Emit.reply .progress ∉ told s'.out)) = true := by decide +kernel

end Verif.Props
