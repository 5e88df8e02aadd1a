import Verif.Props.ChildrenEvaluation
/-
C27, C30: changes of a message asked for too early, and what is left of a message when it is over.
-/
namespace Verif.Props
open Verif Verif.Children Verif.Spec.Children

namespace ChildrenLemmas

/-- nothing in the step may change the message -/
structure Calm (s0 : Sys) (e0 : Event) : Prop where
  pending : s0.pending = none
  command : pendingOf e0 = none
  reply : ∀ i r, e0 = .reply i r → isModification r = false

/-- the message is as before, or forgotten -/
def Keep (t s : Sys) : Prop :=
  (kept s = kept t ∧ s.replaced = t.replaced ∧ s.chunkSize = t.chunkSize) ∨ kept s = nothingKept

theorem Keep.refl (s : Sys) : Keep s s := .inl ⟨rfl, rfl, rfl⟩

theorem Keep.trans {a b c : Sys} (h : Keep a b) (h' : Keep b c) : Keep a c := by
  rcases h' with ⟨h1, h2, h3⟩ | h'
  · rcases h with ⟨g1, g2, g3⟩ | h
    · exact .inl ⟨h1.trans g1, h2.trans g2, h3.trans g3⟩
    · exact .inr (h1.trans h)
  · exact .inr h'

theorem disposed_kept (s : Sys) : kept (messageDisposed s) = nothingKept := rfl

theorem decided_keep (s : Sys) (st : Server.St) : Keep s (decided s st) := by
  unfold decided
  dsimp only
  split
  · exact .inr (disposed_kept _)
  · exact .inl ⟨rfl, rfl, rfl⟩

theorem decided_eom (s : Sys) : kept (decided s .endOfMessage) = nothingKept := rfl

theorem edited_modification {c : Bool} {hs hs' : List Header} {r : Reply} (h : edited c hs r = some hs') :
    isModification r = true := by
  cases r <;> first | rfl | cases h

theorem keep_op {s0 s s' : Sys} {e0 : Event} (hc : Calm s0 e0) (op : Op s0 e0 s s') : Keep s s' := by
  have none : ∀ p, ¬ Given s0 e0 p := by
    intro p hg
    rcases hg with hg | hg
    · rw [hc.command] at hg; cases hg
    · rw [hc.pending] at hg; cases hg
  have nomod : ∀ {u : Sys} {i : Nat} {r : Reply}, ModOk e0 u i r → isModification r = true → False := by
    intro u i r hm hr
    rw [hc.reply i r hm.event] at hr; cases hr
  cases op
  case quiet h =>
    refine .inl ⟨?_, h.replaced, h.chunkSize⟩
    simp only [kept, h.originalHeaders, h.headers, h.body, h.file, h.changeFrom, h.quarantine, h.eomChunk]
  case dispose => exact .inr rfl
  case decide st => exact decided_keep s st
  case changeFrom i f p hm => exact (nomod hm rfl).elim
  case quarantine i q hm => exact (nomod hm rfl).elim
  case edit i r c hs hs' hm hh he => exact (nomod hm (edited_modification he)).elim
  case replace i chunk hm => exact (nomod hm rfl).elim
  case mtaHeader hg => exact (none _ hg).elim
  case mtaBody hg => exact (none _ hg).elim
  case mtaEnd hg => exact (none _ hg).elim
  all_goals exact .inl ⟨rfl, rfl, rfl⟩

theorem keep_steps {s0 t s : Sys} {e0 : Event} (hc : Calm s0 e0) (h : Steps s0 e0 t s) : Keep t s := by
  induction h with
  | start => exact .refl t
  | step _ op ih => exact ih.trans (keep_op hc op)

/-- what would be told to the MTA depends on what is kept -/
theorem keep_emits {s u : Sys} {e : Emit} (h : Keep s u) (he : e ∈ eomEmits u) : e ∈ eomEmits s := by
  rcases h with ⟨h1, h2, h3⟩ | h
  · simp only [kept, Kept.mk.injEq] at h1
    obtain ⟨a1, a2, a3, a4, a5, a6, a7⟩ := h1
    have hb : replaceBodyEmits u = replaceBodyEmits s := by
      unfold replaceBodyEmits
      rw [a3, h3]
      cases s.body with
      | some b => rfl
      | none =>
        cases hu : u.bodyFile <;> cases hs : s.bodyFile <;> rw [hu, hs] at a4 <;> simp at a4 <;> simp [a4]
    unfold eomEmits at he ⊢
    rw [a1, a2, a5, a6, h2, hb] at he
    exact he
  · simp only [kept, nothingKept, Kept.mk.injEq, Option.map_eq_none_iff] at h
    obtain ⟨a1, a2, a3, a4, a5, a6, a7⟩ := h
    simp [eomEmits, a1, a5, a6, replaceBodyEmits, a3, a4] at he

/-- a failing milter is given up, whatever else its failure leads to -/
theorem signal_error_quits {s0 s : Sys} {e0 : Event} {n i : Nat} {e : Server.Err} (hp : Path s0 e0 s s)
    (hl : (s.kids i).linked = true) :
    wp (dispatch n (.signal i (.error e)))
      (fun _ u => Path s0 e0 s u ∧ (u.kids i).ctx.quitted = true) s := by
  cases n with
  | zero => exact (wp_failure _ _).mpr trivial
  | succ n =>
    have hpath := dispatch_path (s0 := s0) (e0 := e0) (n + 1) s (.signal i (.error e)) s hp trivial
    have hq : wp (dispatch (n + 1) (.signal i (.error e))) (fun _ u => (u.kids i).ctx.quitted = true) s := by
      unfold dispatch
      dsimp only
      with_reducible apply (wp_bind _ _ _ _).mpr
      have htry : wp (tryHandler (dispatch n) i (.error e))
          (fun _ u => Path s0 e0 s u ∧ ((u.kids i).ctx.quitted = true ∨ u = s)) s := by
        unfold tryHandler
        with_reducible apply (wp_bind _ _ _ _).mpr
        with_reducible apply (wp_get _ _).mpr
        have hclear : ∀ u, Path s0 e0 s u → wp (clearTry i)
            (fun _ v => Path s0 e0 s v ∧ ((v.kids i).ctx.quitted = true ∨ v = s)) u := by
          intro u hu
          refine ⟨fun x v hx => ⟨(clearTry_path hu).elim x v hx, .inl ?_⟩⟩
          have : wp (clearTry i) (fun _ v => (v.kids i).ctx.quitted = true) u := by
            unfold clearTry
            with_reducible apply (wp_bind _ _ _ _).mpr
            refine wp_mono (removeInNegotiate_path hu) fun _ v hv => ?_
            with_reducible apply (wp_bind _ _ _ _).mpr
            unfold expire modifyKid
            refine (wp_modify _ _ _).mpr ((wp_modify _ _ _).mpr ?_)
            simp [updKid]
          exact this.elim x v hx
        cases htr : (s.kids i).tryRetry with
        | none => exact (wp_pure _ _ _).mpr ⟨hp, .inr rfl⟩
        | some retry =>
          dsimp only
          with_reducible apply (wp_ite _ _ _ _ _).mpr
          split
          · with_reducible apply (wp_bind _ _ _ _).mpr
            refine wp_mono (error_path hp) fun _ u hu => ?_
            exact hclear u hu
          · exact hclear s hp
      refine wp_mono htry fun _ u hu => ?_
      with_reducible apply (wp_bind _ _ _ _).mpr
      with_reducible apply (wp_get _ _).mpr
      with_reducible apply (wp_ite _ _ _ _ _).mpr
      rcases hu with ⟨hu, hq | rfl⟩
      · split
        · refine wp_mono (cbFailed_path (dispatch_path n) hu.here rfl) fun _ v hv => ?_
          exact hv.post.quitted i hq
        · exact (wp_pure _ _ _).mpr hq
      · rw [if_pos hl]
        unfold handle cbFailed expire modifyKid compile
        with_reducible apply (wp_bind _ _ _ _).mpr
        refine (wp_modify _ _ _).mpr ?_
        with_reducible apply (wp_bind _ _ _ _).mpr
        with_reducible apply (wp_get _ _).mpr
        dsimp only
        with_reducible apply (wp_bind _ _ _ _).mpr
        refine (wp_modify _ _ _).mpr ?_
        with_reducible apply (wp_bind _ _ _ _).mpr
        refine (wp_modify _ _ _).mpr ?_
        have hp' := hu.step (.failed i (.error e) rfl)
        refine wp_mono (removeFromQueue_path (dispatch_path n) hp'.here) fun _ v hv => ?_
        exact hv.post.quitted i (by simp [updKid, expired])
    exact ⟨fun a u h => ⟨hpath.elim a u h, hq.elim a u h⟩⟩

/-- outside the end of message a modification makes the context report an error and nothing else -/
theorem early_modification (c : Server.State) (r : Reply) (ok : Bool) (hr : isModification r = true)
    (hs : c.state ≠ .endOfMessage) :
    Server.step c (.reply r ok) =
      ({ c with
          status := (if isQuarantine r = true then .quarantine else c.status)
          stack := [] :: c.stack }, [.emit (.error .invalidState)]) := by
  cases r <;> first
    | (cases hr; done)
    | simp [Server.step, Server.reply, Server.modification, Server.invalidState, Server.andThen, Server.pause, hs, isQuarantine]

/-- the rest of a step in which a context reported an error -/
theorem early_steps {n : Nat} {s s' : Sys} {i : Nat} {r : Reply} {a : List (Bool × Bool)}
    (hr : isModification r = true) (hs : (s.kids i).ctx.state ≠ .endOfMessage)
    (hn : next n s (.reply i r) a = some s') :
    Steps { s with oracle := a } (.error i) { s with oracle := a } s' ∧
    ((s.kids i).linked = true → (s'.kids i).ctx.quitted = true) := by
  have hw : wp (step (dispatch n) (.reply i r))
      (fun _ u => Path { s with oracle := a } (.error i) { s with oracle := a } u ∧
        ((s.kids i).linked = true → (u.kids i).ctx.quitted = true)) { s with oracle := a } := by
    simp only [step]
    with_reducible apply (wp_bind _ _ _ _).mpr
    have hask : wp ask (fun _ u => Path { s with oracle := a } (.error i) { s with oracle := a } u ∧ u.kids = s.kids)
        { s with oracle := a } := by
      refine ⟨fun x u hx => ⟨(ask_path ⟨.start, .start⟩).elim x u hx, ?_⟩⟩
      unfold ask at hx
      cases a with
      | nil => cases hx; rfl
      | cons p rest => cases hx; rfl
    refine wp_mono hask fun x u hu => ?_
    obtain ⟨hu, hk⟩ := hu
    obtain ⟨stop, ok⟩ := x
    dsimp only
    with_reducible apply (wp_bind _ _ _ _).mpr
    unfold stepCtx
    with_reducible apply (wp_bind _ _ _ _).mpr
    apply getCtx_path
    with_reducible apply (wp_bind _ _ _ _).mpr
    refine (wp_modify _ _ _).mpr ?_
    rw [early_modification _ _ _ hr (by rw [hk]; exact hs)]
    dsimp only
    have hu' := hu.step (.kid i { (u.kids i) with ctx :=
      { (u.kids i).ctx with
          status := (if isQuarantine r = true then .quarantine else (u.kids i).ctx.status)
          stack := [] :: (u.kids i).ctx.stack } } ⟨rfl, rfl, id⟩)
    unfold drive
    with_reducible apply (wp_bind _ _ _ _).mpr
    by_cases hl : (s.kids i).linked = true
    · refine wp_mono (signal_error_quits hu'.here (by simpa [updKid, hk] using hl)) fun _ v hv => ?_
      have hv' := hu'.trans hv.1
      with_reducible apply (wp_bind _ _ _ _).mpr
      refine wp_mono (dispatch_path n _ (.resume i) v hv'.here trivial) fun _ w hw => ?_
      exact (wp_pure _ _ _).mpr ((wp_pure _ _ _).mpr ⟨hv'.trans hw, fun _ => hw.post.quitted i hv.2⟩)
    · refine wp_mono (dispatch_path n _ (.signal i (.error .invalidState)) _ hu' trivial) fun _ v hv => ?_
      with_reducible apply (wp_bind _ _ _ _).mpr
      refine wp_mono (dispatch_path n _ (.resume i) v hv trivial) fun _ w hw => ?_
      exact (wp_pure _ _ _).mpr ((wp_pure _ _ _).mpr ⟨hw, fun h => absurd h hl⟩)
  unfold next at hn
  cases hm : step (dispatch n) (.reply i r) { s with oracle := a } with
  | none => rw [hm] at hn; cases hn
  | some p =>
    rw [hm] at hn
    cases hn
    have := hw.elim p.1 p.2 hm
    exact ⟨this.1.post, this.2⟩

/-- in a step with an error no changes are told but those kept -/
theorem early_change {s0 s u : Sys} {i : Nat} {e : Emit} (hk : Keep s u) (hn : NewOk s0 (.error i) u (.emit e))
    (hch : changesMessage e = true) : e ∈ eomEmits s := by
  generalize hx : Out.emit e = x at hn
  cases hn <;> cases hx
  case decision st r hd =>
    exfalso
    have hnot : ∀ v, isModification (statusReply v) = false := by intro v; cases v <;> rfl
    unfold decision at hd
    split at hd
    · split at hd
      · simp only [List.mem_singleton] at hd; subst hd; cases hch
      · split at hd
        · simp only [List.mem_singleton] at hd; subst hd; rw [changesMessage, hnot] at hch; cases hch
        · simp at hd
    · split at hd
      · simp only [List.mem_singleton] at hd; subst hd; rw [changesMessage, hnot] at hch; cases hch
      · simp at hd
  case bare v hv => cases v <;> cases hch
  case forward h _ => cases h
  case note h => rcases h with rfl | ⟨_, rfl⟩ <;> cases hch
  case announce => cases hch
  case eom h => exact keep_emits hk h
  case recipient j r hm hr => cases hm.event
  case offer => cases hch

/-- the last milter's answer to the end of the message makes the manager forget the message -/
theorem last_answer {s : Sys} {n i : Nat} {r : Reply} (hr : isFinal r = true) (hl : (s.kids i).linked = true)
    (hst : (s.kids i).ctx.state = .endOfMessage) (hstate : s.state = .endOfMessage)
    (hem : s.emittedReply = false) (hw : s.waitingQueue = [i]) :
    wp (dispatch n (.signal i (.reply r))) (fun _ u => kept u = nothingKept) s := by
  have hfirst : ∀ d : Dispatch, ∀ u : Sys, u.state = .endOfMessage → u.emittedReply = false → u.waitingQueue = [i] →
      wp (sendFirstToNext d i) (fun _ v => kept v = nothingKept) u := by
    intro d u h1 h2 h3
    unfold sendFirstToNext
    with_reducible apply (wp_bind _ _ _ _).mpr
    refine (wp_modify _ _ _).mpr ?_
    with_reducible apply (wp_bind _ _ _ _).mpr
    with_reducible apply (wp_get _ _).mpr
    simp only [h3, List.erase_cons_head]
    unfold emitReplyForMessage
    with_reducible apply (wp_bind _ _ _ _).mpr
    with_reducible apply (wp_get _ _).mpr
    simp only [h2, Bool.false_eq_true, if_false, h1, if_true]
    with_reducible apply (wp_bind _ _ _ _).mpr
    refine (wp_modify _ _ _).mpr ?_
    with_reducible apply (wp_bind _ _ _ _).mpr
    refine (wp_modify _ _ _).mpr ?_
    refine ⟨fun x v hv => ?_⟩
    rw [emitStatusOf_eq] at hv
    cases hv
    exact decided_eom _
  have habort : ∀ u : Sys, ∀ m, wp (abortAll (dispatch m)) (fun _ v => kept v = nothingKept) u := by
    intro u m
    unfold abortAll
    with_reducible apply (wp_bind _ _ _ _).mpr
    refine (wp_modify _ _ _).mpr ?_
    with_reducible apply (wp_bind _ _ _ _).mpr
    with_reducible apply (wp_get _ _).mpr
    with_reducible apply (wp_bind _ _ _ _).mpr
    refine wp_mono (Q := fun _ _ => True) ⟨fun _ _ _ => trivial⟩ fun _ v _ => ?_
    with_reducible apply (wp_bind _ _ _ _).mpr
    refine (wp_modify _ _ _).mpr ?_
    have hsub : ∀ l (v : Sys), kept v = nothingKept → wp (resetLoop l) (fun _ w => kept w = nothingKept) v := by
      intro l
      induction l with
      | nil => intro v hv; exact (wp_pure _ _ _).mpr hv
      | cons j l ih =>
        intro v hv
        unfold resetLoop
        with_reducible apply (wp_bind _ _ _ _).mpr
        with_reducible apply (wp_get _ _).mpr
        with_reducible apply (wp_ite _ _ _ _ _).mpr
        split
        · with_reducible apply (wp_bind _ _ _ _).mpr
          exact (wp_modify _ _ _).mpr (ih _ hv)
        · exact ih v hv
    exact hsub _ _ (disposed_kept v)
  have hrefuse : ∀ m v (u : Sys), (u.kids i).ctx.state = .endOfMessage →
      wp (cbRefuse (dispatch m) i v) (fun _ v => kept v = nothingKept) u := by
    intro m v u hu
    unfold cbRefuse
    with_reducible apply (wp_bind _ _ _ _).mpr
    with_reducible apply (wp_get _ _).mpr
    simp only [hu]
    with_reducible apply (wp_bind _ _ _ _).mpr
    refine (wp_modify _ _ _).mpr ?_
    with_reducible apply (wp_bind _ _ _ _).mpr
    refine (wp_modify _ _ _).mpr ?_
    with_reducible apply (wp_bind _ _ _ _).mpr
    refine wp_mono (Q := fun _ _ => True) ⟨fun _ _ _ => trivial⟩ fun _ v _ => ?_
    exact habort v m
  cases n with
  | zero => exact (wp_failure _ _).mpr trivial
  | succ n =>
    unfold dispatch
    dsimp only
    have htry : tryHandler (dispatch n) i (.reply r) = (do let _ ← get; return ()) := by
      unfold tryHandler
      congr 1
      funext s
      cases (s.kids i).tryRetry <;> rfl
    rw [htry]
    with_reducible apply (wp_bind _ _ _ _).mpr
    with_reducible apply (wp_bind _ _ _ _).mpr
    with_reducible apply (wp_get _ _).mpr
    with_reducible apply (wp_pure _ _ _).mpr
    with_reducible apply (wp_bind _ _ _ _).mpr
    with_reducible apply (wp_get _ _).mpr
    rw [if_pos hl]
    with_reducible apply (wp_bind _ _ _ _).mpr
    refine (wp_modify _ _ _).mpr ?_
    cases r <;> first | (cases hr; done) | simp only [handle]
    case cont =>
      unfold cbContinue
      with_reducible apply (wp_bind _ _ _ _).mpr
      apply getCtx_path
      with_reducible apply (wp_bind _ _ _ _).mpr
      refine (wp_modify _ _ _).mpr ?_
      simp only [hst]
      exact hfirst _ _ hstate hem hw
    case accept =>
      unfold cbAccept
      with_reducible apply (wp_bind _ _ _ _).mpr
      apply getCtx_path
      with_reducible apply (wp_bind _ _ _ _).mpr
      refine (wp_modify _ _ _).mpr ?_
      simp only [hst]
      with_reducible apply (wp_bind _ _ _ _).mpr
      refine (wp_modify _ _ _).mpr ?_
      exact hfirst _ _ hstate hem hw
    case replyCode =>
      unfold cbReplyCode
      with_reducible apply (wp_bind _ _ _ _).mpr
      refine (wp_modify _ _ _).mpr ?_
      exact hrefuse _ _ _ hst
    all_goals exact hrefuse _ _ _ hst

/-- what the context makes of a final answer at the end of the message -/
theorem final_item (c : Server.State) (r : Reply) (ok : Bool) (hr : isFinal r = true)
    (hs : c.state = .endOfMessage) (hq : c.quitted = false) :
    (Server.step c (.reply r ok)).2 = [.emit (.reply r)] ∧
    (Server.step c (.reply r ok)).1.state = .endOfMessage := by
  cases r <;> first
    | (cases hr; done)
    | simp [Server.step, Server.reply, Server.report, Server.andThen, Server.pause, hs, hq, Server.refuse,
        Server.answerable]

end ChildrenLemmas

open ChildrenLemmas Cases

/-! ## C27 -/

/-- **C27**: a milter that asks for a change of the message although it has not been told the end
of the message does not change what is kept of the message (it may only make the manager forget the
message, if the failure of the milter decides its fate), and no change is told to the MTA but those
that were asked for before. -/
theorem C27_no_effect (n : Nat) (s s' : Sys) (i : Nat) (r : Reply) (a : List (Bool × Bool))
    (hr : isModification r = true) (hs : (s.kids i).ctx.state ≠ .endOfMessage) (hp : s.pending = none)
    (hn : next n s (.reply i r) a = some s') :
    (kept s' = kept s ∨ kept s' = nothingKept) ∧
    ∃ new, s'.out = s.out ++ new ∧ ∀ e, Out.emit e ∈ new → changesMessage e = true → e ∈ eomEmits s := by
  have hsteps := (early_steps hr hs hn).1
  have hc : Calm { s with oracle := a } (.error i) := ⟨hp, rfl, by simp⟩
  refine ⟨?_, ?_⟩
  · exact (keep_steps hc hsteps).imp (·.1) id
  · obtain ⟨new, h1, h2⟩ := hsteps.news
    refine ⟨new, h1, fun e he hch => ?_⟩
    obtain ⟨u, hu, hn⟩ := h2 _ he
    have hk : Keep { s with oracle := a } u := keep_steps hc hu
    exact early_change (s := { s with oracle := a }) hk hn hch

/-- **C27**: what the milter asked for makes no difference at all. -/
theorem C27_irrelevant (n : Nat) (s : Sys) (i : Nat) (r r' : Reply) (a : List (Bool × Bool))
    (hr : isModification r = true) (hr' : isModification r' = true)
    (hq : isQuarantine r = isQuarantine r') (hs : (s.kids i).ctx.state ≠ .endOfMessage) :
    next n s (.reply i r) a = next n s (.reply i r') a := by
  have hctx : ∀ ok (u : Sys), (u.kids i).ctx.state ≠ .endOfMessage →
      stepCtx (dispatch n) i (.reply r ok) u = stepCtx (dispatch n) i (.reply r' ok) u := by
    intro ok u hu
    have h1 := early_modification (u.kids i).ctx r ok hr hu
    have h2 := early_modification (u.kids i).ctx r' ok hr' hu
    rw [hq] at h1
    have he : Server.step (u.kids i).ctx (.reply r ok) = Server.step (u.kids i).ctx (.reply r' ok) := h1.trans h2.symm
    show (do
      modifyCtx i fun _ => (Server.step (u.kids i).ctx (.reply r ok)).1
      drive (dispatch n) i (Server.step (u.kids i).ctx (.reply r ok)).2 : M Bool) u = (do
      modifyCtx i fun _ => (Server.step (u.kids i).ctx (.reply r' ok)).1
      drive (dispatch n) i (Server.step (u.kids i).ctx (.reply r' ok)).2 : M Bool) u
    rw [he]
  unfold next
  congr 1
  simp only [step]
  cases a with
  | nil =>
    show (do let _ ← stepCtx (dispatch n) i (.reply r true) : M Unit) { s with oracle := [] } =
      (do let _ ← stepCtx (dispatch n) i (.reply r' true) : M Unit) { s with oracle := [] }
    show ((stepCtx (dispatch n) i (.reply r true)) { s with oracle := [] } >>= fun p => _) =
      ((stepCtx (dispatch n) i (.reply r' true)) { s with oracle := [] } >>= fun p => _)
    rw [hctx true { s with oracle := [] } hs]
  | cons p rest =>
    show ((stepCtx (dispatch n) i (.reply r p.2)) { s with oracle := rest } >>= fun p => _) =
      ((stepCtx (dispatch n) i (.reply r' p.2)) { s with oracle := rest } >>= fun p => _)
    rw [hctx p.2 { s with oracle := rest } hs]

/-- **C27**: the milter is given up. -/
theorem C27_dropped (n : Nat) (s s' : Sys) (i : Nat) (r : Reply) (a : List (Bool × Bool))
    (hr : isModification r = true) (hs : (s.kids i).ctx.state ≠ .endOfMessage)
    (hl : (s.kids i).linked = true) (hn : next n s (.reply i r) a = some s') : isQuitted s' i = true :=
  isQuitted_of ((early_steps hr hs hn).2 hl)

/-- the milter asks for a new subject while it is sent the headers: it is dropped, the header list is
as the MTA sent it -/
example : ((run 20 (init [{}, {}] 4) (plain (upToData 2 ++ [.header [3] [4], .flushed 0]))).any fun s =>
      (s.kids 0).linked && decide (s.pending = none) && decide ((s.kids 0).ctx.state ≠ .endOfMessage) &&
      (next 20 s (.reply 0 (.addHeader [5] [6])) []).any fun s' =>
        isQuitted s' 0 && decide (s'.headers = some [⟨[3], some [4]⟩])) = true := by decide +kernel

/-! ## C30 -/

/-- **C30** (part): when the MTA aborts, nothing is kept of the message. -/
theorem C30_abort (n : Nat) (s s' : Sys) (a : List (Bool × Bool)) (hn : next n s .abort a = some s') :
    kept s' = nothingKept ∧ s'.pending = none ∧ s'.waitingQueue = [] ∧ s'.commandQueue = [] ∧
      s'.emittedReply = false := by
  have hsub : ∀ l (v : Sys), (kept v = nothingKept ∧ v.pending = none ∧ v.waitingQueue = [] ∧
      v.commandQueue = [] ∧ v.emittedReply = false) → wp (resetLoop l) (fun _ w =>
      kept w = nothingKept ∧ w.pending = none ∧ w.waitingQueue = [] ∧ w.commandQueue = [] ∧
      w.emittedReply = false) v := by
    intro l
    induction l with
    | nil => intro v hv; exact (wp_pure _ _ _).mpr hv
    | cons j l ih =>
      intro v hv
      unfold resetLoop
      with_reducible apply (wp_bind _ _ _ _).mpr
      with_reducible apply (wp_get _ _).mpr
      with_reducible apply (wp_ite _ _ _ _ _).mpr
      split
      · with_reducible apply (wp_bind _ _ _ _).mpr
        exact (wp_modify _ _ _).mpr (ih _ hv)
      · exact ih v hv
  have hw : wp (step (dispatch n) .abort) (fun _ w =>
      kept w = nothingKept ∧ w.pending = none ∧ w.waitingQueue = [] ∧ w.commandQueue = [] ∧
      w.emittedReply = false) { s with oracle := a } := by
    simp only [step]
    unfold abortAll
    with_reducible apply (wp_bind _ _ _ _).mpr
    refine (wp_modify _ _ _).mpr ?_
    with_reducible apply (wp_bind _ _ _ _).mpr
    with_reducible apply (wp_get _ _).mpr
    with_reducible apply (wp_bind _ _ _ _).mpr
    refine wp_mono (Q := fun _ _ => True) ⟨fun _ _ _ => trivial⟩ fun _ v _ => ?_
    with_reducible apply (wp_bind _ _ _ _).mpr
    refine (wp_modify _ _ _).mpr ?_
    exact hsub _ _ ⟨rfl, rfl, rfl, rfl, rfl⟩
  unfold next at hn
  cases hm : step (dispatch n) .abort { s with oracle := a } with
  | none => rw [hm] at hn; cases hn
  | some p =>
    rw [hm] at hn
    cases hn
    exact hw.elim p.1 p.2 hm

/-- **C30** (part): when the last milter has given its answer to the end of the message, nothing is
kept of the message. -/
theorem C30_reply (n : Nat) (s s' : Sys) (i : Nat) (r : Reply) (a : List (Bool × Bool))
    (hr : isFinal r = true) (hlinked : (s.kids i).linked = true)
    (hkid : (s.kids i).ctx.state = .endOfMessage) (hquit : (s.kids i).ctx.quitted = false)
    (hstate : s.state = .endOfMessage) (hem : s.emittedReply = false) (hlast : s.waitingQueue = [i])
    (hp : s.pending = none) (hn : next n s (.reply i r) a = some s') : kept s' = nothingKept := by
  have hc : Calm { s with oracle := a } (.reply i r) :=
    ⟨hp, rfl, by intro j r' h; cases h; cases r <;> first | rfl | cases hr⟩
  have hw : wp (step (dispatch n) (.reply i r)) (fun _ w => kept w = nothingKept) { s with oracle := a } := by
    simp only [step]
    with_reducible apply (wp_bind _ _ _ _).mpr
    have hask : wp ask (fun _ u => Path { s with oracle := a } (.reply i r) { s with oracle := a } u ∧
        u.kids = s.kids ∧ u.state = s.state ∧ u.emittedReply = s.emittedReply ∧ u.waitingQueue = s.waitingQueue)
        { s with oracle := a } := by
      refine ⟨fun x u hx => ⟨(ask_path ⟨.start, .start⟩).elim x u hx, ?_⟩⟩
      unfold ask at hx
      cases a with
      | nil => cases hx; exact ⟨rfl, rfl, rfl, rfl⟩
      | cons p rest => cases hx; exact ⟨rfl, rfl, rfl, rfl⟩
    refine wp_mono hask fun x u hu => ?_
    obtain ⟨hu, hk, h1, h2, h3⟩ := hu
    obtain ⟨stop, ok⟩ := x
    dsimp only
    with_reducible apply (wp_bind _ _ _ _).mpr
    unfold stepCtx
    with_reducible apply (wp_bind _ _ _ _).mpr
    apply getCtx_path
    with_reducible apply (wp_bind _ _ _ _).mpr
    refine (wp_modify _ _ _).mpr ?_
    have hitem := final_item (u.kids i).ctx r ok hr (by rw [hk]; exact hkid) (by rw [hk]; exact hquit)
    rw [hitem.1]
    have hu' := (hu.step (.kid i { (u.kids i) with ctx := (Server.step (u.kids i).ctx (.reply r ok)).1 }
      ⟨rfl, rfl, fun h => by rw [hk, hquit] at h; cases h⟩)).here
    unfold drive
    with_reducible apply (wp_bind _ _ _ _).mpr
    have hpost := dispatch_path n _ (.signal i (.reply r)) _ hu' (.inr (.inr rfl))
    have hkept := last_answer (n := n)
      (s := { u with kids := updKid u.kids i { (u.kids i) with ctx := (Server.step (u.kids i).ctx (.reply r ok)).1 } }) hr (by simpa [updKid, hk] using hlinked)
      (by simpa [updKid] using hitem.2) (h1.trans hstate) (h2.trans hem) (h3.trans hlast)
    refine wp_mono (Q := fun _ v => Path { s with oracle := a } (.reply i r) _ v ∧ kept v = nothingKept)
      ⟨fun x v hx => ⟨hpost.elim x v hx, hkept.elim x v hx⟩⟩ fun _ v hv => ?_
    with_reducible apply (wp_bind _ _ _ _).mpr
    refine wp_mono (dispatch_path n _ (.resume i) v hv.1.here trivial) fun _ w hw => ?_
    refine (wp_pure _ _ _).mpr ((wp_pure _ _ _).mpr ?_)
    rcases keep_steps hc hw.post with h | h
    · exact h.1.trans hv.2
    · exact h
  unfold next at hn
  cases hm : step (dispatch n) (.reply i r) { s with oracle := a } with
  | none => rw [hm] at hn; cases hn
  | some p =>
    rw [hm] at hn
    cases hn
    exact hw.elim p.1 p.2 hm

/-- a message up to the answers to DATA, in a session with `n` milters -/
def envelope (n : Nat) : List Event :=
  [.envelopeFrom [1]] ++ answers n ++ [.envelopeRecipient [2]] ++ answers n ++ [.data] ++ answers n

/-- the message of two milters is changed by one, then accepted by the last one: forgotten -/
example : ((run 20 (init [{}, {}] 4) (plain (upToData 2 ++
      [.header [3] [4], .flushed 0, .reply 0 .cont, .endOfMessage [], .flushed 0,
       .reply 0 (.changeFrom [7] none), .reply 0 .cont, .flushed 1, .reply 1 .cont, .flushed 1]))).any fun s =>
      (s.kids 1).linked && decide ((s.kids 1).ctx.state = .endOfMessage) && !(s.kids 1).ctx.quitted &&
      decide (s.state = .endOfMessage) && !s.emittedReply && decide (s.waitingQueue = [1]) &&
      decide (s.pending = none) && decide (kept s ≠ nothingKept) &&
      (next 20 s (.reply 1 .cont) []).any fun s' => decide (kept s' = nothingKept)) = true := by decide +kernel

/-- **C30 fails**: a message is rejected at its end; the next message of the session is rejected
too, although its milter lets it pass.  (The milter lets the first message pass: so is the second.) -/
theorem C30_status_violated :
    let message (r : Reply) : List Event := envelope 1 ++ [.endOfMessage [], .flushed 0, .reply 0 r, .flushed 0]
    let outcome (r : Reply) : Option Out :=
      (run 20 (init [{}] 4) (plain (upToConnect 1 ++ message r ++ message .cont))).bind fun s =>
        (s.out.filter fun | .emit _ => true | _ => false).getLast?
    outcome .reject = some (.emit (.reply .reject)) ∧ outcome .cont = some (.emit (.reply .cont)) := by
  decide +kernel

/-- **C30 fails**: the MTA aborts a message after a header; the first header of the next message
of the session is not sent to the milter.  (It is if the first message is aborted before its
headers.) -/
theorem C30_header_violated :
    let first (headers : List Event) : List Event := envelope 1 ++ headers ++ [.abort, .flushed 0]
    let seen (headers : List Event) : Bool :=
      (run 20 (init [{}] 4) (plain (upToConnect 1 ++ first headers ++ envelope 1 ++ [.header [5] [6]]))).any fun s =>
        decide (Out.sent 0 (.header [5] [6]) ∈ s.out)
    seen [.header [3] [4], .flushed 0, .reply 0 .cont] = false ∧ seen [] = true := by decide +kernel

/-- **C30 fails**: the body of a message is replaced; the MTA is told to replace the body of the
next message of the session, which nobody asked for. -/
theorem C30_replaced_violated :
    let message (rs : List Event) : List Event :=
      envelope 1 ++ [.body [9], .flushed 0, .reply 0 .cont, .endOfMessage [], .flushed 0] ++ rs ++
        [.reply 0 .cont, .flushed 0]
    let told (rs : List Event) : Bool :=
      (run 20 (init [{}] 4) (plain (upToConnect 1 ++ message rs))).any fun s =>
        (run 20 s (plain (message []))).any fun s' =>
          decide (Out.emit (.reply (.replaceBody [9])) ∈ s'.out.drop s.out.length)
    told [.reply 0 (.replaceBody [8])] = true ∧ told [] = false := by decide +kernel

end Verif.Props
