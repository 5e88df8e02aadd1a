import Verif.Manager.ChildrenPhaseAll
/-
Commands that go to all milters at once: the command arrives.
-/
namespace Verif.Children
namespace Phase
open Verif
open Verif.Server (St)
open Verif.Spec.Children
open Verif.Spec.Phase

/-- milter `i` is offered the command -/
def offer (s : Sys) (st : St) (t : Talk) (i : Nat) : Talk :=
  if declines (s.kids i) st then (t.put i .answered).vote .continue_ else t.put i .written

/-- nobody was offered it -/
def unasked (s : Sys) (who : List Nat) : Talk where
  pos := fun i => if i ∈ who then .waiting else .none
  votes := []
  code := s.code
  dismissed := []

theorem declines_kept {k k' : Kid} {st : St} (h : k'.ctx.option = k.ctx.option) : declines k' st = declines k st := by
  unfold declines; rw [h]

section
variable {s u : Sys} {base : List (Nat × Cmd)} {who : List Nat} {st : St} {t : Talk} {i : Nat}

theorem offer_one {n : Nat} {e : Event} {cmd : Cmd} (ha : asks e = some (cmd, st)) (h : Inv s base who st t u) (hi : i ∈ who)
    (hp : t.pos i = .waiting) (hd : t.dismissed = []) :
    ∃ u', call (dispatch (n + 1)) i cmd u = some (true, u') ∧
      Inv s (base ++ (if declines (s.kids i) st then [] else [(i, cmd)])) who st (offer s st t i) u' := by
  have hop : (t.pos i).isOpen = true := by rw [hp]; rfl
  have hopen := h.isOpen hi hop
  obtain ⟨hu, hf⟩ := h.undecided hopen
  have hat := h.core.at' i hi
  rw [hp] at hat
  have hk := h.core.kept i hi
  have hdec : declines (u.kids i) st = declines (s.kids i) st := declines_kept hk.option
  unfold offer
  cases hdd : declines (s.kids i) st with
  | false =>
    rw [hdd] at hdec
    obtain ⟨c', h1, h2, h3, h4, h40, h41⟩ := command_written ha hat.1 hdec hat.2
    refine ⟨_, call_eq h.core.oracle h1, ?_⟩
    have kx : (logged (withCtx u i c') (.sent i cmd)).kids i = { (u.kids i) with ctx := c' } := withCtx_kid _ _ _
    simp only [Bool.false_eq_true, if_false]
    refine update_inv (p := .written) h hopen rfl (by rw [hop]; rfl) rfl ?_
    refine update h hi hopen rfl (fun j hj => withCtx_other _ _ _ _ hj)
      (by rw [kx]; exact ⟨hk.fallback, hk.evaluation, h4.trans hk.option, hk.retry, fun x => h40 (hk.body x)⟩)
      (by rw [kx]; exact ⟨hat.1.linked, h2⟩) (fun h => nomatch h) (fun h => nomatch h) (.refl u) rfl rfl rfl rfl rfl hu.status hu.code
      (told_sent _ _ _) ?_ h.core.proper (fun h => nomatch h) id (fun hd h => by rw [kx]; exact h41 hd h)
    show commands (u.out ++ _) = _
    rw [commands_sent, hu.sent]
    simp [hd, Talk.put]
  | true =>
    rw [hdd] at hdec
    obtain ⟨c', h1, h2, h4, h40, h41⟩ := command_declined ha hat.1 hdec hat.2
    simp only [if_true, List.append_nil]
    obtain ⟨u1, hu1⟩ : ∃ u1, u1 = withCtx u i { c' with stack := [] :: c'.stack } := ⟨_, rfl⟩
    have k1 : u1.kids i = { (u.kids i) with ctx := { c' with stack := [] :: c'.stack } } := by rw [hu1, withCtx_kid]
    have n1 : Near u (logged u1 (.heard i (.reply .cont))) i := by
      rw [hu1]; exact (near_ctx _ _ _).trans (near_heard _ _ _)
    obtain ⟨u2, h6, h7, h8, h9, h10⟩ := spoke (d := dispatch n) (r := .cont) (v := .continue_)
      (y := logged u1 (.heard i (.reply .cont))) h hi hop n1
      (by show Kept _ (u1.kids i); rw [k1]; exact ⟨hk.fallback, hk.evaluation, h4.trans hk.option, hk.retry, fun x => h40 (hk.body x)⟩)
      (by show (u1.kids i).linked = true; rw [k1]; exact hat.1.linked)
      (by
        show Spoke (u1.kids i).ctx st
        rw [k1]; exact ⟨h2.state, h2.nextStates, h2.timer, h2.quitted, h2.negotiated, h2.following⟩) rfl
      (fun hd h => by
        show Server.hasAcceptedRecipient (u1.kids i).ctx = true
        rw [k1]; exact h41 hd h) (.inv (.inl rfl))
    obtain ⟨u3, h11, h12, _⟩ := resume_nil (n := n) (i := i) (u := u2) (stack := c'.stack) h7.core.oracle
      (by rw [h8]; show (u1.kids i).ctx.stack = _; rw [k1])
    refine ⟨u3, ?_, ?_⟩
    · unfold call
      rw [bind_eq (ask_eq h.core.oracle)]
      show stepCtx (dispatch (n + 1)) i (.command cmd false true) u = _
      rw [stepCtx_eq]
      simp only [Server.step, h1]
      rw [← hu1]
      have hsig : dispatch (n + 1) (.signal i (.reply .cont)) u1 = some ((), u2) := by
        rw [signal_handled (by rw [k1]; exact hat.1.linked) (by rw [k1]; exact hk.retry)]
        exact h6
      show (dispatch (n + 1) (.signal i (.reply .cont)) >>= fun _ => dispatch (n + 1) (.resume i) >>= fun _ =>
        drive (dispatch (n + 1)) i [.ret true]) u1 = _
      rw [bind_eq hsig, bind_eq h11]
      rfl
    · have := h7.hush h12
      have hc : counts (s.kids i) .continue_ = .continue_ := by simp [counts, refuses]
      rw [hc] at this
      exact this

theorem offer_other (t : Talk) {i j : Nat} (h : j ≠ i) : (offer s st t i).pos j = t.pos j := by
  unfold offer
  split <;> simp [Talk.put, Talk.vote, h]

theorem offer_dismissed (t : Talk) (i : Nat) : (offer s st t i).dismissed = t.dismissed := by
  unfold offer
  split <;> rfl

theorem offer_all {n : Nat} {e : Event} {cmd : Cmd} (ha : asks e = some (cmd, st)) {l : List Nat} :
    ∀ {u : Sys} {t : Talk} {base : List (Nat × Cmd)}, Inv s base who st t u → l.Nodup → (∀ i ∈ l, i ∈ who ∧ t.pos i = .waiting) →
      t.dismissed = [] →
      ∃ u', callLoop (dispatch (n + 1)) cmd l u = some (decide (l ≠ []), u') ∧
        Inv s (base ++ (l.filter fun i => !declines (s.kids i) st).map (·, cmd)) who st (l.foldl (offer s st) t) u' := by
  induction l with
  | nil =>
    intro u t base h _ _ _
    exact ⟨u, rfl, by simpa using h⟩
  | cons i l ih =>
    intro u t base h hn hl hd
    obtain ⟨hnot, hn⟩ := List.nodup_cons.mp hn
    obtain ⟨u1, h1, h2⟩ := offer_one (n := n) ha h (hl i List.mem_cons_self).1 (hl i List.mem_cons_self).2 hd
    obtain ⟨u2, h3, h4⟩ := ih h2 hn (fun j hj => by
      have hji : j ≠ i := fun e => hnot (e ▸ hj)
      rw [offer_other t hji]
      exact hl j (List.mem_cons_of_mem _ hj)) (by rw [offer_dismissed, hd])
    refine ⟨u2, ?_, ?_⟩
    · unfold callLoop
      rw [bind_eq h1, bind_eq h3]
      show some (true || decide (l ≠ []), u2) = _
      simp
    · rw [List.foldl_cons]
      have : (List.filter (fun i => !declines (s.kids i) st) (i :: l)).map (·, cmd) =
          (if declines (s.kids i) st then [] else [(i, cmd)]) ++ (l.filter fun i => !declines (s.kids i) st).map (·, cmd) := by
        rw [List.filter_cons]
        cases declines (s.kids i) st <;> simp
      rw [this, ← List.append_assoc]
      exact h4

theorem offered_pos {l : List Nat} (hn : l.Nodup) : ∀ (t : Talk) (j : Nat), (l.foldl (offer s st) t).pos j =
    if j ∈ l then (if declines (s.kids j) st then .answered else .written) else t.pos j := by
  induction l with
  | nil => intro t j; simp
  | cons i l ih =>
    intro t j
    obtain ⟨hnot, hn⟩ := List.nodup_cons.mp hn
    rw [List.foldl_cons, ih hn]
    by_cases hji : j = i
    · subst hji
      rw [if_neg hnot, if_pos List.mem_cons_self]
      unfold offer
      split <;> simp [Talk.put, Talk.vote]
    · rw [offer_other t hji]
      simp [hji]

theorem offered_votes {l : List Nat} : ∀ (t : Talk), (l.foldl (offer s st) t).votes =
    t.votes ++ (l.filter fun i => declines (s.kids i) st).map fun _ => .continue_ := by
  induction l with
  | nil => intro t; simp
  | cons i l ih =>
    intro t
    rw [List.foldl_cons, ih, List.filter_cons]
    unfold offer
    split <;> simp [Talk.put, Talk.vote]

theorem offered_rest {l : List Nat} : ∀ (t : Talk), (l.foldl (offer s st) t).code = t.code ∧
    (l.foldl (offer s st) t).dismissed = t.dismissed := by
  induction l with
  | nil => intro t; exact ⟨rfl, rfl⟩
  | cons i l ih =>
    intro t
    rw [List.foldl_cons]
    obtain ⟨h1, h2⟩ := ih (offer s st t i)
    rw [h1, h2]
    unfold offer
    split <;> exact ⟨rfl, rfl⟩

theorem offered (hn : who.Nodup) : who.foldl (offer s st) (unasked s who) = Talk.start s who st := by
  have h1 : (who.foldl (offer s st) (unasked s who)).pos = (Talk.start s who st).pos := by
    funext j
    rw [offered_pos hn]
    by_cases h : j ∈ who <;> simp [Talk.start, unasked, h]
  have h2 : (who.foldl (offer s st) (unasked s who)).votes = (Talk.start s who st).votes := by
    rw [offered_votes]; simp [Talk.start, unasked]
  have h3 := offered_rest (s := s) (st := st) (l := who) (unasked s who)
  revert h1 h2 h3
  generalize who.foldl (offer s st) (unasked s who) = a
  intro h1 h2 h3
  cases a
  simp only at h1 h2 h3
  rw [h1, h2, h3.1, h3.2]
  rfl

/-- everybody has to answer -/
theorem silence {d : Dispatch} {l : List Nat} (h : ∀ i ∈ l, ∃ o, (u.kids i).ctx.option = some o ∧ o.step &&& Server.noReplyFlag st = 0) :
    noReplyLoop d st l u = some ((), u) := by
  induction l with
  | nil => rfl
  | cons i l ih =>
    unfold noReplyLoop
    obtain ⟨o, ho, hz⟩ := h i List.mem_cons_self
    have : needReply i st u = some (true, u) := needReply_eq (by rw [ho]; simp [Server.needReply, hz])
    rw [bind_eq this]
    exact ih fun j hj => h j (List.mem_cons_of_mem _ hj)

/-- the queue is filled; `a` are told that the message is over -/
structure Filled (s u : Sys) (who a : List Nat) (st : St) : Prop where
  oracle : u.oracle = []
  count : u.count = s.count
  queue : u.replyQueue = who
  state : u.processingState = st
  pending : u.pending = none
  status : u.statuses st = .notChange
  code : u.code = s.code
  told : told u.out = told s.out
  sent : commands u.out = commands s.out ++ a.map (·, .abort)
  kids : ∀ i ∈ who, u.kids i = s.kids i
  others : ∀ i, i ∉ who → Apart (s.kids i) (u.kids i)
  frame : Frame s u
  current : u.state = st
  due : ∀ i, due u i ≤ due s i + 1

theorem begin {n : Nat} {e : Event} {cmd : Cmd} {a : List Nat} {check : M Bool} {fill : M Unit} (ha : asks e = some (cmd, st))
    (hcalm : Calm s who st) (hn : who.Nodup) (hr : ∀ i ∈ who, i < s.count) (hfb : ∀ i ∈ who, Proper (s.kids i).fallback)
    (hm : ∀ i ∈ who, st = .envelopeRecipient ∨ st = .data → (s.kids i).ctx.processingMessage = true)
    (hcheck : check s = some (true, s))
    (hfill : ∃ u0, (initReplyQueue st >>= fun _ => fill) s = some ((), u0) ∧ Filled s u0 who a st) :
    ∃ u', toAll (dispatch (n + 1)) check fill st cmd s = some (true, u') ∧
      Inv s (commands s.out ++ a.map (·, .abort) ++ (who.filter fun i => !declines (s.kids i) st).map (·, cmd)) who st
        (Talk.start s who st) u' := by
  obtain ⟨u0, h0, f⟩ := hfill
  have hin : ∀ i ∈ who, (unasked s who).pos i = .waiting := fun i hi => by simp [unasked, hi]
  have hopen : (unasked s who).isOpen who = true := by
    obtain ⟨i, l, rfl⟩ := List.exists_cons_of_ne_nil hcalm.some
    simp [Talk.isOpen, unasked, Pos.isOpen]
  have hinv : Inv s (commands s.out ++ a.map (·, .abort)) who st (unasked s who) u0 := by
    refine ⟨⟨asks_parallel ha, hn, hcalm.some, hr, f.count, f.oracle, fun i hi => ?_, fun i hi => ?_, fun i hi => ?_, fun i hi => ?_,
      fun i hi => (hcalm.idle i hi).option, fun i hi h => ?_, (fun v hv => by cases hv), hfb, f.others, f.frame,
      fun _ i hi h => by rw [f.kids i hi]; exact h⟩, ?_, fun _ => ⟨⟨f.state, f.current, f.pending, f.status, f.code,
      f.told, by rw [f.sent]; simp [unasked], fun i _ => f.due i⟩, fun i hi hp => ?_⟩, fun h => ?_⟩
    · rw [f.kids i hi]
      exact ⟨rfl, rfl, rfl, (hcalm.idle i hi).retry, id⟩
    · rw [f.kids i hi, hin i hi]
      exact ⟨hcalm.idle i hi, hm i hi⟩
    · simp [unasked, hi]
    · rw [hin i hi]; exact fun h => nomatch h
    · rw [hin i hi] at h; cases h
    · rw [f.queue]
      exact (List.filter_eq_self.mpr fun i hi => by rw [hin i hi]; rfl).symm
    · rw [hin i hi] at hp; cases hp
    · rw [hopen] at h; cases h
  obtain ⟨u1, h1, h2⟩ := offer_all (n := n) ha hinv hn (fun i hi => ⟨hi, hin i hi⟩) rfl
  rw [offered hn] at h2
  rw [decide_eq_true hcalm.some] at h1
  refine ⟨u1, ?_, h2⟩
  unfold toAll
  rw [bind_eq hcheck]
  have hq : ∀ {β : Type} (g : PUnit → M β), (initReplyQueue st >>= fun _ => fill >>= g) s = g ⟨⟩ u0 := by
    intro β g
    have : (initReplyQueue st >>= fun _ => fill >>= g) s = ((initReplyQueue st >>= fun _ => fill) >>= g) s := rfl
    rw [this, bind_eq h0]
  refine (hq _).trans ?_
  rw [get_bind, f.queue, bind_eq h1, bind_eq (silence fun i hi => ?_)]
  · rfl
  · obtain ⟨o, ho, hz⟩ := h2.core.options i hi
    exact ⟨o, by rw [(h2.core.kept i hi).option]; exact ho, hz⟩

/-! ## Filling the queue -/

theorem fill_alive (hcalm : Calm s ((List.range s.count).filter fun i => isAlive (s.kids i)) st) :
    ∃ u0, (initReplyQueue st >>= fun _ => queueAlive) s = some ((), u0) ∧
      Filled s u0 ((List.range s.count).filter fun i => isAlive (s.kids i)) [] st := by
  refine ⟨_, rfl, ⟨hcalm.oracle, rfl, ?_, rfl, hcalm.pending, by simp [setStatusOf], rfl, rfl, by simp, fun _ _ => rfl,
    fun _ _ => .refl _, .refl s, rfl, fun _ => Nat.le_succ _⟩⟩
  exact List.filter_congr fun i _ => alive_iff _ _

theorem fill_processing (hcalm : Calm s ((List.range s.count).filter fun i => inMessage (s.kids i)) st) :
    ∃ u0, (initReplyQueue st >>= fun _ => queueProcessing) s = some ((), u0) ∧
      Filled s u0 ((List.range s.count).filter fun i => inMessage (s.kids i)) [] st := by
  refine ⟨_, rfl, ⟨hcalm.oracle, rfl, ?_, rfl, hcalm.pending, by simp [setStatusOf], rfl, rfl, by simp, fun _ _ => rfl,
    fun _ _ => .refl _, .refl s, rfl, fun _ => Nat.le_succ _⟩⟩
  exact List.filter_congr fun i _ => processing_iff _ _

theorem accepted_loop {d : Dispatch} {l : List Nat} : ∀ {u : Sys}, u.oracle = [] → l.Nodup →
    ∃ u', queueAccepted d l u = some ((), u') ∧ u'.oracle = [] ∧ u'.count = u.count ∧
      u'.replyQueue = u.replyQueue ++ l.filter (fun i => inMessage (u.kids i) && Server.hasAcceptedRecipient (u.kids i).ctx) ∧
      u'.processingState = u.processingState ∧ u'.pending = u.pending ∧ u'.statuses = u.statuses ∧ u'.code = u.code ∧
      told u'.out = told u.out ∧
      commands u'.out = commands u.out ++
        (l.filter (fun i => inMessage (u.kids i) && !Server.hasAcceptedRecipient (u.kids i).ctx)).map (·, .abort) ∧
      (∀ i, (i ∉ l ∨ Server.hasAcceptedRecipient (u.kids i).ctx = true) → u'.kids i = u.kids i) ∧
      (∀ i, Apart (u.kids i) (u'.kids i)) ∧ Frame u u' ∧ u'.state = u.state ∧
      ∀ j, due u' j ≤ due u j + 1 := by
  induction l with
  | nil => intro u ho _; exact ⟨u, rfl, ho, rfl, by simp, rfl, rfl, rfl, rfl, rfl, by simp, fun _ _ => rfl,
    fun _ => .refl _, .refl u, rfl, fun _ => Nat.le_succ _⟩
  | cons i l ih =>
    intro u ho hn
    obtain ⟨hnot, hn⟩ := List.nodup_cons.mp hn
    unfold queueAccepted
    rw [get_bind]
    by_cases hp : isProcessingMessage u i = true
    · rw [if_pos hp]
      rw [processing_iff] at hp
      by_cases hacc : hasAccepted u i = true
      · rw [if_pos hacc]
        have hacc' : Server.hasAcceptedRecipient (u.kids i).ctx = true := hacc
        obtain ⟨u', h1, h2, h3, h4, h5, h6, h7, h8, h9, h10, h11, h12, h13, h14, h15⟩ := ih (u := { u with replyQueue := u.replyQueue ++ [i] }) ho hn
        refine ⟨u', h1, h2, h3, ?_, h5, h6, h7, h8, h9, ?_, fun j hj => h11 j ?_, h12, h13, h14, h15⟩
        · rw [h4, List.filter_cons]
          simp [hp, hacc']
        · rw [h10, List.filter_cons]
          simp [hacc']
        · exact hj.imp (fun h h' => h (List.mem_cons_of_mem _ h')) id
      · rw [if_neg hacc]
        have hacc' : Server.hasAcceptedRecipient (u.kids i).ctx = false := by simpa [hasAccepted] using hacc
        obtain ⟨u1, hu1, hc⟩ : ∃ u1, (∃ x, x = { (u.kids i).ctx with
            nextStates := (u.kids i).ctx.nextStates ++ [.abort], processingMessage := false } ∧
            u1 = logged (withCtx u i x) (.sent i .abort)) ∧ call d i .abort u = some (true, u1) :=
          ⟨_, ⟨_, rfl, rfl⟩, call_eq (d := d) (i := i) ho (abort_written (u.kids i).ctx)⟩
        obtain ⟨x, hx, hu1⟩ := hu1
        have hk : ∀ j ∈ l, u1.kids j = u.kids j := fun j hj => by
          have hji : j ≠ i := fun e => hnot (e ▸ hj)
          rw [hu1]
          exact withCtx_other _ _ _ _ hji
        obtain ⟨u', h1, h2, h3, h4, h5, h6, h7, h8, h9, h10, h11, h12, h13, h14, h15⟩ := ih (u := u1) (by rw [hu1]; exact ho) hn
        refine ⟨u', ?_, h2, by rw [h3, hu1]; rfl, ?_, by rw [h5, hu1]; rfl, by rw [h6, hu1]; rfl, by rw [h7, hu1]; rfl,
          by rw [h8, hu1]; rfl, ?_, ?_, fun j hj => ?_, fun j => ?_, ?_, ?_, fun j => ?_⟩
        · rw [bind_eq hc]
          exact h1
        · rw [h4, List.filter_cons]
          simp only [hp, hacc', Bool.and_false, Bool.false_eq_true, if_false]
          rw [show u1.replyQueue = u.replyQueue by rw [hu1]; rfl]
          congr 1
          exact List.filter_congr fun j hj => by rw [hk j hj]
        · rw [h9, hu1]; exact told_sent _ _ _
        · rw [h10, List.filter_cons]
          simp only [hp, hacc', Bool.not_false, Bool.and_true, if_true, List.map_cons]
          rw [show commands u1.out = commands u.out ++ [(i, .abort)] by rw [hu1]; exact commands_sent _ _ _]
          rw [List.append_assoc]
          have : l.filter (fun i => inMessage (u1.kids i) && !Server.hasAcceptedRecipient (u1.kids i).ctx) =
              l.filter (fun i => inMessage (u.kids i) && !Server.hasAcceptedRecipient (u.kids i).ctx) :=
            List.filter_congr fun j hj => by rw [hk j hj]
          rw [this]
          rfl
        · have hji : j ≠ i := by
            rintro rfl
            rcases hj with hj | hj
            · exact hj List.mem_cons_self
            · rw [hacc'] at hj; cases hj
          have hkj : u1.kids j = u.kids j := by rw [hu1]; exact withCtx_other _ _ _ _ hji
          rw [h11 j ?_, hkj]
          rw [hkj]
          exact hj.imp (fun h h' => h (List.mem_cons_of_mem _ h')) id
        · refine Apart.trans ?_ (h12 j)
          by_cases hji : j = i
          · subst hji
            rw [hu1]
            show Apart _ ((withCtx u j x).kids j)
            rw [withCtx_kid, hx]
            exact (tame_abort _).apart
          · rw [hu1]
            show Apart _ ((withCtx u i x).kids j)
            rw [withCtx_other _ _ _ _ hji]
            exact .refl _
        · rw [hu1] at h13; exact h13
        · rw [h14, hu1]; rfl
        · by_cases hji : j = i
          · subst hji
            unfold due
            rw [h11 j (.inl hnot), hu1]
            show ((withCtx u j x).kids j).ctx.nextStates.length ≤ _
            rw [withCtx_kid, hx]
            simp
          · have : due u1 j = due u j := by
              unfold due
              rw [hu1]
              show ((withCtx u i x).kids j).ctx.nextStates.length = _
              rw [withCtx_other _ _ _ _ hji]
            rw [← this]
            exact h15 j
    · rw [if_neg hp]
      rw [processing_iff] at hp
      have hp' : inMessage (u.kids i) = false := by simpa using hp
      obtain ⟨u', h1, h2, h3, h4, h5, h6, h7, h8, h9, h10, h11, h12, h13, h14, h15⟩ := ih (u := u) ho hn
      refine ⟨u', h1, h2, h3, ?_, h5, h6, h7, h8, h9, ?_, fun j hj => h11 j ?_, h12, h13, h14, h15⟩
      · rw [h4, List.filter_cons]
        simp [hp']
      · rw [h10, List.filter_cons]
        simp [hp']
      · exact hj.imp (fun h h' => h (List.mem_cons_of_mem _ h')) id

theorem fill_accepted {d : Dispatch} (ho : s.oracle = []) (hpend : s.pending = none) :
    ∃ u0, (initReplyQueue st >>= fun _ => queueAccepted d (milters s)) s = some ((), u0) ∧
      Filled s u0 (addressees s .data) (abandoned s .data) st := by
  obtain ⟨u1, hu1⟩ : ∃ u1 : Sys, u1 = { s with
    state := st, processingState := st, replyQueue := []
    statuses := setStatusOf s.statuses st .notChange } := ⟨_, rfl⟩
  have hi : initReplyQueue st s = some (⟨⟩, u1) := by rw [hu1]; rfl
  obtain ⟨u', h1, h2, h3, h4, h5, h6, h7, h8, h9, h10, h11, h12, h13, h14, h15⟩ := accepted_loop (d := d) (l := milters s) (u := u1)
    (by rw [hu1]; exact ho) List.nodup_range
  refine ⟨u', by rw [bind_eq hi]; exact h1, ⟨h2, by rw [h3, hu1], ?_, by rw [h5, hu1], by rw [h6, hu1]; exact hpend,
    by rw [h7, hu1]; simp [setStatusOf], by rw [h8, hu1], by rw [h9, hu1], by rw [h10, hu1]; rfl, fun i hi => ?_,
    fun i _ => by have := h12 i; rw [hu1] at this; exact this, by rw [hu1] at h13; exact h13, by rw [h14, hu1],
    fun i => by have := h15 i; rw [hu1] at this; exact this⟩⟩
  · rw [h4, hu1]; rfl
  · rw [h11 i (.inr ?_), hu1]
    rw [hu1]
    have := (List.mem_filter.mp hi).2
    simp only [Bool.and_eq_true] at this
    exact this.2

theorem check_alive (h : s.allExpired = false) (hi : i < s.count) (ha : isAlive (s.kids i) = true) : checkAlive s = some (true, s) := by
  unfold checkAlive
  rw [get_bind, h]
  have : ((milters s).any fun i => !isQuitted s i) = true :=
    List.any_eq_true.mpr ⟨i, List.mem_range.mpr hi, by rw [alive_iff]; exact ha⟩
  simp only [Bool.false_eq_true, if_false, this, if_true]
  rfl

theorem check_processing (hi : i < s.count) (ha : inMessage (s.kids i) = true) : checkProcessing s = some (true, s) := by
  unfold checkProcessing
  rw [get_bind]
  have : ((milters s).any fun i => isProcessingMessage s i) = true :=
    List.any_eq_true.mpr ⟨i, List.mem_range.mpr hi, by rw [processing_iff]; exact ha⟩
  simp only [this, if_true]
  rfl

theorem addressees_nodup (s : Sys) (e : Event) : (addressees s e).Nodup := by
  cases e <;> exact List.nodup_range.filter _

theorem addressees_range {e : Event} (h : i ∈ addressees s e) : i < s.count := by
  cases e <;> exact List.mem_range.mp (List.mem_filter.mp h).1

theorem addressees_alive {e : Event} (h : i ∈ addressees s e) : isAlive (s.kids i) = true := by
  cases e <;> have := (List.mem_filter.mp h).2 <;> first | exact this | skip
  · simp only [inMessage, Bool.and_eq_true] at this; exact this.1
  · simp only [inMessage, Bool.and_eq_true] at this; exact this.1.1

theorem addressees_following {e : Event} {cmd : Cmd} (ha : asks e = some (cmd, st)) (h : i ∈ addressees s e)
    (hst : st = .envelopeRecipient ∨ st = .data) : inMessage (s.kids i) = true := by
  cases e <;> simp only [asks, Option.some.injEq, Prod.mk.injEq, reduceCtorEq] at ha <;> rw [← ha.2] at hst <;>
    first | (simp at hst; done) | skip
  · exact (List.mem_filter.mp h).2
  · have := (List.mem_filter.mp h).2
    simp only [Bool.and_eq_true] at this
    exact this.1

/-- a command arrives -/
theorem command_asked {n : Nat} {e : Event} {cmd : Cmd} (ha : asks e = some (cmd, st)) (hcalm : Calm s (addressees s e) st)
    (hfb : ∀ i ∈ addressees s e, Proper (s.kids i).fallback) :
    ∃ u', command (dispatch (n + 1)) e s = some (true, u') ∧
      Inv s (commands s.out ++ opening s e cmd st) (addressees s e) st (Talk.start s (addressees s e) st) u' := by
  obtain ⟨j, hj⟩ := List.exists_mem_of_ne_nil _ hcalm.some
  have hjr := addressees_range hj
  have hja := addressees_alive hj
  have hm : ∀ i ∈ addressees s e, st = .envelopeRecipient ∨ st = .data → (s.kids i).ctx.processingMessage = true := fun i hi hst => by
    have := addressees_following ha hi hst
    simp only [inMessage, Bool.and_eq_true] at this
    exact this.2
  have hr : ∀ i ∈ addressees s e, i < s.count := fun i hi => addressees_range hi
  have hca := check_alive hcalm.running hjr hja
  unfold opening
  rw [← List.append_assoc]
  have run : ∀ (check : M Bool) (fill : M Unit), check s = some (true, s) →
      (∃ u0, (initReplyQueue st >>= fun _ => fill) s = some ((), u0) ∧ Filled s u0 (addressees s e) (abandoned s e) st) →
      command (dispatch (n + 1)) e s = toAll (dispatch (n + 1)) check fill st cmd s →
      ∃ u', command (dispatch (n + 1)) e s = some (true, u') ∧
      Inv s (commands s.out ++ (abandoned s e).map (·, .abort) ++
        ((addressees s e).filter fun i => !declines (s.kids i) st).map (·, cmd)) (addressees s e) st
        (Talk.start s (addressees s e) st) u' := by
    intro check fill hc hf hs
    obtain ⟨u', h1, h2⟩ := begin (n := n) ha hcalm (addressees_nodup s e) hr hfb hm hc hf
    exact ⟨u', hs.trans h1, h2⟩
  cases e <;> simp only [asks, Option.some.injEq, Prod.mk.injEq, reduceCtorEq] at ha <;> obtain ⟨rfl, rfl⟩ := ha
  case connect => exact run _ _ hca (fill_alive hcalm) rfl
  case helo => exact run _ _ hca (fill_alive hcalm) rfl
  case envelopeFrom => exact run _ _ hca (fill_alive hcalm) rfl
  case envelopeRecipient =>
    exact run _ _ (check_processing hjr (addressees_following (e := .envelopeRecipient _) rfl hj (.inl rfl))) (fill_processing hcalm) rfl
  case data =>
    exact run _ _ (check_processing hjr (addressees_following (e := .data) rfl hj (.inr rfl))) (fill_accepted hcalm.oracle hcalm.pending) rfl
  case unknown => exact run _ _ hca (fill_alive hcalm) rfl

theorem command_begin {n : Nat} {e : Event} {cmd : Cmd} (ha : asks e = some (cmd, st)) (hcalm : Calm s (addressees s e) st)
    (hfb : ∀ i ∈ addressees s e, Proper (s.kids i).fallback) :
    ∃ u', next (n + 1) s e [] = some u' ∧
      Inv s (commands s.out ++ opening s e cmd st) (addressees s e) st (Talk.start s (addressees s e) st) u' := by
  obtain ⟨u', h1, h2⟩ := command_asked (n := n) ha hcalm hfb
  refine ⟨u', ?_, h2⟩
  have hs : { s with oracle := [] } = s := by cases s; simp [hcalm.oracle.symm]
  unfold next
  rw [hs, step_command, h1]
  rfl

end

end Phase
end Verif.Children
