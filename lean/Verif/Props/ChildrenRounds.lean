import Verif.Manager.ChildrenRounds
import Verif.Props.ChildrenPhase
import Verif.Manager.ChildrenEarlyRefusal
/-
C97, C98: one command after the other, and messages.
-/
namespace Verif.Props
open Verif Verif.Children Verif.Spec.Children Verif.Spec.Phase
open Verif.Server (St)
open Cases

theorem atRest_calm {s : Sys} {e : Event} {cmd : Cmd} {st : St} (h : AtRest s) (ha : asks e = some (cmd, st))
    (hne : addressees s e ≠ []) :
    Calm s (addressees s e) st ∧ ∀ i ∈ addressees s e, isFallback (s.kids i).fallback = true := by
  have hr : ∀ i ∈ addressees s e, Resting (s.kids i) := fun i hi =>
    h.milters i (Children.Phase.addressees_range hi) (Children.Phase.addressees_alive hi)
  refine ⟨⟨h.oracle, h.pending, h.running, hne, fun i hi => ?_⟩, fun i hi => (hr i hi).fallback⟩
  have k := hr i hi
  obtain ⟨o, h1, h2⟩ := k.option
  exact ⟨k.linked, k.retry, Children.Phase.addressees_alive hi, k.nextStates, k.timer, o, h1, h2 e cmd st ha⟩

/-- everybody has answered: only aborts are on their way -/
theorem settled_near {s u : Sys} {base : List (Nat × Cmd)} {who : List Nat} {st : St} {t : Talk}
    (hrest : AtRest s) (halive : ∀ i ∈ who, isAlive (s.kids i) = true) (h : Children.Phase.Inv s base who st t u) (ho : t.isOpen who = false) :
    Children.Phase.NearRest u ∧ Children.Phase.Carry s u := by
  have hc := h.core
  have hs := h.settled ho
  refine ⟨⟨hc.oracle, hs.pending, hc.frame.1.trans hrest.running, hc.frame.2.2.2.1 hrest.blank, fun i hi ha => ?_⟩,
    ⟨hc.frame, hc.count, fun i hi => ?_, fun i hi => ?_, fun i hi => ?_⟩⟩
  · rw [hc.count] at hi
    by_cases hw : i ∈ who
    · have hk := hc.kept i hw
      have hat := hc.at' i hw
      have hcl : (t.pos i).isOpen = false := by
        have := List.any_eq_false.mp ho i hw
        simpa using this
      have hpos : Children.Phase.stays (t.pos i) = true := by
        have hin := hc.inside i hw
        cases hp : t.pos i with
        | lost =>
          rw [hp] at hat
          simp [isAlive, hat.2] at ha
        | answered => rfl
        | settled => rfl
        | none => exact absurd hp hin
        | _ => rw [hp] at hcl; cases hcl
      obtain ⟨r1, r2, r3, r4⟩ := hs.rest i hw hpos
      have htimer : (u.kids i).ctx.timer = none := by
        cases hp : t.pos i <;> rw [hp] at hpos hat <;> first | exact hat | cases hpos
      have hold := hrest.milters i hi (halive i hw)
      refine ⟨r1, hk.retry, r3, Nat.le_succ_of_le r4, htimer, ?_, ?_, hk.body hold.body⟩
      · rw [hk.option]; exact hold.option
      · rw [hk.fallback]; exact hold.fallback
    · have hk := hc.others i hw
      rw [hk.alive] at ha
      have hr := hrest.milters i hi ha
      refine ⟨hk.linked.trans hr.linked, hk.retry.trans hr.retry, fun x hx => ?_, ?_, hk.timer.trans hr.timer, ?_, ?_, hk.body hr.body⟩
      · rcases hk.next x hx with hx | hx
        · rw [hr.nextStates] at hx; cases hx
        · exact hx
      · have := hs.due i hw
        unfold Children.Phase.due at this
        rw [hr.nextStates] at this
        exact this
      · rw [hk.option]; exact hr.option
      · rw [hk.fallback]; exact hr.fallback
  · by_cases hw : i ∈ who
    · exact (hc.kept i hw).body
    · exact (hc.others i hw).body
  · by_cases hw : i ∈ who
    · exact (hc.kept i hw).option
    · exact (hc.others i hw).option
  · by_cases hw : i ∈ who
    · exact (hc.kept i hw).evaluation
    · exact (hc.others i hw).evaluation

theorem apart_near {s u : Sys} (hrest : AtRest s) (ho : u.oracle = []) (hp : u.pending = none) (hf : Children.Phase.Frame s u)
    (hcount : u.count = s.count) (hk : ∀ i, Children.Phase.Apart (s.kids i) (u.kids i))
    (hd : ∀ i, Children.Phase.due u i ≤ Children.Phase.due s i + 1) : Children.Phase.NearRest u ∧ Children.Phase.Carry s u := by
  refine ⟨⟨ho, hp, hf.1.trans hrest.running, hf.2.2.2.1 hrest.blank, fun i hi ha => ?_⟩,
    ⟨hf, hcount, fun i _ => (hk i).body, fun i _ => (hk i).option, fun i _ => (hk i).evaluation⟩⟩
  rw [hcount] at hi
  rw [(hk i).alive] at ha
  have hr := hrest.milters i hi ha
  refine ⟨(hk i).linked.trans hr.linked, (hk i).retry.trans hr.retry, fun x hx => ?_, ?_, (hk i).timer.trans hr.timer, ?_, ?_, (hk i).body hr.body⟩
  · rcases (hk i).next x hx with hx | hx
    · rw [hr.nextStates] at hx; cases hx
    · exact hx
  · have := hd i
    unfold Children.Phase.due at this
    rw [hr.nextStates] at this
    exact Nat.le_succ_of_le this
  · rw [(hk i).option]; exact hr.option
  · rw [(hk i).fallback]; exact hr.fallback

theorem severity_inj {v w : Status} (hv : Children.Phase.Proper v) (hw : Children.Phase.Proper w) (h : severity v = severity w) : v = w := by
  unfold Children.Phase.Proper at hv hw
  rcases hv with rfl | rfl | rfl | rfl | rfl <;> rcases hw with rfl | rfl | rfl | rfl | rfl <;> first | rfl | (simp [severity] at h)

theorem verdict_worst {t : Talk} {v : Status} (hne : t.votes ≠ []) (hp : ∀ v ∈ t.votes, Children.Phase.Proper v)
    (h : IsVerdict t.votes v) : Children.Phase.worst t = v := by
  obtain ⟨m1, m2⟩ := C13_max t.votes hne fun v hv => proper_decision (hp v hv)
  exact severity_inj (hp _ m1) (hp _ h.1) (Nat.le_antisymm (h.2 _ m1) (m2 _ h.1))

theorem goesOn_filter {l : List (Nat × Cmd)} (h : ∀ p ∈ l, p.2 = .quit ∨ p.2 = .abort) : l.filter goesOn = [] := by
  rw [List.filter_eq_nil_iff]
  intro p hp
  rcases h p hp with h | h <;> simp [goesOn, h]

theorem goesOn_asked {s : Sys} {e : Event} {cmd : Cmd} {st : St} (ha : asks e = some (cmd, st)) :
    (opening s e cmd st).filter goesOn = asked s e cmd st := by
  unfold opening asked
  rw [List.filter_append, goesOn_filter, List.nil_append, List.filter_eq_self]
  · intro p hp
    obtain ⟨i, _, rfl⟩ := List.mem_map.mp hp
    cases e <;> simp only [asks, Option.some.injEq, Prod.mk.injEq, reduceCtorEq] at ha <;> rw [← ha.1] <;> rfl
  · intro p hp
    obtain ⟨i, _, rfl⟩ := List.mem_map.mp hp
    exact .inr rfl

/-- nobody is there for the command -/
theorem asked_nobody (n : Nat) {s : Sys} {e : Event} {cmd : Cmd} {st : St} (hrest : AtRest s) (ha : asks e = some (cmd, st))
    (h1 : addressees s e = []) (h2 : abandoned s e = []) :
    next n s e [] = some (logged s (.emit (.error true))) := by
  have hs : { s with oracle := [] } = s := by cases s; simp [hrest.oracle.symm]
  unfold next
  rw [hs, step_command]
  have dead : ((List.range s.count).filter fun i => isAlive (s.kids i)) = [] → checkAlive s = some (false, logged s (.emit (.error true))) := by
    intro h
    unfold checkAlive
    rw [get_bind, hrest.running]
    have : ((milters s).any fun i => !isQuitted s i) = false := by
      rw [List.any_eq_false]
      intro i hi
      rw [Children.Phase.alive_iff]
      have := List.filter_eq_nil_iff.mp h i hi
      simpa using this
    simp only [Bool.false_eq_true, if_false, this]
    rfl
  have away : (∀ i < s.count, Spec.Phase.inMessage (s.kids i) = false) →
      checkProcessing s = some (false, logged s (.emit (.error true))) := by
    intro h
    unfold checkProcessing
    rw [get_bind]
    have : ((milters s).any fun i => isProcessingMessage s i) = false := by
      rw [List.any_eq_false]
      intro i hi
      rw [Children.Phase.processing_iff, h i (List.mem_range.mp hi)]
      exact Bool.false_ne_true
    simp only [Bool.false_eq_true, if_false, this]
    rfl
  have all : ∀ (check : M Bool) fill c, check s = some (false, logged s (.emit (.error true))) →
      (toAll (dispatch n) check fill st c s).map (·.2) = some (logged s (.emit (.error true))) := by
    intro check fill c h
    unfold toAll
    rw [bind_eq h]
    rfl
  cases e <;> simp only [asks, Option.some.injEq, Prod.mk.injEq, reduceCtorEq] at ha <;> obtain ⟨rfl, rfl⟩ := ha
  · exact all _ _ _ (dead h1)
  · exact all _ _ _ (dead h1)
  · exact all _ _ _ (dead h1)
  · refine all _ _ _ (away fun i hi => ?_)
    have := List.filter_eq_nil_iff.mp h1 i (List.mem_range.mpr hi)
    simpa using this
  · refine all _ _ _ (away fun i hi => ?_)
    have a := List.filter_eq_nil_iff.mp h1 i (List.mem_range.mpr hi)
    have b := List.filter_eq_nil_iff.mp h2 i (List.mem_range.mpr hi)
    cases hm : Spec.Phase.inMessage (s.kids i) with
    | false => rfl
    | true =>
      rw [hm] at a b
      cases hq : Server.hasAcceptedRecipient (s.kids i).ctx <;> simp [hq] at a b
  · exact all _ _ _ (dead h1)

/-- nobody is left who wants the message -/
theorem asked_deserted (n : Nat) {s : Sys} (hrest : AtRest s) (h1 : addressees s .data = []) (h2 : abandoned s .data ≠ []) :
    ∃ u, next n s .data [] = some u ∧ Children.Phase.Filled s u [] (abandoned s .data) .data := by
  obtain ⟨u, hf, f⟩ := Children.Phase.fill_accepted (d := dispatch n) (st := .data) hrest.oracle hrest.pending
  rw [h1] at f
  refine ⟨u, ?_, f⟩
  obtain ⟨j, hj⟩ := List.exists_mem_of_ne_nil _ h2
  have hjr : j < s.count := List.mem_range.mp (List.mem_filter.mp hj).1
  have hjm : Spec.Phase.inMessage (s.kids j) = true := by
    have := (List.mem_filter.mp hj).2
    simp only [Bool.and_eq_true] at this
    exact this.1
  have hs : { s with oracle := [] } = s := by cases s; simp [hrest.oracle.symm]
  unfold next
  rw [hs, step_command]
  show (data (dispatch n) s).map (·.2) = _
  have hq : ∀ {β : Type} (g : PUnit → M β), (initReplyQueue .data >>= fun _ => queueAccepted (dispatch n) (milters s) >>= g) s = g ⟨⟩ u := by
    intro β g
    have : (initReplyQueue .data >>= fun _ => queueAccepted (dispatch n) (milters s) >>= g) s =
        ((initReplyQueue .data >>= fun _ => queueAccepted (dispatch n) (milters s)) >>= g) s := rfl
    rw [this, bind_eq hf]
  have : data (dispatch n) s = some (false, u) := by
    unfold data
    rw [get_bind]
    unfold toAll
    rw [bind_eq (Children.Phase.check_processing hjr hjm)]
    refine (hq _).trans ?_
    rw [get_bind, f.queue]
    rfl
  rw [this]
  rfl

/-- one turn, when what it opens with has come to an end -/
theorem turn_closes {n : Nat} {s u : Sys} {opens : List Event} {out : List Nat} {rest : List Event} {emits sofar : List Emit}
    {sent main : List (Nat × Cmd)} (hu : run (n + 4) s (quietly opens) = some u)
    (hn : Children.Phase.NearRest u) (hc : Clears u out)
    (ht : told u.out = told s.out ++ emits) (hm : (commands u.out).filter goesOn = (commands s.out).filter goesOn ++ main)
    (next : ∀ s', run (n + 4) s (quietly (opens ++ out.map .flushed)) = some s' → AtRest s' →
      ∃ s'', run (n + 4) s' (quietly rest) = some s'' ∧ told s''.out = told s'.out ++ sofar ∧
        (commands s''.out).filter goesOn = (commands s'.out).filter goesOn ++ sent ∧ AtRest s'') :
    ∃ s'', run (n + 4) s (quietly (opens ++ out.map .flushed ++ rest)) = some s'' ∧ told s''.out = told s.out ++ (emits ++ sofar) ∧
      (commands s''.out).filter goesOn = (commands s.out).filter goesOn ++ (main ++ sent) ∧ AtRest s'' := by
  obtain ⟨s1, r1, a1, c1, t1, m1, _, _⟩ := Children.Phase.cleared (n := n) hn hc
  have hr : run (n + 4) s (quietly (opens ++ out.map .flushed)) = some s1 := by
    unfold quietly at *
    rw [List.map_append, run_append', hu]
    exact r1
  obtain ⟨s2, r2, t2, m2, a2⟩ := next s1 hr a1
  refine ⟨s2, ?_, by rw [t2, t1, ht]; simp, by rw [m2, m1, hm]; simp, a2⟩
  unfold quietly at *
  rw [List.map_append, run_append', hr]
  exact r2

/-! ### Messages -/

theorem followed_opening {s : Sys} {size i : Nat} {rest : List Nat} (hrest : AtRest s) (h : Followed s size i rest) :
    Opening s i rest := by
  have hin : ∀ j ∈ i :: rest, j < s.count ∧ Spec.Phase.inMessage (s.kids j) = true := by
    intro j hj
    rw [← h.followers] at hj
    obtain ⟨h1, h2⟩ := List.mem_filter.mp hj
    exact ⟨List.mem_range.mp h1, h2⟩
  have hready : ∀ j ∈ i :: rest, (s.kids j).linked = true ∧ Ready (s.kids j).ctx := by
    intro j hj
    obtain ⟨h1, h2⟩ := hin j hj
    have ha : isAlive (s.kids j) = true := by
      simp only [Spec.Phase.inMessage, Bool.and_eq_true] at h2
      exact h2.1
    have k := hrest.milters j h1 ha
    obtain ⟨b1, b2, b3, b4, b5⟩ := k.body
    have hq : (s.kids j).ctx.quitted = false := by
      simp only [isAlive, Bool.and_eq_true, Bool.not_eq_true'] at ha
      exact ha.2
    exact ⟨k.linked, hq, k.nextStates, k.timer, b1, b2, b3, b4, b5, h.wants j hj⟩
  obtain ⟨c1, c2, c3, c4, c5, c6, c7, c8, c9⟩ := hrest.blank
  obtain ⟨t1, t2, t3⟩ := h.traceless
  have hi := hin i List.mem_cons_self
  have hm : Children.attending (s.kids i).ctx := by
    have := hi.2
    simp only [Spec.Phase.inMessage, isAlive, Bool.and_eq_true] at this
    exact ⟨this.1.1, this.2⟩
  have hf : (milters s).filter (isProcessingMessage s) = i :: rest := by
    rw [← h.followers]
    unfold milters
    refine List.filter_congr fun j _ => ?_
    exact Children.Phase.processing_iff s j
  have hs : stored s = [] := by unfold stored; rw [c5, c6]
  refine ⟨⟨hrest.oracle, (hready i List.mem_cons_self).1, (hready i List.mem_cons_self).2, hm, hi.1, .inr ⟨c4, hf, h.recipients⟩, ?_,
    by rw [← h.chunk]; exact h.sizePos, by rw [← h.chunk, Enc.chunkSize_eq]; exact h.sizeMax, h.negotiated, by rw [c1]; rfl, (fun _ => t1), c3, hs,
    (fun f hf => by rw [c6] at hf; cases hf), t3, h.begun, c9, c2, fun j hj => hready j (List.mem_cons_of_mem _ hj)⟩, t2, c7, c8⟩
  rw [← h.followers]
  exact List.nodup_range.filter _

theorem posting_followed {s : Sys} {m : Message} {role : Nat → Role} {size i : Nat} {order later : List Nat}
    (h : Posting s m role size i order later) : Followed s size i (order ++ later) :=
  ⟨h.followers, h.recipients, h.wants, h.begun, h.traceless, h.chunk, h.sizePos, h.sizeMax, h.negotiated⟩

theorem posting_opening {s : Sys} {m : Message} {role : Nat → Role} {size i : Nat} {order later : List Nat} (hrest : AtRest s)
    (h : Posting s m role size i order later) : Opening s i (order ++ later) := followed_opening hrest (posting_followed h)

/-- those who have the message to see are there -/
theorem followed_in {s : Sys} {size i : Nat} {rest : List Nat} (h : Followed s size i rest) {k : Nat} (hk : k ∈ i :: rest) :
    k < s.count ∧ isAlive (s.kids k) = true ∧ Children.attending (s.kids k).ctx := by
  rw [← h.followers] at hk
  obtain ⟨h1, h2⟩ := List.mem_filter.mp hk
  simp only [Spec.Phase.inMessage, Bool.and_eq_true] at h2
  refine ⟨List.mem_range.mp h1, h2.1, ?_, h2.2⟩
  have := h2.1
  simp only [isAlive, Bool.and_eq_true] at this
  exact this.1

theorem followed_crew {s : Sys} {size i : Nat} {rest : List Nat} (h : Followed s size i rest) : Crew s rest := by
  intro k hk
  obtain ⟨h1, _, h2⟩ := followed_in h (List.mem_cons_of_mem _ hk)
  exact ⟨h1, h2⟩

theorem goesOn_chain {c hh hb : Bool} {hs : List Header} {chunks : List Bytes} {last : Bytes} {x : Cmd}
    (h : x ∈ chain c hh hb hs chunks last) : x ≠ .abort ∧ x ≠ .quit := by
  unfold chain at h
  rcases List.mem_append.mp h with h | h
  · split at h
    · obtain ⟨y, _, rfl⟩ := List.mem_map.mp h
      exact ⟨by simp, by simp⟩
    · cases h
  · rcases List.mem_cons.mp h with rfl | h
    · exact ⟨by simp, by simp⟩
    · rcases List.mem_append.mp h with h | h
      · split at h
        · obtain ⟨y, _, rfl⟩ := List.mem_map.mp h
          exact ⟨by simp, by simp⟩
        · cases h
      · rw [List.mem_singleton.mp h]
        exact ⟨by simp, by simp⟩

theorem goesOn_handed (m : Message) (role : Nat → Role) (size i : Nat) (order : List Nat) :
    ((handed m role size i order).flatMap (fun x => x.2.map (x.1, ·))).filter goesOn =
      (handed m role size i order).flatMap (fun x => x.2.map (x.1, ·)) := by
  rw [List.filter_eq_self]
  intro p hp
  obtain ⟨x, hx, hp⟩ := List.mem_flatMap.mp hp
  obtain ⟨c, hc, rfl⟩ := List.mem_map.mp hp
  have : c ≠ .abort ∧ c ≠ .quit := by
    rcases List.mem_cons.mp hx with rfl | hx
    · exact goesOn_chain hc
    · unfold deliveries at hx
      obtain ⟨y, _, rfl⟩ := List.mem_map.mp hx
      exact goesOn_chain hc
  simp [goesOn, this.1, this.2]

/-- everybody lets a message pass -/
theorem posted_runs (n : Nat) {s : Sys} {m : Message} {role : Nat → Role} {size i : Nat} {order : List Nat} (hrest : AtRest s)
    (h : Posting s m role size i order []) :
    ∃ s', run (n + 2) s (quietly (Turn.opening (.message m role size i order))) = some s' ∧
      commands s'.out = commands s.out ++ (handed m role size i order).flatMap (fun x => x.2.map (x.1, ·)) ∧
      told s'.out = told s.out ++ (reports m role size i order ++
        [.reply (Spec.Children.verdict (s.statuses .endOfMessage) role (i :: order))]) ∧
      AtRest s' := by
  have ho := posting_opening hrest h
  rw [List.append_nil] at ho
  obtain ⟨s1, e1, c1, st, d1, o1, l1, f1, qh, qb, m1, t1, -⟩ := intake (n := n + 1) m ho (by rw [Enc.chunkSize_eq]; exact h.lengths)
  have e3 : decide (St.header ∈ s1.commandQueue) = decide (m.headers ≠ []) := by simp only [qh]
  have e4 : decide (St.body ∈ s1.commandQueue) = decide (m.chunks ≠ []) := by simp only [qb]
  obtain ⟨s2, e2, m2, t2, p2, -⟩ := chain_runs n role m.draft.headers order s1 i c1 f1 o1
    (by rw [st.status]; exact h.verdict)
    (by
      intro j hj
      rw [st.roles.converts, st.roles.evaluation]
      exact h.roles j hj)
    (by
      intro x hx
      rw [d1] at hx
      rw [qh, qb]
      exact h.remains x hx)
    (by
      intro hb
      exact h.replaces (by rw [qb] at hb; simpa using hb))
  have hc := (h.roles i (by simp)).1
  have hsz : s1.chunkSize = size := st.chunkSize.trans h.chunk.symm
  rw [d1, l1, e3, e4, hsz] at e2 m2
  rw [d1, st.status, hsz] at t2
  have ap := st.roles.apart
  simp only [Prod.mk.injEq] at ap
  refine ⟨s2, ?_, ?_, ?_, ⟨p2.oracle, p2.pending, p2.running.trans (ap.2.1.trans hrest.running), p2.blank, fun j hj ha => ?_⟩⟩
  · have := run_trans e1 e2
    rw [← quietly_append] at this
    exact this
  · rw [m2, m1, ← hc]
    simp [handed]
  · rw [t2, t1, ← hc]
    simp [reports]
  · have hjc : j < s.count := by rw [p2.count, ap.2.2] at hj; exact hj
    by_cases hw : j ∈ i :: order
    · have hjin : Spec.Phase.inMessage (s.kids j) = true := by
        have := h.followers
        rw [List.append_nil] at this
        rw [← this] at hw
        exact (List.mem_filter.mp hw).2
      have hja : isAlive (s.kids j) = true := by
        simp only [Spec.Phase.inMessage, Bool.and_eq_true] at hjin
        exact hjin.1
      have k := hrest.milters j hjc hja
      have r := p2.ready j hw
      have sh := (p2.shell j).trans (st.roles.shell j)
      unfold shell at sh
      injection sh
      have hopt := (p2.ctxOption j).trans (st.roles.ctxOption j)
      refine ⟨?_, ?_, r.nextStates, r.timer, by rw [hopt]; exact k.option, ?_,
        r.body, r.queue, r.count, r.sentEom, r.skip⟩
      · exact (by assumption : (s2.kids j).linked = (s.kids j).linked).trans k.linked
      · exact (by assumption : (s2.kids j).tryRetry = (s.kids j).tryRetry).trans k.retry
      · rw [(by assumption : (s2.kids j).fallback = (s.kids j).fallback)]
        exact k.fallback
    · have e : s2.kids j = s.kids j := by
        rw [p2.others j hw, st.others j (fun e => hw (e ▸ List.mem_cons_self))]
      rw [e] at ha ⊢
      exact hrest.milters j hjc ha

/-- one of them refuses it -/
theorem refused_runs (n : Nat) {s : Sys} {m : Message} {role : Nat → Role} {size i : Nat} {order later : List Nat} {answer : Reply}
    {out : List Nat} (hrest : AtRest s) (h : Posting s m role size i order later) (hans : (refusing answer).isSome = true)
    (hcounts : (s.kids ((i :: order).getLastD 0)).evaluation = false)
    (hcode : s.code = none ∨ ∃ a b c, answer = .replyCode a b c) :
    ∃ s' aborts, run (n + 2) s (quietly (Turn.opening (.refused m role size i order answer out))) = some s' ∧
      commands s'.out = commands s.out ++ (handed m role size i order).flatMap (fun x => x.2.map (x.1, ·)) ++ aborts ∧
      (∀ x ∈ aborts, x.2 = .abort) ∧
      told s'.out = told s.out ++ (reports m role size i order ++ [.reply answer]) ∧ Children.Phase.NearRest s' := by
  have ho := posting_opening hrest h
  obtain ⟨s1, e1, c1, st, d1, o1, l1, f1, qh, qb, m1, t1, -⟩ := intake (n := n + 1) m ho (by rw [Enc.chunkSize_eq]; exact h.lengths)
  have e3 : decide (St.header ∈ s1.commandQueue) = decide (m.headers ≠ []) := by simp only [qh]
  have e4 : decide (St.body ∈ s1.commandQueue) = decide (m.chunks ≠ []) := by simp only [qb]
  obtain ⟨s2, x, e2, m2, a2, _, _, t2, p2⟩ := refusal_runs n role m.draft.headers order later s1 i answer c1 f1 o1
    (by rw [st.status]; exact h.verdict) hans
    (by rw [st.roles.evaluation]; exact hcounts) (by rw [st.code]; exact hcode)
    (by
      intro j hj
      rw [st.roles.converts, st.roles.evaluation]
      exact h.roles j hj)
    (by
      intro x hx
      rw [d1] at hx
      rw [qh, qb]
      exact h.remains x hx)
    (by
      intro hb
      exact h.replaces (by rw [qb] at hb; simpa using hb))
  have hc := (h.roles i (by simp)).1
  have hsz : s1.chunkSize = size := st.chunkSize.trans h.chunk.symm
  rw [d1, l1, e3, e4, hsz] at e2 m2
  rw [d1, hsz] at t2
  have ap := st.roles.apart
  simp only [Prod.mk.injEq] at ap
  refine ⟨s2, x, ?_, ?_, a2, ?_, ⟨p2.oracle, p2.pending, p2.running.trans (ap.2.1.trans hrest.running), p2.blank, fun j hj ha => ?_⟩⟩
  · have := run_trans e1 e2
    rw [← quietly_append] at this
    exact this
  · rw [m2, m1, ← hc]
    simp [handed]
  · rw [t2, t1, ← hc]
    simp [reports]
  · have hjc : j < s.count := by rw [p2.count, ap.2.2] at hj; exact hj
    by_cases hw : j ∈ i :: order
    · have hjin : Spec.Phase.inMessage (s.kids j) = true := by
        have hw' : j ∈ i :: (order ++ later) := by
          rcases List.mem_cons.mp hw with rfl | hw
          · exact List.mem_cons_self
          · exact List.mem_cons_of_mem _ (List.mem_append.mpr (.inl hw))
        rw [← h.followers] at hw'
        exact (List.mem_filter.mp hw').2
      have hja : isAlive (s.kids j) = true := by
        simp only [Spec.Phase.inMessage, Bool.and_eq_true] at hjin
        exact hjin.1
      have k := hrest.milters j hjc hja
      obtain ⟨r1, r2, r3, r4⟩ := p2.took j hw
      have sh := st.roles.shell j
      unfold shell at sh
      injection sh
      have hopt := (p2.ctxOption j).trans (st.roles.ctxOption j)
      refine ⟨?_, ?_, r1, Nat.le_succ_of_le r2, r3, by rw [hopt]; exact k.option, ?_, r4⟩
      · exact (p2.linked j).trans ((by assumption : (s1.kids j).linked = (s.kids j).linked).trans k.linked)
      · exact (p2.retry j).trans ((by assumption : (s1.kids j).tryRetry = (s.kids j).tryRetry).trans k.retry)
      · rw [p2.fallback, (by assumption : (s1.kids j).fallback = (s.kids j).fallback)]
        exact k.fallback
    · have e : s1.kids j = s.kids j := st.others j (fun e => hw (e ▸ List.mem_cons_self))
      obtain ⟨o, d⟩ := p2.others j hw
      unfold Children.Phase.due at d
      rw [e] at o d
      rw [o.alive] at ha
      have k := hrest.milters j hjc ha
      rw [k.nextStates] at d
      refine ⟨o.linked.trans k.linked, o.retry.trans k.retry, fun x hx => ?_, Nat.le_succ_of_le d, o.timer.trans k.timer,
        by rw [o.option]; exact k.option, by rw [o.fallback]; exact k.fallback, o.body k.body⟩
      rcases o.next x hx with hx | hx
      · rw [k.nextStates] at hx; cases hx
      · exact hx

/-- who reads a message no more, or has nothing of it, rests -/
theorem reading_rests {s u : Sys} {size i j : Nat} {rest later : List Nat} (hrest : AtRest s) (h : Followed s size i rest)
    (hm : Moved s u) (hout : ∀ k, k ∉ i :: rest → u.kids k = s.kids k) (hlater : ∀ k ∈ later, u.kids k = s.kids k)
    (haside : ∀ k ∈ i :: rest, k ∉ j :: later → Aside u k) {k : Nat} (hk : k < s.count) (hne : k ≠ j) (ha : isAlive (u.kids k) = true) :
    Resting (u.kids k) := by
  by_cases h1 : k ∈ i :: rest
  · by_cases h2 : k ∈ later
    · rw [hlater k h2] at ha ⊢
      exact hrest.milters k hk ha
    · have r := (haside k h1 (by simp [hne, h2])).1
      have k0 := hrest.milters k hk (followed_in h h1).2.1
      have sh := hm.roles.shell k
      unfold shell at sh
      injection sh
      refine ⟨?_, ?_, r.nextStates, r.timer, by rw [hm.roles.ctxOption k]; exact k0.option, ?_, r.body, r.queue, r.count, r.sentEom, r.skip⟩
      · exact (by assumption : (u.kids k).linked = (s.kids k).linked).trans k0.linked
      · exact (by assumption : (u.kids k).tryRetry = (s.kids k).tryRetry).trans k0.retry
      · rw [(by assumption : (u.kids k).fallback = (s.kids k).fallback)]
        exact k0.fallback
  · rw [hout k h1] at ha ⊢
    exact hrest.milters k hk ha

theorem goesOn_again {cut : Bytes → List Bytes} {c : Bool} {a : Spec.Early.Arrived} {x : Cmd} (h : x ∈ a.again cut c) :
    x ≠ .abort ∧ x ≠ .quit := by
  unfold Spec.Early.Arrived.again at h
  rcases List.mem_append.mp h with h | h
  · obtain ⟨y, _, rfl⟩ := List.mem_map.mp h
    exact ⟨by simp, by simp⟩
  · split at h
    · rcases List.mem_cons.mp h with rfl | h
      · exact ⟨by simp, by simp⟩
      · obtain ⟨y, _, rfl⟩ := List.mem_map.mp h
        exact ⟨by simp, by simp⟩
    · cases h

theorem goesOn_all {l : List (Nat × Cmd)} (h : ∀ p ∈ l, p.2 ≠ .abort ∧ p.2 ≠ .quit) : l.filter goesOn = l := by
  rw [List.filter_eq_self]
  intro p hp
  have := h p hp
  simp [goesOn, this.1, this.2]

theorem goesOn_part {c : Bool} {p : Spec.Early.Part} : p.command c ≠ .abort ∧ p.command c ≠ .quit := by
  cases p <;> exact ⟨by simp [Spec.Early.Part.command], by simp [Spec.Early.Part.command]⟩

theorem goesOn_leaves {convert : Nat → Bool} {cut : Bytes → List Bytes} {a : Spec.Early.Arrived} {i j : Nat} {rest later : List Nat}
    {es : List Event} {cs : List (Nat × Cmd)} (h : Spec.Early.Leaves convert cut a i rest es cs j later) :
    ∀ p ∈ cs, p.2 ≠ .abort ∧ p.2 ≠ .quit := by
  induction h with
  | reads =>
    intro p hp
    obtain ⟨c, hc, rfl⟩ := List.mem_map.mp hp
    exact goesOn_again hc
  | leaves gets something next ih =>
    intro p hp
    rcases List.mem_append.mp hp with hp | hp
    · obtain ⟨c, hc, rfl⟩ := List.mem_map.mp hp
      exact goesOn_again (by rw [gets]; exact List.mem_append_left _ hc)
    · exact ih p hp

theorem goesOn_reaches {convert : Nat → Bool} {cut : Bytes → List Bytes} {a : Spec.Early.Arrived} {i j : Nat} {rest later : List Nat}
    {es : List Event} {cs : List (Nat × Cmd)} (h : Spec.Early.Reaches convert cut a i rest es cs j later) :
    ∀ p ∈ cs, p.2 ≠ .abort ∧ p.2 ≠ .quit := by
  induction h with
  | here => intro p hp; cases hp
  | leaves gets something next ih =>
    intro p hp
    rcases List.mem_append.mp hp with hp | hp
    · obtain ⟨c, hc, rfl⟩ := List.mem_map.mp hp
      exact goesOn_again (by rw [gets]; exact List.mem_append_left _ hc)
    · exact ih p hp

theorem goesOn_reads {convert : Nat → Bool} {cut : Bytes → List Bytes} {a : Spec.Early.Arrived} {i j : Nat} {rest later : List Nat}
    {ps : List Spec.Early.Part} {es : List Event} {cs : List (Nat × Cmd)} (h : Spec.Early.Reads convert cut a i rest ps es cs j later) :
    ∀ p ∈ cs, p.2 ≠ .abort ∧ p.2 ≠ .quit := by
  induction h with
  | nothing => intro p hp; cases hp
  | continues allowed next ih =>
    intro p hp
    rcases List.mem_cons.mp hp with rfl | hp
    · exact goesOn_part
    · exact ih p hp
  | accepts allowed goes next ih =>
    intro p hp
    rw [List.cons_append] at hp
    rcases List.mem_cons.mp hp with rfl | hp
    · exact goesOn_part
    · rcases List.mem_append.mp hp with hp | hp
      · exact goesOn_leaves goes p hp
      · exact ih p hp

theorem goesOn_handed_tail (m : Message) (role : Nat → Role) (size i : Nat) (order : List Nat) :
    ((handed m role size i order).tail.flatMap (fun x => x.2.map (x.1, ·))).filter goesOn =
      (handed m role size i order).tail.flatMap (fun x => x.2.map (x.1, ·)) := by
  have h := goesOn_handed m role size i order
  rw [List.filter_eq_self] at h ⊢
  intro p hp
  refine h p ?_
  obtain ⟨x, hx, hp⟩ := List.mem_flatMap.mp hp
  exact List.mem_flatMap.mpr ⟨x, List.mem_of_mem_tail hx, hp⟩

theorem parts_length (m : Message) (c : Bool) : (Spec.Early.parts m).length = (m.first c).length - 1 := by
  unfold Spec.Early.parts Message.first chain
  simp only [List.length_append, List.length_cons, List.length_map, List.length_nil]
  by_cases h1 : m.headers = [] <;> by_cases h2 : m.chunks = [] <;> simp [h1, h2, Message.draft] <;> omega

/-- some leave a message before its end, the others let it pass -/
theorem early_runs (n : Nat) {s : Sys} {m : Message} {role : Nat → Role} {size i j : Nat} {all order : List Nat} {es : List Event}
    {cs : List (Nat × Cmd)} (hrest : AtRest s) (h : Followed s size i all)
    (hr : Spec.Early.Reads (converts s) (pieces size) {} i all (Spec.Early.parts m) es cs j order) (ha : Acting s m role j order) :
    ∃ s', run (n + 2) s (quietly (Turn.opening (.early m es role size j order))) = some s' ∧
      commands s'.out = commands s.out ++ (cs ++ [(j, .endOfMessage m.last)] ++
        (handed m role size j order).tail.flatMap (fun x => x.2.map (x.1, ·))) ∧
      told s'.out = told s.out ++ (reports m role size j order ++
        [.reply (Spec.Children.verdict (s.statuses .endOfMessage) role (j :: order))]) ∧
      AtRest s' := by
  have ho := followed_opening hrest h
  rw [h.chunk] at hr
  obtain ⟨s1, e1, c1, mv, d1, o1, l1, f1, qh, qb, m1, t1, _, ⟨front, hf⟩, ko, ka, kl⟩ := early_intake (n := n) (m := m) ho (followed_crew h) hr
  have e3 : decide (St.header ∈ s1.commandQueue) = decide (m.headers ≠ []) := by simp only [qh]
  have e4 : decide (St.body ∈ s1.commandQueue) = decide (m.chunks ≠ []) := by simp only [qb]
  obtain ⟨s2, e2, m2, t2, p2, -⟩ := chain_runs n role m.draft.headers order s1 j c1 f1 o1
    (by rw [mv.status]; exact ha.verdict)
    (by
      intro k hk
      rw [mv.roles.converts, mv.roles.evaluation]
      exact ha.roles k hk)
    (by
      intro x hx
      rw [d1] at hx
      rw [qh, qb]
      exact ha.remains x hx)
    (by
      intro hb
      exact ha.replaces (by rw [qb] at hb; simpa using hb))
  have hsz : s1.chunkSize = size := mv.chunkSize.trans h.chunk.symm
  rw [d1, l1, e3, e4, hsz] at e2 m2
  rw [d1, mv.status, hsz] at t2
  have ap := mv.roles.apart
  simp only [Prod.mk.injEq] at ap
  refine ⟨s2, ?_, ?_, ?_, ⟨p2.oracle, p2.pending, p2.running.trans (ap.2.1.trans hrest.running), p2.blank, fun k hk hal => ?_⟩⟩
  · have := run_trans e1 e2
    rw [← quietly_append] at this
    exact this
  · rw [m2, m1]
    simp [handed]
  · rw [t2, t1, parts_length m (role j).convert]
    simp [reports]
  · have hkc : k < s.count := by rw [p2.count, ap.2.2] at hk; exact hk
    by_cases hw : k ∈ j :: order
    · have k0 := hrest.milters k hkc (followed_in h (by rw [hf]; exact List.mem_append_right _ hw)).2.1
      have r := p2.ready k hw
      have sh := (p2.shell k).trans (mv.roles.shell k)
      unfold shell at sh
      injection sh
      have hopt := (p2.ctxOption k).trans (mv.roles.ctxOption k)
      refine ⟨?_, ?_, r.nextStates, r.timer, by rw [hopt]; exact k0.option, ?_,
        r.body, r.queue, r.count, r.sentEom, r.skip⟩
      · exact (by assumption : (s2.kids k).linked = (s.kids k).linked).trans k0.linked
      · exact (by assumption : (s2.kids k).tryRetry = (s.kids k).tryRetry).trans k0.retry
      · rw [(by assumption : (s2.kids k).fallback = (s.kids k).fallback)]
        exact k0.fallback
    · rw [p2.others k hw] at hal ⊢
      exact reading_rests hrest h mv ko kl ka hkc (fun e => hw (by simp [e])) hal

/-- some leave a message before its end, one of the others refuses it at its end -/
theorem earlyRefused_runs (n : Nat) {s : Sys} {m : Message} {role : Nat → Role} {size i j : Nat} {all order later : List Nat}
    {es : List Event} {cs : List (Nat × Cmd)} {answer : Reply} {out : List Nat} (hrest : AtRest s) (h : Followed s size i all)
    (hr : Spec.Early.Reads (converts s) (pieces size) {} i all (Spec.Early.parts m) es cs j (order ++ later)) (ha : Acting s m role j order)
    (hans : (refusing answer).isSome = true) (hcounts : (s.kids ((j :: order).getLastD 0)).evaluation = false)
    (hcode : s.code = none ∨ ∃ a b c, answer = .replyCode a b c) :
    ∃ s' aborts, run (n + 2) s (quietly (Turn.opening (.earlyRefused m es role size j order answer out))) = some s' ∧
      commands s'.out = commands s.out ++ (cs ++ [(j, .endOfMessage m.last)] ++
        (handed m role size j order).tail.flatMap (fun x => x.2.map (x.1, ·))) ++ aborts ∧
      (∀ x ∈ aborts, x.2 = .abort) ∧
      told s'.out = told s.out ++ (reports m role size j order ++ [.reply answer]) ∧ Children.Phase.NearRest s' := by
  have ho := followed_opening hrest h
  rw [h.chunk] at hr
  obtain ⟨s1, e1, c1, mv, d1, o1, l1, f1, qh, qb, m1, t1, _, ⟨front, hf⟩, ko, ka, kl⟩ := early_intake (n := n) (m := m) ho (followed_crew h) hr
  have e3 : decide (St.header ∈ s1.commandQueue) = decide (m.headers ≠ []) := by simp only [qh]
  have e4 : decide (St.body ∈ s1.commandQueue) = decide (m.chunks ≠ []) := by simp only [qb]
  obtain ⟨s2, x, e2, m2, a2, _, _, t2, p2⟩ := refusal_runs n role m.draft.headers order later s1 j answer c1 f1 o1
    (by rw [mv.status]; exact ha.verdict) hans
    (by rw [mv.roles.evaluation]; exact hcounts) (by rw [mv.code]; exact hcode)
    (by
      intro k hk
      rw [mv.roles.converts, mv.roles.evaluation]
      exact ha.roles k hk)
    (by
      intro x hx
      rw [d1] at hx
      rw [qh, qb]
      exact ha.remains x hx)
    (by
      intro hb
      exact ha.replaces (by rw [qb] at hb; simpa using hb))
  have hsz : s1.chunkSize = size := mv.chunkSize.trans h.chunk.symm
  rw [d1, l1, e3, e4, hsz] at e2 m2
  rw [d1, hsz] at t2
  have ap := mv.roles.apart
  simp only [Prod.mk.injEq] at ap
  refine ⟨s2, x, ?_, ?_, a2, ?_, ⟨p2.oracle, p2.pending, p2.running.trans (ap.2.1.trans hrest.running), p2.blank, fun k hk hal => ?_⟩⟩
  · have := run_trans e1 e2
    rw [← quietly_append] at this
    exact this
  · rw [m2, m1]
    simp [handed]
  · rw [t2, t1, parts_length m (role j).convert]
    simp [reports]
  · have hkc : k < s.count := by rw [p2.count, ap.2.2] at hk; exact hk
    by_cases hw : k ∈ j :: order
    · have hin : k ∈ i :: all := by
        rw [hf]
        refine List.mem_append_right _ ?_
        rcases List.mem_cons.mp hw with rfl | hw
        · exact List.mem_cons_self
        · exact List.mem_cons_of_mem _ (List.mem_append_left _ hw)
      have k0 := hrest.milters k hkc (followed_in h hin).2.1
      obtain ⟨r1, r2, r3, r4⟩ := p2.took k hw
      have sh := mv.roles.shell k
      unfold shell at sh
      injection sh
      have hopt := (p2.ctxOption k).trans (mv.roles.ctxOption k)
      refine ⟨?_, ?_, r1, Nat.le_succ_of_le r2, r3, by rw [hopt]; exact k0.option, ?_, r4⟩
      · exact (p2.linked k).trans ((by assumption : (s1.kids k).linked = (s.kids k).linked).trans k0.linked)
      · exact (p2.retry k).trans ((by assumption : (s1.kids k).tryRetry = (s.kids k).tryRetry).trans k0.retry)
      · rw [p2.fallback, (by assumption : (s1.kids k).fallback = (s.kids k).fallback)]
        exact k0.fallback
    · obtain ⟨o, d⟩ := p2.others k hw
      unfold Children.Phase.due at d
      rw [o.alive] at hal
      have k0 := reading_rests hrest h mv ko kl ka hkc (fun e => hw (by simp [e])) hal
      rw [k0.nextStates] at d
      refine ⟨o.linked.trans k0.linked, o.retry.trans k0.retry, fun x hx => ?_, Nat.le_succ_of_le d, o.timer.trans k0.timer,
        by rw [o.option]; exact k0.option, by rw [o.fallback]; exact k0.fallback, o.body k0.body⟩
      rcases o.next x hx with hx | hx
      · rw [k0.nextStates] at hx; cases hx
      · exact hx

/-- one refuses a message before its end -/
theorem turnedDown_runs (n : Nat) {s : Sys} {size i j k : Nat} {all rest' later : List Nat} {ps : List Spec.Early.Part}
    {p : Spec.Early.Part} {es es' : List Event} {cs cs' : List (Nat × Cmd)} {answer : Reply} {out : List Nat}
    (hrest : AtRest s) (h : Followed s size i all)
    (hr : Spec.Early.Reads (converts s) (pieces size) {} i all ps es cs j rest')
    (hp : (ps.foldl Spec.Early.Arrived.add {}).allows p)
    (hl : Spec.Early.Reaches (converts s) (pieces size) ((ps.foldl Spec.Early.Arrived.add {}).add p) j rest' es' cs' k later)
    (hans : (refusing answer).isSome = true) (hcounts : (s.kids k).evaluation = false)
    (hst : ∀ st, s.statuses st ≠ .reject ∧ s.statuses st ≠ .temporaryFailure ∧ s.statuses st ≠ .discard)
    (hcode : s.code = none ∨ ∃ a b c, answer = .replyCode a b c) :
    ∃ s' aborts, run (n + 2) s (quietly (Turn.opening (.turnedDown (es ++ [p.event, .flushed j] ++ es') k answer out))) = some s' ∧
      commands s'.out = commands s.out ++ (cs ++ [(j, p.command (converts s j))] ++ cs') ++ aborts ∧
      (∀ x ∈ aborts, x.2 = .abort) ∧
      told s'.out = told s.out ++ (List.replicate ps.length (.reply .cont) ++ [.reply answer]) ∧ Children.Phase.NearRest s' := by
  have ho := followed_opening hrest h
  rw [h.chunk] at hr hl
  obtain ⟨s', x, h1, h2, h3, _, _, h6, u, st, rf, mv, hat, hk, ko, kl, ka⟩ := early_refusal (n := n) (answer := answer) ho
    (followed_crew h) hr hp hl hans (fun st => by
      obtain ⟨a, b, c⟩ := hst st
      revert a b c
      cases s.statuses st <;> simp [isRefused]) hcounts hcode
  have ap := mv.roles.apart
  simp only [Prod.mk.injEq] at ap
  refine ⟨s', x, h1, ?_, h3, ?_, ⟨rf.oracle, rf.pending, rf.running.trans (ap.2.1.trans hrest.running), rf.blank, fun y hy hal => ?_⟩⟩
  · rw [h2]; simp
  · rw [h6]; simp
  · have hyc : y < s.count := by rw [rf.count, ap.2.2] at hy; exact hy
    have d := rf.due y
    unfold Children.Phase.due at d
    by_cases hyk : y = k
    · subst hyk
      have k0 := hrest.milters y hyc (followed_in h hk).2.1
      have o := rf.self
      have sh := mv.roles.shell y
      unfold shell at sh
      injection sh
      rw [hat.nextStates] at d
      refine ⟨?_, ?_, fun z hz => ?_, Nat.le_succ_of_le d, o.timer, ?_, ?_, rf.settled⟩
      · exact o.linked.trans ((by assumption : (u.kids y).linked = (s.kids y).linked).trans k0.linked)
      · exact o.retry.trans ((by assumption : (u.kids y).tryRetry = (s.kids y).tryRetry).trans k0.retry)
      · rcases o.next z hz with hz | hz
        · have : z ∈ (u.kids y).ctx.nextStates := hz
          rw [hat.nextStates] at this; cases this
        · exact hz
      · have e : (s'.kids y).ctx.option = (s.kids y).ctx.option := o.option.trans (mv.roles.ctxOption y)
        rw [e]; exact k0.option
      · have e : (s'.kids y).fallback = (s.kids y).fallback :=
          o.fallback.trans (by assumption : (u.kids y).fallback = (s.kids y).fallback)
        rw [e]; exact k0.fallback
    · have o := rf.others y hyk
      rw [o.alive] at hal
      have k0 := reading_rests hrest h mv ko kl ka hyc hyk hal
      rw [k0.nextStates] at d
      refine ⟨o.linked.trans k0.linked, o.retry.trans k0.retry, fun x hx => ?_, Nat.le_succ_of_le d, o.timer.trans k0.timer,
        by rw [o.option]; exact k0.option, by rw [o.fallback]; exact k0.fallback, o.body k0.body⟩
      rcases o.next x hx with hx | hx
      · rw [k0.nextStates] at hx; cases hx
      · exact hx

theorem course_runs (n : Nat) {s : Sys} {turns : List Turn} {emits : List Emit} {sent : List (Nat × Cmd)}
    (hc : Course (n + 4) s turns emits sent) : AtRest s →
    ∃ s', run (n + 4) s (quietly (turns.flatMap Turn.events)) = some s' ∧ told s'.out = told s.out ++ emits ∧
      (commands s'.out).filter goesOn = (commands s.out).filter goesOn ++ sent ∧ AtRest s' := by
  induction hc with
  | done => intro h; exact ⟨_, rfl, by simp, by simp, h⟩
  | @ask s e talk out rest emits sent cmd st t v command somebody talks over verdict clears next ih =>
    intro hrest
    obtain ⟨calm, hfb⟩ := atRest_calm hrest command somebody
    have hf : ∀ i ∈ addressees s e, Children.Phase.Proper (s.kids i).fallback := fun i hi => isFallback_proper (hfb i hi)
    obtain ⟨u, r1, inv⟩ := conversed (n + 2) command calm hf talks
    obtain ⟨hne, hp⟩ := votes_ne (n + 2) command calm hf talks over
    have hnear := settled_near hrest (fun i hi => Children.Phase.addressees_alive hi) inv over
    have hw := verdict_worst hne hp verdict
    obtain ⟨u', r1', _, _, later, hl1, hl2⟩ := C23_partial (n + 2) s e cmd st command calm hfb talk t talks
    obtain rfl : u' = u := by rw [r1] at r1'; exact (Option.some.inj r1').symm
    rw [List.flatMap_cons]
    refine turn_closes (emits := [.reply (report v t.code)]) (main := asked s e cmd st) r1 hnear.1 (clears _ r1) ?_ ?_ ih
    · rw [(inv.settled over).told, hw]
    · rw [hl1, List.filter_append, List.filter_append, goesOn_filter hl2, goesOn_asked command]
      simp
  | @nobody s e rest emits sent cmd st command gone gone' next ih =>
    intro hrest
    have hn := asked_nobody (n + 4) hrest command gone gone'
    rw [List.flatMap_cons]
    have hr : AtRest (logged s (.emit (.error true))) := ⟨hrest.oracle, hrest.pending, hrest.running, hrest.blank, hrest.milters⟩
    refine turn_closes (u := logged s (.emit (.error true))) (opens := [e]) (out := []) (emits := [.error true]) (main := []) ?_
      ⟨hrest.oracle, hrest.pending, hrest.running, hrest.blank, fun i hi ha => Children.Phase.Resting.nearly (hrest.milters i hi ha)⟩ ⟨fun i hi ha hne => absurd (hrest.milters i hi ha).nextStates hne, by simp⟩ ?_ ?_ ih
    · simp only [quietly, List.map_cons, List.map_nil, run, hn]
    · simp [logged, told]
    · simp [logged, commands]
  | @deserted s out rest emits sent gone somebody clears next ih =>
    intro hrest
    obtain ⟨u, hn, f⟩ := asked_deserted (n + 4) hrest gone somebody
    have hr : run (n + 4) s (quietly [.data]) = some u := by simp only [quietly, List.map_cons, List.map_nil, run, hn]
    rw [List.flatMap_cons]
    refine turn_closes (emits := []) (main := []) hr
      (apart_near hrest f.oracle f.pending f.frame f.count (fun i => f.others i (by simp)) f.due).1 (clears _ hr) ?_ ?_ ih
    · rw [f.told]; simp
    · rw [f.sent, List.filter_append, goesOn_filter (l := (abandoned s .data).map (·, .abort))]
      intro p hp
      obtain ⟨i, _, rfl⟩ := List.mem_map.mp hp
      exact .inr rfl
  | @abort s out rest emits sent clears next ih =>
    intro hrest
    obtain ⟨u, x, h1, a, c, _, p, _, d⟩ := Children.Phase.abort_all (d := dispatch (n + 4)) hrest.oracle
    have hn : Children.next (n + 4) s .abort [] = some u := next_eq (e := .abort) hrest.oracle h1
    have hr : run (n + 4) s (quietly [.abort]) = some u := by simp only [quietly, List.map_cons, List.map_nil, run, hn]
    rw [List.flatMap_cons]
    refine turn_closes (emits := []) (main := []) hr
      (apart_near hrest (a.oracle.trans hrest.oracle) (a.pending hrest.pending) a.frame a.count (fun i => (a.kids i).apart) d).1 (clears _ hr) ?_ ?_ ih
    · rw [a.told]; simp
    · rw [c, List.filter_append, goesOn_filter (l := x) (fun q hq => .inr (p q hq))]

  | @message s m role size i order rest emits sent posting next ih =>
    intro hrest
    obtain ⟨u, r1, c1, t1, rests⟩ := posted_runs (n + 2) hrest posting
    rw [List.flatMap_cons]
    have := turn_closes (n := n) (out := []) (emits := reports m role size i order ++
        [.reply (Spec.Children.verdict (s.statuses .endOfMessage) role (i :: order))])
      (main := (handed m role size i order).flatMap (fun x => x.2.map (x.1, ·))) (rest := rest.flatMap Turn.events) (sofar := emits)
      (sent := sent) r1
      ⟨rests.oracle, rests.pending, rests.running, rests.blank, fun j hj ha => Children.Phase.Resting.nearly (rests.milters j hj ha)⟩
      ⟨fun j hj ha hne => absurd (rests.milters j hj ha).nextStates hne, by simp⟩ t1
      (by rw [c1, List.filter_append, goesOn_handed]) (by simpa using ih)
    simpa [Turn.events, Turn.closing] using this
  | @refused s m role size i order later answer out rest emits sent posting refusal counts code clears next ih =>
    intro hrest
    obtain ⟨u, x, r1, c1, a1, t1, near⟩ := refused_runs (n + 2) (out := out) hrest posting refusal counts code
    rw [List.flatMap_cons]
    have := turn_closes (n := n) (out := out) (emits := reports m role size i order ++ [.reply answer])
      (main := (handed m role size i order).flatMap (fun x => x.2.map (x.1, ·))) (rest := rest.flatMap Turn.events) (sofar := emits)
      (sent := sent) r1 near (clears u r1) t1
      (by rw [c1, List.filter_append, List.filter_append, goesOn_handed, goesOn_filter (l := x) (fun q hq => .inr (a1 q hq))]; simp) ih
    simpa [Turn.events, Turn.closing] using this
  | @early s m role size i j all order es cs rest emits sent followed reads acting next ih =>
    intro hrest
    obtain ⟨u, r1, c1, t1, rests⟩ := early_runs (n + 2) hrest followed reads acting
    rw [List.flatMap_cons]
    have := turn_closes (n := n) (out := []) (emits := reports m role size j order ++
        [.reply (Spec.Children.verdict (s.statuses .endOfMessage) role (j :: order))])
      (main := cs ++ [(j, .endOfMessage m.last)] ++ (handed m role size j order).tail.flatMap (fun x => x.2.map (x.1, ·)))
      (rest := rest.flatMap Turn.events) (sofar := emits)
      (sent := sent) r1
      ⟨rests.oracle, rests.pending, rests.running, rests.blank, fun j hj ha => Children.Phase.Resting.nearly (rests.milters j hj ha)⟩
      ⟨fun j hj ha hne => absurd (rests.milters j hj ha).nextStates hne, by simp⟩ t1
      (by rw [c1, List.filter_append, List.filter_append, List.filter_append, goesOn_handed_tail, goesOn_all (goesOn_reads reads)]; rfl) (by simpa using ih)
    simpa [Turn.events, Turn.closing] using this
  | @earlyRefused s m role size i j all order later es cs answer out rest emits sent followed reads acting refusal counts code clears next ih =>
    intro hrest
    obtain ⟨u, x, r1, c1, a1, t1, near⟩ := earlyRefused_runs (n + 2) (out := out) hrest followed reads acting refusal counts code
    rw [List.flatMap_cons]
    have := turn_closes (n := n) (out := out) (emits := reports m role size j order ++ [.reply answer])
      (main := cs ++ [(j, .endOfMessage m.last)] ++ (handed m role size j order).tail.flatMap (fun x => x.2.map (x.1, ·)))
      (rest := rest.flatMap Turn.events) (sofar := emits)
      (sent := sent) r1 near (clears u r1) t1
      (by
        rw [c1, List.filter_append, List.filter_append, List.filter_append, List.filter_append, goesOn_handed_tail,
          goesOn_all (goesOn_reads reads), goesOn_filter (l := x) (fun q hq => .inr (a1 q hq)), List.append_nil]
        rfl) ih
    simpa [Turn.events, Turn.closing] using this
  | @turnedDown s size i j k all rest' later ps p es es' cs cs' answer out rest emits sent followed reads allowed reaches refusal counts fresh code clears next ih =>
    intro hrest
    obtain ⟨u, x, r1, c1, a1, t1, near⟩ := turnedDown_runs (n + 2) (out := out) hrest followed reads allowed reaches refusal counts fresh code
    rw [List.flatMap_cons]
    have hpart : [(j, p.command (converts s j))].filter goesOn = [(j, p.command (converts s j))] :=
      goesOn_all (fun q hq => by rw [List.mem_singleton.mp hq]; exact goesOn_part)
    have := turn_closes (n := n) (out := out) (emits := List.replicate ps.length (.reply .cont) ++ [.reply answer])
      (main := cs ++ [(j, p.command (converts s j))] ++ cs')
      (rest := rest.flatMap Turn.events) (sofar := emits)
      (sent := sent) r1 near (clears u r1) t1
      (by
        rw [c1, List.filter_append, List.filter_append, List.filter_append, List.filter_append, hpart,
          goesOn_all (goesOn_reads reads), goesOn_all (goesOn_reaches reaches), goesOn_filter (l := x) (fun q hq => .inr (a1 q hq)),
          List.append_nil]) ih
    simpa [Turn.events, Turn.closing] using this

/-- **C97**: The manager waits for a command and nothing is under way.  Then come any number of commands of
the MTA, in any order and with any outcome: for each of them, milters answer, fail or disconnect in any
order until everybody has had their say, or the MTA gives up the message; and messages, which some milters may leave
before the end by accepting them and the others let pass, or one of them refuses, at the end or before, whatever they ask for.  Then every command is sent once to each milter it is
meant for at that point and that did not decline it, each milter gets a message as its predecessors left it, the MTA
is told exactly one thing per command - the most severe of the decisions, with the reply code that belongs to it -
and, at the end of a message, what all requests together amount to and whether it is refused; and in the end the
manager waits for a command again. -/
theorem C97_partial (n : Nat) (s : Sys) (turns : List Turn) (emits : List Emit) (sent : List (Nat × Cmd))
    (hc : Course (n + 4) s turns emits sent) (hrest : AtRest s) :
    ∃ s', run (n + 4) s (quietly (turns.flatMap Turn.events)) = some s' ∧ told s'.out = told s.out ++ emits ∧
      (commands s'.out).filter goesOn = (commands s.out).filter goesOn ++ sent ∧ AtRest s' := by
  exact course_runs n hc hrest

/-! ### Concrete cases -/

namespace Cases

def restingB (k : Kid) : Bool :=
  k.linked && decide (k.tryRetry = none) && decide (k.ctx.nextStates = []) && decide (k.ctx.timer = none) && isFallback k.fallback &&
  k.ctx.body.isEmpty && k.ctx.bodyQueue.isEmpty && decide (k.ctx.processBodyCount = 0) && !k.ctx.sentEom && !k.ctx.skipBody &&
  k.ctx.option.any fun o => [St.connect, .helo, .envelopeFrom, .envelopeRecipient, .data, .unknown].all fun st =>
    decide (o.step &&& Server.noReplyFlag st = 0)

def atRestB (s : Sys) : Bool :=
  decide (s.oracle = []) && decide (s.pending = none) && !s.allExpired &&
  decide (s.headers = none) && decide (s.originalHeaders = none) && s.commandQueue.isEmpty && s.waitingQueue.isEmpty &&
  decide (s.body = none) && decide (s.bodyFile = none) && decide (s.changeFrom = none) && decide (s.quarantine = none) &&
  !s.emittedReply &&
  (List.range s.count).all fun i => !isAlive (s.kids i) || restingB (s.kids i)

theorem restingB_resting {k : Kid} (h : restingB k = true) : Resting k := by
  simp only [restingB, Bool.and_eq_true, decide_eq_true_eq, Bool.not_eq_true', List.isEmpty_iff] at h
  obtain ⟨⟨⟨⟨⟨⟨⟨⟨⟨⟨h1, h2⟩, h3⟩, h4⟩, h5⟩, b1⟩, b2⟩, b3⟩, b4⟩, b5⟩, h6⟩ := h
  refine ⟨h1, h2, h3, h4, ?_, h5, b1, b2, b3, b4, b5⟩
  cases ho : k.ctx.option with
  | none => rw [ho] at h6; cases h6
  | some o =>
    rw [ho] at h6
    simp only [Option.any_some, List.all_eq_true, decide_eq_true_eq] at h6
    refine ⟨o, rfl, fun e cmd st ha => h6 st ?_⟩
    cases e <;> simp only [asks, Option.some.injEq, Prod.mk.injEq, reduceCtorEq] at ha <;> rw [← ha.2] <;> simp

theorem atRestB_atRest {s : Sys} (h : atRestB s = true) : AtRest s := by
  simp only [atRestB, Bool.and_eq_true, decide_eq_true_eq, List.all_eq_true, Bool.not_eq_true', List.isEmpty_iff] at h
  obtain ⟨⟨⟨⟨⟨⟨⟨⟨⟨⟨⟨⟨h1, h2⟩, h3⟩, b1⟩, b2⟩, b3⟩, b4⟩, b5⟩, b6⟩, b7⟩, b8⟩, b9⟩, h4⟩ := h
  refine ⟨h1, h2, h3, ⟨b1, b2, b3, b4, b5, b6, b7, b8, b9⟩, fun i hi ha => restingB_resting ?_⟩
  have := h4 i (List.mem_range.mpr hi)
  rw [ha] at this
  simpa using this

def clearsB (s : Sys) (out : List Nat) : Bool :=
  ((List.range s.count).all fun i => !isAlive (s.kids i) || decide ((s.kids i).ctx.nextStates = []) || decide (i ∈ out)) &&
  out.all fun i => decide (i < s.count) && isAlive (s.kids i)

theorem clearsB_clears {s : Sys} {out : List Nat} (h : clearsB s out = true) : Clears s out := by
  simp only [clearsB, Bool.and_eq_true, List.all_eq_true, decide_eq_true_eq] at h
  refine ⟨fun i hi ha hne => ?_, h.2⟩
  have := h.1 i (List.mem_range.mpr hi)
  rw [ha, decide_eq_false hne] at this
  simpa using this

/-- the most severe of the decisions -/
def verdictOf (votes : List Status) : Option Status := votes.find? fun v => votes.all fun w => decide (severity w ≤ severity v)

theorem verdictOf_verdict {votes : List Status} {v : Status} (h : verdictOf votes = some v) : IsVerdict votes v := by
  refine ⟨List.mem_of_find?_eq_some h, ?_⟩
  have := List.find?_some h
  simpa using this

def isData : Event → Bool
  | .data => true
  | _ => false

def isReplyCode : Reply → Bool
  | .replyCode _ _ _ => true
  | _ => false

def wantsMessageB (o : Opt) : Bool := [0x10, 0x20, 0x40, 0x80, 0x40000, 0x80000].all fun m => decide (o.step &&& m = 0)

def postingB (s : Sys) (m : Message) (role : Nat → Role) (size i : Nat) (order later : List Nat) : Bool :=
  decide (((List.range s.count).filter fun j => Spec.Phase.inMessage (s.kids j)) = i :: (order ++ later)) &&
  (i :: (order ++ later)).all (fun j => Server.hasAcceptedRecipient (s.kids j).ctx && (s.kids j).ctx.option.any wantsMessageB) &&
  decide (s.state ≠ .envelopeRecipient) && decide (s.headerIndex = 0) && !s.replaced && !s.replacedForEach &&
  (decide (s.statuses .endOfMessage = .notChange) || decide (s.statuses .endOfMessage = .continue_) ||
    decide (s.statuses .endOfMessage = .accept)) &&
  decide (size = s.chunkSize) && decide (0 < size) && decide (size ≤ 65535) && m.chunks.all (fun c => decide (c.length ≤ 65535)) &&
  s.option.isSome &&
  (i :: order).all (fun j => decide ((role j).convert = converts s j) && decide ((role j).counts = !(s.kids j).evaluation) &&
    (role j).requests.all isModification) &&
  (relay role (m.draft.after (role i).convert (role i).effective) order).all (fun x =>
    (m.headers.isEmpty || !x.2.headers.isEmpty) && (m.chunks.isEmpty || !x.2.body.isEmpty)) &&
  (!m.chunks.isEmpty || (i :: order).all fun j => (role j).requests.all fun r => (replacement r).isNone)

theorem postingB_posting {s : Sys} {m : Message} {role : Nat → Role} {size i : Nat} {order later : List Nat}
    (h : postingB s m role size i order later = true) : Posting s m role size i order later := by
  simp only [postingB, Bool.and_eq_true, decide_eq_true_eq, Bool.not_eq_true', List.all_eq_true, Bool.or_eq_true,
    Option.isNone_iff_eq_none, List.isEmpty_iff] at h
  obtain ⟨⟨⟨⟨⟨⟨⟨⟨⟨⟨⟨⟨⟨⟨h1, h2⟩, h3⟩, h4⟩, h5⟩, h6⟩, h7⟩, h8⟩, h9⟩, h10⟩, h11⟩, h12⟩, h13⟩, h14⟩, h15⟩ := h
  refine ⟨h1, fun j hj => (h2 j hj).1, fun j hj => ?_, h3, ⟨h4, h5, h6⟩, ?_, h8, h9, h10, h11, Option.isSome_iff_exists.mp h12,
    fun j hj => ⟨(h13 j hj).1.1, (h13 j hj).1.2, (h13 j hj).2⟩, fun x hx => ?_, fun hc j hj r hr => ?_⟩
  · have := (h2 j hj).2
    cases ho : (s.kids j).ctx.option with
    | none => rw [ho] at this; cases this
    | some o =>
      rw [ho] at this
      refine ⟨o, rfl, fun k hk => ?_⟩
      simp only [Option.any_some, wantsMessageB, List.all_eq_true, decide_eq_true_eq] at this
      exact this k hk
  · rcases h7 with (h | h) | h
    · exact .inl h
    · exact .inr (.inl h)
    · exact .inr (.inr h)
  · obtain ⟨a, b⟩ := h14 x hx
    refine ⟨fun hne => ?_, fun hne => ?_⟩
    · have := a.resolve_left hne
      simpa using this
    · have := b.resolve_left hne
      simpa using this
  · rcases h15 with h | h
    · rw [hc] at h; cases h
    · exact h j hj r hr

def followedB (s : Sys) (size i : Nat) (rest : List Nat) : Bool :=
  decide (((List.range s.count).filter fun j => Spec.Phase.inMessage (s.kids j)) = i :: rest) &&
  (i :: rest).all (fun j => Server.hasAcceptedRecipient (s.kids j).ctx && (s.kids j).ctx.option.any wantsMessageB) &&
  decide (s.state ≠ .envelopeRecipient) && decide (s.headerIndex = 0) && !s.replaced && !s.replacedForEach &&
  decide (size = s.chunkSize) && decide (0 < size) && decide (size ≤ 65535) && s.option.isSome

theorem followedB_followed {s : Sys} {size i : Nat} {rest : List Nat} (h : followedB s size i rest = true) : Followed s size i rest := by
  simp only [followedB, Bool.and_eq_true, decide_eq_true_eq, Bool.not_eq_true', List.all_eq_true] at h
  obtain ⟨⟨⟨⟨⟨⟨⟨⟨⟨h1, h2⟩, h3⟩, h4⟩, h5⟩, h6⟩, h8⟩, h9⟩, h10⟩, h12⟩ := h
  refine ⟨h1, fun j hj => (h2 j hj).1, fun j hj => ?_, h3, ⟨h4, h5, h6⟩, h8, h9, h10, Option.isSome_iff_exists.mp h12⟩
  have := (h2 j hj).2
  cases ho : (s.kids j).ctx.option with
  | none => rw [ho] at this; cases this
  | some o =>
    rw [ho] at this
    refine ⟨o, rfl, fun k hk => ?_⟩
    simp only [Option.any_some, wantsMessageB, List.all_eq_true, decide_eq_true_eq] at this
    exact this k hk

/-- the course of a session -/
def courseB (n : Nat) : Sys → List Turn → Option (List Emit × List (Nat × Cmd))
  | _, [] => some ([], [])
  | s, .ask e talk out :: rest =>
    match asks e with
    | none => none
    | some (cmd, st) =>
      if addressees s e = [] then
        if abandoned s e = [] ∧ talk = [] ∧ out = [] then
          (run n s (quietly [e])).bind fun s' => (courseB n s' rest).map fun x => (.error true :: x.1, x.2)
        else if isData e ∧ abandoned s e ≠ [] ∧ talk = [] then
          (run n s (quietly [e])).bind fun u =>
            if clearsB u out then
              (run n s (quietly (e :: out.map .flushed))).bind fun s' => courseB n s' rest
            else none
        else none
      else
        ((Talk.start s (addressees s e) st).moves s (addressees s e) st talk).bind fun t =>
          if t.isOpen (addressees s e) then none else
          (verdictOf t.votes).bind fun v =>
            (run n s (quietly (e :: talk))).bind fun u =>
              if clearsB u out then
                (run n s (quietly (e :: talk ++ out.map .flushed))).bind fun s' => (courseB n s' rest).map fun x =>
                  (.reply (report v t.code) :: x.1, asked s e cmd st ++ x.2)
              else none
  | s, .abort out :: rest =>
    (run n s (quietly [.abort])).bind fun u =>
      if clearsB u out then
        (run n s (quietly (.abort :: out.map .flushed))).bind fun s' => courseB n s' rest
      else none
  | s, .message m role size i order :: rest =>
    if postingB s m role size i order [] then
      (run n s (quietly (Turn.opening (.message m role size i order)))).bind fun s' => (courseB n s' rest).map fun x =>
        (reports m role size i order ++ .reply (Spec.Children.verdict (s.statuses .endOfMessage) role (i :: order)) :: x.1,
          (handed m role size i order).flatMap (fun x => x.2.map (x.1, ·)) ++ x.2)
    else none
  | s, .refused m role size i order answer out :: rest =>
    if postingB s m role size i order
        (((List.range s.count).filter fun j => Spec.Phase.inMessage (s.kids j)).drop (order.length + 1)) &&
        (refusing answer).isSome && !(s.kids ((i :: order).getLastD 0)).evaluation && (s.code.isNone || isReplyCode answer) then
      (run n s (quietly (Turn.opening (.refused m role size i order answer out)))).bind fun u =>
        if clearsB u out then
          (run n s (quietly (Turn.opening (.refused m role size i order answer out) ++ out.map .flushed))).bind fun s' =>
            (courseB n s' rest).map fun x => (reports m role size i order ++ .reply answer :: x.1,
              (handed m role size i order).flatMap (fun x => x.2.map (x.1, ·)) ++ x.2)
        else none
    else none
  | _, .early .. :: _ => none
  | _, .earlyRefused .. :: _ => none
  | _, .turnedDown .. :: _ => none

theorem courseB_course (n : Nat) : ∀ (turns : List Turn) (s : Sys) (x : List Emit × List (Nat × Cmd)),
    courseB n s turns = some x → Course n s turns x.1 x.2 := by
  intro turns
  induction turns with
  | nil =>
    intro s x h
    simp only [courseB, Option.some.injEq] at h
    rw [← h]
    exact .done
  | cons turn rest ih =>
    intro s x h
    cases turn with
    | ask e talk out =>
      simp only [courseB] at h
      split at h
      · cases h
      · rename_i cmd st ha
        split at h
        · rename_i hn
          split at h
          · rename_i hx
            obtain ⟨h1, rfl, rfl⟩ := hx
            obtain ⟨s', r, h⟩ := Option.bind_eq_some_iff.mp h
            obtain ⟨y, hy, rfl⟩ := Option.map_eq_some_iff.mp h
            refine .nobody ha hn h1 fun s'' r' => ?_
            rw [r] at r'
            cases r'
            exact ih _ _ hy
          · split at h
            · rename_i hx
              obtain ⟨h1, h2, rfl⟩ := hx
              cases e <;> simp only [isData, Bool.false_eq_true] at h1
              obtain ⟨u, hu, h⟩ := Option.bind_eq_some_iff.mp h
              split at h
              · rename_i hcl
                obtain ⟨s', r, h⟩ := Option.bind_eq_some_iff.mp h
                refine .deserted hn h2 (fun u' r' => ?_) fun s'' r' => ?_
                · rw [hu] at r'
                  cases r'
                  exact clearsB_clears hcl
                · rw [r] at r'
                  cases r'
                  exact ih _ _ h
              · cases h
            · cases h
        · rename_i hn
          obtain ⟨t, ht, h⟩ := Option.bind_eq_some_iff.mp h
          split at h
          · cases h
          · rename_i ho
            obtain ⟨v, hv, h⟩ := Option.bind_eq_some_iff.mp h
            obtain ⟨u, hu, h⟩ := Option.bind_eq_some_iff.mp h
            split at h
            · rename_i hcl
              obtain ⟨s', r, h⟩ := Option.bind_eq_some_iff.mp h
              obtain ⟨y, hy, rfl⟩ := Option.map_eq_some_iff.mp h
              refine .ask ha hn ht (by simpa using ho) (verdictOf_verdict hv) (fun u' r' => ?_) fun s'' r' => ?_
              · rw [hu] at r'
                cases r'
                exact clearsB_clears hcl
              · rw [r] at r'
                cases r'
                exact ih _ _ hy
            · cases h
    | abort out =>
      simp only [courseB] at h
      obtain ⟨u, hu, h⟩ := Option.bind_eq_some_iff.mp h
      split at h
      · rename_i hcl
        obtain ⟨s', r, h⟩ := Option.bind_eq_some_iff.mp h
        refine .abort (fun u' r' => ?_) fun s'' r' => ?_
        · rw [hu] at r'
          cases r'
          exact clearsB_clears hcl
        · rw [r] at r'
          cases r'
          exact ih _ _ h
      · cases h
    | message m role size i order =>
      simp only [courseB] at h
      split at h
      · rename_i hp
        obtain ⟨s', r, h⟩ := Option.bind_eq_some_iff.mp h
        obtain ⟨y, hy, rfl⟩ := Option.map_eq_some_iff.mp h
        refine .message (postingB_posting hp) fun s'' r' => ?_
        rw [r] at r'
        cases r'
        exact ih _ _ hy
      · cases h
    | refused m role size i order answer out =>
      simp only [courseB] at h
      split at h
      · rename_i hp
        simp only [Bool.and_eq_true, Bool.not_eq_true', Bool.or_eq_true, Option.isNone_iff_eq_none] at hp
        obtain ⟨⟨⟨p1, p2⟩, p3⟩, p4⟩ := hp
        obtain ⟨u, hu, h⟩ := Option.bind_eq_some_iff.mp h
        split at h
        · rename_i hcl
          obtain ⟨s', r, h⟩ := Option.bind_eq_some_iff.mp h
          obtain ⟨y, hy, rfl⟩ := Option.map_eq_some_iff.mp h
          refine .refused (postingB_posting p1) p2 p3 ?_ (fun u' r' => ?_) fun s'' r' => ?_
          · rcases p4 with h | h
            · exact .inl h
            · cases answer <;> simp only [isReplyCode, Bool.false_eq_true] at h
              exact .inr ⟨_, _, _, rfl⟩
          · rw [hu] at r'
            cases r'
            exact clearsB_clears hcl
          · rw [r] at r'
            cases r'
            exact ih _ _ hy
        · cases h
      · cases h
    | early => simp [courseB] at h
    | earlyRefused => simp [courseB] at h
    | turnedDown => simp [courseB] at h

/-- a session that starts like `before` goes on with these turns -/
def goesLike (kids : List Kid) (before : List Event) (turns : List Turn) (emits : List Emit) (sent : List (Nat × Cmd)) : Bool :=
  (run 20 (init kids 4) (plain before)).any fun s => atRestB s && decide (courseB 20 s turns = some (emits, sent))

end Cases

/-- Three milters, the second of which has declined HELO and the third of which is in evaluation mode.  CONNECT and
HELO are passed by everybody; the sender is accepted by the first one, who then is not asked about the
recipients; the second one refuses the first recipient and the third one the second one, which does not count;
at DATA the second one fails and its fallback counts, so that the message is over.  There is another message, which
the MTA gives up. -/
example : goesLike [{}, { fallback := .temporaryFailure }, { evaluation := true }]
    (Cases.negotiation 3 (fun i => if i = 1 then ⟨6, 0x1ff, 0x2⟩ else everything))
    [.ask (.connect [] .unspec) (answers 3) [],
     .ask (.helo [1]) [.flushed 2, .flushed 0, .reply 2 .cont, .reply 0 .cont] [],
     .ask (.envelopeFrom [1]) [.flushed 0, .flushed 1, .flushed 2, .reply 0 .accept, .reply 2 .cont, .reply 1 .cont] [],
     .ask (.envelopeRecipient [2]) [.flushed 1, .flushed 2, .reply 1 (.replyCode 550 [5] (some [6])), .reply 2 .cont] [],
     .ask (.envelopeRecipient [3]) [.flushed 1, .flushed 2, .reply 1 .cont, .reply 2 .reject] [],
     .ask .data [.flushed 2, .flushed 1, .reply 2 .cont, .timeout 1] [0, 2],
     .ask (.envelopeFrom [4]) [.flushed 2, .flushed 0, .reply 0 .cont, .reply 2 .cont] [],
     .abort [2, 0]]
    [.reply .cont, .reply .cont, .reply .cont, .reply (.replyCode 550 [5] (some [6])), .reply .cont, .reply .temporaryFailure, .reply .cont]
    [(0, .connect [] .unspec), (1, .connect [] .unspec), (2, .connect [] .unspec), (0, .helo [1]), (2, .helo [1]),
     (0, .envelopeFrom [1]), (1, .envelopeFrom [1]), (2, .envelopeFrom [1]), (1, .envelopeRecipient [2]), (2, .envelopeRecipient [2]),
     (1, .envelopeRecipient [3]), (2, .envelopeRecipient [3]), (1, .data), (2, .data), (0, .envelopeFrom [4]), (2, .envelopeFrom [4])] =
    true := by decide +kernel

/-- The only milter refuses the only recipient, and DATA comes nevertheless; at the next message it disconnects, and
nobody is left. -/
example : goesLike [{}] (upToConnect 1)
    [.ask (.envelopeFrom [1]) (answers 1) [], .ask (.envelopeRecipient [2]) [.flushed 0, .reply 0 .reject] [],
     .ask .data [] [0], .ask (.envelopeFrom [3]) [.flushed 0, .finished 0] [], .ask (.envelopeRecipient [2]) [] []]
    [.reply .cont, .reply .reject, .reply .accept, .error true]
    [(0, .envelopeFrom [1]), (0, .envelopeRecipient [2]), (0, .envelopeFrom [3])] = true := by decide +kernel

namespace Cases

/-- the envelope of a message two milters accept -/
def envelope (f : UInt8) : List Turn :=
  [.ask (.envelopeFrom [f]) (answers 2) [], .ask (.envelopeRecipient [2]) (answers 2) [], .ask .data (answers 2) []]

def note : Message := ⟨[([3], [0x20, 4])], [[9, 9, 9]], [7]⟩

def busy : Nat → Role
  | 0 => ⟨false, true, [.addHeader [5] [6], .deleteRecipient [2]], true⟩
  | _ => ⟨false, true, [.changeFrom [9] none], false⟩

end Cases

/-- Two milters and three messages: both let the first one pass with changes, the first one refuses the second one,
of which the second milter therefore sees nothing, and the MTA gives up the third one. -/
example : (run 20 (init [{}, {}] 2) (plain (upToConnect 2))).any (fun s => atRestB s && decide (courseB 20 s
    (Cases.envelope 1 ++ [.message note busy 2 0 [1]] ++ Cases.envelope 3 ++
      [.refused note (fun _ => ⟨false, true, [], false⟩) 2 0 [] (.replyCode 550 [5] none) [1],
        .ask (.envelopeFrom [4]) (answers 2) [], .abort [0, 1]]) = some
    ([.reply .cont, .reply .cont, .reply .cont, .reply .cont, .reply .cont, .reply .cont, .reply (.deleteRecipient [2]),
      .edit (.insert 1 [5] (some [6])), .reply (.changeFrom [9] none), .reply .cont,
      .reply .cont, .reply .cont, .reply .cont, .reply .cont, .reply .cont, .reply .cont, .reply (.replyCode 550 [5] none),
      .reply .cont],
     [(0, .envelopeFrom [1]), (1, .envelopeFrom [1]), (0, .envelopeRecipient [2]), (1, .envelopeRecipient [2]), (0, .data), (1, .data),
      (0, .header [3] [32, 4]), (0, .endOfHeader), (0, .body [9, 9, 9]), (0, .endOfMessage [7]),
      (1, .header [3] [32, 4]), (1, .header [5] [6]), (1, .endOfHeader), (1, .body [9, 9]), (1, .body [9]), (1, .endOfMessage [7]),
      (0, .envelopeFrom [3]), (1, .envelopeFrom [3]), (0, .envelopeRecipient [2]), (1, .envelopeRecipient [2]), (0, .data), (1, .data),
      (0, .header [3] [32, 4]), (0, .endOfHeader), (0, .body [9, 9, 9]), (0, .endOfMessage [7]),
      (0, .envelopeFrom [4]), (1, .envelopeFrom [4])]))) = true := by decide +kernel

end Verif.Props
