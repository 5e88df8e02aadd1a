import Verif.Manager.ChildrenPhaseAll
import Verif.Manager.ChildrenIntake
/-
The command that was kept at DATA reaches the first milter which follows the message.
-/
namespace Verif.Children.Phase
open Verif
open Verif.Server (St)
open Verif.Spec.Children Verif.Spec.Phase

/-- what has to hold before the MTA's command so that the message can begin -/
structure Begins (s : Sys) : Prop where
  blank : Blank s
  traceless : Traceless s
  body : ∀ j ∈ addressees s .data, MsgBlank (s.kids j).ctx
  wants : ∀ j ∈ addressees s .data, ∃ o, (s.kids j).ctx.option = some o ∧ wantsMessage o
  nobody : abandoned s .data = []
  chunkPos : 0 < s.chunkSize
  chunkMax : s.chunkSize ≤ Enc.chunkSize
  option : ∃ o, s.option = some o

variable {s u : Sys} {t t' : Talk} {base : List (Nat × Cmd)} {i : Nat} {rest : List Nat} {held : Option Pending}

theorem closed_pos (hc : Core s who st t u) (hclosed : t.isOpen who = false) {j : Nat} (hj : j ∈ who) :
    t.pos j = .answered ∨ t.pos j = .settled ∨ t.pos j = .lost := by
  have h1 := List.any_eq_false.mp hclosed j hj
  have h2 := hc.inside j hj
  cases hp : t.pos j <;> rw [hp] at h1 h2 <;> simp [Pos.isOpen] at h1 h2 ⊢

/-- when the conversation at DATA is over, those who have said continue are the ones that follow the message -/
theorem begun (hb : Begins s) (hc : Core s (addressees s .data) .data t u)
    (hu : Undecided s base (addressees s .data) .data t u held) (hf : Following (addressees s .data) .data t u)
    (hclosed : t.isOpen (addressees s .data) = false)
    (hwho : (addressees s .data).filter (fun j => decide (t.pos j = .answered)) = i :: rest) : Taking u i rest [] [] [] := by
  have hin : ∀ j ∈ i :: rest, j ∈ addressees s .data ∧ t.pos j = .answered := by
    intro j hj
    rw [← hwho] at hj
    obtain ⟨h1, h2⟩ := List.mem_filter.mp hj
    exact ⟨h1, of_decide_eq_true h2⟩
  have hstays : ∀ j ∈ i :: rest, Stays (u.kids j) .data .answered := by
    intro j hj
    obtain ⟨h1, h2⟩ := hin j hj
    have := hf j h1 (by rw [h2]; rfl)
    rw [h2] at this
    exact this
  have hready : ∀ j ∈ i :: rest, (u.kids j).linked = true ∧ Ready (u.kids j).ctx := by
    intro j hj
    obtain ⟨h1, h2⟩ := hin j hj
    have hs := hstays j hj
    have hat := hc.at' j h1
    rw [h2] at hat
    have hk := hc.kept j h1
    obtain ⟨b1, b2, b3, b4, b5⟩ := hk.body (hb.body j h1)
    exact ⟨hs.linked, hs.quitted, hs.nextStates, hat, b1, b2, b3, b4, b5, by rw [hk.option]; exact hb.wants j h1⟩
  obtain ⟨f1, f2, f3, f4, f5⟩ := hc.frame
  obtain ⟨c1, c2, c3, c4, c5, c6, c7, c8, c9⟩ := f4 hb.blank
  obtain ⟨t1, t2, t3⟩ := f5 hb.traceless
  have hmsg : inMsg .data := .inr (.inr rfl)
  have hm := hstays i List.mem_cons_self
  have hfil : (milters u).filter (isProcessingMessage u) = i :: rest := by
    rw [← hwho]
    unfold milters addressees
    rw [hc.count, List.filter_filter]
    refine List.filter_congr fun j hj => ?_
    rw [processing_iff]
    have hlt := List.mem_range.mp hj
    cases hacc : (inMessage (s.kids j) && Server.hasAcceptedRecipient (s.kids j).ctx) with
    | true =>
      have hjw : j ∈ addressees s .data := List.mem_filter.mpr ⟨hj, hacc⟩
      rw [Bool.and_true]
      rcases closed_pos hc hclosed hjw with h | h | h
      · have := hf j hjw (by rw [h]; rfl)
        rw [this.message h hmsg, h]
        rfl
      · have := (hf j hjw (by rw [h]; rfl)).apart h
        rw [h]
        simp [inMessage, this]
      · have hat := hc.at' j hjw
        rw [h] at hat
        rw [h]
        simp [inMessage, isAlive, hat.2]
    | false =>
      rw [Bool.and_false]
      have hjw : j ∉ addressees s .data := fun h => by
        have := (List.mem_filter.mp h).2
        rw [hacc] at this
        cases this
      cases hmj : inMessage (u.kids j) with
      | false => rfl
      | true =>
        have h1 := (hc.others j hjw).message hmj
        rw [h1, Bool.true_and] at hacc
        have : j ∈ abandoned s .data := List.mem_filter.mpr ⟨hj, by rw [h1, hacc]; rfl⟩
        rw [hb.nobody] at this
        cases this
  have hacc : ∀ j ∈ i :: rest, hasAccepted u j = true := by
    intro j hj
    obtain ⟨h1, h2⟩ := hin j hj
    have := (List.mem_filter.mp h1).2
    rw [Bool.and_eq_true] at this
    exact hc.accepted rfl j h1 this.2
  have hs : stored u = [] := by unfold stored; rw [c5, c6]
  exact ⟨hc.oracle, (hready i List.mem_cons_self).1, (hready i List.mem_cons_self).2, ⟨hm.negotiated, hm.following rfl hmsg⟩,
    by rw [hc.count]; exact hc.range i (hin i List.mem_cons_self).1, .inr ⟨c4, hfil, hacc⟩,
    by rw [← hwho]; exact hc.distinct.filter _,
    by rw [f3]; exact hb.chunkPos, by rw [f3]; exact hb.chunkMax, by rw [f2]; exact hb.option, by rw [c1]; rfl, fun _ => t1, c3, hs,
    (fun f hf => by rw [c6] at hf; cases hf), t3, by rw [hu.current]; simp, c9, c2, fun j hj => hready j (List.mem_cons_of_mem _ hj)⟩

/-- what becomes of the kept command for milter `i` -/
def keptCommand (s : Sys) (i : Nat) : Pending → Cmd
  | .header n v => .header n (unspaced (converts s i) v)
  | .endOfHeader => .endOfHeader
  | .body b => .body b
  | .endOfMessage b => .endOfMessage b

/-- the commands a message can begin with -/
def isFirst : Pending → Prop
  | .header _ _ | .endOfHeader => True
  | _ => False

/-- the kept command is carried out -/
theorem pending_sent {d : Dispatch} {p : Pending} (h : Taking u i rest [] [] []) (hp : isFirst p) (hcv : converts u i = converts s i) :
    ∃ x, processPending d p u = some (true, x) ∧ x.oracle = [] ∧ told x.out = told u.out ∧
      commands x.out = commands u.out ++ [(i, keptCommand s i p)] ∧ ∀ j, Firm (u.kids j) (x.kids j) := by
  have key : ∀ {v : Sys} {e : Event} {cmd : Cmd} {st : St} {hs : List Header} {q : List St}, Entry 0 i rest u v e cmd st hs [] q →
      ∃ x, command d e u = some (true, x) ∧ x.oracle = [] ∧ told x.out = told u.out ∧
        commands x.out = commands u.out ++ [(i, cmd)] ∧ ∀ j, Firm (u.kids j) (x.kids j) := by
    intro v e cmd st hs q en
    have tv := en.taking
    obtain ⟨c1, h1, h2, h3, h4, h5⟩ := command_ctx tv.ready en.content
    refine ⟨_, en.steps d c1 (call_eq tv.oracle h1) (answer_needed h2.option en.early), tv.oracle, ?_, ?_, fun j => ?_⟩
    · show told (v.out ++ [_]) = _
      rw [told_append, en.out]
      simp [told]
    · show commands (v.out ++ [_]) = _
      rw [commands_append, en.out]
      rfl
    · show Firm (u.kids j) ((withCtx v i c1).kids j)
      by_cases hj : j = i
      · subst hj
        rw [withCtx_kid, en.kids]
        rw [en.kids] at h3 h4
        exact ⟨h4, h3, rfl, rfl⟩
      · rw [withCtx_other _ _ _ _ hj, en.kids]
        exact ⟨rfl, rfl, rfl, rfl⟩
  cases p with
  | header n v =>
    obtain ⟨w, en⟩ := enter_header (n := 0) n v h (.inl rfl)
    rw [hcv] at en
    exact key en
  | endOfHeader =>
    obtain ⟨w, en⟩ := enter_endOfHeader (n := 0) h (.inl rfl)
    exact key en
  | body b => exact hp.elim
  | endOfMessage b => exact hp.elim

/-- the kept command has gone to milter `i` -/
structure Carried (s : Sys) (base : List (Nat × Cmd)) (t : Talk) (i : Nat) (p : Pending) (u : Sys) : Prop where
  oracle : u.oracle = []
  pending : u.pending = none
  told : told u.out = told s.out
  sent : commands u.out = base ++ t.dismissed.map (·, .quit) ++ [(i, keptCommand s i p)]
  lost : ∀ j, t.pos j = .lost → (u.kids j).linked = false

theorem Carried.hush {p : Pending} {u u' : Sys} (h : Carried s base t i p u) (q : Hush u u') : Carried s base t i p u' :=
  ⟨q.oracle.trans h.oracle, q.pending.trans h.pending, q.told.trans h.told, q.sent.trans h.sent, fun j hj => by
    obtain ⟨x, r, _, e⟩ := q.kids j
    rw [e]
    exact h.lost j hj⟩

theorem reach_carried {p : Pending} (hb : Begins s) (hp : isFirst p) (hclosed : t.isOpen (addressees s .data) = false)
    (hw : worst t = .continue_)
    (hwho : (addressees s .data).filter (fun j => decide (t.pos j = .answered)) = i :: rest) :
    Reach (some p) s base (addressees s .data) .data t (Carried s base t i p) where
  hush := fun h q => h.hush q
  oracle := fun h => h.oracle
  still := fun h _ => by rw [hclosed] at h; cases h
  remove := by
    intro d u k hc hu hf hq
    obtain ⟨u1, hu1⟩ : ∃ u1 : Sys, u1 = { u with replyQueue := u.replyQueue.erase k } := ⟨_, rfl⟩
    have hk : u1.kids = u.kids := by rw [hu1]
    have hc1 : Core s (addressees s .data) .data t u1 := by
      rw [hu1]
      exact ⟨hc.parallel, hc.distinct, hc.nonempty, hc.range, hc.count, hc.oracle, hc.kept, hc.at', hc.outside, hc.inside, hc.options,
        hc.spoken, hc.proper, hc.fallbacks, hc.others, hc.frame, hc.accepted⟩
    have hu1' : Undecided s base (addressees s .data) .data t u1 (some p) := by
      rw [hu1]; exact ⟨hu.state, hu.current, hu.pending, hu.status, hu.code, hu.told, hu.sent, hu.due⟩
    have hf1 : Following (addressees s .data) .data t u1 := by intro j hj hp; rw [hk]; exact hf j hj hp
    have hqe : u1.replyQueue = [] := by rw [hu1]; exact hq.trans ((isOpen_iff _ _).mp hclosed)
    have hi : i ∈ addressees s .data := by
      have : i ∈ (addressees s .data).filter (fun j => decide (t.pos j = .answered)) := by rw [hwho]; exact List.mem_cons_self
      exact (List.mem_filter.mp this).1
    have hcv : converts u1 i = converts s i := by
      unfold converts
      rw [(hc1.kept i hi).option, hc1.frame.2.1]
    obtain ⟨x, h1, h2, h3, h4, h5⟩ := pending_sent (s := s) (d := d) (p := p) (begun hb hc1 hu1' hf1 hclosed hwho) hp hcv
    refine ⟨{ x with pending := none }, ?_, ⟨h2, rfl, h3.trans hu1'.told, ?_, ?_⟩, fun j => ?_⟩
    · unfold removeFromQueue
      rw [modify_bind, get_bind, ← hu1, if_neg (by rw [hqe]; simp)]
      dsimp only
      have hstat : u1.statuses u1.processingState = .continue_ := by rw [hu1'.state, hu1'.status]; exact hw
      rw [hstat, hu1'.pending]
      dsimp only
      rw [if_pos rfl, bind_eq h1]
      unfold disposePending
      rw [modify_bind, if_pos (.inl rfl)]
      rfl
    · show commands x.out = _
      rw [h4, hu1'.sent]
    · intro j hj
      show (x.kids j).linked = false
      rw [(h5 j).linked, hk]
      have hjw : j ∈ addressees s .data := Classical.byContradiction fun h => by
        rw [hc.outside j h] at hj
        cases hj
      have hat := hc.at' j hjw
      rw [hj] at hat
      exact hat.1
    · rw [← hk]; exact h5 j

/-- nothing more comes of a conversation that is over -/
theorem late_events {n : Nat} {p : Pending} {es : List Event} : ∀ {u : Sys}, Carried s base t i p u → t.isOpen who = false →
    (∀ i, i ∉ who → t.pos i = .none) → t.moves s who st es = some t' → run (n + 2) u (quietly es) = some u := by
  induction es with
  | nil => intro u _ _ _ _; rfl
  | cons e es ih =>
    intro u h hc hin hm
    simp only [Talk.moves, Option.bind_eq_some_iff] at hm
    obtain ⟨t1, h1, h2⟩ := hm
    obtain ⟨rfl, j, rfl, hp⟩ := closed_event h1 hc hin
    have : next (n + 2) u (.finished j) [] = some u := by
      rw [finished_step h.oracle, h.lost j hp]
      rfl
    simp only [quietly, List.map_cons, run, this]
    exact ih h hc hin h2

/-- the conversation up to its end -/
theorem conversation_carried {n : Nat} {p : Pending} {es : List Event} : ∀ {u : Sys} {t : Talk}, Inv s base who st t u (some p) →
    t.isOpen who = true → t.moves s who st es = some t' → t'.isOpen who = false →
    Reach (some p) s base who st t' (Carried s base t' i p) →
    ∃ u', run (n + 2) u (quietly es) = some u' ∧ Carried s base t' i p u' := by
  induction es with
  | nil =>
    intro u t _ ho ht hc _
    simp only [Talk.moves, Option.some.injEq] at ht
    subst ht
    rw [ho] at hc
    cases hc
  | cons e es ih =>
    intro u t h ho ht hc hQ
    simp only [Talk.moves, Option.bind_eq_some_iff] at ht
    obtain ⟨t1, h1, h2⟩ := ht
    cases ho1 : t1.isOpen who with
    | true =>
      obtain ⟨u1, h3, h4⟩ := event_step (n := n) h h1 (.inr (.inl ho1))
      obtain ⟨u2, h5, h6⟩ := ih h4 ho1 h2 hc hQ
      refine ⟨u2, ?_, h6⟩
      simp only [quietly, List.map_cons, run, h3]
      exact h5
    | false =>
      have hin := move_inside h h1
      have et := closed_moves h2 ho1 hin
      subst et
      obtain ⟨u1, h3, h4⟩ := event_reach (n := n) h h1 ho hQ
      refine ⟨u1, ?_, h4⟩
      simp only [quietly, List.map_cons, run, h3]
      exact late_events h4 ho1 hin h2

end Verif.Children.Phase
