import Verif.Props.Service
import Verif.Spec.Workers
/-
C98: the worker processes of a client.
-/
namespace Verif.Props.Workers
open Verif.Workers Verif.Spec.Workers Verif.Spec.Service
open Verif.Service (Config Op Out)

/-! ## what was seen -/

theorem of_append (i : Nat) (a b : List Seen) : of i (a ++ b) = of i a ++ of i b := by
  induction a with
  | nil => rfl
  | cons s t ih =>
    cases s with
    | worker j o =>
      show (if j = i then o :: of i (t ++ b) else of i (t ++ b)) = (if j = i then o :: of i t else of i t) ++ of i b
      split <;> simp [ih]
    | _ => exact ih

theorem of_self (i : Nat) (l : List Out) : of i (l.map (.worker i)) = l := by
  induction l with
  | nil => rfl
  | cons o t ih =>
    show (if i = i then o :: of i (t.map (.worker i)) else _) = _
    rw [if_pos rfl, ih]

theorem of_other {i j : Nat} (h : j ≠ i) (l : List Out) : of i (l.map (.worker j)) = [] := by
  induction l with
  | nil => rfl
  | cons o t ih =>
    show (if j = i then o :: of i (t.map (.worker j)) else of i (t.map (.worker j))) = _
    rw [if_neg h, ih]

theorem of_advance (g : Group) (i j : Nat) (w : Worker) (op : Op) :
    of j (advance g i w op).2 = if j = i then (Service.step w.machine op).2 else [] := by
  have he : of j (if (Service.step w.machine op).1.running then [] else [Seen.exited i]) = [] := by split <;> rfl
  show of j ((Service.step w.machine op).2.map (.worker i) ++ if (Service.step w.machine op).1.running then [] else [.exited i]) = _
  rw [of_append, he, List.append_nil]
  split
  · next h => subst h; exact of_self _ _
  · next h => exact of_other (fun e => h e.symm) _

theorem set_self (g : Group) (i : Nat) (w : Worker) : (set g i w).worker i = w := if_pos rfl
theorem set_other (g : Group) {i j : Nat} (h : j ≠ i) (w : Worker) : (set g i w).worker j = g.worker j := if_neg h

/-! ## each worker is a client of its own -/

/-- what holds after `events`: `ops` is what has happened to worker `i` -/
structure Of (forks : List Bool) (config : Config) (events : List Event) (g : Group) (seen : List Seen) (i : Nat) (ops : List Op) : Prop where
  whole : ∀ op ∈ ops, whole op = true
  run : Service.run (Service.start .worker config) ops = ((g.worker i).machine, of i seen)
  stops : .shutdown ∈ ops → .worker i .shutdown ∈ events ∨ Gone forks events
  ends : ∀ id, .finish id ∈ ops → .worker i (.finish id) ∈ events
  reads : ∀ c, .configure c ∈ ops → .reloadWorker i ∈ events
  heard : (g.worker i).writer = false → (g.worker i).watching = false → .shutdown ∈ ops
  fresh : (g.worker i).writer = true → ops = []
  exited : .exited i ∈ seen → (g.worker i).machine.running = false
  lives : (g.worker i).alive = true → (g.worker i).machine.running = true
  dies : (g.worker i).alive = false → .killed i ∈ events ∨ .exited i ∈ seen
  enters : i < g.count → (g.worker i).writer = true → .enter i ∉ events ∨ .killed i ∈ events
  kills : i < g.count → .killed i ∈ events → (g.worker i).alive = false

/-- what holds of the master -/
structure Master (forks : List Bool) (events : List Event) (g : Group) : Prop where
  count : g.count = forked forks
  gone : g.writer = false ↔ Gone forks events
  open_ : g.running = g.writer

theorem gone_snoc {forks : List Bool} {events : List Event} {e : Event} (h : Gone forks events) : Gone forks (events ++ [e]) := by
  unfold Gone at *
  simp only [List.mem_append]
  rcases h with h | h | h
  · exact .inl (.inl h)
  · exact .inr (.inl (.inl h))
  · exact .inr (.inr h)

theorem gone_spared {forks : List Bool} {events : List Event} {e : Event} (he : spares e = true) :
    Gone forks (events ++ [e]) ↔ Gone forks events := by
  unfold Gone
  simp only [List.mem_append, List.mem_singleton]
  constructor
  · rintro ((h | h) | (h | h) | h)
    · exact .inl h
    · subst h; cases he
    · exact .inr (.inl h)
    · subst h; cases he
    · exact .inr (.inr h)
  · rintro (h | h | h)
    · exact .inl (.inl h)
    · exact .inr (.inl (.inl h))
    · exact .inr (.inr h)

/-- nothing happened to the worker -/
theorem Of.idle {forks : List Bool} {config : Config} {events : List Event} {g g' : Group} {seen seen' : List Seen} {i : Nat} {ops : List Op}
    (h : Of forks config events g seen i ops) (e : Event) (hw : g'.worker i = g.worker i) (hc : g'.count = g.count) (hs : of i seen' = [])
    (hx : .exited i ∉ seen') (he : i < g.count → e = .enter i → (g.worker i).writer = true → .killed i ∈ events ++ [e])
    (hk : i < g.count → e = .killed i → (g.worker i).alive = false) :
    Of forks config (events ++ [e]) g' (seen ++ seen') i ops where
  whole := h.whole
  run := by rw [h.run, hw, of_append, hs, List.append_nil]
  stops m := (h.stops m).imp (List.mem_append_left _) gone_snoc
  ends id m := List.mem_append_left _ (h.ends id m)
  reads c m := List.mem_append_left _ (h.reads c m)
  heard := by rw [hw]; exact h.heard
  fresh := by rw [hw]; exact h.fresh
  exited m := by
    rw [hw]
    exact h.exited ((List.mem_append.mp m).resolve_right hx)
  lives := by rw [hw]; exact h.lives
  dies := by rw [hw]; exact fun a => (h.dies a).imp (List.mem_append_left _) (List.mem_append_left _)
  enters := by
    rw [hw, hc]
    intro hi w
    by_cases hn : e = .enter i
    · exact .inr (he hi hn w)
    · refine (h.enters hi w).imp (fun m m' => ?_) (List.mem_append_left _)
      rcases List.mem_append.mp m' with m' | m'
      · exact m m'
      · exact hn (List.mem_singleton.mp m').symm
  kills := by
    rw [hw, hc]
    intro hi m
    rcases List.mem_append.mp m with m | m
    · exact h.kills hi m
    · exact hk hi (List.mem_singleton.mp m).symm

/-- the worker took a step -/
theorem Of.advance {forks : List Bool} {config : Config} {events : List Event} {g : Group} {seen : List Seen} {i : Nat} {ops : List Op}
    (h : Of forks config events g seen i ops) (e : Event) (w : Worker) (op : Op) (hm : w.machine = (g.worker i).machine)
    (hww : w.writer = false) (hal : (g.worker i).alive = true)
    (hwh : op = .shutdown ∨ w.watching = (g.worker i).watching) (hwr : (g.worker i).writer = false)
    (ho : Spec.Service.whole op = true) (hs : op = .shutdown → .worker i .shutdown ∈ events ++ [e] ∨ Gone forks (events ++ [e]))
    (hf : ∀ id, op = .finish id → e = .worker i (.finish id)) (hr : ∀ c, op = .configure c → e = .reloadWorker i)
    (hne : e ≠ .killed i) :
    Of forks config (events ++ [e]) (Workers.advance g i w op).1 (seen ++ (Workers.advance g i w op).2) i (ops ++ [op]) := by
  have hself : (Workers.advance g i w op).1.worker i =
      { w with machine := (Service.step w.machine op).1, alive := (Service.step w.machine op).1.running } := set_self _ _ _
  have hmem : ∀ {o : Op}, o ∈ ops ++ [op] → o ∈ ops ∨ o = op := fun m => (List.mem_append.mp m).imp _root_.id List.mem_singleton.mp
  refine ⟨?_, ?_, ?_, ?_, ?_, ?_, ?_, ?_, ?_, ?_, ?_, ?_⟩
  · intro o m
    rcases hmem m with m | rfl
    · exact h.whole o m
    · exact ho
  · rw [Service.run_one, h.run, hself, of_append, of_advance, if_pos rfl, hm]
  · intro m
    rcases hmem m with m | rfl
    · exact (h.stops m).imp (List.mem_append_left _) gone_snoc
    · exact hs rfl
  · intro id m
    rcases hmem m with m | rfl
    · exact List.mem_append_left _ (h.ends id m)
    · exact List.mem_append_right _ (by rw [hf id rfl]; exact List.mem_singleton.mpr rfl)
  · intro c m
    rcases hmem m with m | rfl
    · exact List.mem_append_left _ (h.reads c m)
    · exact List.mem_append_right _ (by rw [hr c rfl]; exact List.mem_singleton.mpr rfl)
  · rw [hself]
    intro _ hn
    rcases hwh with e | e
    · rw [e]; exact List.mem_append_right _ (List.mem_singleton.mpr rfl)
    · exact List.mem_append_left _ (h.heard hwr (e ▸ hn))
  · rw [hself]
    intro ht
    rw [show w.writer = true from ht] at hww
    cases hww
  · rw [hself]
    intro m
    rcases List.mem_append.mp m with m | m
    · have := h.exited m
      rw [h.lives hal] at this
      cases this
    · show (Service.step w.machine op).1.running = false
      cases hr : (Service.step w.machine op).1.running
      · rfl
      · have hm' : Seen.exited i ∈ (Service.step w.machine op).2.map (Seen.worker i) ++
            if (Service.step w.machine op).1.running then [] else [.exited i] := m
        rw [hr, if_pos rfl, List.append_nil] at hm'
        obtain ⟨_, _, e⟩ := List.mem_map.mp hm'
        cases e
  · rw [hself]; exact fun a => a
  · rw [hself]
    intro a
    refine .inr (List.mem_append_right _ ?_)
    show Seen.exited i ∈ (Service.step w.machine op).2.map (Seen.worker i) ++ if (Service.step w.machine op).1.running then [] else [.exited i]
    rw [show (Service.step w.machine op).1.running = false from a]
    exact List.mem_append_right _ (List.mem_singleton.mpr rfl)
  · rw [hself]
    intro _ ht
    rw [show w.writer = true from ht] at hww
    cases hww
  · intro hi m
    rcases List.mem_append.mp m with m | m
    · have := h.kills hi m
      rw [hal] at this; cases this
    · exact absurd (List.mem_singleton.mp m).symm hne

theorem up_eq {g : Group} {i : Nat} (h : up g i = true) : i < g.count ∧ (g.worker i).alive = true ∧ (g.worker i).writer = false := by
  unfold up at h
  simp only [Bool.and_eq_true, decide_eq_true_eq, Bool.not_eq_true'] at h
  exact ⟨h.1.1, h.1.2, h.2⟩

theorem closed_gone {forks : List Bool} {events : List Event} {g : Group} (h : Master forks events g) (hc : closed g = true) : Gone forks events := by
  unfold closed at hc
  simp only [Bool.and_eq_true, Bool.not_eq_true'] at hc
  exact h.gone.mp hc.1

theorem advance_other {g : Group} {i j : Nat} (h : j ≠ i) (w : Worker) (op : Op) :
    (Workers.advance g i w op).1.worker j = g.worker j ∧ of j (Workers.advance g i w op).2 = [] ∧ .exited j ∉ (Workers.advance g i w op).2 := by
  refine ⟨set_other _ h _, ?_, ?_⟩
  · rw [of_advance, if_neg h]
  · intro m
    have hm' : Seen.exited j ∈ (Service.step w.machine op).2.map (Seen.worker i) ++
            if (Service.step w.machine op).1.running then [] else [.exited i] := m
    rcases List.mem_append.mp hm' with m | m
    · obtain ⟨_, _, e⟩ := List.mem_map.mp m
      cases e
    · split at m
      · cases m
      · exact h (by injection List.mem_singleton.mp m)

theorem gone_shutdown (forks : List Bool) (events : List Event) : Gone forks (events ++ [.shutdown]) :=
  .inl (List.mem_append_right _ (List.mem_singleton.mpr rfl))

theorem gone_killed (forks : List Bool) (events : List Event) : Gone forks (events ++ [.masterKilled]) :=
  .inr (.inl (List.mem_append_right _ (List.mem_singleton.mpr rfl)))

/-- what an event does to a worker -/
theorem Of.stepped {forks : List Bool} {config : Config} {events : List Event} {g : Group} {seen : List Seen} {i : Nat} {ops : List Op}
    (hm : Master forks events g) (h : Of forks config events g seen i ops) (e : Event) :
    ∃ more, Of forks config (events ++ [e]) (step g e).1 (seen ++ (step g e).2) i (ops ++ more) := by
  have same : (step g e).1.worker i = g.worker i → (step g e).1.count = g.count → of i (step g e).2 = [] → .exited i ∉ (step g e).2 →
      (i < g.count → e = .enter i → (g.worker i).writer = true → .killed i ∈ events ++ [e]) → (i < g.count → e = .killed i → (g.worker i).alive = false) →
      ∃ more, Of forks config (events ++ [e]) (step g e).1 (seen ++ (step g e).2) i (ops ++ more) := fun a b c d x y =>
    ⟨[], by rw [List.append_nil]; exact h.idle e a b c d x y⟩
  have other : ∀ (j : Nat) (w : Worker) (op : Op), i ≠ j → step g e = Workers.advance g j w op → (e ≠ .enter i) → (e ≠ .killed i) →
      ∃ more, Of forks config (events ++ [e]) (step g e).1 (seen ++ (step g e).2) i (ops ++ more) := by
    intro j w op hne he h1 h2
    have := advance_other (g := g) hne w op
    refine same ?_ ?_ ?_ ?_ (fun _ a => absurd a h1) (fun _ a => absurd a h2)
    · rw [he]; exact this.1
    · rw [he]; rfl
    · rw [he]; exact this.2.1
    · rw [he]; exact this.2.2
  have still : step g e = (g, []) → (i < g.count → e = .enter i → (g.worker i).writer = true → .killed i ∈ events ++ [e]) →
      (i < g.count → e = .killed i → (g.worker i).alive = false) →
      ∃ more, Of forks config (events ++ [e]) (step g e).1 (seen ++ (step g e).2) i (ops ++ more) := by
    intro hs x y
    refine same ?_ ?_ ?_ ?_ x y
    · rw [hs]
    · rw [hs]
    · rw [hs]; rfl
    · rw [hs]; exact List.not_mem_nil
  cases e with
  | enter j =>
    by_cases hc : j < g.count ∧ (g.worker j).alive = true ∧ (g.worker j).writer = true
    · have hs : Workers.step g (.enter j) = (set g j { g.worker j with writer := false, watching := true }, []) := if_pos hc
      by_cases hj : i = j
      · subst hj
        rw [hs]
        have hself := set_self g i { g.worker i with writer := false, watching := true }
        refine ⟨[], ?_⟩
        rw [List.append_nil, List.append_nil]
        refine ⟨h.whole, ?_, fun m => (h.stops m).imp (List.mem_append_left _) gone_snoc, fun id m => List.mem_append_left _ (h.ends id m),
          fun c m => List.mem_append_left _ (h.reads c m), ?_, ?_, ?_, ?_, ?_, ?_, ?_⟩
        · rw [hself]; exact h.run
        · rw [hself]; intro _ hh; cases hh
        · rw [hself]; intro hh; cases hh
        · rw [hself]; exact h.exited
        · rw [hself]; exact h.lives
        · rw [hself]; exact fun a => (h.dies a).imp (List.mem_append_left _) _root_.id
        · rw [hself]; intro _ hh; cases hh
        · rw [hself]
          intro hi m
          rcases List.mem_append.mp m with m | m
          · exact h.kills hi m
          · cases List.mem_singleton.mp m
      · refine same ?_ ?_ ?_ ?_ ?_ ?_
        · rw [hs]; exact set_other _ hj _
        · rw [hs]; rfl
        · rw [hs]; rfl
        · rw [hs]; exact List.not_mem_nil
        · intro _ a; injection a with a; exact absurd a.symm hj
        · intro _ a; cases a
    · refine still (if_neg hc) ?_ (fun _ a => nomatch a)
      intro hi a hw
      injection a with a
      subst a
      cases ha : (g.worker j).alive
      · rcases h.dies ha with k | k
        · exact List.mem_append_left _ k
        · -- it has not begun: it cannot have come to its end
          have hr := h.exited k
          have hh := h.run
          rw [h.fresh hw] at hh
          have : (g.worker j).machine = Service.start .worker config := (congrArg Prod.fst hh).symm
          rw [this] at hr
          cases hr
      · exact absurd ⟨hi, ha, hw⟩ hc
  | worker j op =>
    by_cases hc : up g j = true ∧ own op = true
    · have hs : Workers.step g (.worker j op) = Workers.advance g j (g.worker j) op := if_pos hc
      have hu := up_eq hc.1
      by_cases hj : i = j
      · subst hj
        refine ⟨[op], ?_⟩
        rw [hs]
        refine h.advance _ _ _ rfl hu.2.2 hu.2.1 (.inr rfl) hu.2.2 ?_ ?_ ?_ ?_ (fun a => nomatch a)
        · have := hc.2; cases op <;> first | rfl | cases this
        · rintro rfl; exact .inl (List.mem_append_right _ (List.mem_singleton.mpr rfl))
        · rintro id rfl; rfl
        · rintro c rfl; cases hc.2
      · exact other j _ _ hj hs (fun a => nomatch a) (fun a => nomatch a)
    · exact still (if_neg hc) (fun _ a => nomatch a) (fun _ a => nomatch a)
  | hear j =>
    by_cases hc : up g j = true ∧ (g.worker j).watching = true ∧ (g.worker j).machine.stalled = false ∧ closed g = true
    · have hs : Workers.step g (.hear j) = Workers.advance g j { g.worker j with watching := false } .shutdown := if_pos hc
      have hu := up_eq hc.1
      by_cases hj : i = j
      · subst hj
        refine ⟨[.shutdown], ?_⟩
        rw [hs]
        exact h.advance _ { g.worker i with watching := false } .shutdown rfl hu.2.2 hu.2.1 (.inl rfl) hu.2.2 rfl (fun _ => .inr (gone_snoc (closed_gone hm hc.2.2.2)))
          (fun _ a => nomatch a) (fun _ a => nomatch a) (fun a => nomatch a)
      · exact other j _ _ hj hs (fun a => nomatch a) (fun a => nomatch a)
    · exact still (if_neg hc) (fun _ a => nomatch a) (fun _ a => nomatch a)
  | killed j =>
    by_cases hc : j < g.count
    · have hs : Workers.step g (.killed j) = (set g j { g.worker j with alive := false }, []) := if_pos hc
      by_cases hj : i = j
      · subst hj
        rw [hs]
        have hself := set_self g i { g.worker i with alive := false }
        refine ⟨[], ?_⟩
        rw [List.append_nil, List.append_nil]
        refine ⟨h.whole, ?_, fun m => (h.stops m).imp (List.mem_append_left _) gone_snoc, fun id m => List.mem_append_left _ (h.ends id m),
          fun c m => List.mem_append_left _ (h.reads c m), ?_, ?_, ?_, ?_, ?_, ?_, ?_⟩
        · rw [hself]; exact h.run
        · rw [hself]; exact h.heard
        · rw [hself]; exact h.fresh
        · rw [hself]; exact h.exited
        · rw [hself]; intro a; cases a
        · intro _; exact .inl (List.mem_append_right _ (List.mem_singleton.mpr rfl))
        · intro _ _; exact .inr (List.mem_append_right _ (List.mem_singleton.mpr rfl))
        · rw [hself]; intro _ _; rfl
      · refine same ?_ ?_ ?_ ?_ ?_ ?_
        · rw [hs]; exact set_other _ hj _
        · rw [hs]; rfl
        · rw [hs]; rfl
        · rw [hs]; exact List.not_mem_nil
        · intro _ a; cases a
        · intro _ a; injection a with a; exact absurd a.symm hj
    · refine still (if_neg hc) (fun _ a => nomatch a) ?_
      intro hi a
      injection a with a
      exact absurd (a ▸ hi) hc
  | shutdown =>
    refine same ?_ ?_ ?_ ?_ (fun _ a => nomatch a) (fun _ a => nomatch a)
    all_goals
      dsimp only [Workers.step]
      split <;> first | rfl | simp
  | masterKilled => exact same rfl rfl rfl List.not_mem_nil (fun _ a => nomatch a) (fun _ a => nomatch a)
  | edit c => exact same rfl rfl rfl List.not_mem_nil (fun _ a => nomatch a) (fun _ a => nomatch a)
  | reload =>
    refine same ?_ ?_ ?_ ?_ (fun _ a => nomatch a) (fun _ a => nomatch a)
    all_goals
      dsimp only [Workers.step]
      split <;> first | rfl | simp
  | reloadWorker j =>
    by_cases hc : up g j = true
    · have hs : Workers.step g (.reloadWorker j) = Workers.advance g j (g.worker j) (.configure g.file) := if_pos hc
      have hu := up_eq hc
      by_cases hj : i = j
      · subst hj
        refine ⟨[.configure g.file], ?_⟩
        rw [hs]
        exact h.advance _ (g.worker i) (.configure g.file) rfl hu.2.2 hu.2.1 (.inr rfl) hu.2.2 rfl (fun a => nomatch a)
          (fun _ a => nomatch a) (fun _ _ => rfl) (fun a => nomatch a)
      · exact other j _ _ hj hs (fun a => nomatch a) (fun a => nomatch a)
    · exact still (if_neg hc) (fun _ a => nomatch a) (fun _ a => nomatch a)

theorem advance_frame (g : Group) (i : Nat) (w : Worker) (op : Op) :
    (Workers.advance g i w op).1.count = g.count ∧ (Workers.advance g i w op).1.writer = g.writer ∧ (Workers.advance g i w op).1.running = g.running :=
  ⟨rfl, rfl, rfl⟩

theorem Master.stepped {forks : List Bool} {events : List Event} {g : Group} (h : Master forks events g) (e : Event) :
    Master forks (events ++ [e]) (step g e).1 := by
  have same : spares e = true → (step g e).1.count = g.count ∧ (step g e).1.writer = g.writer ∧ (step g e).1.running = g.running →
      Master forks (events ++ [e]) (step g e).1 := fun a b =>
    ⟨b.1.trans h.count, by rw [b.2.1, gone_spared a]; exact h.gone, by rw [b.2.1, b.2.2]; exact h.open_⟩
  cases e with
  | shutdown =>
    by_cases hc : g.running = true
    · have hs : Workers.step g .shutdown = ({ g with running := false, writer := false }, [.returned]) := if_pos hc
      rw [hs]
      exact ⟨h.count, iff_of_true rfl (gone_shutdown _ _), rfl⟩
    · have hs : Workers.step g .shutdown = (g, []) := if_neg hc
      rw [hs]
      have : g.writer = false := by rw [← h.open_]; simpa using hc
      exact ⟨h.count, iff_of_true this (gone_shutdown _ _), h.open_⟩
  | masterKilled => exact ⟨h.count, iff_of_true rfl (gone_killed _ _), rfl⟩
  | edit c => exact same rfl ⟨rfl, rfl, rfl⟩
  | reload => refine same rfl ?_; dsimp only [Workers.step]; split <;> exact ⟨rfl, rfl, rfl⟩
  | enter j => refine same rfl ?_; dsimp only [Workers.step]; split <;> exact ⟨rfl, rfl, rfl⟩
  | worker j op => refine same rfl ?_; dsimp only [Workers.step]; split <;> exact ⟨rfl, rfl, rfl⟩
  | hear j => refine same rfl ?_; dsimp only [Workers.step]; split <;> exact ⟨rfl, rfl, rfl⟩
  | killed j => refine same rfl ?_; dsimp only [Workers.step]; split <;> exact ⟨rfl, rfl, rfl⟩
  | reloadWorker j => refine same rfl ?_; dsimp only [Workers.step]; split <;> exact ⟨rfl, rfl, rfl⟩

theorem run_append (g : Group) (a b : List Event) : run g (a ++ b) = ((run (run g a).1 b).1, (run g a).2 ++ (run (run g a).1 b).2) := by
  induction a generalizing g with
  | nil => rfl
  | cons e a ih =>
    show ((run (step g e).1 (a ++ b)).1, (step g e).2 ++ (run (step g e).1 (a ++ b)).2) = _
    rw [ih]
    show (_, _ ++ (_ ++ _)) = ((run (run (step g e).1 a).1 b).1, ((step g e).2 ++ (run (step g e).1 a).2) ++ (run (run (step g e).1 a).1 b).2)
    rw [List.append_assoc]

theorem run_one (g : Group) (es : List Event) (e : Event) : run g (es ++ [e]) = ((step (run g es).1 e).1, (run g es).2 ++ (step (run g es).1 e).2) := by
  rw [run_append]
  show (_, _ ++ ((step (run g es).1 e).2 ++ [])) = _
  rw [List.append_nil]; rfl

theorem all_id (forks : List Bool) : forks.all id = false ↔ false ∈ forks := by
  induction forks with
  | nil => simp
  | cons b t ih => cases b <;> simp [ih]

theorem master_start (config : Config) (forks : List Bool) : Master forks [] (start config forks) where
  count := rfl
  gone := by
    show forks.all id = false ↔ _
    rw [all_id]
    constructor
    · exact fun h => .inr (.inr h)
    · rintro (h | h | h)
      · cases h
      · cases h
      · exact h
  open_ := rfl

theorem of_start (config : Config) (forks : List Bool) (i : Nat) : Of forks config [] (start config forks) [] i [] where
  whole _ m := nomatch m
  run := rfl
  stops m := nomatch m
  ends _ m := nomatch m
  reads _ m := nomatch m
  heard a := nomatch a
  fresh _ := rfl
  exited m := nomatch m
  lives _ := rfl
  dies a := nomatch a
  enters _ _ := .inl (fun m => nomatch m)
  kills _ m := nomatch m

/-- each worker is a client of its own -/
theorem reached (config : Config) (forks : List Bool) (events : List Event) :
    Master forks events (run (start config forks) events).1 ∧
    ∀ i, ∃ ops, Of forks config events (run (start config forks) events).1 (run (start config forks) events).2 i ops := by
  induction events using rev_induction with
  | nil => exact ⟨master_start config forks, fun i => ⟨[], of_start config forks i⟩⟩
  | snoc es e ih =>
    rw [run_one]
    refine ⟨ih.1.stepped e, fun i => ?_⟩
    obtain ⟨ops, h⟩ := ih.2 i
    obtain ⟨more, h'⟩ := h.stepped ih.1 e
    exact ⟨ops ++ more, h'⟩

/-! ## the theorems -/

/-- **C98** (fewer than 2³² connections for each worker). With worker processes, whatever happens to them and to the master: each worker takes a connection
as one session; it lets a session go once, and only after it has come to its end or could not be started; and when a worker comes to its end it has let go
all sessions it had: none is cut off. What is missing: a worker that dies takes its sessions with it. -/
theorem C98_served_partial (config : Config) (forks : List Bool) (events : List Event) (i : Nat) :
    let r := run (start config forks) events
    (accepted (of i r.2)).length < 2 ^ 32 →
    (accepted (of i r.2)).Nodup ∧ (freed (of i r.2)).Nodup ∧
    (∀ id ∈ freed (of i r.2), id ∈ accepted (of i r.2) ∧ (.worker i (.finish id) ∈ events ∨ .startError id ∈ of i r.2)) ∧
    (.exited i ∈ r.2 → ∀ id ∈ accepted (of i r.2), id ∈ freed (of i r.2)) := by
  obtain ⟨ops, h⟩ := (reached config forks events).2 i
  dsimp only
  generalize run (start config forks) events = r at h
  intro hn
  have h60 := C60_partial .worker config ops h.whole
  have hi := Service.reached .worker config h.whole
  rw [h.run] at h60 hi
  dsimp only at h60 hi
  refine ⟨h60.1, h60.2.1, fun id m => ⟨(h60.2.2.1 id m).1, (h60.2.2.1 id m).2.imp (h.ends id) _root_.id⟩, ?_⟩
  intro hx id m
  have hr := h.exited hx
  rw [hi.count] at hn
  have h0 := (hi.over hn hr).2
  have he := hi.each id
  have hs : (r.1.worker i).machine.setups = [] := List.length_eq_zero_iff.mp (by omega)
  have hp : (r.1.worker i).machine.processing = [] := List.length_eq_zero_iff.mp (by omega)
  rw [hi.acc, List.mem_range] at m
  rw [hs, hp, if_pos m] at he
  have : 0 < (freed (of i r.2)).count id := by simp only [List.count_nil] at he; omega
  exact List.count_pos_iff.mp this

/-- **C98**: a worker comes to its end only if the master has gone, or it was told to by itself. -/
theorem C98_ends (config : Config) (forks : List Bool) (events : List Event) (i : Nat) :
    .exited i ∈ (run (start config forks) events).2 → Gone forks events ∨ .worker i .shutdown ∈ events := by
  obtain ⟨ops, h⟩ := (reached config forks events).2 i
  generalize run (start config forks) events = r at h
  intro hx
  have hi := Service.reached .worker config h.whole
  rw [h.run] at hi
  exact (h.stops (hi.asks (hi.stops (h.exited hx)))).symm

/-- the worker has been told to come to its end, and accepts no more -/
def Leaving (s : Service.State) : Prop := s.quitting = true ∧ s.watching = false

theorem leaving_step (s : Service.State) (op : Op) (h : Leaving s) : Leaving (Service.step s op).1 := by
  have hd : ∀ s, Leaving s → Leaving (Service.disposeFinished s).1 := fun s h =>
    ⟨(Service.dispose_keeps (f := Service.State.quitting) (fun _ _ _ _ _ => rfl) (fun _ => rfl) s).trans h.1,
     (Service.dispose_keeps (f := Service.State.watching) (fun _ _ _ _ _ => rfl) (fun _ => rfl) s).trans h.2⟩
  have hc : ∀ s id, Leaving s → Leaving (Service.cbFinished s id).1 := by
    intro s id h
    unfold Service.cbFinished
    dsimp only
    split
    · exact hd _ h
    · exact h
  have hs : ∀ s id b, Leaving s → Leaving (Service.setup s id b).1 := by
    intro s id b h
    unfold Service.setup
    dsimp only
    split
    · exact h
    · exact hc _ _ h
  unfold Service.step
  split
  · exact h
  · cases op with
    | connect a b =>
      unfold Service.act Service.connect
      dsimp only
      rw [h.2]
      exact h
    | setup b =>
      unfold Service.act
      dsimp only
      split
      · exact h
      · exact hs _ _ _ h
    | finish id =>
      unfold Service.act
      dsimp only
      split
      · exact hc _ _ h
      · exact h
    | idle =>
      unfold Service.act
      dsimp only
      split
      · exact hd _ h
      · exact h
    | shutdown =>
      unfold Service.act
      dsimp only
      unfold Service.shutdown
      rw [if_pos h.1]
      exact h
    | configure c => exact h
    | load =>
      unfold Service.act
      dsimp only
      split <;> exact h
    | store =>
      unfold Service.act
      dsimp only
      split <;> exact h

/-- what an event can do to the machine of a worker -/
theorem effect (g : Group) (e : Event) (i : Nat) :
    (((step g e).1.worker i).machine = (g.worker i).machine ∧ of i (step g e).2 = []) ∨
    ((g.worker i).alive = true ∧ ∃ op, whole op = true ∧ ((step g e).1.worker i).machine = (Service.step (g.worker i).machine op).1 ∧
      of i (step g e).2 = (Service.step (g.worker i).machine op).2) := by
  have adv : ∀ (j : Nat) (w : Worker) (op : Op), w.machine = (g.worker j).machine → (g.worker j).alive = true → whole op = true →
      step g e = Workers.advance g j w op →
      (((step g e).1.worker i).machine = (g.worker i).machine ∧ of i (step g e).2 = []) ∨
      ((g.worker i).alive = true ∧ ∃ op, whole op = true ∧ ((step g e).1.worker i).machine = (Service.step (g.worker i).machine op).1 ∧
        of i (step g e).2 = (Service.step (g.worker i).machine op).2) := by
    intro j w op hw ha ho he
    rw [he]
    by_cases hj : i = j
    · subst hj
      refine .inr ⟨ha, op, ho, ?_, ?_⟩
      · rw [← hw]; exact congrArg Worker.machine (set_self _ _ _)
      · rw [of_advance, if_pos rfl, hw]
    · exact .inl ⟨congrArg Worker.machine (advance_other hj w op).1, (advance_other hj w op).2.1⟩
  have still : step g e = (g, []) → ((step g e).1.worker i).machine = (g.worker i).machine ∧ of i (step g e).2 = [] := by
    intro h; rw [h]; exact ⟨rfl, rfl⟩
  have put : ∀ (j : Nat) (w : Worker), w.machine = (g.worker j).machine → step g e = (set g j w, []) →
      ((step g e).1.worker i).machine = (g.worker i).machine ∧ of i (step g e).2 = [] := by
    intro j w hw h
    rw [h]
    refine ⟨?_, rfl⟩
    by_cases hj : i = j
    · subst hj; rw [set_self]; exact hw
    · rw [set_other _ hj]
  cases e with
  | enter j =>
    by_cases hc : j < g.count ∧ (g.worker j).alive = true ∧ (g.worker j).writer = true
    · exact .inl (put j { g.worker j with writer := false, watching := true } rfl (if_pos hc))
    · exact .inl (still (if_neg hc))
  | worker j op =>
    by_cases hc : up g j = true ∧ own op = true
    · exact adv j (g.worker j) op rfl (up_eq hc.1).2.1 (by have := hc.2; cases op <;> first | rfl | cases this) (if_pos hc)
    · exact .inl (still (if_neg hc))
  | hear j =>
    by_cases hc : up g j = true ∧ (g.worker j).watching = true ∧ (g.worker j).machine.stalled = false ∧ closed g = true
    · exact adv j { g.worker j with watching := false } .shutdown rfl (up_eq hc.1).2.1 rfl (if_pos hc)
    · exact .inl (still (if_neg hc))
  | killed j =>
    by_cases hc : j < g.count
    · exact .inl (put j { g.worker j with alive := false } rfl (if_pos hc))
    · exact .inl (still (if_neg hc))
  | shutdown => dsimp only [Workers.step]; split <;> exact .inl ⟨rfl, rfl⟩
  | masterKilled => exact .inl ⟨rfl, rfl⟩
  | edit c => exact .inl ⟨rfl, rfl⟩
  | reload => dsimp only [Workers.step]; split <;> exact .inl ⟨rfl, rfl⟩
  | reloadWorker j =>
    by_cases hc : up g j = true
    · exact adv j (g.worker j) (.configure g.file) rfl (up_eq hc).2.1 rfl (if_pos hc)
    · exact .inl (still (if_neg hc))

theorem takes_no_more {g : Group} {i : Nat} (hl : Leaving (g.worker i).machine) (events : List Event) :
    accepted (of i (run g events).2) = [] ∧ Leaving ((run g events).1.worker i).machine := by
  induction events generalizing g with
  | nil => exact ⟨rfl, hl⟩
  | cons e es ih =>
    show accepted (of i ((step g e).2 ++ (run (step g e).1 es).2)) = [] ∧ Leaving ((run (step g e).1 es).1.worker i).machine
    rw [of_append, Service.accepted_append]
    rcases effect g e i with ⟨hm, ho⟩ | ⟨_, op, hop, hm, ho⟩
    · have := ih (g := (step g e).1) (by rw [hm]; exact hl)
      rw [ho, this.1]
      exact ⟨rfl, this.2⟩
    · have := ih (g := (step g e).1) (by rw [hm]; exact leaving_step _ _ hl)
      rw [ho, this.1, List.append_nil]
      refine ⟨?_, this.2⟩
      rcases Service.step_accepted (g.worker i).machine op hop with e | ⟨_, _, _, e, _⟩
      · exact e
      · rw [hl.2] at e; cases e

/-- **C98** (a worker that has not stalled, C61; fewer than 2³² connections). When the master has gone, however it went, and every worker has got to work or
is dead, then a worker that looks at its pipe accepts no more connections; it goes on with the sessions it has, and has come to its end when there are none
left. -/
theorem C98_orphan_partial (config : Config) (forks : List Bool) (events after : List Event) (i : Nat) (hi : i < forked forks)
    (hgone : Gone forks events) (hall : AllSetOut forks events) (hk : .killed i ∉ events)
    (hst : ((run (start config forks) events).1.worker i).machine.stalled = false) :
    let r := run (start config forks) (events ++ [.hear i] ++ after)
    accepted (of i r.2) = accepted (of i (run (start config forks) events).2) ∧
    ((accepted (of i r.2)).length < 2 ^ 32 → serving i r.2 = 0 → .exited i ∈ r.2 ∨ .killed i ∈ after) := by
  obtain ⟨hm, hof⟩ := reached config forks events
  obtain ⟨ops, h⟩ := hof i
  have hinv := Service.reached .worker config h.whole
  rw [h.run] at hinv
  have hclosed : closed (run (start config forks) events).1 = true := by
    unfold closed
    rw [hm.gone.mpr hgone, Bool.not_false, Bool.true_and, List.all_eq_true]
    intro j hj
    rw [List.mem_range] at hj
    obtain ⟨_, hj'⟩ := hof j
    cases hw : ((run (start config forks) events).1.worker j).writer
    · simp
    · have hkj : .killed j ∈ events := by
        rcases hj'.enters hj hw with he | he
        · exact (hall j (hm.count ▸ hj)).resolve_left he
        · exact he
      rw [hj'.kills hj hkj]
      rfl
  -- after it looked at its pipe
  have hl : Leaving ((run (start config forks) (events ++ [.hear i])).1.worker i).machine ∧
      accepted (of i (run (start config forks) (events ++ [.hear i])).2) = accepted (of i (run (start config forks) events).2) := by
    rw [run_one]
    generalize run (start config forks) events = r at *
    dsimp only
    rw [of_append, Service.accepted_append]
    have leave : Leaving (r.1.worker i).machine → Leaving ((step r.1 (.hear i)).1.worker i).machine ∧
        accepted (of i r.2) ++ accepted (of i (step r.1 (.hear i)).2) = accepted (of i r.2) := by
      intro hl
      have := takes_no_more hl [.hear i]
      have e : run r.1 [.hear i] = ((step r.1 (.hear i)).1, (step r.1 (.hear i)).2 ++ []) := rfl
      rw [e, List.append_nil] at this
      rw [this.1, List.append_nil]
      exact ⟨this.2, rfl⟩
    cases ha : (r.1.worker i).alive
    · rcases h.dies ha with k | k
      · exact absurd k hk
      · have hq := hinv.stops (h.exited k)
        exact leave ⟨hq, hinv.deaf hq⟩
    · cases hw : (r.1.worker i).writer
      · cases hwa : (r.1.worker i).watching
        · have hq := (hinv.asked hst).mpr (h.heard hw hwa)
          exact leave ⟨hq, hinv.deaf hq⟩
        · have hup : up r.1 i = true := by
            unfold up
            rw [ha, hw, hm.count]
            simpa using hi
          have hs : step r.1 (.hear i) = Workers.advance r.1 i { r.1.worker i with watching := false } .shutdown := if_pos ⟨hup, hwa, hst, hclosed⟩
          have hrun := h.lives ha
          have hsd : Service.step (r.1.worker i).machine .shutdown = Service.shutdown (r.1.worker i).machine := by
            unfold Service.step
            rw [hrun, hst, if_neg (by decide)]
            rfl
          rw [hs, of_advance, if_pos rfl]
          refine ⟨?_, ?_⟩
          · have : ((Workers.advance r.1 i { r.1.worker i with watching := false } .shutdown).1.worker i).machine =
                (Service.step (r.1.worker i).machine .shutdown).1 := congrArg Worker.machine (set_self _ _ _)
            rw [this, hsd]
            unfold Service.shutdown
            split
            · next hq => exact ⟨hq, hinv.deaf hq⟩
            · exact ⟨rfl, rfl⟩
          · rcases Service.step_accepted (r.1.worker i).machine .shutdown rfl with e | ⟨⟨_, e⟩, _⟩
            · show _ ++ accepted (Service.step (r.1.worker i).machine .shutdown).2 = _
              rw [e, List.append_nil]
            · cases e
      · -- it has not got to work: it is dead
        have hkj : .killed i ∈ events := by
          rcases h.enters (hm.count ▸ hi) hw with he | he
          · exact (hall i hi).resolve_left he
          · exact he
        exact absurd hkj hk
  dsimp only
  have hno := takes_no_more hl.1 after
  obtain ⟨ops', h'⟩ := (reached config forks (events ++ [.hear i] ++ after)).2 i
  have hinv' := Service.reached .worker config h'.whole
  rw [h'.run] at hinv'
  dsimp only at hinv'
  have hrun := run_append (start config forks) (events ++ [.hear i]) after
  refine ⟨?_, ?_⟩
  · rw [hrun]
    dsimp only
    rw [of_append, Service.accepted_append, hno.1, List.append_nil, hl.2]
  · intro hn h0
    rw [hinv'.count] at hn
    have hz : ((run (start config forks) (events ++ [.hear i] ++ after)).1.worker i).machine.setups.length +
        ((run (start config forks) (events ++ [.hear i] ++ after)).1.worker i).machine.processing.length = 0 := by
      have := hinv'.total
      unfold serving sessions at h0
      rw [hinv'.count] at h0
      omega
    have hl' : Leaving ((run (start config forks) (events ++ [.hear i] ++ after)).1.worker i).machine := by rw [hrun]; exact hno.2
    have hr : ((run (start config forks) (events ++ [.hear i] ++ after)).1.worker i).machine.running = false := by
      cases hr : ((run (start config forks) (events ++ [.hear i] ++ after)).1.worker i).machine.running
      · rfl
      · exact absurd hz (hinv'.waits hn hr hl'.1)
    have ha : ((run (start config forks) (events ++ [.hear i] ++ after)).1.worker i).alive = false := by
      cases ha : ((run (start config forks) (events ++ [.hear i] ++ after)).1.worker i).alive
      · rfl
      · rw [h'.lives ha] at hr; cases hr
    rcases h'.dies ha with k | k
    · refine .inr ?_
      rw [List.mem_append, List.mem_append, List.mem_singleton] at k
      rcases k with (k | k) | k
      · exact absurd k hk
      · cases k
      · exact k
    · exact .inl k

/-- there are such workers: two of them; one serves a session when the master is shut down, and goes on until the session is over; the other one ends at
once -/
example :
    let events := [Event.enter 1, .enter 0, .worker 1 (.connect .ok true), .worker 1 (.setup true), .shutdown]
    let after := [Event.hear 0, .worker 1 (.connect .ok true), .worker 1 (.finish 0), .worker 1 .idle]
    Gone [true, true] events ∧ AllSetOut [true, true] events ∧ .killed 1 ∉ events ∧
    ((run (start {} [true, true]) events).1.worker 1).machine.stalled = false ∧
    (run (start {} [true, true]) (events ++ [.hear 1] ++ after)).2 =
      [.worker 1 (.accepted 0), .worker 1 (.established 0), .returned, .worker 0 .quit, .exited 0,
       .worker 1 .quit, .worker 1 (.freed 0), .worker 1 (.sessionsFinished 1), .worker 1 .maintain, .exited 1] := by
  refine ⟨.inl (by simp), ?_, by simp, rfl, rfl⟩
  intro j hj
  have : j < 2 := hj
  rcases j with _ | _ | j
  · simp
  · simp
  · omega

/-- **C98** (no worker reads the configuration again; fewer than 2³² connections are not needed for this): all workers together serve at most `n` times
`max-connections` sessions. The property, at most `max-connections` of them, fails: `C98_limit_violated`. -/
theorem C98_limit_partial (config : Config) (forks : List Bool) (events : List Event) (hu : ∀ e ∈ events, unread e = true)
    (hc : config.maxConnections ≠ 0) :
    total (forked forks) (run (start config forks) events).2 ≤ forked forks * config.maxConnections.toNat := by
  have each : ∀ i, serving i (run (start config forks) events).2 ≤ config.maxConnections.toNat := by
    intro i
    obtain ⟨ops, h⟩ := (reached config forks events).2 i
    have := C61_limit_partial .worker config ops h.whole (by
      intro op m
      cases op with
      | configure c => exact absurd (hu _ (h.reads c m)) (by simp [unread])
      | _ => rfl) hc
    rw [h.run] at this
    exact this
  unfold total
  generalize (run (start config forks) events).2 = seen at each
  induction forked forks with
  | zero => simp
  | succ n ih =>
    rw [List.range_succ, List.map_append, List.sum_append, Nat.succ_mul]
    have := each n
    simp only [List.map_cons, List.map_nil, List.sum_cons, List.sum_nil, Nat.add_zero]
    omega

/-- **The limit fails**: two workers that may have one connection each serve two at the same time. -/
theorem C98_limit_violated :
    let events := [Event.enter 0, .enter 1, .worker 0 (.connect .ok true), .worker 1 (.connect .ok true)]
    total 2 (run (start { maxConnections := 1 } [true, true]) events).2 = 2 := by decide

/-- what the workers do does not depend on what the file says or the master knows -/
theorem unread_same {g g' : Group} (hc : g.count = g'.count) (hw : g.worker = g'.worker) (hr : g.writer = g'.writer) (hu : g.running = g'.running)
    (events : List Event) (h : ∀ e ∈ events, unread e = true) :
    (run g events).2 = (run g' (events.filter fun e => !concernsMaster e)).2 := by
  induction events generalizing g g' with
  | nil => rfl
  | cons e es ih =>
    have he := h e (List.mem_cons_self ..)
    have hes : ∀ e ∈ es, unread e = true := fun x m => h x (List.mem_cons_of_mem _ m)
    have hup : ∀ j, up g j = up g' j := by intro j; unfold up; rw [hc, hw]
    have hcl : closed g = closed g' := by unfold closed; rw [hc, hw, hr]
    have both : ∀ e', concernsMaster e' = false → (step g e').2 = (step g' e').2 → (step g e').1.count = (step g' e').1.count →
        (step g e').1.worker = (step g' e').1.worker → (step g e').1.writer = (step g' e').1.writer → (step g e').1.running = (step g' e').1.running →
        (run g (e' :: es)).2 = (run g' ((e' :: es).filter fun e => !concernsMaster e)).2 := by
      intro e' hn a b c d f
      rw [List.filter_cons_of_pos (by rw [hn]; rfl)]
      show (step g e').2 ++ (run (step g e').1 es).2 = (step g' e').2 ++ (run (step g' e').1 _).2
      rw [a, ih b c d f hes]
    have adv : ∀ e' j w op, concernsMaster e' = false → step g e' = Workers.advance g j w op → step g' e' = Workers.advance g' j w op →
        (run g (e' :: es)).2 = (run g' ((e' :: es).filter fun e => !concernsMaster e)).2 := by
      intro e' j w op hn a b
      refine both e' hn ?_ ?_ ?_ ?_ ?_
      · rw [a, b]; rfl
      · rw [a, b]; exact hc
      · rw [a, b]
        show (fun k => if k = j then _ else g.worker k) = (fun k => if k = j then _ else g'.worker k)
        rw [hw]
      · rw [a, b]; exact hr
      · rw [a, b]; exact hu
    cases e with
    | enter j =>
      by_cases hx : j < g.count ∧ (g.worker j).alive = true ∧ (g.worker j).writer = true
      · have a : step g (.enter j) = (set g j { g.worker j with writer := false, watching := true }, []) := if_pos hx
        have b : step g' (.enter j) = (set g' j { g'.worker j with writer := false, watching := true }, []) := if_pos (by rw [← hc, ← hw]; exact hx)
        refine both _ rfl ?_ ?_ ?_ ?_ ?_
        · rw [a, b]
        · rw [a, b]; exact hc
        · rw [a, b]; unfold Workers.set; rw [hw]
        · rw [a, b]; exact hr
        · rw [a, b]; exact hu
      · have a : step g (.enter j) = (g, []) := if_neg hx
        have b : step g' (.enter j) = (g', []) := if_neg (by rw [← hc, ← hw]; exact hx)
        exact both _ rfl (by rw [a, b]) (by rw [a, b]; exact hc) (by rw [a, b]; exact hw) (by rw [a, b]; exact hr) (by rw [a, b]; exact hu)
    | worker j op =>
      by_cases hx : up g j = true ∧ own op = true
      · exact adv _ j (g.worker j) op rfl (if_pos hx) (by rw [hw]; exact if_pos (by rw [← hup]; exact hx))
      · have a : step g (.worker j op) = (g, []) := if_neg hx
        have b : step g' (.worker j op) = (g', []) := if_neg (by rw [← hup]; exact hx)
        exact both _ rfl (by rw [a, b]) (by rw [a, b]; exact hc) (by rw [a, b]; exact hw) (by rw [a, b]; exact hr) (by rw [a, b]; exact hu)
    | hear j =>
      by_cases hx : up g j = true ∧ (g.worker j).watching = true ∧ (g.worker j).machine.stalled = false ∧ closed g = true
      · exact adv _ j { g.worker j with watching := false } .shutdown rfl (if_pos hx) (by rw [hw]; exact if_pos (by rw [← hup, ← hcl, ← hw]; exact hx))
      · have a : step g (.hear j) = (g, []) := if_neg hx
        have b : step g' (.hear j) = (g', []) := if_neg (by rw [← hup, ← hcl, ← hw]; exact hx)
        exact both _ rfl (by rw [a, b]) (by rw [a, b]; exact hc) (by rw [a, b]; exact hw) (by rw [a, b]; exact hr) (by rw [a, b]; exact hu)
    | killed j =>
      by_cases hx : j < g.count
      · have a : step g (.killed j) = (set g j { g.worker j with alive := false }, []) := if_pos hx
        have b : step g' (.killed j) = (set g' j { g'.worker j with alive := false }, []) := if_pos (by rw [← hc]; exact hx)
        refine both _ rfl ?_ ?_ ?_ ?_ ?_
        · rw [a, b]
        · rw [a, b]; exact hc
        · rw [a, b]; unfold Workers.set; rw [hw]
        · rw [a, b]; exact hr
        · rw [a, b]; exact hu
      · have a : step g (.killed j) = (g, []) := if_neg hx
        have b : step g' (.killed j) = (g', []) := if_neg (by rw [← hc]; exact hx)
        exact both _ rfl (by rw [a, b]) (by rw [a, b]; exact hc) (by rw [a, b]; exact hw) (by rw [a, b]; exact hr) (by rw [a, b]; exact hu)
    | shutdown =>
      refine both _ rfl ?_ ?_ ?_ ?_ ?_ <;> dsimp only [Workers.step] <;> rw [hu] <;> split <;> first | rfl | assumption
    | masterKilled => exact both _ rfl rfl hc hw rfl rfl
    | edit c =>
      rw [List.filter_cons_of_neg (by simp [concernsMaster])]
      exact ih (g := (step g (.edit c)).1) hc hw hr hu hes
    | reload =>
      rw [List.filter_cons_of_neg (by simp [concernsMaster])]
      have hs : (step g .reload).2 = [] := by dsimp only [Workers.step]; split <;> rfl
      show (step g .reload).2 ++ (run (step g .reload).1 es).2 = _
      rw [hs, List.nil_append]
      refine ih (g := (step g .reload).1) ?_ ?_ ?_ ?_ hes <;> dsimp only [Workers.step] <;> split <;> assumption
    | reloadWorker j => exact absurd he (by simp [unread])

/-- **A reload fails** with worker processes: changing the configuration file and reloading it in the master makes no difference to anything a worker does,
whatever happens and for ever. -/
theorem C98_reload_violated (config : Config) (forks : List Bool) (events : List Event) (h : ∀ e ∈ events, unread e = true) :
    (run (start config forks) events).2 = (run (start config forks) (events.filter fun e => !concernsMaster e)).2 :=
  unread_same rfl rfl rfl rfl events h

/-- so a limit that was set and reloaded is not kept, although the master knows it -/
example :
    let events := [Event.enter 0, .edit { maxConnections := 1 }, .reload, .worker 0 (.connect .ok true), .worker 0 (.connect .ok true)]
    (run (start {} [true]) events).1.config = { maxConnections := 1 } ∧ total 1 (run (start {} [true]) events).2 = 2 := by decide

theorem dead_silent {g : Group} (hd : ∀ i, i < g.count → (g.worker i).alive = false) (events : List Event) (hs : ∀ e ∈ events, spares e = true) :
    (run g events).1.running = g.running ∧ (run g events).2 = [] := by
  induction events generalizing g with
  | nil => exact ⟨rfl, rfl⟩
  | cons e es ih =>
    have hes : ∀ e ∈ es, spares e = true := fun x m => hs x (List.mem_cons_of_mem _ m)
    have hup : ∀ j, up g j = false := by
      intro j
      unfold up
      by_cases hj : j < g.count
      · rw [hd j hj]; simp
      · simp [hj]
    have still : ∀ e', step g e' = (g, []) → (run g (e' :: es)).1.running = g.running ∧ (run g (e' :: es)).2 = [] := by
      intro e' h
      show (run (step g e').1 es).1.running = g.running ∧ (step g e').2 ++ (run (step g e').1 es).2 = []
      rw [h]
      exact ih hd hes
    cases e with
    | enter j =>
      refine still _ (if_neg ?_)
      rintro ⟨a, b, _⟩
      rw [hd j a] at b; cases b
    | worker j op => exact still _ (if_neg fun h => by rw [hup] at h; cases h.1)
    | hear j => exact still _ (if_neg fun h => by rw [hup] at h; cases h.1)
    | killed j =>
      show (run (step g (.killed j)).1 es).1.running = g.running ∧ (step g (.killed j)).2 ++ (run (step g (.killed j)).1 es).2 = []
      by_cases hj : j < g.count
      · have e : step g (.killed j) = (set g j { g.worker j with alive := false }, []) := if_pos hj
        rw [e]
        refine ih (g := set g j { g.worker j with alive := false }) ?_ hes
        intro i hi
        by_cases hij : i = j
        · subst hij; rw [set_self]
        · rw [set_other _ hij]; exact hd i hi
      · have e : step g (.killed j) = (g, []) := if_neg hj
        rw [e]
        exact ih hd hes
    | shutdown => exact absurd (hs _ (List.mem_cons_self ..)) (by simp [spares])
    | masterKilled => exact absurd (hs _ (List.mem_cons_self ..)) (by simp [spares])
    | edit c => exact ih (g := (step g (.edit c)).1) hd hes
    | reload =>
      show (run (step g .reload).1 es).1.running = g.running ∧ (step g .reload).2 ++ (run (step g .reload).1 es).2 = []
      by_cases hr : g.running = true
      · have e : step g .reload = ({ g with config := g.file }, []) := if_pos hr
        rw [e]
        exact ih (g := { g with config := g.file }) hd hes
      · have e : step g .reload = (g, []) := if_neg hr
        rw [e]
        exact ih hd hes
    | reloadWorker j => exact still _ (if_neg fun h => by rw [hup] at h; cases h)

/-- **Nobody serves** when the workers have died, one after the other, for whatever reason: they are not replaced. The master goes on for ever, but no
connection is accepted, whatever happens. -/
theorem C98_replaced_violated (after : List Event) (h : ∀ e ∈ after, spares e = true) :
    let r := run (start {} [true, true]) ([.enter 0, .enter 1, .killed 0, .killed 1] ++ after)
    r.1.running = true ∧ ∀ i, of i r.2 = [] := by
  rw [run_append]
  have := dead_silent (g := (run (start {} [true, true]) [.enter 0, .enter 1, .killed 0, .killed 1]).1) (by
    intro i hi
    have : i < 2 := hi
    rcases i with _ | _ | i
    · rfl
    · rfl
    · omega) after h
  refine ⟨this.1, fun i => ?_⟩
  dsimp only
  rw [this.2]
  rfl

/-- **The master does not wait**: `milter_client_run` returns (and the PID file and the socket are removed) while a worker still serves a session. -/
theorem C98_waits_violated :
    let r := run (start {} [true]) [.enter 0, .worker 0 (.connect .ok true), .worker 0 (.setup true), .shutdown]
    .returned ∈ r.2 ∧ r.1.running = false ∧ serving 0 r.2 = 1 := by decide

theorem stalled_step {s : Service.State} (op : Op) (hs : s.stalled = true) :
    (Service.step s op).2 = [] ∧ (Service.step s op).1.stalled = true ∧ (Service.step s op).1.running = s.running := by
  unfold Service.step
  rw [hs, Bool.or_true, Bool.true_and]
  cases op <;> first | exact ⟨rfl, hs, rfl⟩

theorem stalled_stays {g : Group} {i : Nat} (hs : (g.worker i).machine.stalled = true) (hr : (g.worker i).machine.running = true) (events : List Event) :
    .exited i ∉ (run g events).2 := by
  induction events generalizing g with
  | nil => exact List.not_mem_nil
  | cons e es ih =>
    show .exited i ∉ (step g e).2 ++ (run (step g e).1 es).2
    have hadv : ∀ j w op, w.machine = (g.worker j).machine → .exited i ∉ (Workers.advance g j w op).2 := by
      intro j w op hw m
      by_cases hj : i = j
      · subst hj
        have hm : Seen.exited i ∈ (Service.step w.machine op).2.map (Seen.worker i) ++
            if (Service.step w.machine op).1.running then [] else [.exited i] := m
        rw [hw, (stalled_step op hs).2.2, hr, if_pos rfl, List.append_nil] at hm
        obtain ⟨_, _, e⟩ := List.mem_map.mp hm
        cases e
      · exact (advance_other hj w op).2.2 m
    have hout : .exited i ∉ (step g e).2 := by
      cases e with
      | enter j => dsimp only [Workers.step]; split <;> exact List.not_mem_nil
      | worker j op => dsimp only [Workers.step]; split <;> first | exact hadv _ _ _ rfl | exact List.not_mem_nil
      | hear j => dsimp only [Workers.step]; split <;> first | exact hadv _ _ _ rfl | exact List.not_mem_nil
      | killed j => dsimp only [Workers.step]; split <;> exact List.not_mem_nil
      | shutdown => dsimp only [Workers.step]; split <;> simp
      | masterKilled => exact List.not_mem_nil
      | edit c => exact List.not_mem_nil
      | reload => dsimp only [Workers.step]; split <;> exact List.not_mem_nil
      | reloadWorker j => dsimp only [Workers.step]; split <;> first | exact hadv _ _ _ rfl | exact List.not_mem_nil
    have hnext : .exited i ∉ (run (step g e).1 es).2 := by
      rcases effect g e i with ⟨hm, _⟩ | ⟨_, op, _, hm, _⟩
      · exact ih (g := (step g e).1) (by rw [hm]; exact hs) (by rw [hm]; exact hr)
      · exact ih (g := (step g e).1) (by rw [hm]; exact (stalled_step op hs).2.1) (by rw [hm, (stalled_step op hs).2.2]; exact hr)
    exact fun m => (List.mem_append.mp m).elim hout hnext

/-- **A worker outlives its master for ever** when it is full at the time another connection comes in: it stalls (C61), and does not notice that the master
has gone, nor that its sessions have ended. -/
theorem C98_orphan_violated (after : List Event) :
    .exited 0 ∉ (run (start { maxConnections := 1 } [true])
      ([.enter 0, .worker 0 (.connect .ok true), .worker 0 (.setup true), .worker 0 (.connect .ok true), .shutdown] ++ after)).2 := by
  rw [run_append]
  intro m
  rcases List.mem_append.mp m with m | m
  · revert m; decide
  · exact stalled_stays (i := 0) rfl rfl after m

end Verif.Props.Workers
