import Verif.Spec.Checker
/-
C65, C66: the periodical check of whether the SMTP clients are still there.
-/
namespace Verif.Props.CheckerFacts
open Verif.Checker Verif.Spec.Checker

theorem freed_append (a b : List Out) : freed (a ++ b) = freed a ++ freed b := by
  induction a with
  | nil => rfl
  | cons o t ih => cases o <;> simp [freed, ih]

theorem freed_map (l : List Nat) : freed (l.map .freed) = l := by
  induction l with
  | nil => rfl
  | cons a l ih => exact congrArg (a :: ·) ih

theorem freed_checked (l : List Nat) : freed (l.map .checked) = [] := by
  induction l with
  | nil => rfl
  | cons a l ih => exact ih

/-- what holds of the manager, whatever happened -/
structure Inv (s : State) (tr : List Out) : Prop where
  each : ∀ id, s.heard.count id + s.finished.count id + (freed tr).count id = if id < s.count then 1 else 0
  nodup : s.leaders.Nodup
  sub : ∀ id ∈ s.leaders, id ∈ s.heard
  safe : .dangling ∉ tr

/-- the node to begin the next check with is one of the list -/
def Points (s : State) : Prop := ∃ a b, s.leaders = a ++ b ∧ s.next = b.head?

theorem Inv.timers {s : State} {tr : List Out} (h : Inv s tr) (b : Bool) (t : Option Nat) (c : Nat) (i : Nat) (n : Option Nat) :
    Inv { s with hasId := b, timer := t, current := c, interval := i, next := n } tr := ⟨h.each, h.nodup, h.sub, h.safe⟩

theorem disposeChecker_eq (s : State) : ∃ b t, disposeChecker s = { s with hasId := b, timer := t, current := 0 } := by
  unfold disposeChecker
  split
  · exact ⟨_, _, rfl⟩
  · exact ⟨s.hasId, s.timer, rfl⟩

theorem startChecker_eq (s : State) : ∃ b t c, startChecker s = { s with hasId := b, timer := t, current := c } := by
  unfold startChecker
  split
  · split
    · obtain ⟨b, t, e⟩ := disposeChecker_eq s
      rw [e]
      exact ⟨_, _, _, rfl⟩
    · exact ⟨s.hasId, s.timer, s.current, rfl⟩
  · obtain ⟨b, t, e⟩ := disposeChecker_eq s
    exact ⟨b, t, 0, e⟩

/-- a session begins -/
theorem Inv.established {s : State} {tr : List Out} (h : Inv s tr) : Inv (established s) tr := by
  unfold Checker.established
  obtain ⟨b, t, c, e⟩ := startChecker_eq { s with count := s.count + 1, heard := s.count :: s.heard, leaders := s.count :: s.leaders }
  rw [e]
  have hfresh : s.heard.count s.count = 0 := by
    have := h.each s.count
    rw [if_neg (Nat.lt_irrefl _)] at this
    omega
  refine ⟨?_, ?_, ?_, h.safe⟩
  · intro id
    have := h.each id
    show (s.count :: s.heard).count id + s.finished.count id + (freed tr).count id = if id < s.count + 1 then 1 else 0
    by_cases hi : id = s.count
    · subst hi
      rw [List.count_cons_self, if_pos (Nat.lt_succ_self _)]
      rw [if_neg (Nat.lt_irrefl _)] at this
      omega
    · rw [List.count_cons_of_ne (fun e => hi e.symm), this]
      by_cases hl : id < s.count
      · rw [if_pos hl, if_pos (by omega)]
      · rw [if_neg hl, if_neg (by omega)]
  · refine List.nodup_cons.mpr ⟨fun hm => ?_, h.nodup⟩
    have := h.sub _ hm
    rw [List.count_eq_zero] at hfresh
    exact hfresh this
  · intro id hm
    rcases List.mem_cons.mp hm with rfl | hm
    · exact List.mem_cons_self ..
    · exact List.mem_cons_of_mem _ (h.sub id hm)

theorem count_move {heard finished : List Nat} {id i : Nat} (hm : id ∈ heard) :
    (heard.erase id).count i + (id :: finished).count i = heard.count i + finished.count i := by
  by_cases hi : i = id
  · subst hi
    have : 0 < heard.count i := List.count_pos_iff.mpr hm
    rw [List.count_erase_self, List.count_cons_self]
    omega
  · rw [List.count_erase_of_ne hi, List.count_cons_of_ne (fun e => hi e.symm)]

theorem heard_once {s : State} {tr : List Out} (h : Inv s tr) (id : Nat) : s.heard.count id ≤ 1 := by
  have := h.each id
  have : (if id < s.count then 1 else 0) ≤ 1 := by split <;> decide
  omega

/-- a leader has finished and is no more among the leaders -/
theorem Inv.finish {s : State} {tr : List Out} (h : Inv s tr) {id : Nat} (hm : id ∈ s.heard) :
    Inv { s with heard := s.heard.erase id, leaders := s.leaders.erase id, finished := id :: s.finished } tr := by
  refine ⟨?_, h.nodup.erase id, ?_, h.safe⟩
  · intro i
    have := h.each i
    have := count_move (finished := s.finished) (i := i) hm
    show (s.heard.erase id).count i + (id :: s.finished).count i + (freed tr).count i = if i < s.count then 1 else 0
    omega
  · intro i hi
    have hne : i ≠ id := fun e => by
      subst e
      exact (List.Nodup.not_mem_erase h.nodup) hi
    exact (List.mem_erase_of_ne hne).mpr (h.sub i (List.mem_of_mem_erase hi))

theorem Inv.finished {s : State} {tr : List Out} (h : Inv s tr) (id : Nat) : Inv (leaderFinished s id) tr := by
  unfold leaderFinished
  split
  · exact h
  · next hm =>
    rw [Classical.not_not] at hm
    have h1 := h.finish hm
    dsimp only
    by_cases hl : id ∈ s.leaders
    · rw [if_pos hl]
      generalize (if s.next = some id then after id s.leaders else s.next) = nx
      split
      · next he =>
        obtain ⟨b, t, e⟩ := disposeChecker_eq { s with heard := s.heard.erase id, next := nx, leaders := s.leaders.erase id }
        rw [e]
        exact h1.timers _ _ _ _ _
      · exact h1.timers _ _ _ _ _
    · rw [if_neg hl]
      rw [List.erase_of_not_mem hl] at h1
      split
      · obtain ⟨b, t, e⟩ := disposeChecker_eq { s with heard := s.heard.erase id }
        rw [e]
        exact h1.timers _ _ _ _ _
      · exact h1

/-- what a check does -/
structure Looped (connected : Nat → Bool) (n : Nat) (before nodes : List Nat) (s s' : State) : Prop where
  leaders : s'.leaders = before ++ ((nodes.take n).filter connected ++ nodes.drop n)
  next : s'.next = (nodes.drop n).head?
  timer : s'.timer = s.timer
  hasId : s'.hasId = s.hasId
  interval : s'.interval = s.interval
  current : s'.current = s.current
  count : s'.count = s.count

theorem erase_middle {a b : List Nat} {id : Nat} (h : id ∉ a) : (a ++ id :: b).erase id = a ++ b := by
  rw [List.erase_append_right _ h, List.erase_cons_head]

theorem loop (connected atOnce : Nat → Bool) : ∀ (n : Nat) (nodes before : List Nat) (s : State) (tr : List Out), Inv s tr → s.leaders = before ++ nodes →
    Looped connected n before nodes s (checkLoop connected atOnce n nodes s).1 ∧
    (checkLoop connected atOnce n nodes s).2 = (nodes.take n).map .checked ∧ Inv (checkLoop connected atOnce n nodes s).1 tr
  | 0, nodes, before, s, tr, h, hl => by
    refine ⟨⟨?_, rfl, rfl, rfl, rfl, rfl, rfl⟩, rfl, h.timers _ _ _ _ _⟩
    show s.leaders = _
    simpa using hl
  | n + 1, [], before, s, tr, h, hl => by
    refine ⟨⟨?_, rfl, rfl, rfl, rfl, rfl, rfl⟩, rfl, h.timers _ _ _ _ _⟩
    show s.leaders = _
    simpa using hl
  | n + 1, id :: nodes, before, s, tr, h, hl => by
    have hnd := h.nodup
    rw [hl] at hnd
    have hb : id ∉ before := fun hm => (List.nodup_append.mp hnd).2.2 id hm id (List.mem_cons_self ..) rfl
    have hh : id ∈ s.heard := h.sub id (by rw [hl]; simp)
    unfold checkLoop
    dsimp only
    cases hc : connected id
    · have he : s.leaders.erase id = before ++ nodes := by rw [hl]; exact erase_middle hb
      rw [if_neg (by decide)]
      have key : ∀ s1 : State, Inv s1 tr → s1.leaders = before ++ nodes → s1.timer = s.timer → s1.hasId = s.hasId → s1.interval = s.interval →
          s1.current = s.current → s1.count = s.count →
          Looped connected (n + 1) before (id :: nodes) s (checkLoop connected atOnce n nodes s1).1 ∧
          (Out.checked id :: (checkLoop connected atOnce n nodes s1).2) = ((id :: nodes).take (n + 1)).map .checked ∧
          Inv (checkLoop connected atOnce n nodes s1).1 tr := by
        intro s1 h1 hl1 e1 e2 e3 e4 e5
        obtain ⟨a, b, c⟩ := loop connected atOnce n nodes before s1 tr h1 hl1
        refine ⟨⟨?_, a.next, a.timer.trans e1, a.hasId.trans e2, a.interval.trans e3, a.current.trans e4, a.count.trans e5⟩, ?_, c⟩
        · rw [a.leaders, List.take_succ_cons, List.drop_succ_cons, List.filter_cons, hc]
          rfl
        · rw [b]; rfl
      split
      · exact key _ (h.finish hh) he rfl rfl rfl rfl rfl
      · refine key _ ?_ he rfl rfl rfl rfl rfl
        exact ⟨h.each, h.nodup.erase id, fun i hi => h.sub i (List.mem_of_mem_erase hi), h.safe⟩
    · rw [if_pos rfl]
      obtain ⟨a, b, c⟩ := loop connected atOnce n nodes (before ++ [id]) s tr h (by rw [hl]; simp)
      refine ⟨⟨?_, a.next, a.timer, a.hasId, a.interval, a.current, a.count⟩, ?_, c⟩
      · rw [a.leaders, List.take_succ_cons, List.drop_succ_cons, List.filter_cons, hc]
        simp
      · rw [b]; rfl

theorem nodesFrom_append {a b : List Nat} {id : Nat} (h : id ∉ a) : nodesFrom id (a ++ id :: b) = id :: b := by
  induction a with
  | nil => exact if_pos rfl
  | cons x a ih =>
    show (if x = id then _ else _) = _
    rw [if_neg (fun e : x = id => h (by rw [e]; exact List.mem_cons_self ..))]
    exact ih fun hm => h (List.mem_cons_of_mem _ hm)

theorem after_append {a b : List Nat} {id : Nat} (h : id ∉ a) : after id (a ++ id :: b) = b.head? := by
  induction a with
  | nil => exact if_pos rfl
  | cons x a ih =>
    show (if x = id then _ else _) = _
    rw [if_neg (fun e : x = id => h (by rw [e]; exact List.mem_cons_self ..))]
    exact ih fun hm => h (List.mem_cons_of_mem _ hm)

/-- the nodes the next check goes through, and those before them -/
def split (a b : List Nat) : List Nat × List Nat := if b = [] then ([], a) else (a, b)

theorem split_append (a b : List Nat) : (split a b).1 ++ (split a b).2 = a ++ b := by
  unfold split
  by_cases h : b = []
  · rw [if_pos h, h]; simp
  · rw [if_neg h]

/-- one check -/
theorem checked {s : State} {tr : List Out} (h : Inv s tr) {a b : List Nat} (hl : s.leaders = a ++ b) (hn : s.next = b.head?)
    (connected atOnce : Nat → Bool) :
    let r := check s connected atOnce
    ∃ s', Looped connected perCheck (split a b).1 (split a b).2 s s' ∧ r.1 = (if s'.leaders = [] then { s' with timer := none } else s') ∧
      r.2 = ((split a b).2.take perCheck).map .checked ∧ Inv r.1 (tr ++ r.2) := by
  have key : ∀ nodes before : List Nat, s.leaders = before ++ nodes →
      let r := checkLoop connected atOnce perCheck nodes s
      let r' := (if r.1.leaders = [] then { r.1 with timer := none } else r.1, r.2)
      ∃ s', Looped connected perCheck before nodes s s' ∧ r'.1 = (if s'.leaders = [] then { s' with timer := none } else s') ∧
      r'.2 = (nodes.take perCheck).map .checked ∧ Inv r'.1 (tr ++ r'.2) := by
    intro nodes before hb
    obtain ⟨x, y, z⟩ := loop connected atOnce perCheck nodes before s tr h hb
    refine ⟨_, x, rfl, y, ?_⟩
    dsimp only
    rw [y]
    have : Inv (checkLoop connected atOnce perCheck nodes s).1 (tr ++ (nodes.take perCheck).map .checked) := by
      refine ⟨?_, z.nodup, z.sub, ?_⟩
      · rw [freed_append, freed_checked, List.append_nil]
        exact z.each
      · rw [List.mem_append]
        rintro (hm | hm)
        · exact z.safe hm
        · obtain ⟨_, _, e⟩ := List.mem_map.mp hm
          cases e
    split
    · exact this.timers _ _ _ _ _
    · exact this
  unfold check
  rw [hn]
  cases b with
  | nil =>
    have : split a [] = ([], a) := if_pos rfl
    rw [this]
    rw [List.append_nil] at hl
    have := key a [] hl
    rw [← hl] at this
    rw [← hl]
    exact this
  | cons id b =>
    have hs : split a (id :: b) = (a, id :: b) := if_neg (List.cons_ne_nil _ _)
    rw [hs]
    have hnd := h.nodup
    rw [hl] at hnd
    have ha : id ∉ a := fun hm => (List.nodup_append.mp hnd).2.2 id hm id (List.mem_cons_self ..) rfl
    have hm : id ∈ s.leaders := by rw [hl]; simp
    dsimp only [List.head?_cons]
    rw [if_pos hm]
    have : nodesFrom id s.leaders = id :: b := by rw [hl]; exact nodesFrom_append ha
    rw [this]
    exact key (id :: b) a hl

/-- the pointer when a leader finishes outside of a check -/
theorem finished_split {s : State} {tr : List Out} (h : Inv s tr) {a b : List Nat} (hl : s.leaders = a ++ b) (hn : s.next = b.head?) {id : Nat}
    (hm : id ∈ s.heard) :
    (leaderFinished s id).leaders = a.erase id ++ b.erase id ∧ (leaderFinished s id).next = (b.erase id).head? ∧
    (leaderFinished s id).interval = s.interval ∧ ((leaderFinished s id).leaders ≠ [] → (leaderFinished s id).timer = s.timer) := by
  have hnd := h.nodup
  rw [hl, List.nodup_append] at hnd
  have he : s.leaders.erase id = a.erase id ++ b.erase id := by
    rw [hl]
    by_cases ha : id ∈ a
    · have hb : id ∉ b := fun hb => hnd.2.2 id ha id hb rfl
      rw [List.erase_append_left _ ha, List.erase_of_not_mem hb]
    · rw [List.erase_append_right _ ha, List.erase_of_not_mem ha]
  have hnx : id ∈ s.leaders → (if s.next = some id then after id s.leaders else s.next) = (b.erase id).head? := by
    intro hil
    rw [hn]
    cases b with
    | nil => rfl
    | cons x b =>
      by_cases hx : x = id
      · subst hx
        have hxa : x ∉ a := fun ha => hnd.2.2 x ha x (List.mem_cons_self ..) rfl
        rw [List.head?_cons, if_pos rfl, List.erase_cons_head, hl, after_append hxa]
      · rw [List.head?_cons, if_neg (by simpa using hx), List.erase_cons_tail (by simpa using hx)]
        rfl
  unfold leaderFinished
  rw [if_neg (Classical.not_not.mpr hm)]
  dsimp only
  by_cases hil : id ∈ s.leaders
  · rw [if_pos hil]
    dsimp only
    split
    · next hnil =>
      obtain ⟨x, t, e⟩ := disposeChecker_eq { s with heard := s.heard.erase id, next := if s.next = some id then after id s.leaders else s.next, leaders := s.leaders.erase id }
      rw [e]
      exact ⟨he, hnx hil, rfl, fun hx => absurd hnil hx⟩
    · exact ⟨he, hnx hil, rfl, fun _ => rfl⟩
  · rw [if_neg hil]
    rw [List.erase_of_not_mem hil] at he
    have hb : id ∉ b := fun hb => hil (by rw [hl]; exact List.mem_append_right _ hb)
    dsimp only
    split
    · next hnil =>
      obtain ⟨x, t, e⟩ := disposeChecker_eq { s with heard := s.heard.erase id }
      rw [e]
      refine ⟨he, ?_, rfl, fun hx => absurd hnil hx⟩
      rw [List.erase_of_not_mem hb]; exact hn
    · refine ⟨he, ?_, rfl, fun _ => rfl⟩
      rw [List.erase_of_not_mem hb]; exact hn

theorem established_split {s : State} {a b : List Nat} (hl : s.leaders = a ++ b) (hn : s.next = b.head?) :
    (established s).leaders = (s.count :: a) ++ b ∧ (established s).next = b.head? := by
  unfold established
  obtain ⟨x, t, c, e⟩ := startChecker_eq { s with count := s.count + 1, heard := s.count :: s.heard, leaders := s.count :: s.leaders }
  rw [e]
  exact ⟨by show s.count :: s.leaders = _; rw [hl]; rfl, hn⟩

theorem Inv.step {s : State} {tr : List Out} (h : Inv s tr) (hp : Points s) (op : Op) :
    Inv (step s op).1 (tr ++ (step s op).2) ∧ Points (step s op).1 := by
  obtain ⟨a, b, hl, hn⟩ := hp
  cases op with
  | established =>
    refine ⟨?_, _, _, (established_split hl hn).1, (established_split hl hn).2⟩
    show Inv _ (tr ++ [])
    rw [List.append_nil]
    exact h.established
  | finished id =>
    constructor
    · show Inv _ (tr ++ [])
      rw [List.append_nil]
      exact h.finished id
    · by_cases hm : id ∈ s.heard
      · have := finished_split h hl hn hm
        exact ⟨_, _, this.1, this.2.1⟩
      · have : leaderFinished s id = s := if_pos hm
        show Points (leaderFinished s id)
        rw [this]
        exact ⟨a, b, hl, hn⟩
  | check c o =>
    unfold Checker.step
    dsimp only
    split
    · obtain ⟨s', x, y, z, w⟩ := checked h hl hn c o
      refine ⟨w, (split a b).1 ++ ((split a b).2.take perCheck).filter c, (split a b).2.drop perCheck, ?_, ?_⟩
      · have : (check s c o).1.leaders = s'.leaders := by rw [y]; split <;> rfl
        rw [this, x.leaders, List.append_assoc]
      · have : (check s c o).1.next = s'.next := by rw [y]; split <;> rfl
        rw [this, x.next]
    · rw [List.append_nil]
      exact ⟨h, a, b, hl, hn⟩
  | disposed =>
    refine ⟨⟨?_, h.nodup, h.sub, ?_⟩, a, b, hl, hn⟩
    · intro id
      have := h.each id
      show s.heard.count id + ([] : List Nat).count id + (freed (tr ++ s.finished.map .freed)).count id = if id < s.count then 1 else 0
      rw [freed_append, freed_map, List.count_append, List.count_nil]
      omega
    · show _ ∉ tr ++ s.finished.map .freed
      rw [List.mem_append]
      rintro (hm | hm)
      · exact h.safe hm
      · obtain ⟨_, _, e⟩ := List.mem_map.mp hm
        cases e
  | configure i =>
    refine ⟨?_, a, b, hl, hn⟩
    show Inv _ (tr ++ [])
    rw [List.append_nil]
    exact h.timers _ _ _ _ _

theorem Inv.run {ops : List Op} : ∀ {s : State} {tr : List Out}, Inv s tr → Points s → Inv (run s ops).1 (tr ++ (run s ops).2) ∧ Points (run s ops).1 := by
  induction ops with
  | nil => intro s tr h hp; show Inv s (tr ++ []) ∧ _; rw [List.append_nil]; exact ⟨h, hp⟩
  | cons op ops ih =>
    intro s tr h hp
    show Inv (Checker.run (Checker.step s op).1 ops).1 (tr ++ ((Checker.step s op).2 ++ _)) ∧ Points (Checker.run (Checker.step s op).1 ops).1
    rw [← List.append_assoc]
    exact ih (h.step hp op).1 (h.step hp op).2

theorem Inv.init : Inv {} [] := ⟨fun _ => by simp [freed], List.nodup_nil, fun _ h => (nomatch h), fun h => (nomatch h)⟩
theorem points_init : Points {} := ⟨[], [], rfl, rfl⟩

theorem reached (ops : List Op) : Inv (Checker.run {} ops).1 (Checker.run {} ops).2 ∧ Points (Checker.run {} ops).1 := by
  have := Inv.init.run (ops := ops) points_init
  rwa [List.nil_append] at this

theorem count_step (s : State) (hp : Points s) {tr : List Out} (h : Inv s tr) (op : Op) : (step s op).1.count = s.count + begun [op] := by
  cases op with
  | established =>
    obtain ⟨b, t, c, e⟩ := startChecker_eq { s with count := s.count + 1, heard := s.count :: s.heard, leaders := s.count :: s.leaders }
    show (Checker.established s).count = _
    unfold Checker.established
    rw [e]
    rfl
  | finished id =>
    show (leaderFinished s id).count = s.count
    unfold leaderFinished
    split
    · rfl
    · dsimp only
      generalize (if s.next = some id then after id s.leaders else s.next) = nx
      split
      · split
        · obtain ⟨b, t, e⟩ := disposeChecker_eq { s with heard := s.heard.erase id, next := nx, leaders := s.leaders.erase id }
          rw [e]
        · rfl
      · split
        · obtain ⟨b, t, e⟩ := disposeChecker_eq { s with heard := s.heard.erase id }
          rw [e]
        · rfl
  | check c o =>
    unfold Checker.step
    dsimp only
    split
    · obtain ⟨a, b, hl, hn⟩ := hp
      obtain ⟨s', x, y, _, _⟩ := checked h hl hn c o
      rw [y]
      have : (if s'.leaders = [] then { s' with timer := none } else s').count = s'.count := by split <;> rfl
      rw [this]
      exact x.count
    · rfl
  | disposed => rfl
  | configure i => rfl

theorem begun_cons (op : Op) (ops : List Op) : begun (op :: ops) = begun [op] + begun ops := by
  cases op <;> simp [begun]
  omega

theorem count_run {ops : List Op} : ∀ {s : State} {tr : List Out}, Inv s tr → Points s → (run s ops).1.count = s.count + begun ops := by
  induction ops with
  | nil => intro s tr _ _; rfl
  | cons op ops ih =>
    intro s tr h hp
    show (Checker.run (Checker.step s op).1 ops).1.count = _
    rw [ih (h.step hp op).1 (h.step hp op).2, count_step s hp h, begun_cons op ops]
    omega

theorem loop_heard (connected atOnce : Nat → Bool) : ∀ (n : Nat) (nodes : List Nat) (s : State) (id : Nat), id ∈ s.heard →
    id ∉ (checkLoop connected atOnce n nodes s).1.heard → connected id = false ∧ atOnce id = true
  | 0, _, _, _, h, h' => absurd h h'
  | _ + 1, [], _, _, h, h' => absurd h h'
  | n + 1, x :: nodes, s, id, h, h' => by
    unfold checkLoop at h'
    dsimp only at h'
    cases hc : connected x
    · rw [hc, if_neg (by decide)] at h'
      by_cases ho : atOnce x = true ∧ x ∈ s.heard
      · rw [if_pos ho] at h'
        by_cases hx : id = x
        · subst hx; exact ⟨hc, ho.1⟩
        · exact loop_heard connected atOnce n nodes _ id ((List.mem_erase_of_ne hx).mpr h) h'
      · rw [if_neg ho] at h'
        exact loop_heard connected atOnce n nodes { s with leaders := s.leaders.erase x } id h h'
    · rw [hc, if_pos rfl] at h'
      exact loop_heard connected atOnce n nodes s id h h'

theorem finished_heard (s : State) (id : Nat) : (leaderFinished s id).heard = s.heard.erase id := by
  unfold leaderFinished
  split
  · next h => exact (List.erase_of_not_mem h).symm
  · dsimp only
    generalize (if s.next = some id then after id s.leaders else s.next) = nx
    split
    · split
      · obtain ⟨b, t, e⟩ := disposeChecker_eq { s with heard := s.heard.erase id, next := nx, leaders := s.leaders.erase id }
        rw [e]
      · rfl
    · split
      · obtain ⟨b, t, e⟩ := disposeChecker_eq { s with heard := s.heard.erase id }
        rw [e]
      · rfl

/-- who is no more heard after one event -/
theorem step_heard (s : State) (op : Op) (id : Nat) (h : id ∈ s.heard) (h' : id ∉ (step s op).1.heard) : Said id [op] := by
  cases op with
  | established =>
    obtain ⟨b, t, c, e⟩ := startChecker_eq { s with count := s.count + 1, heard := s.count :: s.heard, leaders := s.count :: s.leaders }
    refine absurd ?_ h'
    show id ∈ (Checker.established s).heard
    unfold Checker.established
    rw [e]
    exact List.mem_cons_of_mem _ h
  | finished i =>
    change id ∉ (leaderFinished s i).heard at h'
    rw [finished_heard] at h'
    by_cases hi : id = i
    · subst hi; exact .inl (List.mem_singleton.mpr rfl)
    · exact absurd ((List.mem_erase_of_ne hi).mpr h) h'
  | check c o =>
    refine .inr ⟨c, o, List.mem_singleton.mpr rfl, ?_⟩
    have key : ∀ nodes, id ∉ (if (checkLoop c o perCheck nodes s).1.leaders = [] then { (checkLoop c o perCheck nodes s).1 with timer := none } else (checkLoop c o perCheck nodes s).1).heard →
        c id = false ∧ o id = true := by
      intro nodes hn
      refine loop_heard c o perCheck nodes s id h ?_
      split at hn
      · exact hn
      · exact hn
    unfold Checker.step at h'
    dsimp only at h'
    split at h'
    · unfold check at h'
      split at h'
      · exact key _ h'
      · split at h'
        · exact key _ h'
        · exact absurd h h'
    · exact absurd h h'
  | disposed => exact absurd h h'
  | configure i => exact absurd h h'

theorem said_mono {id : Nat} {a b : List Op} (h : Said id a) (hs : ∀ op ∈ a, op ∈ b) : Said id b := by
  rcases h with h | ⟨c, o, hm, h⟩
  · exact .inl (hs _ h)
  · exact .inr ⟨c, o, hs _ hm, h⟩

/-- who began and is no more heard has said so -/
theorem said_run {ops : List Op} : ∀ {s : State} {tr : List Out} {past : List Op}, Inv s tr → Points s →
    (∀ id < s.count, id ∉ s.heard → Said id past) → ∀ id < (run s ops).1.count, id ∉ (run s ops).1.heard → Said id (past ++ ops) := by
  induction ops with
  | nil => intro s tr past _ _ h; rw [List.append_nil]; exact h
  | cons op ops ih =>
    intro s tr past h hp hs
    rw [List.append_cons]
    refine ih (s := (step s op).1) (past := past ++ [op]) (h.step hp op).1 (h.step hp op).2 ?_
    intro id hlt hn
    by_cases hh : id ∈ s.heard
    · exact said_mono (step_heard s op id hh hn) fun o ho => List.mem_append_right _ ho
    · by_cases hc : id < s.count
      · exact said_mono (hs id hc hh) fun o ho => List.mem_append_left _ ho
      · exfalso
        cases op with
        | established =>
          obtain ⟨b, t, c, e⟩ := startChecker_eq { s with count := s.count + 1, heard := s.count :: s.heard, leaders := s.count :: s.leaders }
          change id ∉ (Checker.established s).heard at hn
          rw [count_step s hp h] at hlt
          unfold Checker.established at hn
          rw [e] at hn
          change id ∉ s.count :: s.heard at hn
          change id < s.count + 1 at hlt
          have : id = s.count := by omega
          subst this
          exact hn (List.mem_cons_self ..)
        | _ =>
          rw [count_step s hp h] at hlt
          exact hc hlt

/-- only leaders which are heard are checked -/
theorem step_checked {s : State} {tr : List Out} (h : Inv s tr) (hp : Points s) (op : Op) (id : Nat) (hc : .checked id ∈ (step s op).2) : id ∈ s.heard := by
  cases op with
  | established => cases hc
  | finished i => cases hc
  | check c o =>
    unfold step at hc
    dsimp only at hc
    split at hc
    · obtain ⟨a, b, hl, hn⟩ := hp
      obtain ⟨s', x, y, z, _⟩ := checked h hl hn c o
      rw [z] at hc
      obtain ⟨i, hi, e⟩ := List.mem_map.mp hc
      cases e
      refine h.sub id ?_
      rw [hl, ← split_append]
      exact List.mem_append_right _ (List.mem_of_mem_take hi)
    · cases hc
  | disposed =>
    obtain ⟨_, _, e⟩ := List.mem_map.mp hc
    cases e
  | configure i => cases hc

/-- who has begun and is no more heard is never heard again -/
theorem step_silent {s : State} {tr : List Out} (h : Inv s tr) (hp : Points s) (op : Op) (id : Nat) (hlt : id < s.count) (hn : id ∉ s.heard) :
    id < (step s op).1.count ∧ id ∉ (step s op).1.heard := by
  refine ⟨by rw [count_step s hp h]; omega, ?_⟩
  have h' := (h.step hp op).1.each id
  have h0 := h.each id
  have hc : s.heard.count id = 0 := List.count_eq_zero.mpr hn
  rw [if_pos hlt] at h0
  rw [if_pos (by rw [count_step s hp h]; omega)] at h'
  rw [← List.count_eq_zero]
  suffices s.finished.count id + (freed tr).count id ≤ (step s op).1.finished.count id + (freed (tr ++ (step s op).2)).count id by omega
  have mono : (freed tr).count id ≤ (freed (tr ++ (step s op).2)).count id := by
    rw [freed_append, List.count_append]; omega
  have fin : ∀ (i : Nat), s.finished.count id ≤ (leaderFinished s i).finished.count id := by
    intro i
    unfold leaderFinished
    split
    · exact Nat.le_refl _
    · dsimp only
      generalize (if s.next = some i then after i s.leaders else s.next) = nx
      have hx : ∀ l : List Nat, l = s.finished → s.finished.count id ≤ (i :: l).count id := by
        rintro _ rfl
        rw [List.count_cons]; omega
      apply hx
      split
      · split
        · obtain ⟨b, t, e⟩ := disposeChecker_eq { s with heard := s.heard.erase i, next := nx, leaders := s.leaders.erase i }
          rw [e]
        · rfl
      · split
        · obtain ⟨b, t, e⟩ := disposeChecker_eq { s with heard := s.heard.erase i }
          rw [e]
        · rfl
  have loop : ∀ (c o : Nat → Bool) (n : Nat) (nodes : List Nat) (s : State), s.finished.count id ≤ (checkLoop c o n nodes s).1.finished.count id := by
    intro c o n
    induction n with
    | zero => intro nodes s; exact Nat.le_refl _
    | succ n ih =>
      intro nodes s
      cases nodes with
      | nil => exact Nat.le_refl _
      | cons x nodes =>
        unfold checkLoop
        dsimp only
        refine Nat.le_trans ?_ (ih nodes _)
        split
        · exact Nat.le_refl _
        · split
          · show _ ≤ (x :: s.finished).count id
            rw [List.count_cons]; omega
          · exact Nat.le_refl _
  cases op with
  | established =>
    obtain ⟨b, t, c, e⟩ := startChecker_eq { s with count := s.count + 1, heard := s.count :: s.heard, leaders := s.count :: s.leaders }
    have : (Checker.established s).finished = s.finished := by unfold Checker.established; rw [e]
    show _ ≤ (Checker.established s).finished.count id + _
    rw [this]
    omega
  | finished i =>
    have := fin i
    show _ ≤ (leaderFinished s i).finished.count id + _
    omega
  | check c o =>
    have : s.finished.count id ≤ (step s (.check c o)).1.finished.count id := by
      unfold Checker.step
      dsimp only
      split
      · unfold check
        split
        · refine Nat.le_trans (loop c o perCheck s.leaders s) ?_
          dsimp only
          split <;> exact Nat.le_refl _
        · split
          · next i _ _ =>
            refine Nat.le_trans (loop c o perCheck (nodesFrom i s.leaders) s) ?_
            dsimp only
            split <;> exact Nat.le_refl _
          · exact Nat.le_refl _
      · exact Nat.le_refl _
    omega
  | disposed =>
    show _ ≤ ([] : List Nat).count id + (freed (tr ++ s.finished.map .freed)).count id
    rw [freed_append, freed_map, List.count_append]
    omega
  | configure i =>
    show _ ≤ s.finished.count id + _
    omega

theorem silent_run {ops : List Op} : ∀ {s : State} {tr : List Out}, Inv s tr → Points s → ∀ id, id < s.count → id ∉ s.heard →
    .checked id ∉ (run s ops).2 := by
  induction ops with
  | nil => intro s tr _ _ id _ _ h; cases h
  | cons op ops ih =>
    intro s tr h hp id hlt hn hm
    rcases List.mem_append.mp (show _ ∈ (step s op).2 ++ (run (step s op).1 ops).2 from hm) with hm | hm
    · exact hn (step_checked h hp op id hm)
    · have := step_silent h hp op id hlt hn
      exact ih (h.step hp op).1 (h.step hp op).2 id this.1 this.2 hm

theorem run_append (s : State) (a b : List Op) : run s (a ++ b) = ((run (run s a).1 b).1, (run s a).2 ++ (run (run s a).1 b).2) := by
  induction a generalizing s with
  | nil => rfl
  | cons op a ih =>
    show ((run (step s op).1 (a ++ b)).1, (step s op).2 ++ (run (step s op).1 (a ++ b)).2) = _
    rw [ih]
    show (_, _ ++ (_ ++ _)) = ((run (run (step s op).1 a).1 b).1, ((step s op).2 ++ (run (step s op).1 a).2) ++ (run (run (step s op).1 a).1 b).2)
    rw [List.append_assoc]

/-- the session of a leader which stays is among the leaders -/
theorem stays_step {s : State} {tr : List Out} (h : Inv s tr) (hp : Points s) (op : Op) (id : Nat) (hm : id ∈ s.leaders) (hf : op ≠ .finished id)
    (hc : ∀ c o, op = .check c o → .checked id ∈ (step s op).2 → c id = true) : id ∈ (step s op).1.leaders := by
  obtain ⟨a, b, hl, hn⟩ := hp
  cases op with
  | established =>
    show id ∈ (Checker.established s).leaders
    rw [(established_split hl hn).1, List.cons_append, ← hl]
    exact List.mem_cons_of_mem _ hm
  | finished i =>
    have hi : id ≠ i := fun e => hf (by rw [e])
    show id ∈ (leaderFinished s i).leaders
    by_cases hh : i ∈ s.heard
    · rw [(finished_split h hl hn hh).1]
      rw [hl] at hm
      rcases List.mem_append.mp hm with hm | hm
      · exact List.mem_append_left _ ((List.mem_erase_of_ne hi).mpr hm)
      · exact List.mem_append_right _ ((List.mem_erase_of_ne hi).mpr hm)
    · unfold leaderFinished
      rw [if_pos hh]
      exact hm
  | check c o =>
    have hc := hc c o rfl
    unfold Checker.step at hc ⊢
    dsimp only at hc ⊢
    split
    · next ht =>
      rw [if_pos ht] at hc
      obtain ⟨s', x, y, z, _⟩ := checked h hl hn c o
      rw [y]
      rw [z] at hc
      have hx : (if s'.leaders = [] then { s' with timer := none } else s').leaders = s'.leaders := by split <;> rfl
      rw [hx, x.leaders]
      rw [hl, ← split_append] at hm
      rcases List.mem_append.mp hm with hm | hm
      · exact List.mem_append_left _ hm
      · refine List.mem_append_right _ ?_
        rw [← List.take_append_drop perCheck (split a b).2] at hm
        rcases List.mem_append.mp hm with hm | hm
        · exact List.mem_append_left _ (List.mem_filter.mpr ⟨hm, hc (List.mem_map.mpr ⟨id, hm, rfl⟩)⟩)
        · exact List.mem_append_right _ hm
    · exact hm
  | disposed => exact hm
  | configure i => exact hm

/-- the timer goes on while there is a leader -/
theorem timer_step {s : State} {tr : List Out} (h : Inv s tr) (hp : Points s) (op : Op) (hc : ∀ i, op ≠ .configure i) (hi : 0 < s.interval)
    (ht : s.timer.isSome) (hl' : (step s op).1.leaders ≠ []) : (step s op).1.interval = s.interval ∧ (step s op).1.timer.isSome := by
  obtain ⟨a, b, hl, hn⟩ := hp
  cases op with
  | established =>
    show (Checker.established s).interval = _ ∧ (Checker.established s).timer.isSome
    unfold Checker.established startChecker
    rw [if_pos (show 0 < ({ s with count := s.count + 1, heard := s.count :: s.heard, leaders := s.count :: s.leaders } : State).interval from hi)]
    split
    · obtain ⟨x, t, e⟩ := disposeChecker_eq { s with count := s.count + 1, heard := s.count :: s.heard, leaders := s.count :: s.leaders }
      rw [e]
      exact ⟨rfl, rfl⟩
    · exact ⟨rfl, ht⟩
  | finished i =>
    by_cases hh : i ∈ s.heard
    · obtain ⟨_, _, hx, hy⟩ := finished_split h hl hn hh
      refine ⟨hx, ?_⟩
      rw [show (Checker.step s (.finished i)).1.timer = _ from hy hl']
      exact ht
    · show (leaderFinished s i).interval = _ ∧ (leaderFinished s i).timer.isSome
      unfold leaderFinished
      rw [if_pos hh]
      exact ⟨rfl, ht⟩
  | check c o =>
    unfold Checker.step at hl' ⊢
    dsimp only at hl' ⊢
    rw [if_pos ht] at hl' ⊢
    obtain ⟨s', x, y, z, _⟩ := checked h hl hn c o
    rw [y] at hl' ⊢
    have hne : s'.leaders ≠ [] := by
      intro e
      rw [if_pos e] at hl'
      exact hl' e
    rw [if_neg hne, x.interval, x.timer]
    exact ⟨rfl, ht⟩
  | disposed => exact ⟨rfl, ht⟩
  | configure i => exact absurd rfl (hc i)

theorem length_erase_le (l : List Nat) (i : Nat) : (l.erase i).length ≤ l.length := List.length_erase_le

/-- how many checks the leader has to wait for, at most -/
def Due (id : Nat) (a b : List Nat) (more k : Nat) : Prop :=
  (∃ b1 b2, b = b1 ++ id :: b2 ∧ b1.length / 30 + 1 ≤ k) ∨ (id ∈ a ∧ (b.length + 29) / 30 + (a.length + b.length + more - 1) / 30 + 1 ≤ k)

theorem due_run {ops : List Op} {id : Nat} : ∀ {s : State} {tr : List Out} {a b : List Nat}, Inv s tr → s.leaders = a ++ b → s.next = b.head? →
    0 < s.interval → s.timer.isSome → Steady ops → .finished id ∉ ops → Due id a b (begun ops) (checks ops) → .checked id ∈ (run s ops).2 := by
  induction ops with
  | nil =>
    intro s tr a b _ _ _ _ _ _ _ hd
    rcases hd with ⟨_, _, _, h⟩ | ⟨_, h⟩
    · exact absurd h (by show ¬ _ ≤ 0; omega)
    · exact absurd h (by show ¬ _ ≤ 0; omega)
  | cons op ops ih =>
    intro s tr a b h hl hn hi ht hs hf hd
    have hs' : Steady ops := fun i hm => hs i (List.mem_cons_of_mem _ hm)
    have hf' : .finished id ∉ ops := fun hm => hf (List.mem_cons_of_mem _ hm)
    show _ ∈ (Checker.step s op).2 ++ (Checker.run (Checker.step s op).1 ops).2
    by_cases hnow : .checked id ∈ (Checker.step s op).2
    · exact List.mem_append_left _ hnow
    refine List.mem_append_right _ ?_
    have hm : id ∈ s.leaders := by
      rw [hl]
      rcases hd with ⟨b1, b2, e, _⟩ | ⟨hm, _⟩
      · rw [e]; simp
      · exact List.mem_append_left _ hm
    have hp : Points s := ⟨a, b, hl, hn⟩
    have hm' := stays_step h hp op id hm (fun e => hf (by rw [e]; exact List.mem_cons_self ..)) (fun _ _ _ hx => absurd hx hnow)
    have htm := timer_step h hp op (fun i e => hs i (by rw [e]; exact List.mem_cons_self ..)) hi ht (List.ne_nil_of_mem hm')
    have hinv := (h.step hp op).1
    have hi' : 0 < (Checker.step s op).1.interval := by rw [htm.1]; exact hi
    have next : ∀ {a' b' : List Nat}, (Checker.step s op).1.leaders = a' ++ b' → (Checker.step s op).1.next = b'.head? →
        Due id a' b' (begun ops) (checks ops) → .checked id ∈ (Checker.run (Checker.step s op).1 ops).2 :=
      fun hl' hn' hd' => ih hinv hl' hn' hi' htm.2 hs' hf' hd'
    cases op with
    | established =>
      obtain ⟨x, y⟩ := established_split hl hn
      refine next x y ?_
      rcases hd with hd | ⟨hm, hd⟩
      · exact .inl hd
      · refine .inr ⟨List.mem_cons_of_mem _ hm, ?_⟩
        change _ + (a.length + b.length + (begun ops + 1) - 1) / 30 + 1 ≤ checks ops at hd
        rw [List.length_cons]
        omega
    | finished i =>
      have hne : id ≠ i := fun e => hf (by rw [e]; exact List.mem_cons_self ..)
      by_cases hh : i ∈ s.heard
      · obtain ⟨x, y, _, _⟩ := finished_split h hl hn hh
        refine next x y ?_
        rcases hd with ⟨b1, b2, e, hd⟩ | ⟨hm, hd⟩
        · left
          have hlen := length_erase_le b1 i
          change _ ≤ checks ops at hd
          by_cases h1 : i ∈ b1
          · exact ⟨b1.erase i, b2, by rw [e, List.erase_append_left _ h1], by omega⟩
          · exact ⟨b1, b2.erase i, by rw [e, List.erase_append_right _ h1, List.erase_cons_tail (by simpa using hne)], hd⟩
        · refine .inr ⟨(List.mem_erase_of_ne hne).mpr hm, ?_⟩
          have h1 := length_erase_le a i
          have h2 := length_erase_le b i
          change _ + (a.length + b.length + begun ops - 1) / 30 + 1 ≤ checks ops at hd
          omega
      · have e : (Checker.step s (.finished i)).1 = s := if_pos hh
        refine next (a' := a) (b' := b) (by rw [e]; exact hl) (by rw [e]; exact hn) hd
    | check c o =>
      obtain ⟨s', x, y, z, _⟩ := checked h hl hn c o
      have e1 : (Checker.step s (.check c o)).1 = (if s'.leaders = [] then { s' with timer := none } else s') := by
        rw [← y]; unfold Checker.step; dsimp only; rw [if_pos ht]
      have e2 : (Checker.step s (.check c o)).2 = ((split a b).2.take perCheck).map .checked := by
        rw [← z]; unfold Checker.step; dsimp only; rw [if_pos ht]
      have hlead : (Checker.step s (.check c o)).1.leaders = ((split a b).1 ++ ((split a b).2.take perCheck).filter c) ++ (split a b).2.drop perCheck := by
        rw [e1, List.append_assoc, ← x.leaders]; split <;> rfl
      have hnext : (Checker.step s (.check c o)).1.next = ((split a b).2.drop perCheck).head? := by
        rw [e1, ← x.next]; split <;> rfl
      rw [e2] at hnow
      have hnow' : id ∉ (split a b).2.take 30 := fun hm => hnow (List.mem_map.mpr ⟨id, hm, rfl⟩)
      refine next hlead hnext ?_
      have hfl : ∀ l : List Nat, (l.filter c).length ≤ l.length := fun l => List.length_filter_le c l
      have front : ∀ b1 b2 : List Nat, (split a b).2 = b1 ++ id :: b2 → 30 ≤ b1.length ∧ (split a b).2.drop 30 = b1.drop 30 ++ id :: b2 := by
        intro b1 b2 e
        have : 30 ≤ b1.length := by
          refine Classical.byContradiction fun hlt => hnow' ?_
          rw [e, List.take_append, List.mem_append]
          right
          rw [show 30 - b1.length = (29 - b1.length) + 1 by omega, List.take_succ_cons]
          exact List.mem_cons_self ..
        refine ⟨this, ?_⟩
        rw [e, List.drop_append, show 30 - b1.length = 0 by omega]
        rfl
      rcases hd with ⟨b1, b2, e, hd⟩ | ⟨hm, hd⟩
      · have hb : split a b = (a, b) := if_neg (by rw [e]; simp)
        obtain ⟨h30, ed⟩ := front b1 b2 (by rw [hb]; exact e)
        left
        refine ⟨_, _, ed, ?_⟩
        change b1.length / 30 + 1 ≤ checks ops + 1 at hd
        rw [List.length_drop]
        omega
      · change (b.length + 29) / 30 + (a.length + b.length + begun ops - 1) / 30 + 1 ≤ checks ops + 1 at hd
        by_cases hb : b = []
        · have hsp : split a b = ([], a) := if_pos hb
          obtain ⟨b1, b2, e⟩ := List.append_of_mem hm
          obtain ⟨h30, ed⟩ := front b1 b2 (by rw [hsp]; exact e)
          left
          refine ⟨_, _, ed, ?_⟩
          have : a.length = b1.length + (b2.length + 1) := by rw [e]; simp
          rw [hb] at hd
          rw [List.length_drop]
          simp only [List.length_nil] at hd
          omega
        · have hsp : split a b = (a, b) := if_neg hb
          right
          rw [hsp]
          refine ⟨List.mem_append_left _ hm, ?_⟩
          have h1 := hfl (b.take perCheck)
          have h2 : (b.take perCheck).length = min 30 b.length := List.length_take
          have h3 : (b.drop perCheck).length = b.length - 30 := List.length_drop
          have h4 : 0 < b.length := List.length_pos_iff.mpr hb
          simp only [List.length_append]
          rw [h3]
          omega
    | disposed => exact next (a' := a) (b' := b) hl hn hd
    | configure i => exact absurd (List.mem_cons_self ..) (hs i)

theorem here_run {ops : List Op} {id : Nat} : ∀ {s : State} {tr : List Out}, Inv s tr → Points s → id < s.count + begun ops → (id < s.count → id ∈ s.leaders) → Stays id ops →
    id ∈ (run s ops).1.leaders := by
  induction ops with
  | nil => intro s tr _ _ hlt h _; exact h hlt
  | cons op ops ih =>
    intro s tr h hp hlt hm hst
    have hst' : Stays id ops := fun o ho => hst o (List.mem_cons_of_mem _ ho)
    show id ∈ (Checker.run (Checker.step s op).1 ops).1.leaders
    refine ih (h.step hp op).1 (h.step hp op).2 ?_ ?_ hst'
    · rw [count_step s hp h, Nat.add_assoc, ← begun_cons]; exact hlt
    · intro hlt'
      have hop := hst op (List.mem_cons_self ..)
      by_cases hc : id < s.count
      · refine stays_step h hp op id (hm hc) ?_ ?_
        · rintro rfl; exact hop rfl
        · rintro c o rfl _; exact hop
      · rw [count_step s hp h] at hlt'
        cases op with
        | established =>
          obtain ⟨a, b, hl, hn⟩ := hp
          change id < s.count + 1 at hlt'
          show id ∈ (Checker.established s).leaders
          rw [(established_split hl hn).1, show id = s.count by omega]
          exact List.mem_cons_self ..
        | _ => exact absurd hlt' hc

/-- the timer has been set for the interval last used -/
def Timed (s : State) : Prop := ∀ t, s.timer = some t → s.hasId = true ∧ t = s.current

theorem timed_dispose {s : State} (h : Timed s) : (disposeChecker s).timer = none := by
  unfold disposeChecker
  split
  · rfl
  · next hb =>
    show s.timer = none
    rcases ht : s.timer with _ | t
    · rfl
    · exact absurd (h t ht).1 hb

theorem timed_start {s : State} (h : Timed s) : Timed (startChecker s) ∧
    (s.interval = 0 → (startChecker s).timer = none) ∧ ∀ t, (startChecker s).timer = some t → t = s.interval := by
  unfold startChecker
  split
  · next hpos =>
    split
    · refine ⟨?_, fun e => by omega, ?_⟩
      · rintro t e; cases e; exact ⟨rfl, rfl⟩
      · rintro t e; cases e; rfl
    · next hne =>
      refine ⟨h, fun e => by omega, ?_⟩
      intro t e
      have := (h t e).2
      have : s.interval = s.current := Classical.byContradiction fun hc => hne (.inr hc)
      omega
  · have := timed_dispose h
    refine ⟨?_, fun _ => this, ?_⟩
    · intro t e; rw [this] at e; cases e
    · intro t e; rw [this] at e; cases e

theorem timed_none {s : State} (h : s.timer = none) : Timed s := fun t e => by rw [h] at e; cases e

theorem timed_step {s : State} {tr : List Out} (h : Inv s tr) (hp : Points s) (ht : Timed s) (op : Op) : Timed (step s op).1 := by
  cases op with
  | established => exact (timed_start (s := { s with count := s.count + 1, heard := s.count :: s.heard, leaders := s.count :: s.leaders }) ht).1
  | finished i =>
    show Timed (leaderFinished s i)
    unfold leaderFinished
    split
    · exact ht
    · dsimp only
      generalize (if s.next = some i then after i s.leaders else s.next) = nx
      have key : ∀ (s1 : State) (l : List Nat), Timed s1 → Timed { s1 with finished := l } := fun _ _ h => h
      apply key
      split
      · split
        · refine timed_none (timed_dispose ?_); exact ht
        · exact ht
      · split
        · refine timed_none (timed_dispose ?_); exact ht
        · exact ht
  | check c o =>
    unfold Checker.step
    dsimp only
    split
    · obtain ⟨a, b, hl, hn⟩ := hp
      obtain ⟨s', x, y, _, _⟩ := checked h hl hn c o
      rw [y]
      split
      · exact timed_none rfl
      · intro t e
        rw [x.timer] at e
        rw [x.hasId, x.current]
        exact ht t e
    · exact ht
  | disposed => exact ht
  | configure i => exact ht

theorem timed_run {ops : List Op} : ∀ {s : State} {tr : List Out}, Inv s tr → Points s → Timed s → Timed (run s ops).1 := by
  induction ops with
  | nil => intro s tr _ _ h; exact h
  | cons op ops ih => intro s tr h hp ht; exact ih (h.step hp op).1 (h.step hp op).2 (timed_step h hp ht op)

/-- when the timer is there: with a leader, or else nothing is left of it -/
def Armed (s : State) : Prop := (s.leaders ≠ [] → s.timer.isSome) ∧ (s.leaders = [] → s.hasId = false)

theorem armed_step {s : State} {tr : List Out} (h : Inv s tr) (hp : Points s) (op : Op) (hc : ∀ i, op ≠ .configure i) (hi : 0 < s.interval)
    (ha : Armed s) (hx : ∀ c o, op = .check c o → s.leaders = [] ∨ (step s op).1.leaders ≠ []) :
    (step s op).1.interval = s.interval ∧ Armed (step s op).1 := by
  by_cases hl' : s.leaders = []
  · have hid := ha.2 hl'
    cases op with
    | established =>
      show (Checker.established s).interval = _ ∧ Armed (Checker.established s)
      unfold Checker.established startChecker
      rw [if_pos (show 0 < ({ s with count := s.count + 1, heard := s.count :: s.heard, leaders := s.count :: s.leaders } : State).interval from hi), if_pos (.inl hid)]
      obtain ⟨x, t, e⟩ := disposeChecker_eq { s with count := s.count + 1, heard := s.count :: s.heard, leaders := s.count :: s.leaders }
      rw [e]
      exact ⟨rfl, fun _ => rfl, fun hne => (by cases hne)⟩
    | finished i =>
      show (leaderFinished s i).interval = _ ∧ Armed (leaderFinished s i)
      unfold leaderFinished
      split
      · exact ⟨rfl, ha⟩
      · dsimp only
        rw [if_neg (show ¬ i ∈ s.leaders by rw [hl']; exact List.not_mem_nil)]
        rw [if_pos (show ({ s with heard := s.heard.erase i } : State).leaders = [] from hl')]
        unfold disposeChecker
        rw [if_neg (by simp [hid])]
        exact ⟨rfl, fun hne => absurd hl' hne, fun _ => hid⟩
    | check c o =>
      unfold Checker.step
      dsimp only
      split
      · obtain ⟨a, b, hl, hn⟩ := hp
        obtain ⟨s', x, y, _, _⟩ := checked h hl hn c o
        rw [y]
        have hnil : s'.leaders = [] := by
          have h2 : a = [] ∧ b = [] := List.append_eq_nil_iff.mp (hl.symm.trans hl')
          rw [x.leaders, h2.1, h2.2]
          rfl
        rw [if_pos hnil]
        exact ⟨x.interval, fun hne => absurd hnil hne, fun _ => x.hasId.trans hid⟩
      · exact ⟨rfl, ha⟩
    | disposed => exact ⟨rfl, ha⟩
    | configure i => exact absurd rfl (hc i)
  · have ht := ha.1 hl'
    by_cases he : (step s op).1.leaders = []
    · cases op with
      | established =>
        obtain ⟨a, b, hl, hn⟩ := hp
        change (Checker.established s).leaders = [] at he
        rw [(established_split hl hn).1] at he
        cases he
      | finished i =>
        obtain ⟨a, b, hl, hn⟩ := hp
        by_cases hh : i ∈ s.heard
        · refine ⟨(finished_split h hl hn hh).2.2.1, fun hne => absurd he hne, fun _ => ?_⟩
          change (leaderFinished s i).leaders = [] at he
          show (leaderFinished s i).hasId = false
          unfold leaderFinished at he ⊢
          rw [if_neg (Classical.not_not.mpr hh)] at he ⊢
          dsimp only at he ⊢
          generalize (if s.next = some i then after i s.leaders else s.next) = nx at he ⊢
          by_cases hm : i ∈ s.leaders
          · rw [if_pos hm] at he ⊢
            by_cases h0 : s.leaders.erase i = []
            · rw [if_pos (show ({ s with heard := s.heard.erase i, next := nx, leaders := s.leaders.erase i } : State).leaders = [] from h0)]
              unfold disposeChecker
              split
              · rfl
              · next hb => exact Bool.eq_false_iff.mpr hb
            · rw [if_neg (show ¬ ({ s with heard := s.heard.erase i, next := nx, leaders := s.leaders.erase i } : State).leaders = [] from h0)] at he
              exact absurd he h0
          · rw [if_neg hm] at he
            rw [if_neg (show ¬ ({ s with heard := s.heard.erase i } : State).leaders = [] from hl')] at he
            exact absurd he hl'
        · have e : (Checker.step s (.finished i)).1 = s := if_pos hh
          rw [e] at he
          exact absurd he hl'
      | check c o =>
        rcases hx c o rfl with h1 | h1
        · exact absurd h1 hl'
        · exact absurd he h1
      | disposed => exact absurd he hl'
      | configure i => exact absurd rfl (hc i)
    · have := timer_step h hp op hc hi ht he
      exact ⟨this.1, fun _ => this.2, fun e => absurd e he⟩

theorem armed_run {ops : List Op} : ∀ {s : State} {tr : List Out}, Inv s tr → Points s → Steady ops → 0 < s.interval → Armed s →
    (∀ before c o, before ++ [.check c o] <+: ops → (run s before).1.leaders = [] ∨ (run s (before ++ [.check c o])).1.leaders ≠ []) → Armed (run s ops).1 := by
  induction ops with
  | nil => intro s tr _ _ _ _ h _; exact h
  | cons op ops ih =>
    intro s tr h hp hs hi ha hx
    have := armed_step h hp op (fun i e => hs i (by rw [e]; exact List.mem_cons_self ..)) hi ha fun c o e => by
      subst e
      exact hx [] c o ⟨ops, rfl⟩
    refine ih (h.step hp op).1 (h.step hp op).2 (fun i hm => hs i (List.mem_cons_of_mem _ hm)) (by rw [this.1]; exact hi) this.2 ?_
    intro before c o ⟨rest, e⟩
    exact hx (op :: before) c o ⟨rest, by rw [← e]; rfl⟩

end Verif.Props.CheckerFacts

namespace Verif.Props
open Verif.Checker Verif.Spec.Checker CheckerFacts

/-- **C65**. Whatever happens to the manager, each leader is let go at most once, and not before its session has begun and the leader has said that it has
finished; and the check never follows a list node which is gone. -/
theorem C65 (ops : List Op) :
    (freed (run {} ops).2).Nodup ∧ .dangling ∉ (run {} ops).2 ∧ ∀ id ∈ freed (run {} ops).2, id < begun ops ∧ Said id ops := by
  obtain ⟨h, hp⟩ := reached ops
  have hcount : (run {} ops).1.count = begun ops := by
    rw [count_run Inv.init points_init]
    exact Nat.zero_add _
  refine ⟨?_, h.safe, ?_⟩
  · rw [List.nodup_iff_count]
    intro id
    have := h.each id
    have : (if id < (run {} ops).1.count then 1 else 0) ≤ 1 := by split <;> decide
    omega
  · intro id hm
    have hpos : 0 < (freed (run {} ops).2).count id := List.count_pos_iff.mpr hm
    have he := h.each id
    have hlt : id < (run {} ops).1.count := by
      refine Classical.byContradiction fun hn => ?_
      rw [if_neg hn] at he
      omega
    rw [if_pos hlt] at he
    have hn : id ∉ (run {} ops).1.heard := by rw [← List.count_eq_zero]; omega
    have := said_run (ops := ops) (s := {}) (tr := []) (past := []) Inv.init points_init (fun id h => (nomatch h)) id hlt hn
    exact ⟨hcount ▸ hlt, this⟩

/-- **C65**: a leader which has said that it has finished is not checked any more, and has been let go when "sessions-finished" has been signalled. -/
theorem C65_finished (ops later : List Op) (id : Nat) (h : id < begun ops) :
    .checked id ∉ (run (run {} (ops ++ [.finished id])).1 later).2 ∧ id ∈ freed (run {} (ops ++ [.finished id, .disposed])).2 := by
  obtain ⟨hi, hp⟩ := reached (ops ++ [.finished id])
  have hcount : (run {} (ops ++ [.finished id])).1.count = begun ops := by
    rw [run_append]
    show (leaderFinished (run {} ops).1 id).count = _
    have := count_step (run {} ops).1 (reached ops).2 (reached ops).1 (.finished id)
    rw [show (leaderFinished (run {} ops).1 id).count = _ from this, count_run Inv.init points_init]
    exact Nat.zero_add _
  have hn : id ∉ (run {} (ops ++ [.finished id])).1.heard := by
    rw [run_append]
    show id ∉ (leaderFinished (run {} ops).1 id).heard
    rw [finished_heard, ← List.count_eq_zero, List.count_erase_self]
    have := heard_once (reached ops).1 id
    omega
  refine ⟨silent_run hi hp id (by omega) hn, ?_⟩
  have e : ops ++ [Op.finished id, .disposed] = (ops ++ [.finished id]) ++ [.disposed] := by simp
  rw [e, run_append]
  have he := hi.each id
  rw [if_pos (by omega), List.count_eq_zero.mpr hn] at he
  show id ∈ freed ((run {} (ops ++ [.finished id])).2 ++ ((run {} (ops ++ [.finished id])).1.finished.map .freed ++ []))
  rw [List.append_nil, freed_append, freed_map, ← List.count_pos_iff, List.count_append]
  omega

/-- three sessions; the client of the second has gone, and the first ends of itself -/
example : let all := fun _ : Nat => true
    let ops := [Op.configure 5, .established, .established, .established, .check (fun id => id != 1) all, .finished 0, .check all all, .disposed]
    (run {} ops).2 = [.checked 2, .checked 1, .checked 0, .checked 2, .freed 0, .freed 1] := by decide

/- ## everybody's turn -/

/-- **C66**. While the timer goes and the interval is not changed, no session is left out: a session which has begun, has not ended and whose client has been there
so far is checked after at most `2 * ((n + m) / 30 + 1)` checks, where there are `n` sessions and `m` more begin meanwhile, however the sessions begin and
end and whichever clients go. -/
theorem C66_turn_partial (past ops : List Op) (id : Nat) (hb : id < begun past) (hs : Stays id past) (hf : .finished id ∉ ops) (hc : Steady ops)
    (hi : 0 < (run {} past).1.interval) (ht : (run {} past).1.timer.isSome)
    (hk : 2 * (((run {} past).1.leaders.length + begun ops) / 30 + 1) ≤ checks ops) : .checked id ∈ (run (run {} past).1 ops).2 := by
  obtain ⟨h, hp⟩ := reached past
  have hm := here_run (s := {}) Inv.init points_init (by show _ < 0 + _; omega) (fun h => (nomatch h)) hs
  obtain ⟨a, b, hl, hn⟩ := hp
  refine due_run h hl hn hi ht hc hf ?_
  rw [hl] at hm hk
  rw [List.length_append] at hk
  rcases List.mem_append.mp hm with hm | hm
  · right
    refine ⟨hm, ?_⟩
    have : 0 < a.length := List.length_pos_of_mem hm
    omega
  · left
    obtain ⟨b1, b2, e⟩ := List.append_of_mem hm
    refine ⟨b1, b2, e, ?_⟩
    rw [e] at hk
    simp only [List.length_append, List.length_cons] at hk
    omega

/-- **C66**: when a session begins, the interval then configured is the one used: with 0 there is no timer, and no timer for another interval is left. -/
theorem C66_interval (past : List Op) :
    let s := (run {} (past ++ [.established])).1
    (s.interval = 0 → s.timer = none) ∧ ∀ t, s.timer = some t → t = s.interval := by
  dsimp only
  rw [run_append]
  have ht : Timed (run {} past).1 := timed_run Inv.init points_init (timed_none rfl)
  obtain ⟨_, x, y⟩ := timed_start (s := { (run {} past).1 with count := (run {} past).1.count + 1, heard := (run {} past).1.count :: (run {} past).1.heard, leaders := (run {} past).1.count :: (run {} past).1.leaders }) ht
  have e : (established (run {} past).1).interval = (run {} past).1.interval := by
    obtain ⟨b, t, c, e⟩ := startChecker_eq { (run {} past).1 with count := (run {} past).1.count + 1, heard := (run {} past).1.count :: (run {} past).1.heard, leaders := (run {} past).1.count :: (run {} past).1.leaders }
    unfold established
    rw [e]
  refine ⟨fun h => x ?_, fun t h => ?_⟩
  · rw [← e]; exact h
  · show t = (established (run {} past).1).interval
    rw [e]
    exact y t h

/-- **C66**: with an interval given before the first session and not changed, there is a timer whenever there is a session, as long as no check finds the clients
of all sessions gone. -/
theorem C66_timer_partial (interval : Nat) (ops : List Op) (hi : 0 < interval) (hs : Steady ops)
    (hx : ∀ before c o, before ++ [.check c o] <+: ops →
      (run { interval } before).1.leaders = [] ∨ (run { interval } (before ++ [.check c o])).1.leaders ≠ [])
    (hl : (run { interval } ops).1.leaders ≠ []) : (run { interval } ops).1.timer.isSome :=
  (armed_run (Inv.init.timers _ _ _ interval _) ⟨[], [], rfl, rfl⟩ hs hi ⟨fun h => absurd rfl h, fun _ => rfl⟩ hx).1 hl

/-- **C66**, where the code departs: after a check which has found the clients of all sessions gone, the sessions which begin are not checked, although the
interval is as it was and however long they last: `connection_check` has answered no, but `periodical_connection_checker_id` is still set. -/
theorem C66_timer_violated :
    let past := [Op.configure 5, .established, .check (fun _ => false) (fun _ => true), .disposed, .established]
    (run {} past).1.interval = 5 ∧ (run {} past).1.leaders = [1] ∧ (run {} past).1.timer = none ∧
    ∀ k c o, .checked 1 ∉ (run (run {} past).1 (List.replicate k (.check c o))).2 := by
  dsimp only
  refine ⟨by decide, by decide, by decide, ?_⟩
  intro k c o
  have ht : (run {} [Op.configure 5, .established, .check (fun _ => false) (fun _ => true), .disposed, .established]).1.timer = none := by decide
  generalize (run {} [Op.configure 5, .established, .check (fun _ => false) (fun _ => true), .disposed, .established]).1 = s at ht
  induction k with
  | zero => exact fun h => (nomatch h)
  | succ k ih =>
    rw [List.replicate_succ]
    show _ ∉ (step s (.check c o)).2 ++ (run (step s (.check c o)).1 _).2
    have e : step s (.check c o) = (s, []) := by unfold step; dsimp only; rw [if_neg (by rw [ht]; decide)]
    rw [e]
    exact ih

/-- 70 sessions, the newest first: the oldest is checked with the third check, although a session begins and one ends between them -/
example : let all := fun _ : Nat => true
    let past := Op.configure 5 :: List.replicate 70 .established
    let ops := [Op.check all all, .established, .check all all, .finished 41, .check all all]
    (run {} past).1.timer = some 5 ∧ .checked 0 ∉ (run (run {} past).1 (ops.take 4)).2 ∧ .checked 0 ∈ (run (run {} past).1 ops).2 := by decide +kernel

/-- the hypotheses of `C66_turn_partial` are met -/
example : let all := fun _ : Nat => true
    let past := [Op.configure 5, .established, .established]
    .checked 0 ∈ (run (run {} past).1 [.check all all, .finished 1, .established, .check all all]).2 :=
  C66_turn_partial [Op.configure 5, .established, .established] _ 0 (by decide) (by
    intro op h
    rcases List.mem_cons.mp h with rfl | h
    · trivial
    · rcases List.mem_cons.mp h with rfl | h
      · trivial
      · cases List.mem_singleton.mp h
        trivial) (by simp) (by intro i; simp) (by decide) (by decide) (by decide)

/-- and those of `C66_timer_partial` -/
example : (run { interval := 5 } [.established, .finished 0, .established]).1.timer.isSome :=
  C66_timer_partial 5 _ (by decide) (by intro i; simp) (by
    intro before c o ⟨rest, e⟩
    have : Op.check c o ∈ [Op.established, .finished 0, .established] := by rw [← e]; simp
    simp at this) (by decide)

end Verif.Props
