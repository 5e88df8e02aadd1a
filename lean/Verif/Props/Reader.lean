import Verif.Spec.Reader
import Verif.Props.Codec
import Verif.Props.Writer
/-
C72, C73, C74, C78: the reader.
-/
namespace Verif.Props.Reader
open Verif Verif.Reader Verif.Spec Verif.Spec.Reader

theorem sent_append (a b : List Item) : sent (a ++ b) = sent a ++ sent b := by
  induction a with
  | nil => rfl
  | cons x a ih => cases x <;> simp [sent, ih]

theorem chunks_append (a b : List Item) : chunks (a ++ b) = chunks a ++ chunks b := by
  induction a with
  | nil => rfl
  | cons x a ih => cases x <;> simp [chunks, ih]

theorem given_append (a b : List Item) : given (a ++ b) = given a ++ given b := by simp [given, chunks_append]

theorem faithful_snoc (t : List Item) (x : Item) (h : Faithful t) (hx : given (t ++ [x]) <+: sent (t ++ [x])) : Faithful (t ++ [x]) := by
  intro p s e
  rcases List.eq_nil_or_concat s with rfl | ⟨s', y, rfl⟩
  · rw [List.append_nil] at e; rw [← e]; exact hx
  · rw [List.concat_eq_append, ← List.append_assoc] at e
    exact h p s' (List.append_inj_left' e rfl)

/-- what was handed on and what waits is what was sent -/
def Bal (s : State) (t : List Item) : Prop := given t ++ s.arrived = sent t ∧ Faithful t

theorem bal_state {s s' : State} {t : List Item} (h : Bal s t) (ha : s'.arrived = s.arrived) : Bal s' t := ⟨by rw [ha]; exact h.1, h.2⟩

theorem bal_silent {s : State} {t : List Item} (x : Item) (h : Bal s t) (h1 : given [x] = []) (h2 : sent [x] = []) : Bal s (t ++ [x]) := by
  have e1 : given (t ++ [x]) = given t := by rw [given_append, h1, List.append_nil]
  have e2 : sent (t ++ [x]) = sent t := by rw [sent_append, h2, List.append_nil]
  refine ⟨by rw [e1, e2]; exact h.1, faithful_snoc t x h.2 ?_⟩
  rw [e1, e2, ← h.1]; exact List.prefix_append _ _

theorem bal_flow {s s' : State} {t : List Item} (n : Nat) (h : Bal s t) (ha : s'.arrived = s.arrived.drop n) :
    Bal s' (t ++ [.flow (s.arrived.take n)]) := by
  have e1 : given (t ++ [.flow (s.arrived.take n)]) = given t ++ s.arrived.take n := by rw [given_append]; simp [given, chunks]
  have e2 : sent (t ++ [.flow (s.arrived.take n)]) = sent t := by rw [sent_append]; simp [sent]
  have e3 : given t ++ s.arrived.take n ++ s.arrived.drop n = sent t := by rw [List.append_assoc, List.take_append_drop]; exact h.1
  refine ⟨by rw [e1, e2, ha]; exact e3, faithful_snoc t _ h.2 ?_⟩
  rw [e1, e2, ← e3]; exact List.prefix_append _ _

theorem bal_readOnce {s : State} {t : List Item} (r : Step) (h : Bal s t) : Bal (readOnce s r).1 (t ++ (readOnce s r).2.1) := by
  unfold readOnce
  dsimp only
  split
  · refine bal_flow _ h ?_
    split <;> rfl
  · split
    · exact bal_state (bal_silent .error h rfl rfl) rfl
    · simpa using h

theorem bal_readLoop {s : State} {t : List Item} (rs : List Step) (h : Bal s t) : Bal (readLoop s rs).1 (t ++ (readLoop s rs).2.1) := by
  induction rs generalizing s t with
  | nil => simpa [readLoop] using h
  | cons r rs ih =>
    have h1 := bal_readOnce r h
    unfold readLoop
    dsimp only
    split
    · have := ih h1
      rw [List.append_assoc] at this
      exact this
    · exact h1

theorem bal_finish {s : State} {t : List Item} (h : Bal s t) : Bal (finish s).1 (t ++ (finish s).2) :=
  bal_state (bal_silent .finished h rfl rfl) rfl

theorem bal_readReady {s : State} {t : List Item} (rs : List Step) (h : Bal s t) : Bal (readReady s rs).1 (t ++ (readReady s rs).2) := by
  have h1 : Bal (if s.shutdownRequested then (s, [], true) else readLoop s rs).1 (t ++ (if s.shutdownRequested then (s, [], true) else readLoop s rs).2.1) := by
    split
    · simpa using h
    · exact bal_readLoop rs h
  unfold readReady
  dsimp only
  generalize (if s.shutdownRequested then (s, [], true) else readLoop s rs) = a at h1
  split
  · exact h1
  · have h2 := bal_finish h1
    split
    · rw [← List.append_assoc, ← List.append_assoc]
      exact bal_silent .useAfterFree h2 rfl rfl
    · rw [List.append_nil, ← List.append_assoc]; exact h2

theorem bal_step {s : State} {t : List Item} (e : Event) (h : Bal s t) : Bal (step s e).1 (t ++ (step s e).2) := by
  cases e with
  | arrive b =>
    dsimp only [step]
    split
    · simpa using h
    · have e1 : given (t ++ [.sent b]) = given t := by rw [given_append]; simp [given, chunks]
      have e2 : sent (t ++ [.sent b]) = sent t ++ b := by rw [sent_append]; simp [sent]
      have e3 : given t ++ (s.arrived ++ b) = sent t ++ b := by rw [← List.append_assoc, h.1]
      refine ⟨by rw [e1, e2]; exact e3, faithful_snoc t _ h.2 ?_⟩
      rw [e1, e2, ← e3]; exact List.prefix_append _ _
  | hangUp =>
    dsimp only [step]
    split
    · simpa using h
    · exact bal_state (bal_silent .hungUp h rfl rfl) rfl
  | start =>
    dsimp only [step]
    split
    · simpa using h
    · simp only [List.append_nil]
      refine bal_state h ?_
      unfold start
      split <;> rfl
  | shutdown =>
    dsimp only [step]
    split
    · simpa using h
    · unfold shutdown
      split
      · simpa using h
      · split
        · simpa using h
        · exact bal_finish (s := { s with shutdownRequested := true, channel := false }) (bal_state h rfl)
  | readReady rs =>
    dsimp only [step]
    split
    · exact bal_readReady rs h
    · simpa using h
  | errorReady hup err nval =>
    dsimp only [step]
    split
    · unfold errorReady
      dsimp only
      split
      · rw [← List.append_assoc]
        exact bal_finish (bal_state (bal_silent .error h rfl rfl) rfl)
      · rw [List.nil_append]
        exact bal_finish (bal_state h rfl)
    · simpa using h

theorem bal_run {s : State} {t : List Item} (es : List Event) (h : Bal s t) : Bal (run s es).1 (t ++ (run s es).2) := by
  induction es generalizing s t with
  | nil => simpa [run] using h
  | cons e es ih =>
    have := ih (bal_step e h)
    rw [List.append_assoc] at this
    exact this

theorem bal_start (kept : Bool) : Bal { kept := kept } [] :=
  ⟨rfl, fun p s e => by
    have : p = [] := (List.append_eq_nil_iff.mp e.symm).1
    subst this; exact List.prefix_refl _⟩

/-- **C72**, first half: whatever happens, what was handed on is at each moment a prefix of what the peer had sent till then. -/
theorem C72_faithful (kept : Bool) (es : List Event) : Faithful (run { kept := kept } es).2 := by
  have := (bal_run es (bal_start kept)).2
  rwa [List.nil_append] at this

/-- nothing goes wrong in between: nobody shuts the reader down, no read fails, and the event loop reports no error -/
def Undisturbed : Event → Prop
  | .shutdown => False
  | .errorReady _ _ _ => False
  | .readReady rs => ∀ r ∈ rs, r.fails = false ∧ r.stops = false
  | _ => True

/-- after an undisturbed history: nobody asked for the end, and it came only after everything was read -/
def Calm (s : State) (t : List Item) : Prop :=
  s.shutdownRequested = false ∧ .error ∉ t ∧ (.finished ∈ t → s.arrived = [] ∧ s.hungUp = true) ∧ (.finished ∈ t ∨ s.freed = false)

theorem calm_readOnce {s : State} {t : List Item} (r : Step) (hr : r.fails = false ∧ r.stops = false) (h : Calm s t) :
    Calm (readOnce s r).1 (t ++ (readOnce s r).2.1) ∧
    ((readOnce s r).2.2 = false → (readOnce s r).1.arrived = [] ∧ (readOnce s r).1.hungUp = true) := by
  obtain ⟨h1, h2, h3, h4⟩ := h
  unfold readOnce
  simp only [hr.1, hr.2]
  split
  · rename_i ha
    have hf : Item.finished ∉ t := fun hm => ha (h3 hm).1
    refine ⟨⟨h1, by simpa using h2, fun hm => ?_, ?_⟩, fun hc => nomatch hc⟩
    · exact absurd (by simpa using hm) hf
    · rcases h4 with h4 | h4
      · exact absurd h4 hf
      · exact Or.inr h4
  · rename_i ha
    refine ⟨⟨h1, by simpa using h2, by simpa using h3, by simpa using h4⟩, fun hc => ?_⟩
    exact ⟨Classical.byContradiction ha, by simpa using hc⟩

theorem calm_readLoop {s : State} {t : List Item} (rs : List Step) (hr : ∀ r ∈ rs, r.fails = false ∧ r.stops = false) (h : Calm s t) :
    Calm (readLoop s rs).1 (t ++ (readLoop s rs).2.1) ∧
    ((readLoop s rs).2.2 = false → (readLoop s rs).1.arrived = [] ∧ (readLoop s rs).1.hungUp = true) := by
  induction rs generalizing s t with
  | nil => exact ⟨by simpa [readLoop] using h, fun hc => nomatch hc⟩
  | cons r rs ih =>
    have h1 := calm_readOnce r (hr r List.mem_cons_self) h
    unfold readLoop
    dsimp only
    split
    · have := ih (fun x hx => hr x (List.mem_cons_of_mem _ hx)) h1.1
      rw [List.append_assoc] at this
      exact this
    · exact h1

theorem calm_step {s : State} {t : List Item} (e : Event) (he : Undisturbed e) (h : Calm s t) : Calm (step s e).1 (t ++ (step s e).2) := by
  cases e with
  | shutdown => exact he.elim
  | errorReady _ _ _ => exact he.elim
  | arrive b =>
    obtain ⟨h1, h2, h3, h4⟩ := h
    dsimp only [step]
    split
    · exact ⟨h1, by simpa using h2, by simpa using h3, by simpa using h4⟩
    · rename_i hu
      refine ⟨h1, by simpa using h2, fun hm => ?_, by simpa using h4⟩
      exact absurd (h3 (by simpa using hm)).2 hu
  | hangUp =>
    obtain ⟨h1, h2, h3, h4⟩ := h
    dsimp only [step]
    split
    · exact ⟨h1, by simpa using h2, by simpa using h3, by simpa using h4⟩
    · exact ⟨h1, by simpa using h2, fun hm => ⟨(h3 (by simpa using hm)).1, rfl⟩, by simpa using h4⟩
  | start =>
    obtain ⟨h1, h2, h3, h4⟩ := h
    dsimp only [step]
    split
    · exact ⟨h1, by simpa using h2, by simpa using h3, by simpa using h4⟩
    · unfold start
      split <;> exact ⟨h1, by simpa using h2, by simpa using h3, by simpa using h4⟩
  | readReady rs =>
    dsimp only [step]
    split
    · unfold readReady
      simp only [h.1, Bool.false_eq_true, if_false]
      obtain ⟨hc, hd⟩ := calm_readLoop rs he h
      generalize readLoop s rs = a at hc hd
      obtain ⟨h1, h2, h3, h4⟩ := hc
      simp only [h1, Bool.not_false, Bool.and_true]
      split
      · exact ⟨h1, h2, h3, h4⟩
      · rename_i hk
        have hend := hd (by simpa using hk)
        refine ⟨rfl, ?_, fun _ => ⟨hend.1, hend.2⟩, Or.inl (by simp [finish])⟩
        simp only [List.mem_append, not_or] at h2 ⊢
        refine ⟨h2.1, ⟨h2.2, by simp [finish]⟩, ?_⟩
        split <;> simp
    · obtain ⟨h1, h2, h3, h4⟩ := h
      exact ⟨h1, by simpa using h2, by simpa using h3, by simpa using h4⟩

theorem calm_run {s : State} {t : List Item} (es : List Event) (he : ∀ e ∈ es, Undisturbed e) (h : Calm s t) :
    Calm (run s es).1 (t ++ (run s es).2) := by
  induction es generalizing s t with
  | nil => simpa [run] using h
  | cons e es ih =>
    have := ih (fun x hx => he x (List.mem_cons_of_mem _ hx)) (calm_step e (he e List.mem_cons_self) h)
    rw [List.append_assoc] at this
    exact this

/-- **C72**, second half: when an undisturbed reader says it has finished, the peer has hung up and everything it sent was handed on. Missing: the
event loop may report that the peer has hung up while there is still something to read; see `C72_violated`. -/
theorem C72_complete_partial (kept : Bool) (es : List Event) (he : ∀ e ∈ es, Undisturbed e) (hf : .finished ∈ (run { kept := kept } es).2) :
    given (run { kept := kept } es).2 = sent (run { kept := kept } es).2 ∧ (run { kept := kept } es).1.hungUp = true := by
  have hb := bal_run es (bal_start kept)
  have hc := calm_run es he (s := { kept := kept }) (t := []) ⟨rfl, by simp, by simp, Or.inr rfl⟩
  rw [List.nil_append] at hb hc
  have := hc.2.2.1 hf
  refine ⟨?_, this.2⟩
  have h1 := hb.1
  rw [this.1, List.append_nil] at h1
  exact h1

/-! It gets there. -/

theorem readOnce_progress {s : State} (r : Step) (hr : r.fails = false ∧ r.stops = false) (ha : s.arrived ≠ []) :
    (readOnce s r).1.arrived.length < s.arrived.length ∧ (readOnce s r).1.hungUp = s.hungUp ∧ (readOnce s r).1.readWatch = s.readWatch ∧
    (readOnce s r).2.2 = true := by
  unfold readOnce
  simp only [hr.1, hr.2]
  rw [if_pos ha]
  refine ⟨?_, rfl, rfl, rfl⟩
  have : 0 < s.arrived.length := List.length_pos_iff.mpr ha
  show (s.arrived.drop _).length < _
  rw [List.length_drop]
  have : 1 ≤ min (max r.ready 1) bufferSize := by unfold bufferSize; omega
  omega

theorem readLoop_progress {s : State} (rs : List Step) (hr : ∀ r ∈ rs, r.fails = false ∧ r.stops = false) (hne : rs ≠ []) (hu : s.hungUp = true) :
    (readLoop s rs).2.2 = false ∨ ((readLoop s rs).1.arrived.length < s.arrived.length ∧ (readLoop s rs).1.hungUp = true ∧
      (readLoop s rs).1.readWatch = s.readWatch) := by
  induction rs generalizing s with
  | nil => exact absurd rfl hne
  | cons r rs ih =>
    have hr1 := hr r List.mem_cons_self
    unfold readLoop
    dsimp only
    by_cases ha : s.arrived = []
    · left
      have e : readOnce s r = (s, [], false) := by
        unfold readOnce
        simp [ha, hr1.1, hu]
      rw [e]
      simp
    · obtain ⟨p1, p2, p3, p4⟩ := readOnce_progress (s := s) r hr1 ha
      split
      · rename_i hm
        dsimp only
        by_cases hrs : rs = []
        · subst hrs
          right
          exact ⟨p1, by rw [readLoop, p2, hu], by rw [readLoop, p3]⟩
        · rcases ih (s := (readOnce s r).1) (fun x hx => hr x (List.mem_cons_of_mem _ hx)) hrs (by rw [p2, hu]) with h | h
          · exact Or.inl h
          · exact Or.inr ⟨by omega, h.2.1, by rw [h.2.2, p3]⟩
      · exact Or.inr ⟨p1, by rw [p2, hu], p3⟩

/-- one round of reading: some bytes, or the end -/
theorem readReady_progress {s : State} (rs : List Step) (hr : ∀ r ∈ rs, r.fails = false ∧ r.stops = false) (hne : rs ≠ [])
    (hw : s.readWatch = true) (hu : s.hungUp = true) (hs : s.shutdownRequested = false) (t : List Item) (ht : Calm s t) :
    .finished ∈ (step s (.readReady rs)).2 ∨
    ((step s (.readReady rs)).1.arrived.length < s.arrived.length ∧ (step s (.readReady rs)).1.hungUp = true ∧
      (step s (.readReady rs)).1.readWatch = true) := by
  have hc := (calm_readLoop rs hr ht).1.1
  dsimp only [step]
  rw [if_pos (by simp [hw, hne])]
  unfold readReady
  simp only [hs, Bool.false_eq_true, if_false]
  simp only [hc, Bool.not_false, Bool.and_true]
  rcases readLoop_progress (s := s) rs hr hne hu with h | h
  · left
    rw [h]
    simp [finish]
  · split
    · exact Or.inr ⟨h.1, h.2.1, by rw [h.2.2, hw]⟩
    · exact Or.inl (by simp [finish])

theorem run_append (s : State) (a b : List Event) : run s (a ++ b) = ((run (run s a).1 b).1, (run s a).2 ++ (run (run s a).1 b).2) := by
  induction a generalizing s with
  | nil => simp [run]
  | cons e a ih => simp [run, ih, List.append_assoc]

/-- rounds of reading, one for each byte and one more, come to the end -/
theorem rounds_finish {s : State} {t : List Item} (rounds : List (List Step)) (hr : ∀ rs ∈ rounds, rs ≠ [] ∧ ∀ r ∈ rs, r.fails = false ∧ r.stops = false)
    (hw : s.readWatch = true) (hu : s.hungUp = true) (ht : Calm s t) (hlen : s.arrived.length < rounds.length) :
    .finished ∈ (run s (rounds.map .readReady)).2 := by
  induction rounds generalizing s t with
  | nil => simp at hlen
  | cons rs rounds ih =>
    have h1 := hr rs List.mem_cons_self
    have hc := calm_step (.readReady rs) h1.2 ht
    simp only [List.map_cons, run]
    rcases readReady_progress rs h1.2 h1.1 hw hu ht.1 t ht with h | h
    · exact List.mem_append_left _ h
    · refine List.mem_append_right _ (ih (fun x hx => hr x (List.mem_cons_of_mem _ hx)) h.2.2 h.2.1 hc ?_)
      simp only [List.length_cons] at hlen
      omega

theorem watch_start (kept : Bool) (es : List Event) (he : ∀ e ∈ es, Undisturbed e) (hst : .start ∈ es)
    (hf : .finished ∉ (run { kept := kept } es).2) : (run { kept := kept } es).1.readWatch = true := by
  have key : ∀ (es : List Event) (s : State) (t : List Item), Calm s t → s.channel = true → .finished ∉ t → (∀ e ∈ es, Undisturbed e) →
      .finished ∉ (run s es).2 → (s.readWatch = true ∨ .start ∈ es) → (run s es).1.readWatch = true := by
    intro es
    induction es with
    | nil => intro s t _ _ _ _ _ h; rcases h with h | h
             · exact h
             · cases h
    | cons e es ih =>
      intro s t hc hch hft he hf h
      have hc' := calm_step e (he e List.mem_cons_self) hc
      simp only [run, List.mem_append, not_or] at hf ⊢
      have hft' : Item.finished ∉ t ++ (step s e).2 := by simp [hft, hf.1]
      have hfreed : s.freed = false := by
        rcases hc.2.2.2 with h | h
        · exact absurd h hft
        · exact h
      have keep : (step s e).1.channel = true ∧ (s.readWatch = true → (step s e).1.readWatch = true) ∧ (e = .start → (step s e).1.readWatch = true) := by
        cases e with
        | shutdown => exact (he _ List.mem_cons_self).elim
        | errorReady _ _ _ => exact (he _ List.mem_cons_self).elim
        | arrive b => dsimp only [step]; split <;> exact ⟨hch, fun h => h, fun h => nomatch h⟩
        | hangUp => dsimp only [step]; split <;> exact ⟨hch, fun h => h, fun h => nomatch h⟩
        | start =>
          dsimp only [step]
          rw [if_neg (by simp [hfreed])]
          unfold start
          split
          · exact ⟨hch, fun _ => rfl, fun _ => rfl⟩
          · rename_i hn
            have : s.readWatch = true := by simpa [hch] using hn
            exact ⟨hch, fun h => h, fun _ => this⟩
        | readReady rs =>
          refine ⟨?_, ?_, fun h => nomatch h⟩
          all_goals
            have hro : ∀ (s : State) (r : Step), (readOnce s r).1.channel = s.channel ∧ (readOnce s r).1.readWatch = s.readWatch := by
              intro s r
              unfold readOnce
              dsimp only
              split
              · split <;> exact ⟨rfl, rfl⟩
              · split <;> exact ⟨rfl, rfl⟩
            have hrl : ∀ (rs : List Step) (s : State), (readLoop s rs).1.channel = s.channel ∧ (readLoop s rs).1.readWatch = s.readWatch := by
              intro rs
              induction rs with
              | nil => intro s; exact ⟨rfl, rfl⟩
              | cons r rs ih =>
                intro s
                unfold readLoop
                dsimp only
                split
                · exact ⟨(ih _).1.trans (hro s r).1, (ih _).2.trans (hro s r).2⟩
                · exact hro s r
            have hf1 := hf.1
            revert hf1
            dsimp only [step]
            split
            · unfold readReady
              simp only [hc.1, Bool.false_eq_true, if_false]
              split
              · intro _; simp only [hrl]; first | exact hch | exact fun h => h
              · intro hf1; exact absurd (by simp [finish]) hf1
            · intro _; first | exact hch | exact fun h => h
      refine ih (step s e).1 _ hc' keep.1 hft' (fun x hx => he x (List.mem_cons_of_mem _ hx)) hf.2 ?_
      rcases h with h | h
      · exact Or.inl (keep.2.1 h)
      · rcases List.mem_cons.mp h with h | h
        · exact Or.inl (keep.2.2 h.symm)
        · exact Or.inr h
  exact key es _ [] ⟨rfl, by simp, by simp, Or.inr rfl⟩ rfl (by simp) he hf (Or.inr hst)

theorem hungUp_step (s : State) (e : Event) : (s.hungUp = true → (step s e).1.hungUp = true) ∧ (e = .hangUp → (step s e).1.hungUp = true) := by
  have hro : ∀ (s : State) (r : Step), (readOnce s r).1.hungUp = s.hungUp := by
    intro s r
    unfold readOnce
    dsimp only
    split
    · split <;> rfl
    · split <;> rfl
  have hrl : ∀ (rs : List Step) (s : State), (readLoop s rs).1.hungUp = s.hungUp := by
    intro rs
    induction rs with
    | nil => intro s; rfl
    | cons r rs ih =>
      intro s
      unfold readLoop
      dsimp only
      split
      · exact (ih _).trans (hro s r)
      · exact hro s r
  cases e with
  | shutdown =>
    refine ⟨fun h => ?_, fun h => nomatch h⟩
    dsimp only [step]
    split
    · exact h
    · unfold shutdown
      split
      · exact h
      · split <;> exact h
  | errorReady _ _ _ => dsimp only [step]; split <;> exact ⟨fun h => h, fun h => nomatch h⟩
  | arrive b => dsimp only [step]; split <;> exact ⟨fun h => h, fun h => nomatch h⟩
  | hangUp =>
    dsimp only [step]
    split
    · rename_i h; exact ⟨fun h => h, fun _ => h⟩
    · exact ⟨fun _ => rfl, fun _ => rfl⟩
  | start =>
    dsimp only [step]
    split
    · exact ⟨fun h => h, fun h => nomatch h⟩
    · unfold start
      split <;> exact ⟨fun h => h, fun h => nomatch h⟩
  | readReady rs =>
    refine ⟨fun h => ?_, fun h => nomatch h⟩
    dsimp only [step]
    split
    · unfold readReady
      dsimp only
      have : (if s.shutdownRequested then (s, [], true) else readLoop s rs).1.hungUp = true := by
        split
        · exact h
        · rw [hrl]; exact h
      generalize (if s.shutdownRequested then (s, [], true) else readLoop s rs) = a at this
      split
      · exact this
      · exact this
    · exact h

theorem hungUp_run (es : List Event) (s : State) (h : s.hungUp = true ∨ .hangUp ∈ es) : (run s es).1.hungUp = true := by
  induction es generalizing s with
  | nil => rcases h with h | h
           · exact h
           · cases h
  | cons e es ih =>
    simp only [run]
    refine ih _ ?_
    rcases h with h | h
    · exact Or.inl ((hungUp_step s e).1 h)
    · rcases List.mem_cons.mp h with h | h
      · exact Or.inl ((hungUp_step s e).2 h.symm)
      · exact Or.inr h

theorem rounds_sent (rounds : List (List Step)) (s : State) : sent (run s (rounds.map .readReady)).2 = [] := by
  have hro : ∀ (s : State) (r : Step), sent (readOnce s r).2.1 = [] := by
    intro s r
    unfold readOnce
    dsimp only
    split
    · rfl
    · split <;> rfl
  have hrl : ∀ (rs : List Step) (s : State), sent (readLoop s rs).2.1 = [] := by
    intro rs
    induction rs with
    | nil => intro s; rfl
    | cons r rs ih =>
      intro s
      unfold readLoop
      dsimp only
      split
      · rw [sent_append, hro, ih]; rfl
      · exact hro s r
  induction rounds generalizing s with
  | nil => rfl
  | cons rs rounds ih =>
    simp only [List.map_cons, run, sent_append, ih, List.append_nil]
    dsimp only [step]
    split
    · unfold readReady
      dsimp only
      have : sent (if s.shutdownRequested then (s, [], true) else readLoop s rs).2.1 = [] := by
        split
        · rfl
        · exact hrl rs s
      generalize (if s.shutdownRequested then (s, [], true) else readLoop s rs) = a at this
      split
      · exact this
      · rw [sent_append, sent_append, this]
        split <;> rfl
    · rfl

/-- **C72**, third part: a reader that was started comes to the end after the peer has hung up, and has handed on everything then. -/
theorem C72_ends_partial (kept : Bool) (es : List Event) (he : ∀ e ∈ es, Undisturbed e) (hst : .start ∈ es) (hu : .hangUp ∈ es)
    (rounds : List (List Step)) (hr : ∀ rs ∈ rounds, rs ≠ [] ∧ ∀ r ∈ rs, r.fails = false ∧ r.stops = false)
    (hlen : (sent (run { kept := kept } es).2).length < rounds.length) :
    .finished ∈ (run { kept := kept } (es ++ rounds.map .readReady)).2 ∧
    given (run { kept := kept } (es ++ rounds.map .readReady)).2 = sent (run { kept := kept } es).2 := by
  have he' : ∀ e ∈ es ++ rounds.map .readReady, Undisturbed e := by
    intro e hm
    rcases List.mem_append.mp hm with hm | hm
    · exact he e hm
    · obtain ⟨rs, h, rfl⟩ := List.mem_map.mp hm
      exact (hr rs h).2
  have hfin : .finished ∈ (run { kept := kept } (es ++ rounds.map .readReady)).2 := by
    rw [run_append]
    by_cases hf : .finished ∈ (run { kept := kept } es).2
    · exact List.mem_append_left _ hf
    · have hc := calm_run es he (s := { kept := kept }) (t := []) ⟨rfl, by simp, by simp, Or.inr rfl⟩
      have hb := (bal_run es (bal_start kept)).1
      rw [List.nil_append] at hb hc
      refine List.mem_append_right _ (rounds_finish rounds hr (watch_start kept es he hst hf) (hungUp_run es _ (Or.inr hu)) hc ?_)
      have := congrArg List.length hb
      rw [List.length_append] at this
      omega
  refine ⟨hfin, ?_⟩
  rw [(C72_complete_partial kept _ he' hfin).1, run_append, sent_append, rounds_sent, List.append_nil]

/-- five thousand bytes, then the peer hangs up; the reader reads what one read gives it -/
def lateBytes : List Event :=
  [.start, .arrive (List.replicate 5000 0x61), .hangUp, .readReady [{}], .errorReady true false false]

/-- **C72** is violated: the event loop calls both callbacks, the one for reading and the one for the end of the connection, and the second does not read
what the first left behind. -/
theorem C72_violated :
    .finished ∈ (run {} lateBytes).2 ∧ (given (run {} lateBytes).2).length = 4096 ∧ (sent (run {} lateBytes).2).length = 5000 ∧
    ∀ more, given (run (run {} lateBytes).1 more).2 = [] := by
  refine ⟨by decide +kernel, by decide +kernel, by decide +kernel, fun more => ?_⟩
  have hs : (run {} lateBytes).1.readWatch = false ∧ (run {} lateBytes).1.errorWatch = false ∧ (run {} lateBytes).1.freed = true := by decide +kernel
  generalize (run {} lateBytes).1 = s at hs
  induction more generalizing s with
  | nil => rfl
  | cons e more ih =>
    obtain ⟨h1, h2, h3⟩ := hs
    simp only [run, given_append]
    cases e with
    | start => simp only [step, h3, if_true]; exact ih s ⟨h1, h2, h3⟩
    | shutdown => simp only [step, h3, if_true]; exact ih s ⟨h1, h2, h3⟩
    | readReady rs => simp only [step, h1, Bool.false_and, Bool.false_eq_true, if_false]; exact ih s ⟨h1, h2, h3⟩
    | errorReady a b c => simp only [step, h2, Bool.false_and, Bool.false_eq_true, if_false]; exact ih s ⟨h1, h2, h3⟩
    | arrive b =>
      simp only [step]
      split
      · exact ih s ⟨h1, h2, h3⟩
      · exact ih { s with arrived := s.arrived ++ b } ⟨h1, h2, h3⟩
    | hangUp =>
      simp only [step]
      split
      · exact ih s ⟨h1, h2, h3⟩
      · exact ih { s with hungUp := true } ⟨h1, h2, h3⟩

/-- the hypotheses of the theorems of C72 are met: bytes in pieces, in several reads -/
example :
    let es : List Event := [.arrive [1, 2], .start, .readReady [{ ready := 1 }], .arrive [3], .hangUp]
    let rounds : List (List Step) := [[{ ready := 1, more := true }, {}], [{}], [{}], [{}]]
    (∀ e ∈ es, Undisturbed e) ∧ (∀ rs ∈ rounds, rs ≠ [] ∧ ∀ r ∈ rs, r.fails = false ∧ r.stops = false) ∧
    (sent (run {} es).2).length < rounds.length ∧
    chunks (run {} (es ++ rounds.map .readReady)).2 = [[1], [2], [3]] := by
  refine ⟨?_, by decide, by decide, by decide⟩
  intro e he
  simp only [List.mem_cons, List.not_mem_nil, or_false] at he
  rcases he with rfl | rfl | rfl | rfl | rfl
  · trivial
  · trivial
  · intro r hr; simp only [List.mem_cons, List.not_mem_nil, or_false] at hr; subst hr; exact ⟨rfl, rfl⟩
  · trivial
  · trivial

/-! ## C73 -/

/-- after the end of a reader nobody keeps, or before it -/
def Over (s : State) (t : List Item) : Prop :=
  OneEnd t ∧ (.finished ∈ t → s.freed = true ∧ s.readWatch = false ∧ s.errorWatch = false) ∧ s.kept = false

theorem oneEnd_append {t out : List Item} (hf : .finished ∉ t) (ho : OneEnd out) : OneEnd (t ++ out) := by
  intro p s e
  rcases List.append_eq_append_iff.mp e with ⟨a, h1, h2⟩ | ⟨c, h1, h2⟩
  · exact ho a s h2
  · cases c with
    | nil =>
      rw [List.nil_append] at h2
      exact ho [] s h2.symm
    | cons x c =>
      rw [List.cons_append] at h2
      injection h2 with h2 h3
      subst h2
      exact absurd (by rw [h1]; simp) hf

theorem oneEnd_silent {t out : List Item} (h : OneEnd t) (h1 : .finished ∉ out) (h2 : .error ∉ out) (h3 : chunks out = []) : OneEnd (t ++ out) := by
  intro p s e
  rcases List.append_eq_append_iff.mp e with ⟨a, e1, e2⟩ | ⟨c, e1, e2⟩
  · exact absurd (by rw [e2]; simp) h1
  · cases c with
    | nil =>
      rw [List.nil_append] at e2
      exact absurd (by rw [← e2]; simp) h1
    | cons x c =>
      rw [List.cons_append] at e2
      injection e2 with e2 e3
      subst e2
      have := h p c e1
      rw [e3]
      refine ⟨?_, ?_, ?_⟩
      · simp only [List.mem_append, not_or]; exact ⟨this.1, h1⟩
      · simp only [List.mem_append, not_or]; exact ⟨this.2.1, h2⟩
      · rw [chunks_append, this.2.2, h3]; rfl

theorem oneEnd_none {t : List Item} (h : .finished ∉ t) : OneEnd t := fun p s e => absurd (by rw [e]; simp) h

theorem readOnce_says (s : State) (r : Step) : .finished ∉ (readOnce s r).2.1 ∧ (readOnce s r).1.kept = s.kept := by
  unfold readOnce
  dsimp only
  split
  · split <;> exact ⟨by simp, rfl⟩
  · split <;> exact ⟨by simp, rfl⟩

theorem readLoop_says (rs : List Step) (s : State) : .finished ∉ (readLoop s rs).2.1 ∧ (readLoop s rs).1.kept = s.kept := by
  induction rs generalizing s with
  | nil => exact ⟨by simp [readLoop], rfl⟩
  | cons r rs ih =>
    have h1 := readOnce_says s r
    unfold readLoop
    dsimp only
    split
    · refine ⟨?_, (ih _).2.trans h1.2⟩
      simp only [List.mem_append, not_or]
      exact ⟨h1.1, (ih _).1⟩
    · exact h1

/-- an end: nothing after it but perhaps the use of freed memory -/
theorem oneEnd_last (a b : List Item) (ha : .finished ∉ a) (hb : b = [] ∨ b = [.useAfterFree]) : OneEnd (a ++ [.finished] ++ b) := by
  have h : OneEnd (a ++ [.finished]) := by
    refine oneEnd_append ha ?_
    intro p s e
    cases p with
    | nil => injection e with _ e; subst e; exact ⟨by simp, by simp, rfl⟩
    | cons x p => injection e with _ e; simp at e
  rcases hb with rfl | rfl
  · rw [List.append_nil]; exact h
  · exact oneEnd_silent h (by simp) (by simp) rfl

theorem over_step {s : State} {t : List Item} (e : Event) (h : Over s t) : Over (step s e).1 (t ++ (step s e).2) := by
  have same : Over s (t ++ []) := by rw [List.append_nil]; exact h
  obtain ⟨h1, h2, h3⟩ := h
  have quiet : ∀ (s' : State) (x : Item), s'.kept = s.kept → s'.freed = s.freed → s'.readWatch = s.readWatch → s'.errorWatch = s.errorWatch →
      x ≠ .finished → x ≠ .error → chunks [x] = [] → Over s' (t ++ [x]) := by
    intro s' x k1 k2 k3 k4 n1 n2 n3
    refine ⟨oneEnd_silent h1 (by simpa using fun h => n1 h.symm) (by simpa using fun h => n2 h.symm) n3, fun hm => ?_, by rw [k1, h3]⟩
    rw [k2, k3, k4]
    refine h2 ?_
    rcases List.mem_append.mp hm with hm | hm
    · exact hm
    · exact absurd (List.mem_singleton.mp hm).symm n1
  have ends : ∀ (s' : State) (a b : List Item), s.readWatch = true ∨ s.errorWatch = true → .finished ∉ a → (b = [] ∨ b = [.useAfterFree]) →
      s'.kept = false → Over (finish s').1 (t ++ (a ++ [.finished] ++ b)) := by
    intro s' a b hw ha hb hk
    have hf : Item.finished ∉ t := fun hm => by
      obtain ⟨-, p, q⟩ := h2 hm
      rcases hw with hw | hw
      · rw [hw] at p; cases p
      · rw [hw] at q; cases q
    refine ⟨oneEnd_append hf (oneEnd_last a b ha hb), fun _ => ⟨by simp [finish, hk], rfl, rfl⟩, hk⟩
  cases e with
  | arrive b =>
    dsimp only [step]
    split
    · exact same
    · exact quiet { s with arrived := s.arrived ++ b } (.sent b) rfl rfl rfl rfl (by simp) (by simp) rfl
  | hangUp =>
    dsimp only [step]
    split
    · exact same
    · exact quiet { s with hungUp := true } .hungUp rfl rfl rfl rfl (by simp) (by simp) rfl
  | start =>
    dsimp only [step]
    split
    · exact same
    · rename_i hfr
      rw [List.append_nil]
      refine ⟨h1, fun hm => absurd (h2 hm).1 hfr, ?_⟩
      unfold start
      split <;> exact h3
  | shutdown =>
    dsimp only [step]
    split
    · exact same
    · unfold shutdown
      split
      · exact same
      · rename_i hw
        split
        · exact same
        · exact ends { s with shutdownRequested := true, channel := false } [] [] (Or.inl (by simpa using hw)) (by simp) (Or.inl rfl) h3
  | readReady rs =>
    dsimp only [step]
    split
    · rename_i hw
      have hw' : s.readWatch = true := by
        simp only [Bool.and_eq_true] at hw; exact hw.1
      unfold readReady
      dsimp only
      have hl : .finished ∉ (if s.shutdownRequested then (s, [], true) else readLoop s rs).2.1 ∧
          (if s.shutdownRequested then (s, [], true) else readLoop s rs).1.kept = s.kept := by
        split
        · exact ⟨by simp, rfl⟩
        · exact readLoop_says rs s
      generalize (if s.shutdownRequested then (s, [], true) else readLoop s rs) = a at hl
      split
      · have hf : Item.finished ∉ t := fun hm => by
          have := (h2 hm).2.1
          rw [hw'] at this; cases this
        have hf' : Item.finished ∉ t ++ a.2.1 := by simp only [List.mem_append, not_or]; exact ⟨hf, hl.1⟩
        exact ⟨oneEnd_none hf', fun hm => absurd hm hf', by rw [hl.2, h3]⟩
      · refine ends a.1 a.2.1 _ (Or.inl hw') hl.1 ?_ (by rw [hl.2, h3])
        split
        · exact Or.inr rfl
        · exact Or.inl rfl
    · exact same
  | errorReady hup err nval =>
    dsimp only [step]
    split
    · rename_i hw
      have hw' : s.errorWatch = true := by
        simp only [Bool.and_eq_true] at hw; exact hw.1
      unfold errorReady
      dsimp only
      generalize (err || (!(s.shutdownRequested || hup) && (hup || nval))) = failed
      have := ends { s with shutdownRequested := (s.shutdownRequested || hup) || failed } (if failed then [.error] else []) [] (Or.inr hw')
        (by split <;> simp) (Or.inl rfl) h3
      rw [List.append_nil] at this
      exact this
    · exact same

/-- **C73**: a reader with one owner, who lets go of it at its end, says at most once that it has finished, and nothing after that. -/
theorem C73_end (es : List Event) : OneEnd (run {} es).2 := by
  have key : ∀ (es : List Event) (s : State) (t : List Item), Over s t → Over (run s es).1 (t ++ (run s es).2) := by
    intro es
    induction es with
    | nil => intro s t h; simpa [run] using h
    | cons e es ih =>
      intro s t h
      have := ih _ _ (over_step e h)
      rw [List.append_assoc] at this
      exact this
  have := (key es {} [] ⟨fun p s e => by simp at e, by simp, rfl⟩).1
  rwa [List.nil_append] at this

/-- **C73** about memory: whoever keeps a reader beyond its end is safe. -/
theorem C73_memory_partial (es : List Event) : .useAfterFree ∉ (run { kept := true } es).2 := by
  have key : ∀ (es : List Event) (s : State), s.kept = true → .useAfterFree ∉ (run s es).2 := by
    have hro : ∀ (s : State) (r : Step), Item.useAfterFree ∉ (readOnce s r).2.1 := by
      intro s r
      unfold readOnce
      dsimp only
      split
      · simp
      · split <;> simp
    have hrl : ∀ (rs : List Step) (s : State), Item.useAfterFree ∉ (readLoop s rs).2.1 := by
      intro rs
      induction rs with
      | nil => intro s; simp [readLoop]
      | cons r rs ih =>
        intro s
        unfold readLoop
        dsimp only
        split
        · simp only [List.mem_append, not_or]; exact ⟨hro s r, ih _⟩
        · exact hro s r
    intro es
    induction es with
    | nil => intro s _; simp [run]
    | cons e es ih =>
      intro s hk
      simp only [run, List.mem_append, not_or]
      suffices h : Item.useAfterFree ∉ (step s e).2 ∧ (step s e).1.kept = true from ⟨h.1, ih _ h.2⟩
      cases e with
      | arrive b => dsimp only [step]; split <;> exact ⟨by simp, hk⟩
      | hangUp => dsimp only [step]; split <;> exact ⟨by simp, hk⟩
      | start =>
        dsimp only [step]
        split
        · exact ⟨by simp, hk⟩
        · unfold start; split <;> exact ⟨by simp, hk⟩
      | shutdown =>
        dsimp only [step]
        split
        · exact ⟨by simp, hk⟩
        · unfold shutdown
          split
          · exact ⟨by simp, hk⟩
          · split
            · exact ⟨by simp, hk⟩
            · exact ⟨by simp [finish], hk⟩
      | errorReady a b c =>
        dsimp only [step]
        split
        · refine ⟨?_, hk⟩
          unfold errorReady
          dsimp only
          split <;> simp [finish]
        · exact ⟨by simp, hk⟩
      | readReady rs =>
        dsimp only [step]
        split
        · unfold readReady
          dsimp only
          have hl : Item.useAfterFree ∉ (if s.shutdownRequested then (s, [], true) else readLoop s rs).2.1 ∧
              (if s.shutdownRequested then (s, [], true) else readLoop s rs).1.kept = true := by
            split
            · exact ⟨by simp, hk⟩
            · exact ⟨hrl rs s, (readLoop_says rs s).2.trans hk⟩
          generalize (if s.shutdownRequested then (s, [], true) else readLoop s rs) = a at hl
          split
          · exact hl
          · refine ⟨?_, hl.2⟩
            simp only [finish, hl.2, Bool.not_true, Bool.false_eq_true, if_false, List.append_nil, List.mem_append, not_or]
            exact ⟨hl.1, by simp⟩
        · exact ⟨by simp, hk⟩
  exact key es _ rfl

/-- **C73** is violated: when the end of the connection is read, the owner lets go of the reader, and the callback then writes to its freed memory. -/
theorem C73_memory_violated : .useAfterFree ∈ (run {} [.start, .hangUp, .readReady [{}]]).2 := by decide

/-- **C73** is violated: what is left in the buffer of the channel is handed on although a handler asked the reader to stop. -/
theorem C73_stop_violated :
    chunks (run {} [.start, .arrive [1, 2], .readReady [{ ready := 1, stops := true, more := true }, {}]]).2 = [[1], [2]] := by decide

/-! ## C78 -/

/-- between events no request to stop is pending, and input and errors are watched together -/
def Idle (s : State) : Prop := s.shutdownRequested = false ∧ s.errorWatch = s.readWatch ∧ (s.freed = true → s.readWatch = false)

theorem idle_finish (s : State) : Idle (finish s).1 := ⟨rfl, rfl, fun _ => rfl⟩

theorem readOnce_same (s : State) (r : Step) : (readOnce s r).1.errorWatch = s.errorWatch ∧ (readOnce s r).1.readWatch = s.readWatch ∧
    (readOnce s r).1.freed = s.freed := by
  unfold readOnce
  dsimp only
  split
  · split <;> exact ⟨rfl, rfl, rfl⟩
  · split <;> exact ⟨rfl, rfl, rfl⟩

theorem readLoop_same (rs : List Step) : ∀ s : State, (readLoop s rs).1.errorWatch = s.errorWatch ∧ (readLoop s rs).1.readWatch = s.readWatch ∧
    (readLoop s rs).1.freed = s.freed := by
  induction rs with
  | nil => exact fun s => ⟨rfl, rfl, rfl⟩
  | cons r rs ih =>
    intro s
    obtain ⟨h1, h2, h3⟩ := readOnce_same s r
    unfold readLoop
    dsimp only
    split
    · obtain ⟨g1, g2, g3⟩ := ih (readOnce s r).1
      exact ⟨g1.trans h1, g2.trans h2, g3.trans h3⟩
    · exact ⟨h1, h2, h3⟩

theorem idle_step {s : State} (e : Event) (h : Idle s) : Idle (step s e).1 := by
  cases e with
  | arrive b => dsimp only [step]; split <;> exact h
  | hangUp => dsimp only [step]; split <;> exact h
  | start =>
    dsimp only [step]
    split
    · exact h
    · rename_i hf
      unfold start
      split
      · exact ⟨h.1, rfl, fun h => absurd h hf⟩
      · exact h
  | shutdown =>
    dsimp only [step]
    split
    · exact h
    · unfold shutdown
      split
      · exact h
      · split
        · exact h
        · exact idle_finish _
  | readReady rs =>
    dsimp only [step]
    split
    · unfold readReady
      rw [h.1]
      dsimp only
      rw [if_neg Bool.false_ne_true]
      by_cases hc : ((readLoop s rs).2.2 && !(readLoop s rs).1.shutdownRequested) = true
      · rw [if_pos hc]
        simp only [Bool.and_eq_true, Bool.not_eq_true'] at hc
        refine ⟨hc.2, ?_⟩
        obtain ⟨g1, g2, g3⟩ := readLoop_same rs s
        rw [g1, g2, g3]
        exact h.2
      · rw [if_neg hc]
        exact idle_finish _
    · exact h
  | errorReady _ _ _ =>
    dsimp only [step]
    split
    · exact idle_finish _
    · exact h

theorem idle_run (es : List Event) : ∀ {s : State}, Idle s → Idle (run s es).1 := by
  induction es with
  | nil => exact fun h => h
  | cons e es ih => exact fun h => ih (idle_step e h)

theorem idle_history (kept : Bool) (es : List Event) : Idle (run { kept := kept } es).1 := idle_run es ⟨rfl, rfl, fun h => nomatch h⟩

/-- the end of a loop that was asked to stop, or was not -/
def ending (a : State × List Item × Bool) : List Item := a.2.1 ++ if a.2.2 && !a.1.shutdownRequested then [] else [.finished]

theorem readLoop_visit (rs : List Step) : ∀ s : State, ending (readLoop s rs) = visit s.hungUp s.arrived s.shutdownRequested rs := by
  induction rs with
  | nil =>
    intro s
    rw [show visit s.hungUp s.arrived s.shutdownRequested [] = if s.shutdownRequested then [.finished] else [] from by cases s.arrived <;> rfl]
    show [] ++ (if (true && !s.shutdownRequested) = true then [] else [Item.finished]) = _
    cases h : s.shutdownRequested <;> simp
  | cons r rs ih =>
    intro s
    cases ha : s.arrived with
    | nil =>
      have e1 : readOnce s r = if r.fails then ({ s with shutdownRequested := true }, [.error], false) else (s, [], !s.hungUp) := by
        unfold readOnce
        dsimp only
        rw [if_neg (by rw [ha]; simp)]
      unfold readLoop
      dsimp only
      rw [e1, visit]
      cases hf : r.fails
      · simp only [Bool.false_eq_true, if_false, ha]
        rw [if_neg (by simp)]
        simp only [ending]
        cases s.hungUp <;> cases s.shutdownRequested <;> rfl
      · rfl
    | cons b l =>
      have e1 : readOnce s r = ({ s with arrived := (b :: l).drop (min (max r.ready 1) 4096), shutdownRequested := s.shutdownRequested || r.stops },
          [.flow ((b :: l).take (min (max r.ready 1) 4096))], true) := by
        unfold readOnce
        dsimp only
        rw [if_pos (by rw [ha]; simp), ha]
        cases r.stops <;> simp [bufferSize]
      unfold readLoop
      dsimp only
      rw [e1, visit]
      dsimp only
      by_cases hm : (r.more && decide ((b :: l).drop (min (max r.ready 1) 4096) ≠ [])) = true
      · rw [if_pos hm, if_pos (by simpa using hm)]
        have := ih { s with arrived := (b :: l).drop (min (max r.ready 1) 4096), shutdownRequested := s.shutdownRequested || r.stops }
        dsimp only at this
        rw [← this]
        rfl
      · rw [if_neg hm, if_neg (by simpa using hm)]
        simp only [ending]
        cases s.shutdownRequested <;> cases r.stops <;> rfl

theorem readOnce_safe (s : State) (r : Step) : .useAfterFree ∉ (readOnce s r).2.1 := by
  unfold readOnce
  dsimp only
  split
  · simp
  · split <;> simp

theorem readLoop_safe (rs : List Step) : ∀ s : State, .useAfterFree ∉ (readLoop s rs).2.1 := by
  induction rs with
  | nil => intro s; simp [readLoop]
  | cons r rs ih =>
    intro s
    unfold readLoop
    dsimp only
    split
    · simp only [List.mem_append, not_or]; exact ⟨readOnce_safe s r, ih _⟩
    · exact readOnce_safe s r

theorem filter_safe {l : List Item} (h : .useAfterFree ∉ l) : l.filter (· ≠ .useAfterFree) = l := by
  rw [List.filter_eq_self]
  intro x hx
  simp only [ne_eq, decide_not, Bool.not_eq_true', decide_eq_false_iff_not]
  exact fun e => h (e ▸ hx)

/-- **C78**, reading: in every history, when there is something to read a started reader says exactly what it should: chunks of at most 4096 bytes
while there are any and the channel has more of them at hand, an error if a read fails, and the end at an error, at the end of the connection, and if it was
asked to stop.  (The use of freed memory of C73 is left aside.) -/
theorem C78_read (kept : Bool) (es : List Event) (rs : List Step) (hne : rs ≠ []) (hw : (run { kept := kept } es).1.readWatch = true) :
    (step (run { kept := kept } es).1 (.readReady rs)).2.filter (· ≠ .useAfterFree) =
      visit (run { kept := kept } es).1.hungUp (run { kept := kept } es).1.arrived false rs := by
  have hi := idle_history kept es
  revert hi hw
  generalize (run { kept := kept } es).1 = s
  intro hw hi
  have hv := readLoop_visit rs s
  rw [hi.1] at hv
  rw [← hv]
  dsimp only [step]
  rw [if_pos (by simp [hw, hne])]
  unfold readReady
  simp only [hi.1, Bool.false_eq_true, if_false, ending]
  by_cases hc : ((readLoop s rs).2.2 && !(readLoop s rs).1.shutdownRequested) = true
  · rw [if_pos hc, if_pos hc, List.append_nil]
    exact filter_safe (readLoop_safe rs s)
  · rw [if_neg hc, if_neg hc, List.filter_append, List.filter_append, filter_safe (readLoop_safe rs s)]
    have : (finish (readLoop s rs).1).2 = [.finished] := rfl
    rw [this]
    split <;> simp

/-- **C78**, errors: when the event loop reports an error of the connection, a started reader says so, and ends; a hang-up alone is no error. -/
theorem C78_error (kept : Bool) (es : List Event) (hup err nval : Bool) (hw : (run { kept := kept } es).1.readWatch = true)
    (hh : hup = true → (run { kept := kept } es).1.hungUp = true) :
    (step (run { kept := kept } es).1 (.errorReady hup err nval)).2 =
      if err = true ∨ (nval = true ∧ hup = false) then [.error, .finished] else [.finished] := by
  have hi := idle_history kept es
  revert hi hw hh
  generalize (run { kept := kept } es).1 = s
  intro hw hh hi
  dsimp only [step]
  rw [if_pos]
  · unfold errorReady
    simp only [hi.1]
    cases hup <;> cases err <;> cases nval <;> rfl
  · rw [hi.2.1, hw]
    cases hup
    · rfl
    · simp [hh rfl]

/-- **C78**, stopping: a started reader that is asked to stop says that it has finished, and one that is not started says nothing. -/
theorem C78_shutdown (kept : Bool) (es : List Event) :
    (step (run { kept := kept } es).1 .shutdown).2 = if (run { kept := kept } es).1.readWatch = true then [.finished] else [] := by
  have hi := idle_history kept es
  revert hi
  generalize (run { kept := kept } es).1 = s
  intro hi
  dsimp only [step]
  cases hw : s.readWatch
  · rw [if_neg Bool.false_ne_true]
    split
    · rfl
    · unfold shutdown
      rw [hw]
      rfl
  · rw [if_pos rfl]
    have hf : s.freed = false := by
      cases hf : s.freed
      · rfl
      · have := hi.2.2 hf
        rw [hw] at this
        exact nomatch this
    rw [hf]
    unfold shutdown
    rw [hw, hi.1]
    rfl

theorem errorsEnd_append {a b : List Item} (ha : ErrorsEnd a) (hb : ErrorsEnd b) : ErrorsEnd (a ++ b) := by
  intro p s e
  rcases List.append_eq_append_iff.mp e with ⟨c, h1, h2⟩ | ⟨c, h1, h2⟩
  · exact hb c s h2
  · cases c with
    | nil => exact hb [] s h2.symm
    | cons x c =>
      rw [List.cons_append] at h2
      injection h2 with h2 h3
      subst h2
      obtain ⟨s', e'⟩ := ha p c h1
      exact ⟨s' ++ b, by rw [h3, e']; rfl⟩

theorem errorsEnd_none {l : List Item} (h : .error ∉ l) : ErrorsEnd l := fun p s e => absurd (by rw [e]; simp) h

theorem errorsEnd_end : ErrorsEnd [.error, .finished] := by
  intro p s e
  cases p with
  | nil =>
    injection e with _ e
    exact ⟨[], e.symm⟩
  | cons x p =>
    injection e with _ e
    cases p with
    | nil =>
      injection e with e _
      exact nomatch e
    | cons y p =>
      injection e with _ e
      exact absurd e.symm (by simp)

theorem visit_errors (hungUp : Bool) (rs : List Step) : ∀ a asked, ErrorsEnd (visit hungUp a asked rs) := by
  have hf : ∀ c : Bool, ErrorsEnd (if c then [.finished] else []) := by
    intro c
    cases c <;> exact errorsEnd_none (by simp)
  induction rs with
  | nil =>
    intro a asked
    cases a <;> exact hf asked
  | cons r rs ih =>
    intro a asked
    cases a with
    | nil =>
      rw [visit]
      split
      · exact errorsEnd_end
      · exact hf _
    | cons b l =>
      rw [visit]
      have hflow : ∀ c t, ErrorsEnd t → ErrorsEnd (.flow c :: t) := fun c t ht => errorsEnd_append (a := [.flow c]) (errorsEnd_none (by simp)) ht
      refine hflow _ _ ?_
      split
      · exact ih _ _
      · exact hf _

/-- **C78**: in every history an error is followed by the end at once. -/
theorem C78_ends (kept : Bool) (es : List Event) : ErrorsEnd ((run { kept := kept } es).2.filter (· ≠ .useAfterFree)) := by
  have hnone : ∀ {l : List Item}, .error ∉ l → ErrorsEnd (l.filter (· ≠ .useAfterFree)) :=
    fun h => errorsEnd_none fun hm => h (List.mem_filter.mp hm).1
  have key : ∀ (s : State), Idle s → ∀ e, ErrorsEnd ((step s e).2.filter (· ≠ .useAfterFree)) := by
    intro s hi e
    cases e with
    | arrive b => dsimp only [step]; split <;> exact hnone (by simp)
    | hangUp => dsimp only [step]; split <;> exact hnone (by simp)
    | start => dsimp only [step]; split <;> exact hnone (by simp)
    | shutdown =>
      dsimp only [step]
      split
      · exact hnone (by simp)
      · unfold shutdown
        split
        · exact hnone (by simp)
        · split
          · exact hnone (by simp)
          · exact hnone (by simp [finish])
    | readReady rs =>
      dsimp only [step]
      split
      · have hv := readLoop_visit rs s
        have : (readReady s rs).2.filter (· ≠ .useAfterFree) = ending (readLoop s rs) := by
          unfold readReady
          simp only [hi.1, Bool.false_eq_true, if_false, ending]
          by_cases hc : ((readLoop s rs).2.2 && !(readLoop s rs).1.shutdownRequested) = true
          · rw [if_pos hc, if_pos hc, List.append_nil]
            exact filter_safe (readLoop_safe rs s)
          · rw [if_neg hc, if_neg hc, List.filter_append, List.filter_append, filter_safe (readLoop_safe rs s)]
            have : (finish (readLoop s rs).1).2 = [.finished] := rfl
            rw [this]
            split <;> simp
        rw [this, hv]
        exact visit_errors _ _ _ _
      · exact hnone (by simp)
    | errorReady hup err nval =>
      dsimp only [step]
      split
      · have : (errorReady s hup err nval).2 = [.error, .finished] ∨ (errorReady s hup err nval).2 = [.finished] := by
          unfold errorReady
          dsimp only
          split
          · exact Or.inl rfl
          · exact Or.inr rfl
        rcases this with h | h <;> rw [h]
        · exact errorsEnd_end
        · exact hnone (by simp)
      · exact hnone (by simp)
  have all : ∀ (es : List Event) (s : State), Idle s → ErrorsEnd ((run s es).2.filter (· ≠ .useAfterFree)) := by
    intro es
    induction es with
    | nil => exact fun s _ => hnone (by simp [run])
    | cons e es ih =>
      intro s hi
      show ErrorsEnd (((step s e).2 ++ _).filter _)
      rw [List.filter_append]
      exact errorsEnd_append (key s hi e) (ih _ (idle_step e hi))
  exact all es _ ⟨rfl, rfl, fun h => nomatch h⟩

/-- readers that read twice, then fail; that are asked to stop; and that see an error -/
example : (run { kept := true } [.start, .arrive [1, 2, 3], .readReady [{ ready := 2, more := true }, {}], .readReady [{ fails := true }]]).2 =
      [.sent [1, 2, 3], .flow [1, 2], .flow [3], .error, .finished] ∧
    (run { kept := true } [.start, .arrive [1, 2, 3], .readReady [{ ready := 2, stops := true }], .shutdown]).2 = [.sent [1, 2, 3], .flow [1, 2], .finished] ∧
    (run { kept := true } [.start, .errorReady false false true]).2 = [.error, .finished] := by decide

/-! ## C74 -/

section
open Verif.Decoder Verif.Enc

theorem feedAll_append {Ev : Type} (h : Handler Ev) (d : Dec) (a b : List Bytes) :
    (feedAll h d (a ++ b)).2 = (feedAll h d a).2 ++ (feedAll h (feedAll h d a).1 b).2 := by
  induction a generalizing d with
  | nil => simp [feedAll]
  | cons c a ih => simp [feedAll, ih]

theorem someFeedFailed_append {Ev : Type} (h : Handler Ev) (d : Dec) (a b : List Bytes) (hf : someFeedFailed h d (a ++ b) = false) :
    someFeedFailed h d a = false := by
  induction a generalizing d with
  | nil => rfl
  | cons c a ih =>
    simp only [List.cons_append, someFeedFailed, Bool.or_eq_false_iff] at hf ⊢
    exact ⟨hf.1, ih _ hf.2⟩

/-- what the reader has handed on is a prefix of what the other side's writer was given -/
theorem link_prefix (ws : List Writer.Event) (es : List Event)
    (hnet : sent (run {} es).2 <+: Spec.Writer.sent (Writer.run {} ws).2) :
    given (run {} es).2 <+: Spec.Writer.written (Writer.run {} ws).2 := by
  have h1 := C72_faithful false es _ [] (List.append_nil _).symm
  have h2 := C22_complete ws
  exact h1.trans (hnet.trans ⟨_, h2⟩)

/-- and all of it, when nothing is left on the way and the end was reached undisturbed -/
theorem link_all (ws : List Writer.Event) (es : List Event) (he : ∀ e ∈ es, Undisturbed e) (hf : .finished ∈ (run {} es).2)
    (hnet : sent (run {} es).2 = Spec.Writer.sent (Writer.run {} ws).2) (hbuf : (Writer.run {} ws).1.buffer = []) :
    given (run {} es).2 = Spec.Writer.written (Writer.run {} ws).2 := by
  have h2 := C22_complete ws
  rw [hbuf, List.append_nil] at h2
  rw [(C72_complete_partial false es he hf).1, hnet, h2]

/-- **C74** for commands, at each moment: one side encodes commands and gives the packets to its writer; the network passes on, in order, what the
writer's channel took, or a part of it so far; the reader of the other side hands chunks to the decoder. Whatever the writes, the cuts of the network
and the reads were, the commands decoded so far are the first of those encoded, and no error is reported. -/
theorem C74_commands (inet : Inet) (hi : InetLaws inet) (sort : MacroTable → MacroTable) (hsort : ∀ t, (sort t).Perm t)
    (cmds : List Cmd) (hneg : NegotiateFirst cmds) (hok : ∀ c ∈ cmds, CmdOk c)
    (hlen : ∀ p ∈ encodeAll inet sort [] cmds, p.length < intLimit)
    (ws : List Writer.Event) (es : List Event)
    (hw : Spec.Writer.written (Writer.run {} ws).2 = (encodeAll inet sort [] cmds).flatten)
    (hnet : sent (run {} es).2 <+: Spec.Writer.sent (Writer.run {} ws).2) :
    (∃ later, Pointwise SameCmd cmds ((feedAll (CmdDec.decode inet) init (chunks (run {} es).2)).2 ++ later)) ∧
    someFeedFailed (CmdDec.decode inet) init (chunks (run {} es).2) = false := by
  obtain ⟨rest, hrest⟩ := link_prefix ws es hnet
  have := C02 inet hi sort hsort cmds hneg hok hlen (chunks (run {} es).2 ++ [rest]) (by
    rw [← hw, ← hrest]; simp [given])
  rw [feedAll_append] at this
  exact ⟨⟨_, this.1⟩, someFeedFailed_append _ _ _ _ this.2.1⟩

/-- **C74** for commands, in the end: if the writer has nothing left, the network lost nothing and the reader came undisturbed to its end, then all commands
were decoded. -/
theorem C74_commands_all (inet : Inet) (hi : InetLaws inet) (sort : MacroTable → MacroTable) (hsort : ∀ t, (sort t).Perm t)
    (cmds : List Cmd) (hneg : NegotiateFirst cmds) (hok : ∀ c ∈ cmds, CmdOk c)
    (hlen : ∀ p ∈ encodeAll inet sort [] cmds, p.length < intLimit)
    (ws : List Writer.Event) (es : List Event) (he : ∀ e ∈ es, Undisturbed e) (hf : .finished ∈ (run {} es).2)
    (hw : Spec.Writer.written (Writer.run {} ws).2 = (encodeAll inet sort [] cmds).flatten) (hbuf : (Writer.run {} ws).1.buffer = [])
    (hnet : sent (run {} es).2 = Spec.Writer.sent (Writer.run {} ws).2) :
    Pointwise SameCmd cmds (feedAll (CmdDec.decode inet) init (chunks (run {} es).2)).2 :=
  (C02 inet hi sort hsort cmds hneg hok hlen _ ((link_all ws es he hf hnet hbuf).trans hw)).1

/-- **C74** for replies, at each moment -/
theorem C74_replies (order : Requests → Requests) (ho : ∀ t, (order t).Perm t) (rs : List Reply)
    (hneg : NegotiateFirstReply rs) (hok : ∀ r ∈ rs, ReplyOk r) (hlen : ∀ p ∈ encodeReplies order [] rs, p.length < intLimit)
    (ws : List Writer.Event) (es : List Event)
    (hw : Spec.Writer.written (Writer.run {} ws).2 = (encodeReplies order [] rs).flatten)
    (hnet : sent (run {} es).2 <+: Spec.Writer.sent (Writer.run {} ws).2) :
    (∃ later, Pointwise SameReply rs ((feedAll RepDec.decode init (chunks (run {} es).2)).2 ++ later)) ∧
    someFeedFailed RepDec.decode init (chunks (run {} es).2) = false := by
  obtain ⟨rest, hrest⟩ := link_prefix ws es hnet
  have := C03 order ho rs hneg hok hlen (chunks (run {} es).2 ++ [rest]) (by rw [← hw, ← hrest]; simp [given])
  rw [feedAll_append] at this
  exact ⟨⟨_, this.1⟩, someFeedFailed_append _ _ _ _ this.2.1⟩

/-- **C74** for replies, in the end -/
theorem C74_replies_all (order : Requests → Requests) (ho : ∀ t, (order t).Perm t) (rs : List Reply)
    (hneg : NegotiateFirstReply rs) (hok : ∀ r ∈ rs, ReplyOk r) (hlen : ∀ p ∈ encodeReplies order [] rs, p.length < intLimit)
    (ws : List Writer.Event) (es : List Event) (he : ∀ e ∈ es, Undisturbed e) (hf : .finished ∈ (run {} es).2)
    (hw : Spec.Writer.written (Writer.run {} ws).2 = (encodeReplies order [] rs).flatten) (hbuf : (Writer.run {} ws).1.buffer = [])
    (hnet : sent (run {} es).2 = Spec.Writer.sent (Writer.run {} ws).2) :
    Pointwise SameReply rs (feedAll RepDec.decode init (chunks (run {} es).2)).2 :=
  (C03 order ho rs hneg hok hlen _ ((link_all ws es he hf hnet hbuf).trans hw)).1

/-- the hypotheses can be met: the packet of `quit` goes out in two writes, arrives in three pieces and is read in two -/
example :
    let p := encodeAll exampleInet id [] [.quit]
    let ws : List Writer.Event := [.call .start, .call (.write p.flatten), .writeReady 3 false [], .writeReady 9 false []]
    let es : List Event := [.start, .arrive (p.flatten.take 1), .arrive ((p.flatten.drop 1).take 2), .readReady [{ ready := 2 }], .arrive (p.flatten.drop 3),
      .hangUp, .readReady [{}], .readReady [{}]]
    Spec.Writer.written (Writer.run {} ws).2 = p.flatten ∧ (Writer.run {} ws).1.buffer = [] ∧
    sent (run {} es).2 = Spec.Writer.sent (Writer.run {} ws).2 ∧ .finished ∈ (run {} es).2 ∧
    chunks (run {} es).2 = [[0, 0], [0, 1, 0x51]] := by decide +kernel

end

end Verif.Props.Reader
