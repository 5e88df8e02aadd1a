import Verif.Core.Writer
import Verif.Spec.Writer
/-
C22, C47: the writer.
-/
namespace Verif.Props
open Verif Verif.Writer Verif.Spec.Writer

namespace WriterLemmas

theorem written_append (a b : List Item) : written (a ++ b) = written a ++ written b := by
  induction a with
  | nil => rfl
  | cons x a ih => cases x <;> simp [written, ih]

theorem sent_append (a b : List Item) : sent (a ++ b) = sent a ++ sent b := by
  induction a with
  | nil => rfl
  | cons x a ih => cases x <;> simp [sent, ih]

/-- `P` is kept when the items `out` are appended to the trace and the state becomes `s'` -/
abbrev Inv := State → List Item → Prop

def Keeps (P : Inv) (f : State → State × List Item) : Prop :=
  ∀ s t, P s t → P (f s).1 (t ++ (f s).2)

theorem calls_keeps (P : Inv) (ok : Call → Prop) (h : ∀ c, ok c → Keeps P (fun s => call s c))
    (cs : List Call) (hc : ∀ c ∈ cs, ok c) : Keeps P (fun s => calls s cs) := by
  induction cs with
  | nil => intro s t hp; simpa [calls] using hp
  | cons c cs ih =>
    intro s t hp
    have h1 := h c (hc c List.mem_cons_self) s t hp
    have h2 := ih (fun x hx => hc x (List.mem_cons_of_mem _ hx)) _ _ h1
    simpa [calls, List.append_assoc] using h2

theorem run_keeps (P : Inv) (ok : Event → Prop) (h : ∀ e, ok e → Keeps P (fun s => step s e))
    (es : List Event) (he : ∀ e ∈ es, ok e) : Keeps P (fun s => run s es) := by
  induction es with
  | nil => intro s t hp; simpa [run] using hp
  | cons e es ih =>
    intro s t hp
    have h1 := h e (he e List.mem_cons_self) s t hp
    have h2 := ih (fun x hx => he x (List.mem_cons_of_mem _ hx)) _ _ h1
    simpa [run, List.append_assoc] using h2

/-! order: no hypothesis on the history -/

def Bal (s : State) (t : List Item) : Prop := sent t ++ s.buffer = written t ∧ Ordered t

theorem ordered_snoc (t : List Item) (x : Item) (h : Ordered t) (hx : sent (t ++ [x]) <+: written (t ++ [x])) :
    Ordered (t ++ [x]) := by
  intro p s e
  rcases List.eq_nil_or_concat s with rfl | ⟨s', y, rfl⟩
  · rw [List.append_nil] at e; rw [← e]; exact hx
  · rw [List.concat_eq_append, ← List.append_assoc] at e
    exact h p s' (List.append_inj_left' e rfl)

/-- items other than write and sent -/
def Silent (x : Item) : Prop := ∀ t, sent (t ++ [x]) = sent t ∧ written (t ++ [x]) = written t

theorem silent_flush : Silent .flush := fun t => by simp [sent_append, written_append, sent, written]
theorem silent_flushed : Silent .flushed := fun t => by simp [sent_append, written_append, sent, written]
theorem silent_error : Silent .error := fun t => by simp [sent_append, written_append, sent, written]
theorem silent_finished : Silent .finished := fun t => by simp [sent_append, written_append, sent, written]

theorem bal_silent (s s' : State) (t : List Item) (x : Item) (h : Bal s t) (hx : Silent x)
    (hb : s'.buffer = s.buffer) : Bal s' (t ++ [x]) := by
  obtain ⟨h1, h2⟩ := h
  obtain ⟨e1, e2⟩ := hx t
  refine ⟨by rw [e1, e2, hb, h1], ordered_snoc t x h2 ?_⟩
  rw [e1, e2, ← h1]
  exact List.prefix_append _ _

theorem bal_state (s s' : State) (t : List Item) (h : Bal s t) (hb : s'.buffer = s.buffer) : Bal s' t := by
  unfold Bal; rw [hb]; exact h

theorem bal_sent (s s' : State) (t : List Item) (n : Nat) (h : Bal s t)
    (hb : s'.buffer = s.buffer.drop n) : Bal s' (t ++ [.sent (s.buffer.take n)]) := by
  obtain ⟨h1, h2⟩ := h
  have e1 : sent (t ++ [.sent (s.buffer.take n)]) = sent t ++ s.buffer.take n := by
    simp [sent_append, sent]
  have e2 : written (t ++ [.sent (s.buffer.take n)]) = written t := by
    simp [written_append, written]
  refine ⟨by rw [e1, e2, hb, List.append_assoc, List.take_append_drop, h1], ordered_snoc t _ h2 ?_⟩
  rw [e1, e2, ← h1]
  exact List.prefix_append_right_inj _ |>.2 (List.take_prefix _ _)

theorem bal_call (c : Call) : Keeps Bal (fun s => call s c) := by
  intro s t h
  cases c with
  | start =>
    simp only [call, List.append_nil]
    unfold start
    split
    · exact bal_state _ _ _ h rfl
    · exact h
  | write c =>
    simp only [call, Verif.Writer.write]
    split
    · simpa using h
    · split
      · simpa using h
      · split
        · rename_i hc
          obtain ⟨h1, h2⟩ := h
          have : c = [] := List.eq_nil_of_length_eq_zero hc
          subst this
          have e1 : sent (t ++ [Item.write []]) = sent t := by simp [sent_append, sent]
          have e2 : written (t ++ [Item.write []]) = written t := by simp [written_append, written]
          refine ⟨by rw [e1, e2, h1], ordered_snoc t _ h2 ?_⟩
          rw [e1, e2, ← h1]
          exact List.prefix_append _ _
        · obtain ⟨h1, h2⟩ := h
          have e1 : sent (t ++ [Item.write c]) = sent t := by simp [sent_append, sent]
          have e2 : written (t ++ [Item.write c]) = written t ++ c := by simp [written_append, written]
          refine ⟨by rw [e1, e2, ← h1]; simp, ordered_snoc t _ h2 ?_⟩
          rw [e1, e2, ← h1, List.append_assoc]
          exact List.prefix_append _ _
  | flush =>
    simp only [call, Verif.Writer.flush]
    split
    · simpa using h
    · split
      · simpa using h
      · split
        · exact bal_silent s _ t _ h silent_flush rfl
        · exact bal_silent s _ t _ h silent_flush rfl
  | shutdown k e =>
    simp only [call, shutdown]
    split
    · simpa using h
    · split
      · simp only [flushOnShutdown]
        split
        · simp only [List.append_nil]; exact bal_state s _ t h rfl
        · have h1 := bal_sent s { s with buffer := s.buffer.drop k } t k h rfl
          split
          · have := bal_silent _ { s with
              writeWatch := false, flushWatch := false, errorWatch := false, loop := false,
              buffer := s.buffer.drop k, channel := false } _ .error h1 silent_error rfl
            simpa [List.append_assoc] using this
          · have := bal_silent _ { s with
              writeWatch := false, flushWatch := false, errorWatch := false, loop := false,
              buffer := s.buffer.drop k, channel := false } _ .flushed h1 silent_flushed rfl
            simpa [List.append_assoc] using this
      · simp only [List.append_nil]; exact bal_state s _ t h rfl

theorem bal_calls (cs : List Call) : Keeps Bal (fun s => calls s cs) :=
  calls_keeps Bal (fun _ => True) (fun c _ => bal_call c) cs (fun _ _ => trivial)

theorem bal_signal (s : State) (t : List Item) (x : Item) (hx : Silent x) (hd : List Call) (h : Bal s t)
    (f : State → State) (hf : ∀ s, (f s).buffer = s.buffer) :
    Bal (f (calls s hd).1) (t ++ x :: (calls s hd).2) := by
  have h1 := bal_silent s s t x h hx rfl
  have h2 := bal_calls hd s _ h1
  have h3 := bal_state _ (f (calls s hd).1) _ h2 (hf _)
  simpa [List.append_assoc] using h3

theorem bal_accept (n : Nat) : Keeps Bal (fun s => accept s n) := by
  intro s t h
  simp only [accept]
  split
  · simpa using h
  · refine bal_sent s _ t n h ?_
    split <;> rfl

theorem bal_step (e : Event) : Keeps Bal (fun s => step s e) := by
  intro s t h
  cases e with
  | call c => exact bal_call c s t h
  | writeReady k er hd =>
    simp only [step]
    split
    · simp only [writeReady]
      split
      · simp only [List.append_nil]; exact bal_state s _ t h rfl
      · have h1 := bal_accept (min k s.buffer.length) s t h
        split
        · have := bal_signal _ _ .error silent_error hd h1 (fun s => { s with writeWatch := false }) (fun _ => rfl)
          simpa [List.append_assoc] using this
        · exact h1
    · simpa using h
  | flushReady r hd =>
    simp only [step]
    split
    · cases r with
      | again => simpa [flushReady] using h
      | done =>
        have := bal_signal s t .flushed silent_flushed hd h (fun s => { s with flushWatch := false }) (fun _ => rfl)
        simpa [flushReady] using this
      | error =>
        have := bal_signal s t .error silent_error hd h (fun s => { s with flushWatch := false }) (fun _ => rfl)
        simpa [flushReady] using this
    · simpa using h
  | errorReady hd =>
    simp only [step]
    split
    · have h1 := bal_signal s t .error silent_error hd h id (fun _ => rfl)
      have h2 := bal_silent _ { (calls s hd).1 with errorWatch := false, writeWatch := false, flushWatch := false }
        _ .finished h1 silent_finished rfl
      simpa [errorReady, List.append_assoc] using h2
    · simpa using h

/-! honesty of "flushed" -/

/-- lengths written before each flush request -/
def reqs : List Item → Nat → List Nat
  | [], _ => []
  | .write c :: t, n => reqs t (n + c.length)
  | .flush :: t, n => n :: reqs t n
  | _ :: t, n => reqs t n

theorem reqs_append (a b : List Item) (n : Nat) :
    reqs (a ++ b) n = reqs a n ++ reqs b (n + (written a).length) := by
  induction a generalizing n with
  | nil => simp [reqs, written]
  | cons x a ih => cases x <;> simp [reqs, written, ih, Nat.add_assoc]

theorem reqs_le (a : List Item) (n : Nat) : ∀ x ∈ reqs a n, n ≤ x ∧ x ≤ n + (written a).length := by
  induction a generalizing n with
  | nil => simp [reqs]
  | cons y a ih =>
    intro x hx
    cases y with
    | write c =>
      have := ih _ x hx
      simp [written]; omega
    | flush =>
      simp only [reqs, List.mem_cons] at hx
      simp only [written]
      rcases hx with rfl | hx
      · omega
      · exact ih _ x hx
    | sent c => exact ih _ x hx
    | flushed => exact ih _ x hx
    | error => exact ih _ x hx
    | finished => exact ih _ x hx

/-- the request with index `i`, as a split of the trace -/
theorem reqs_split (t : List Item) (n i w : Nat) (h : (reqs t n)[i]? = some w) :
    ∃ q r, t = q ++ .flush :: r ∧ q.count .flush = i ∧ n + (written q).length = w := by
  induction t generalizing n i with
  | nil => simp [reqs] at h
  | cons x t ih =>
    have other : ∀ (hne : x ≠ .flush) (m : Nat) (h : (reqs t m)[i]? = some w)
        (hm : m = n + (written [x]).length),
        ∃ q r, x :: t = q ++ .flush :: r ∧ q.count .flush = i ∧ n + (written q).length = w := by
      intro hne m h hm
      obtain ⟨q, r, h1, h2, h3⟩ := ih m i h
      refine ⟨x :: q, r, by simp [h1], ?_, ?_⟩
      · rw [List.count_cons_of_ne hne]; exact h2
      · have : written (x :: q) = written [x] ++ written q := written_append [x] q
        rw [this, List.length_append]
        omega
    cases x with
    | flush =>
      cases i with
      | zero =>
        simp [reqs] at h
        exact ⟨[], t, rfl, rfl, by simp [written, h]⟩
      | succ i =>
        simp only [reqs, List.getElem?_cons_succ] at h
        obtain ⟨q, r, h1, h2, h3⟩ := ih n i h
        exact ⟨.flush :: q, r, by simp [h1], by simp [h2], by simpa [written] using h3⟩
    | write c => exact other (by simp) _ h (by simp [written])
    | sent c => exact other (by simp) _ h (by simp [written])
    | flushed => exact other (by simp) _ h (by simp [written])
    | error => exact other (by simp) _ h (by simp [written])
    | finished => exact other (by simp) _ h (by simp [written])

theorem reqs_mono (t : List Item) (n i j v w : Nat) (hij : i ≤ j) (hi : (reqs t n)[i]? = some v)
    (hj : (reqs t n)[j]? = some w) : v ≤ w := by
  induction t generalizing n i j with
  | nil => simp [reqs] at hi
  | cons x t ih =>
    cases x with
    | flush =>
      cases i with
      | zero =>
        simp [reqs] at hi
        subst hi
        exact (reqs_le _ n w (List.mem_of_getElem? (l := reqs (.flush :: t) n) hj)).1
      | succ i =>
        cases j with
        | zero => omega
        | succ j =>
          simp only [reqs, List.getElem?_cons_succ] at hi hj
          exact ih n i j (by omega) hi hj
    | write c => exact ih _ i j hij hi hj
    | sent c => exact ih _ i j hij hi hj
    | flushed => exact ih _ i j hij hi hj
    | error => exact ih _ i j hij hi hj
    | finished => exact ih _ i j hij hi hj

/-- the invariant, with `fw` standing for the flush callback that will report -/
def Hon (fw : Bool) (s : State) (t : List Item) : Prop :=
  Bal s t ∧ Honest t ∧
  (s.writeWatch = false → s.buffer = []) ∧
  (s.flushPoint ≤ s.buffer.length) ∧
  (t.count .flushed ≤ (reqs t 0).length) ∧
  (0 < s.flushPoint → ∃ i, (reqs t 0)[i]? = some ((sent t).length + s.flushPoint) ∧
    t.count .flushed + (if fw then 1 else 0) ≤ i) ∧
  (fw = true → ∃ j w, (reqs t 0)[j]? = some w ∧ w ≤ (sent t).length ∧ t.count .flushed ≤ j)

theorem honest_snoc (t : List Item) (x : Item) (h : Honest t)
    (hx : x = .flushed → ∃ q r, t = q ++ .flush :: r ∧ q.count .flush = t.count .flushed ∧ written q <+: sent t) :
    Honest (t ++ [x]) := by
  intro p s e
  rcases List.eq_nil_or_concat s with rfl | ⟨s', y, rfl⟩
  · have e1 := List.append_inj_left' e (by simp)
    have e2 := List.append_inj_right' e (by simp)
    simp at e2
    subst e1
    exact hx e2
  · have e' : t ++ [x] = (p ++ .flushed :: s') ++ [y] := by
      rw [e, List.concat_eq_append]; simp
    exact h p s' (List.append_inj_left' e' (by simp))

theorem count_snoc (t : List Item) (x : Item) (hx : x ≠ .flushed) :
    (t ++ [x]).count .flushed = t.count .flushed := by
  rw [List.count_append, List.count_cons_of_ne hx]
  simp

theorem len_bal (s : State) (t : List Item) (h : Bal s t) :
    (sent t).length + s.buffer.length = (written t).length := by
  rw [← List.length_append, h.1]

theorem hon_write (fw : Bool) (c : Bytes) (s : State) (t : List Item) (h : Hon fw s t) :
    Hon fw (call s (.write c)).1 (t ++ (call s (.write c)).2) := by
  have hb := bal_call (.write c) s t h.1
  obtain ⟨h1, h2, h3, h4, h7, h5, h6⟩ := h
  have hh : Honest (t ++ [Item.write c]) := honest_snoc t _ h2 (by simp)
  have e1 : sent (t ++ [Item.write c]) = sent t := by simp [sent_append, sent]
  have e3 : reqs (t ++ [Item.write c]) 0 = reqs t 0 := by rw [reqs_append]; simp [reqs]
  have e4 := count_snoc t (.write c) (by simp)
  revert hb
  simp only [call, Verif.Writer.write]
  split
  · intro _; simpa using ⟨h1, h2, h3, h4, h7, h5, h6⟩
  · split
    · intro _; simpa using ⟨h1, h2, h3, h4, h7, h5, h6⟩
    · split
      · intro hb
        exact ⟨hb, hh, h3, h4, by rw [e3, e4]; exact h7, by rw [e1, e3, e4]; exact h5, by rw [e1, e3, e4]; exact h6⟩
      · intro hb
        refine ⟨hb, hh, by simp, ?_, by rw [e3, e4]; exact h7, by rw [e1, e3, e4]; exact h5, by rw [e1, e3, e4]; exact h6⟩
        simp only [List.length_append]
        omega

/-- the index of the newest request -/
theorem reqs_flush (t : List Item) :
    reqs (t ++ [Item.flush]) 0 = reqs t 0 ++ [(written t).length] := by
  rw [reqs_append]; simp [reqs]

theorem hon_flush (fw fw' : Bool) (s : State) (t : List Item) (h : Hon fw s t)
    (hA : fw' = true → fw = true ∨ (s.writeWatch = false ∧ s.channel = true ∧ s.loop = true)) :
    Hon fw' (call s .flush).1 (t ++ (call s .flush).2) := by
  have hb := bal_call .flush s t h.1
  obtain ⟨h1, h2, h3, h4, h7, h5, h6⟩ := h
  have hh : Honest (t ++ [Item.flush]) := honest_snoc t _ h2 (by simp)
  have e1 : sent (t ++ [Item.flush]) = sent t := by simp [sent_append, sent]
  have e3 := reqs_flush t
  have e4 := count_snoc t .flush (by simp)
  have keep : ∀ i v : Nat, (reqs t 0)[i]? = some v → (reqs (t ++ [Item.flush]) 0)[i]? = some v := by
    intro i v hi
    rw [e3, List.getElem?_append_left (by exact (List.getElem?_eq_some_iff.1 hi).1)]
    exact hi
  have last : (reqs (t ++ [Item.flush]) 0)[(reqs t 0).length]? = some (written t).length := by
    rw [e3]; simp
  have hlen := len_bal s t h1
  have hcnt : (t ++ [Item.flush]).count .flushed ≤ (reqs (t ++ [Item.flush]) 0).length := by
    rw [e4, e3, List.length_append]; omega
  have weak : s.channel = false ∨ s.loop = false → Hon fw' s (t ++ []) := by
    intro hc
    rw [List.append_nil]
    refine ⟨h1, h2, h3, h4, h7, ?_, ?_⟩
    · intro hp
      obtain ⟨i, g1, g2⟩ := h5 hp
      refine ⟨i, g1, ?_⟩
      by_cases hf : fw' = true
      · rcases hA hf with hf' | ⟨-, q1, q2⟩
        · simp [hf'] at g2; simp [hf]; exact g2
        · simp [q1, q2] at hc
      · simp [hf]; split at g2 <;> omega
    · intro hf
      rcases hA hf with hf' | ⟨-, q1, q2⟩
      · exact h6 hf'
      · simp [q1, q2] at hc
  revert hb
  simp only [call, Verif.Writer.flush]
  split
  · rename_i hc
    intro _
    exact weak (.inl (by simpa using hc))
  · split
    · rename_i hl
      intro _
      exact weak (.inr (by simpa using hl))
    · split
      · rename_i hw
        intro hb
        refine ⟨hb, hh, by simp [hw], Nat.le_refl _, hcnt, ?_, ?_⟩
        · intro _
          refine ⟨(reqs t 0).length, by rw [last, e1, hlen], ?_⟩
          rw [e4]
          by_cases hf : fw' = true
          · rcases hA hf with hf' | ⟨q, -⟩
            · obtain ⟨j, w, hj, -, hj2⟩ := h6 hf'
              have := (List.getElem?_eq_some_iff.1 hj).1
              simp [hf]; omega
            · simp [hw] at q
          · simp [hf]; exact h7
        · intro hf
          rcases hA hf with hf' | ⟨q, -⟩
          · obtain ⟨j, w, hj, hj1, hj2⟩ := h6 hf'
            exact ⟨j, w, keep j w hj, by rw [e1]; exact hj1, by rw [e4]; exact hj2⟩
          · simp [hw] at q
      · rename_i hw
        have hw : s.writeWatch = false := by simpa using hw
        intro hb
        have hbuf := h3 hw
        have hfp : s.flushPoint = 0 := by rw [hbuf] at h4; simpa using h4
        refine ⟨hb, hh, fun _ => hbuf, h4, hcnt, ?_, ?_⟩
        · intro hp; exact absurd hp (by simp [requestFlush, hfp])
        · intro hf
          refine ⟨(reqs t 0).length, _, last, ?_, by rw [e4]; exact h7⟩
          rw [e1, ← hlen, hbuf]
          simp

theorem hon_state (fw : Bool) (s s' : State) (t : List Item) (h : Hon fw s t) (hb : s'.buffer = s.buffer)
    (hf : s'.flushPoint = s.flushPoint) (hw : s'.writeWatch = false → s.writeWatch = false) :
    Hon fw s' t := by
  obtain ⟨h1, h2, h3, h4, h7, h5, h6⟩ := h
  exact ⟨bal_state s s' t h1 hb, h2, fun q => by rw [hb]; exact h3 (hw q), by rw [hf, hb]; exact h4, h7,
    by rw [hf]; exact h5, h6⟩

theorem hon_weaken (fw : Bool) (s : State) (t : List Item) (h : Hon fw s t) : Hon false s t := by
  obtain ⟨h1, h2, h3, h4, h7, h5, h6⟩ := h
  refine ⟨h1, h2, h3, h4, h7, fun hp => ?_, by simp⟩
  obtain ⟨i, g1, g2⟩ := h5 hp
  exact ⟨i, g1, by simp; omega⟩

/-- the calls considered: everything but shutdown -/
def NoShutdown (c : Call) : Prop := ∀ k e, c ≠ .shutdown k e

/-- while "flushed" is being reported -/
theorem hon_call_in (c : Call) (hc : NoShutdown c) : Keeps (Hon false) (fun s => call s c) := by
  intro s t h
  cases c with
  | start =>
    simp only [call, start, List.append_nil]
    split
    · exact hon_state _ s _ t h rfl rfl id
    · exact h
  | write c => exact hon_write _ c s t h
  | flush => exact hon_flush false false s t h (by simp)
  | shutdown k e => exact absurd rfl (hc k e)

theorem hon_calls_in (cs : List Call) (hc : ∀ c ∈ cs, NoShutdown c) :
    Keeps (Hon false) (fun s => calls s cs) :=
  calls_keeps _ NoShutdown hon_call_in cs hc

/-- otherwise -/
theorem hon_call (c : Call) (hc : NoShutdown c) :
    Keeps (fun s t => Hon s.flushWatch s t) (fun s => call s c) := by
  intro s t h
  cases c with
  | start =>
    simp only [call, start, List.append_nil]
    split
    · exact hon_state _ s _ t h rfl rfl id
    · exact h
  | write c =>
    have h1 := hon_write _ c s t h
    have : (call s (.write c)).1.flushWatch = s.flushWatch := by
      simp only [call, Verif.Writer.write]
      split
      · rfl
      · split
        · rfl
        · split <;> rfl
    show Hon (call s (.write c)).1.flushWatch _ _
    rw [this]
    exact h1
  | flush =>
    refine hon_flush s.flushWatch _ s t h ?_
    simp only [call, Verif.Writer.flush]
    split
    · exact .inl
    · rename_i hc
      split
      · exact .inl
      · rename_i hl
        split
        · exact .inl
        · rename_i hw
          intro _
          exact .inr ⟨by simpa using hw, by simpa using hc, by simpa using hl⟩
  | shutdown k e => exact absurd rfl (hc k e)

theorem hon_silent (s : State) (t : List Item) (x : Item) (hx : Silent x) (hxf : x ≠ .flush) (hxd : x ≠ .flushed)
    (fw : Bool) (h : Hon fw s t) : Hon fw s (t ++ [x]) := by
  have hb := bal_silent s s t x h.1 hx rfl
  obtain ⟨h1, h2, h3, h4, h7, h5, h6⟩ := h
  obtain ⟨e1, e2⟩ := hx t
  have e3 : reqs (t ++ [x]) 0 = reqs t 0 := by
    rw [reqs_append]
    cases x <;> simp_all [reqs]
  have e4 := count_snoc t x hxd
  exact ⟨hb, honest_snoc t x h2 (fun e => absurd e hxd), h3, h4, by rw [e3, e4]; exact h7,
    by rw [e1, e3, e4]; exact h5, by rw [e1, e3, e4]; exact h6⟩

theorem prefix_of_len (a b c : Bytes) (h1 : a <+: c) (h2 : b <+: c) (h : a.length ≤ b.length) : a <+: b :=
  List.prefix_of_prefix_length_le h1 h2 h

theorem hon_flushed (s : State) (t : List Item) (h : Hon true s t) : Hon false s (t ++ [.flushed]) := by
  have hb := bal_silent s s t .flushed h.1 silent_flushed rfl
  obtain ⟨h1, h2, h3, h4, h7, h5, h6⟩ := h
  obtain ⟨e1, e2⟩ := silent_flushed t
  have e3 : reqs (t ++ [Item.flushed]) 0 = reqs t 0 := by rw [reqs_append]; simp [reqs]
  have e4 : (t ++ [Item.flushed]).count .flushed = t.count .flushed + 1 := by simp [List.count_append]
  obtain ⟨j, w, hj, hj1, hj2⟩ := h6 rfl
  have hjl := (List.getElem?_eq_some_iff.1 hj).1
  refine ⟨hb, honest_snoc t _ h2 ?_, h3, h4, by rw [e3, e4]; omega, ?_, by simp⟩
  · intro _
    have hk : t.count .flushed < (reqs t 0).length := by omega
    obtain ⟨v, hv⟩ : ∃ v, (reqs t 0)[t.count .flushed]? = some v := ⟨_, List.getElem?_eq_getElem hk⟩
    have hvw := reqs_mono t 0 _ _ v w hj2 hv hj
    obtain ⟨q, r, g1, g2, g3⟩ := reqs_split t 0 _ v hv
    refine ⟨q, r, g1, g2, prefix_of_len (written q) (sent t) (written t) ?_ ?_ (by omega)⟩
    · rw [g1, written_append]; exact List.prefix_append _ _
    · rw [← h1.1]; exact List.prefix_append _ _
  · intro hp
    obtain ⟨i, g1, g2⟩ := h5 hp
    simp at g2
    exact ⟨i, by rw [e1, e3]; exact g1, by rw [e4]; simp; omega⟩

theorem hon_accept (n : Nat) (s : State) (t : List Item) (hn : n ≤ s.buffer.length) (hw : s.writeWatch = true)
    (h : Hon s.flushWatch s t) : Hon (accept s n).1.flushWatch (accept s n).1 (t ++ (accept s n).2) := by
  have hb := bal_accept n s t h.1
  obtain ⟨h1, h2, h3, h4, h7, h5, h6⟩ := h
  have e1 : sent (t ++ [.sent (s.buffer.take n)]) = sent t ++ s.buffer.take n := by simp [sent_append, sent]
  have el : (sent (t ++ [.sent (s.buffer.take n)])).length = (sent t).length + n := by
    rw [e1, List.length_append, List.length_take, Nat.min_eq_left hn]
  have e3 : reqs (t ++ [.sent (s.buffer.take n)]) 0 = reqs t 0 := by rw [reqs_append]; simp [reqs]
  have e4 := count_snoc t (.sent (s.buffer.take n)) (by simp)
  have hh : Honest (t ++ [.sent (s.buffer.take n)]) := honest_snoc t _ h2 (by simp)
  revert hb
  simp only [accept]
  split
  · intro _; simpa using ⟨h1, h2, h3, h4, h7, h5, h6⟩
  · -- the pending report stays pending
    have h6' : s.flushWatch = true → ∃ j w, (reqs (t ++ [.sent (s.buffer.take n)]) 0)[j]? = some w ∧
        w ≤ (sent (t ++ [.sent (s.buffer.take n)])).length ∧
        (t ++ [Item.sent (s.buffer.take n)]).count Item.flushed ≤ j := by
      intro hf
      obtain ⟨j, w, g1, g2, g3⟩ := h6 hf
      exact ⟨j, w, by rw [e3]; exact g1, by rw [el]; omega, by rw [e4]; exact g3⟩
    split
    · rename_i hnf
      simp only [Bool.and_eq_true, decide_eq_true_eq] at hnf
      obtain ⟨⟨q1, q2⟩, q3⟩ := hnf
      intro hb
      refine ⟨hb, hh, by simp [requestFlush, hw], ?_, by rw [e3, e4]; exact h7, ?_, ?_⟩
      · simp [requestFlush, q2]
      · simp [requestFlush, q2]
      · intro _
        obtain ⟨i, g1, g2⟩ := h5 q1
        exact ⟨i, _, by rw [e3]; exact g1, by rw [el]; omega, by rw [e4]; split at g2 <;> omega⟩
    · rename_i hnf
      intro hb
      refine ⟨hb, hh, by simp [hw], ?_, by rw [e3, e4]; exact h7, ?_, h6'⟩
      · simp only [List.length_drop]
        split <;> omega
      · simp only
        split
        · simp
        · rename_i hlt
          intro hp
          obtain ⟨i, g1, g2⟩ := h5 (by omega)
          refine ⟨i, ?_, by rw [e4]; exact g2⟩
          rw [e3, el, g1]
          congr 1
          omega

end WriterLemmas

/-- an event without channel errors while writing, without a broken connection and without
shutdown; handlers of the signals may call anything but shutdown -/
def Healthy : Event → Prop
  | .call c => ∀ k e, c ≠ .shutdown k e
  | .writeReady _ err _ => err = false
  | .flushReady _ handler => ∀ c ∈ handler, ∀ k e, c ≠ .shutdown k e
  | .errorReady _ => False

open WriterLemmas

theorem hon_step (e : Event) (he : Healthy e) :
    Keeps (fun s t => Hon s.flushWatch s t) (fun s => step s e) := by
  intro s t h
  cases e with
  | call c => exact hon_call c he s t h
  | writeReady k er hd =>
    simp only [Healthy] at he
    subst he
    simp only [step]
    split
    · rename_i hw
      simp only [writeReady]
      split
      · rename_i hl
        obtain ⟨h1, h2, h3, h4, h7, h5, h6⟩ := h
        simp only [List.append_nil]
        exact ⟨bal_state s _ t h1 rfl, h2, fun _ => List.eq_nil_of_length_eq_zero hl, h4, h7, h5, h6⟩
      · exact hon_accept _ s t (Nat.min_le_right _ _) hw h
    · simpa using h
  | flushReady r hd =>
    simp only [Healthy] at he
    simp only [step]
    split
    · rename_i hf
      have h' : Hon true s t := by rw [← hf]; exact h
      cases r with
      | again => simpa [flushReady] using h
      | done =>
        have h1 := hon_flushed s t h'
        have h2 := hon_calls_in hd he s _ h1
        have h3 := hon_state false _ { (calls s hd).1 with flushWatch := false } _ h2 rfl rfl id
        simpa [flushReady, List.append_assoc] using h3
      | error =>
        have h1 := hon_silent s t .error silent_error (by simp) (by simp) _ (hon_weaken _ s t h)
        have h2 := hon_calls_in hd he s _ h1
        have h3 := hon_state false _ { (calls s hd).1 with flushWatch := false } _ h2 rfl rfl id
        simpa [flushReady, List.append_assoc] using h3
    · simpa using h
  | errorReady hd => exact absurd he id

/-- **C22** (order): whatever happens - partial writes, errors, shutdown, calls from signal
handlers - at every moment the bytes the channel took are a prefix of the bytes written. -/
theorem C22_ordered (es : List Event) : Ordered (run {} es).2 := by
  have := run_keeps Bal (fun _ => True) (fun e _ => bal_step e) es (fun _ _ => trivial) {} []
    ⟨rfl, by intro p s e; simp at e; simp [e.1, sent, written]⟩
  simpa using this.2

/-- **C22** (nothing lost): the bytes not yet taken are exactly those still buffered. -/
theorem C22_complete (es : List Event) :
    sent (run {} es).2 ++ (run {} es).1.buffer = written (run {} es).2 := by
  have := run_keeps Bal (fun _ => True) (fun e _ => bal_step e) es (fun _ _ => trivial) {} []
    ⟨rfl, by intro p s e; simp at e; simp [e.1, sent, written]⟩
  simpa using this.1

/-- **C22** (honest reports), for histories without write errors, broken connection and
shutdown: the n-th "flushed" comes after everything written before the n-th flush request
has reached the channel. -/
theorem C22_flushed_partial (es : List Event) (h : ∀ e ∈ es, Healthy e) : Honest (run {} es).2 := by
  have := run_keeps (fun s t => Hon s.flushWatch s t) Healthy hon_step es h {} []
    ⟨⟨rfl, by intro p s e; simp at e; simp [e.1, sent, written]⟩,
      by intro p s e; simp at e, fun _ => rfl, by simp, by simp, by simp, by simp⟩
  simpa using this.2.1

/-- **C22** is violated by shutdown: "flushed" is reported although no flush was asked for
and the channel took only one of two bytes. -/
theorem C22_shutdown_violated :
    ¬ Honest (run {} [.call .start, .call (.write [1, 2]), .call (.shutdown 1 false)]).2 := by
  intro h
  obtain ⟨q, r, e, -⟩ := h [.write [1, 2], .sent [1]] [] (by decide)
  have : Item.flush ∈ ([.write [1, 2], .sent [1]] : List Item) := by rw [e]; simp
  exact absurd this (by decide)

/-- **C22** is violated after a write error: the watch is gone, so a flush request is
answered at once although nothing was sent. -/
theorem C22_error_violated :
    ¬ Honest (run {} [.call .start, .call (.write [1, 2]), .writeReady 0 true [], .call .flush,
      .flushReady .done []]).2 := by
  intro h
  obtain ⟨q, r, e, h1, h2⟩ := h [.write [1, 2], .error, .flush] [] (by decide)
  match q, e with
  | [], e => simp at e
  | [a], e => simp at e
  | [a, b], e =>
    simp at e
    obtain ⟨rfl, rfl, -⟩ := e
    exact absurd h2 (by decide)
  | a :: b :: c :: q, e => simp at e

/-- two packets interleaved with partial writes: two reports -/
example : (∀ e ∈ ([.call .start, .call (.write [1, 2]), .call .flush, .writeReady 1 false [],
      .call (.write [3]), .writeReady 1 false [], .call .flush, .flushReady .done [], .writeReady 9 false [],
      .flushReady .again [], .flushReady .done [.write [4]]] : List Event), Healthy e) ∧
    (run {} [.call .start, .call (.write [1, 2]), .call .flush, .writeReady 1 false [],
      .call (.write [3]), .writeReady 1 false [], .call .flush, .flushReady .done [], .writeReady 9 false [],
      .flushReady .again [], .flushReady .done [.write [4]]]).2 =
      [.write [1, 2], .flush, .sent [1], .write [3], .sent [2], .flush, .flushed, .sent [3], .flushed, .write [4]] := by
  constructor
  · intro e he
    simp at he
    rcases he with rfl | rfl | rfl | rfl | rfl | rfl | rfl | rfl | rfl | rfl | rfl <;> simp [Healthy]
  · decide

/-! C47: no flush request is forgotten when packets are written with the agent's call -/

namespace WriterLemmas

def NoCalls (b : List Item) : Prop := written b = [] ∧ .flush ∉ b

/-- the state of the latest request: none, waiting in the buffer, waiting for the flush
callback, or reported -/
def Live (fw : Bool) (s : State) (t : List Item) : Prop :=
  Bal s t ∧ (s.buffer ≠ [] → s.writeWatch = true) ∧ (s.channel = true) ∧
  ((s.buffer = [] ∧ NoCalls t) ∨ (0 < s.flushPoint ∧ s.flushPoint = s.buffer.length ∧ s.loop = true) ∨
    (fw = true ∧ s.buffer = []) ∨ (s.buffer = [] ∧ Settled t))

end WriterLemmas

/-- the events of a writer driven by `milter_agent_write_packet` with non-empty packets,
also from the handlers of "flushed", on a healthy channel -/
inductive PacketUse : List Event → Prop
  | nil : PacketUse []
  | packet (c es) : c ≠ [] → PacketUse es → PacketUse (.call (.write c) :: .call .flush :: es)
  | writable (k h es) : PacketUse es → PacketUse (.writeReady k false h :: es)
  | flushing (es) (h) : PacketUse es → PacketUse (.flushReady .again h :: es)
  | flushed (cs : List Bytes) (es) : (∀ c ∈ cs, c ≠ []) → PacketUse es →
      PacketUse (.flushReady .done (cs.flatMap packet) :: es)

namespace WriterLemmas

theorem live_packet (fw : Bool) (c : Bytes) (hc : c ≠ []) :
    Keeps (fun s t => Live fw s t ∧ s.loop = true) (fun s => calls s (packet c)) := by
  intro s t ⟨h, hl⟩
  have hb := bal_calls (packet c) s t h.1
  obtain ⟨h1, h2, h3, h4⟩ := h
  have hlen : ¬ c.length = 0 := fun e => hc (List.eq_nil_of_length_eq_zero e)
  revert hb
  simp only [packet, calls, call, Verif.Writer.write, h3, hl, hlen, Verif.Writer.flush, Bool.not_true,
    Bool.false_eq_true, if_false, if_true]
  intro hb
  refine ⟨⟨hb, fun _ => rfl, rfl, .inr (.inl ⟨?_, rfl, by first | trivial | exact hl⟩)⟩, by first | trivial | exact hl⟩
  simp only [List.length_append]
  omega

theorem live_packets (fw : Bool) (cs : List Bytes) (hc : ∀ c ∈ cs, c ≠ []) :
    Keeps (fun s t => Live fw s t ∧ s.loop = true) (fun s => calls s (cs.flatMap packet)) := by
  have happ : ∀ (a b : List Call) (s : State), calls s (a ++ b) =
      ((calls (calls s a).1 b).1, (calls s a).2 ++ (calls (calls s a).1 b).2) := by
    intro a b
    induction a with
    | nil => intro s; rfl
    | cons x a ih => intro s; simp [calls, ih]
  induction cs with
  | nil => intro s t h; simpa [calls] using h
  | cons c cs ih =>
    intro s t h
    have h1 := live_packet fw c (hc c List.mem_cons_self) s t h
    have h2 := ih (fun x hx => hc x (List.mem_cons_of_mem _ hx)) _ _ h1
    simp only [List.flatMap_cons, happ]
    simpa [List.append_assoc] using h2

theorem packet_step (c : Bytes) (s : State) :
    ((step (step s (.call (.write c))).1 (.call .flush)).1,
      (step s (.call (.write c))).2 ++ (step (step s (.call (.write c))).1 (.call .flush)).2) = calls s (packet c) := by
  simp [packet, calls, step]

theorem nocalls_append (t : List Item) (x : Item) (h : NoCalls t) (hx : NoCalls [x]) : NoCalls (t ++ [x]) := by
  refine ⟨by rw [written_append, h.1, hx.1]; rfl, ?_⟩
  simp only [List.mem_append]
  exact fun hm => hm.elim h.2 hx.2

theorem settled_append (t : List Item) (x : Item) (h : Settled t) (hx : NoCalls [x]) : Settled (t ++ [x]) := by
  obtain ⟨p, s, e, h1, h2, h3⟩ := h
  have := nocalls_append s x ⟨h2, h3⟩ hx
  exact ⟨p, s ++ [x], by rw [e]; simp, h1, this.1, this.2⟩

theorem live_run (es : List Event) (hu : PacketUse es) :
    Keeps (fun s t => Live s.flushWatch s t ∧ s.loop = true) (fun s => run s es) := by
  induction hu with
  | nil => intro s t h; simpa [run] using h
  | packet c es hc _ ih =>
    intro s t h
    have e := packet_step c s
    have h1 := live_packet s.flushWatch c hc s t h
    have hf : (calls s (packet c)).1.flushWatch = s.flushWatch := by
      obtain ⟨⟨-, -, h3, -⟩, hl⟩ := h
      have hlen : ¬ c.length = 0 := fun e => hc (List.eq_nil_of_length_eq_zero e)
      simp [packet, calls, call, Verif.Writer.write, h3, hl, hlen, Verif.Writer.flush]
    have h2 := ih _ _ (by rw [hf]; exact h1 : Live (calls s (packet c)).1.flushWatch _ _ ∧ _)
    have e1 := congrArg Prod.fst e
    have e2 := congrArg Prod.snd e
    simp only at e1 e2
    simp only [run]
    rw [← List.append_assoc, ← List.append_assoc, List.append_assoc t, e2, e1]
    exact h2
  | writable k hd es _ ih =>
    intro s t h
    simp only [run]
    rw [← List.append_assoc]
    apply ih
    obtain ⟨⟨h1, h2, h3, h4⟩, hl⟩ := h
    simp only [step]
    split
    · rename_i hw
      simp only [writeReady]
      split
      · rename_i hz
        have hz : s.buffer = [] := List.eq_nil_of_length_eq_zero hz
        simp only [List.append_nil]
        exact ⟨⟨bal_state s _ t h1 rfl, fun hne => absurd hz hne, h3, h4⟩, hl⟩
      · rename_i hz
        have hb := bal_accept (min k s.buffer.length) s t h1
        -- only the "waiting in the buffer" case is possible
        have hz' : s.buffer ≠ [] := fun e => hz (by simp [e])
        have h4' : 0 < s.flushPoint ∧ s.flushPoint = s.buffer.length ∧ s.loop = true := by
          rcases h4 with ⟨e, -⟩ | h | ⟨-, e⟩ | ⟨e, -⟩
          · exact absurd e hz'
          · exact h
          · exact absurd e hz'
          · exact absurd e hz'
        obtain ⟨q1, q2, q3⟩ := h4'
        revert hb
        simp only [Bool.false_eq_true, if_false, accept]
        split
        · intro _
          simp only [List.append_nil]
          exact ⟨⟨h1, h2, h3, h4⟩, hl⟩
        · split
          · rename_i hnf
            simp only [Bool.and_eq_true, decide_eq_true_eq] at hnf
            intro hb
            refine ⟨⟨hb, fun _ => hw, h3, .inr (.inr (.inl ⟨rfl, ?_⟩))⟩, hl⟩
            simp only [requestFlush]
            apply List.drop_eq_nil_of_le
            omega
          · rename_i hnf
            simp only [Bool.and_eq_true, decide_eq_true_eq, hl, q1, true_and, and_true] at hnf
            intro hb
            refine ⟨⟨hb, fun _ => hw, h3, .inr (.inl ⟨?_, ?_, hl⟩)⟩, hl⟩
            · simp only [hnf, if_false]; omega
            · simp only [hnf, if_false, List.length_drop]; omega
    · simp only [List.append_nil]
      exact ⟨⟨h1, h2, h3, h4⟩, hl⟩
  | flushing es hd _ ih =>
    intro s t h
    simp only [run]
    rw [← List.append_assoc]
    apply ih
    simp only [step]
    split <;> simpa [flushReady] using h
  | flushed cs es hc _ ih =>
    intro s t h
    simp only [run]
    rw [← List.append_assoc]
    apply ih
    simp only [step]
    split
    · simp only [flushReady]
      obtain ⟨⟨h1, h2, h3, h4⟩, hl⟩ := h
      have hn : NoCalls [Item.flushed] := by simp [NoCalls, written]
      have hL : Live false s (t ++ [.flushed]) := by
        refine ⟨bal_silent s s t _ h1 silent_flushed rfl, h2, h3, ?_⟩
        rcases h4 with ⟨e, h4⟩ | h4 | ⟨-, e⟩ | ⟨e, h4⟩
        · exact .inl ⟨e, nocalls_append t _ h4 hn⟩
        · exact .inr (.inl h4)
        · refine .inr (.inr (.inr ⟨e, t, [], rfl, ?_, rfl, by simp⟩))
          have := h1.1
          rw [e, List.append_nil] at this
          exact this
        · exact .inr (.inr (.inr ⟨e, settled_append t _ h4 hn⟩))
      have h5 := live_packets false cs hc s _ ⟨hL, hl⟩
      obtain ⟨⟨g1, g2, g3, g4⟩, g5⟩ := h5
      have : t ++ (Item.flushed :: (calls s (cs.flatMap packet)).2) =
          t ++ [Item.flushed] ++ (calls s (cs.flatMap packet)).2 := by simp
      rw [this]
      exact ⟨⟨bal_state _ _ _ g1 rfl, g2, g3, g4⟩, g5⟩
    · simpa using h

end WriterLemmas

/-- **C47**: with packets written through the agent, once the writer is idle - it has no
callback registered - a "flushed" has been reported at a moment when everything written had
been sent, and nothing was written or asked for after it (or nothing was ever written). -/
theorem C47 (es : List Event) (hu : PacketUse es)
    (hi : (run {} (.call .start :: es)).1.writeWatch = false ∧
      (run {} (.call .start :: es)).1.flushWatch = false) :
    Settled (run {} (.call .start :: es)).2 ∨
      (written (run {} (.call .start :: es)).2 = [] ∧ .flush ∉ (run {} (.call .start :: es)).2) := by
  have h0 : run {} (.call .start :: es) =
      run { loop := true, errorWatch := true } es := by
    simp [run, step, call, start]
  rw [h0] at hi ⊢
  have := live_run es hu { loop := true, errorWatch := true } []
    ⟨⟨⟨rfl, by intro p s e; simp at e; simp [e.1, sent, written]⟩, by simp, rfl, .inl ⟨rfl, rfl, by simp⟩⟩, rfl⟩
  simp only [List.nil_append] at this
  obtain ⟨⟨h1, h2, h3, h4⟩, -⟩ := this
  rcases h4 with ⟨-, h4⟩ | ⟨h4, h5, -⟩ | ⟨h4, -⟩ | ⟨-, h4⟩
  · exact .inr h4
  · exfalso
    have : (run { loop := true, errorWatch := true } es).1.writeWatch = true := by
      apply h2
      intro e
      rw [e] at h5
      simp at h5
      omega
    rw [hi.1] at this
    exact absurd this (by decide)
  · rw [hi.2] at h4; exact absurd h4 (by decide)
  · exact .inl h4

/-- **C47** is violated by a lone flush request made after the buffer has been written but
before the callback has noticed: it is never reported. -/
theorem C47_violated :
    let r := run {} [.call .start, .call (.write [1]), .writeReady 1 false [], .call .flush, .writeReady 1 false []]
    r.1.writeWatch = false ∧ r.1.flushWatch = false ∧ .flushed ∉ r.2 := by
  decide

/-- a packet, a partial write, another packet from the "flushed" handler: idle at the end -/
example : PacketUse [.call (.write [1, 2]), .call .flush, .writeReady 1 false [], .writeReady 1 false [],
      .flushReady .done ([[3]].flatMap packet), .writeReady 5 false [], .writeReady 5 false [], .flushReady .done ([].flatMap packet)] ∧
    (run {} [.call .start, .call (.write [1, 2]), .call .flush, .writeReady 1 false [], .writeReady 1 false [],
      .flushReady .done ([[3]].flatMap packet), .writeReady 5 false [], .writeReady 5 false [],
      .flushReady .done ([].flatMap packet)]).1.writeWatch = false := by
  refine ⟨.packet _ _ (by simp) (.writable _ _ _ (.writable _ _ _ (.flushed [[3]] _ (by simp)
    (.writable _ _ _ (.writable _ _ _ (.flushed [] _ (by simp) .nil)))))), by decide⟩

end Verif.Props
