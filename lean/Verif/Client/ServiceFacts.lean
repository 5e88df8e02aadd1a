import Verif.Spec.Service
/-
Facts about `Service`: what holds whenever a client serves connections.
-/
namespace Verif.Service
open Verif.Spec.Service

theorem accepted_append (a b : List Out) : accepted (a ++ b) = accepted a ++ accepted b := by
  induction a with
  | nil => rfl
  | cons o t ih => cases o <;> simp [accepted, ih]

theorem freed_append (a b : List Out) : freed (a ++ b) = freed a ++ freed b := by
  induction a with
  | nil => rfl
  | cons o t ih => cases o <;> simp [freed, ih]

/-- the bound on the number of connections below which the counters are exact -/
def limit : Nat := 2 ^ 32

/-- what holds of a client which was seen doing `tr` while `ops` happened; `pending` are the finished sessions still to be disposed of -/
structure Inv (s : State) (tr : List Out) (ops : List Op) (pending : List Nat) : Prop where
  register : s.register = none
  acc : accepted tr = List.range s.next
  each : ∀ id, s.setups.count id + s.processing.count id + (freed tr).count id = if id < s.next then 1 else 0
  total : s.setups.length + s.processing.length + (freed tr).length = s.next
  nProcessing : s.nProcessing = UInt32.ofNat (s.setups.length + s.processing.length)
  nProcessed : s.nProcessed = UInt32.ofNat (freed tr).length
  nodup : pending.Nodup
  sub : ∀ id ∈ pending, id ∈ s.processing
  begun : ∀ id, Begun tr id ↔ id ∈ s.processing ∨ id ∈ freed tr
  ended : ∀ id, id ∈ pending ∨ id ∈ freed tr → Ended ops tr id
  quits : s.next < limit → tr.count .quit = (if s.running then 0 else 1)
  over : s.next < limit → s.running = false → s.quitting = true ∧ s.setups.length + s.processing.length = 0
  waits : s.next < limit → s.running = true → s.quitting = true → s.setups.length + s.processing.length ≠ 0
  deaf : s.quitting = true → s.watching = false
  asked : s.stalled = false → (s.quitting = true ↔ .shutdown ∈ ops)
  asks : s.quitting = true → .shutdown ∈ ops
  stops : s.running = false → s.quitting = true

theorem ofNat_pred {n : Nat} (h : 0 < n) : UInt32.ofNat n - 1 = UInt32.ofNat (n - 1) := by
  have : n = (n - 1) + 1 := by omega
  rw [this, UInt32.ofNat_add, Nat.add_sub_cancel]
  show UInt32.ofNat (n - 1) + 1 - 1 = _
  rw [UInt32.add_sub_cancel]

theorem ofNat_succ (n : Nat) : UInt32.ofNat n + 1 = UInt32.ofNat (n + 1) := by
  rw [UInt32.ofNat_add]; rfl

theorem ofNat_zero {n : Nat} (h : n < limit) : UInt32.ofNat n = 0 ↔ n = 0 := by
  constructor
  · intro e
    have := congrArg UInt32.toNat e
    rw [UInt32.toNat_ofNat_of_lt' h] at this
    exact this
  · rintro rfl
    rfl

/-- one finished session is disposed of -/
theorem Inv.finish {s : State} {tr : List Out} {ops : List Op} {id : Nat} {rest : List Nat} {out : List Out}
    (h : Inv s (tr ++ out) ops (id :: rest)) :
    Inv (finishProcessing (s, out) id).1 (tr ++ (finishProcessing (s, out) id).2) ops rest := by
  have hm : id ∈ s.processing := h.sub id (List.mem_cons_self ..)
  have hlen : (s.processing.erase id).length = s.processing.length - 1 := List.length_erase_of_mem hm
  have hpos : 0 < s.processing.length := List.length_pos_of_mem hm
  have hn : s.nProcessing - 1 = UInt32.ofNat (s.setups.length + (s.processing.length - 1)) := by
    rw [h.nProcessing, ofNat_pred (by omega)]
    congr 1
    omega
  have hlive : s.setups.length + s.processing.length ≤ s.next := by have := h.total; omega
  have hq : s.next < limit → ((s.nProcessing - 1 == 0) = true ↔ s.setups.length + (s.processing.length - 1) = 0) := by
    intro hl
    rw [beq_iff_eq, hn]
    exact ofNat_zero (by omega)
  have hrun : s.next < limit → s.running = true := by
    intro hl
    cases hr : s.running
    · have := (h.over hl hr).2
      omega
    · rfl
  have e : (finishProcessing (s, out) id).2 = out ++ (if (s.quitting && s.nProcessing - 1 == 0) then [.quit] else []) ++ [.freed id] := rfl
  have hf : freed (tr ++ (finishProcessing (s, out) id).2) = freed (tr ++ out) ++ [id] := by
    rw [e]
    simp only [freed_append]
    split <;> simp [freed]
  have ha : accepted (tr ++ (finishProcessing (s, out) id).2) = accepted (tr ++ out) := by
    rw [e]
    simp only [accepted_append]
    split <;> simp [accepted]
  have hcq : (tr ++ (finishProcessing (s, out) id).2).count .quit = (tr ++ out).count .quit + (if (s.quitting && s.nProcessing - 1 == 0) then 1 else 0) := by
    rw [e]
    simp only [List.count_append]
    split <;> simp <;> omega
  have hmem : ∀ o, o ≠ .quit → (∀ i, o ≠ .freed i) → (o ∈ tr ++ (finishProcessing (s, out) id).2 ↔ o ∈ tr ++ out) := by
    intro o h1 h2
    rw [e]
    simp only [List.mem_append]
    constructor
    · rintro (h | (h | h) | h)
      · exact .inl h
      · exact .inr h
      · split at h
        · exact absurd (List.mem_singleton.mp h) h1
        · simp at h
      · exact absurd (List.mem_singleton.mp h) (h2 id)
    · rintro (h | h)
      · exact .inl h
      · exact .inr (.inl (.inl h))
  have hb : ∀ i, Begun (tr ++ (finishProcessing (s, out) id).2) i ↔ Begun (tr ++ out) i := by
    intro i
    unfold Begun
    rw [hmem _ (by simp) (by simp), hmem _ (by simp) (by simp)]
  refine ⟨h.register, ?_, ?_, ?_, ?_, ?_, ?_, ?_, ?_, ?_, ?_, ?_, ?_, h.deaf, h.asked, h.asks, ?_⟩
  · rw [ha]; exact h.acc
  · intro i
    rw [hf]
    have := h.each i
    show s.setups.count i + (s.processing.erase id).count i + (freed (tr ++ out) ++ [id]).count i = if i < s.next then 1 else 0
    rw [List.count_append]
    by_cases hi : i = id
    · subst hi
      have hc : 0 < s.processing.count i := List.count_pos_iff.mpr hm
      rw [List.count_erase_self, List.count_singleton_self]
      omega
    · rw [List.count_erase_of_ne hi]
      have : ([id] : List Nat).count i = 0 := by
        rw [List.count_eq_zero]
        simpa using hi
      omega
  · rw [hf]
    have := h.total
    show s.setups.length + (s.processing.erase id).length + (freed (tr ++ out) ++ [id]).length = s.next
    simp only [List.length_append, List.length_singleton]
    omega
  · show s.nProcessing - 1 = UInt32.ofNat (s.setups.length + (s.processing.erase id).length)
    rw [hlen]; exact hn
  · rw [hf]
    show s.nProcessed + 1 = _
    rw [h.nProcessed, ofNat_succ]
    simp
  · exact (List.nodup_cons.mp h.nodup).2
  · intro i hi
    show i ∈ s.processing.erase id
    have hne : i ≠ id := fun e => (List.nodup_cons.mp h.nodup).1 (e ▸ hi)
    exact (List.mem_erase_of_ne hne).mpr (h.sub i (List.mem_cons_of_mem _ hi))
  · intro i
    rw [hb, hf, h.begun]
    show _ ↔ i ∈ s.processing.erase id ∨ i ∈ freed (tr ++ out) ++ [id]
    rw [List.mem_append, List.mem_singleton]
    by_cases hi : i = id
    · subst hi
      simp [hm]
    · rw [List.mem_erase_of_ne hi]
      simp [hi]
  · intro i hi
    rw [hf] at hi
    have := h.ended i (by
      rcases hi with hi | hi
      · exact .inl (List.mem_cons_of_mem _ hi)
      · rcases List.mem_append.mp hi with hi | hi
        · exact .inr hi
        · rw [List.mem_singleton.mp hi]
          exact .inl (List.mem_cons_self ..))
    rcases this with h | h
    · exact .inl h
    · exact .inr ((hmem _ (by simp) (by simp)).mpr h)
  · intro hl
    rw [hcq, h.quits hl, hrun hl]
    show _ = if (s.running && !(s.quitting && s.nProcessing - 1 == 0)) = true then 0 else 1
    rw [hrun hl]
    cases (s.quitting && s.nProcessing - 1 == 0) <;> simp
  · intro hl
    show (s.running && !(s.quitting && s.nProcessing - 1 == 0)) = false → s.quitting = true ∧ s.setups.length + (s.processing.erase id).length = 0
    rw [hrun hl, hlen]
    intro hr
    have hr : (s.quitting && s.nProcessing - 1 == 0) = true := by
      cases hx : (s.quitting && s.nProcessing - 1 == 0)
      · rw [hx] at hr; cases hr
      · rfl
    rw [Bool.and_eq_true] at hr
    exact ⟨hr.1, (hq hl).mp hr.2⟩
  · intro hl
    show (s.running && !(s.quitting && s.nProcessing - 1 == 0)) = true → s.quitting = true → s.setups.length + (s.processing.erase id).length ≠ 0
    rw [hlen]
    intro hr hqt h0
    rw [hqt, (hq hl).mpr h0] at hr
    simp at hr
  · show (s.running && !(s.quitting && s.nProcessing - 1 == 0)) = false → s.quitting = true
    intro hr
    cases hs : s.running
    · exact h.stops hs
    · rw [hs] at hr
      cases hx : s.quitting
      · rw [hx] at hr; cases hr
      · rfl

theorem Inv.fold {tr : List Out} {ops : List Op} : ∀ {pending : List Nat} {r : Result}, Inv r.1 (tr ++ r.2) ops pending →
    Inv (pending.foldl finishProcessing r).1 (tr ++ (pending.foldl finishProcessing r).2) ops []
  | [], _, h => h
  | id :: rest, (s, out), h => Inv.fold (pending := rest) (r := finishProcessing (s, out) id) h.finish

theorem fold_finish {f : State → α} (hf : ∀ s a b c d, f { s with processing := a, nProcessing := b, nProcessed := c, running := d } = f s) :
    ∀ (l : List Nat) (r : Result), f (l.foldl finishProcessing r).1 = f r.1
  | [], _ => rfl
  | id :: l, r => by
    rw [List.foldl_cons, fold_finish hf l]
    exact hf r.1 _ _ _ _

theorem fold_freed : ∀ (l : List Nat) (r : Result), freed (l.foldl finishProcessing r).2 = freed r.2 ++ l
  | [], _ => (List.append_nil _).symm
  | id :: l, r => by
    rw [List.foldl_cons, fold_freed l]
    have e : (finishProcessing r id).2 = r.2 ++ (if (r.1.quitting && r.1.nProcessing - 1 == 0) then [.quit] else []) ++ [.freed id] := rfl
    rw [e]
    simp only [freed_append]
    split <;> simp [freed]

/-- outputs which say nothing about sessions -/
theorem Inv.say {s : State} {tr out : List Out} {ops : List Op} {p : List Nat} (h : Inv s tr ops p) (hf : freed out = []) (ha : accepted out = [])
    (hb : ∀ id, ¬ Begun out id) (hq : .quit ∉ out) : Inv s (tr ++ out) ops p := by
  have hf' : freed (tr ++ out) = freed tr := by rw [freed_append, hf, List.append_nil]
  have ha' : accepted (tr ++ out) = accepted tr := by rw [accepted_append, ha, List.append_nil]
  have hc : (tr ++ out).count .quit = tr.count .quit := by
    rw [List.count_append, List.count_eq_zero.mpr hq]; rfl
  refine ⟨h.register, ?_, ?_, ?_, h.nProcessing, ?_, h.nodup, h.sub, ?_, ?_, ?_, h.over, h.waits, h.deaf, h.asked, h.asks, h.stops⟩
  · rw [ha']; exact h.acc
  · rw [hf']; exact h.each
  · rw [hf']; exact h.total
  · rw [hf']; exact h.nProcessed
  · intro id
    rw [hf', ← h.begun]
    unfold Begun
    rw [List.mem_append, List.mem_append]
    have := hb id
    unfold Begun at this
    constructor
    · rintro ((h | h) | (h | h))
      · exact .inl h
      · exact absurd (.inl h) this
      · exact .inr h
      · exact absurd (.inr h) this
    · rintro (h | h)
      · exact .inl (.inl h)
      · exact .inr (.inl h)
  · intro id
    rw [hf']
    intro hi
    rcases h.ended id hi with h | h
    · exact .inl h
    · exact .inr (List.mem_append_left _ h)
  · rw [hc]; exact h.quits

/-- all finished sessions are disposed of -/
theorem Inv.dispose {s : State} {tr : List Out} {ops : List Op} (h : Inv s tr ops s.finished) :
    Inv (disposeFinished s).1 (tr ++ (disposeFinished s).2) ops (disposeFinished s).1.finished ∧ (disposeFinished s).1.finished = [] := by
  unfold disposeFinished
  split
  · next e => rw [List.append_nil]; exact ⟨h, e⟩
  · have h1 : Inv (s.finished.foldl finishProcessing (s, [])).1 (tr ++ (s.finished.foldl finishProcessing (s, [])).2) ops [] :=
      Inv.fold (by rw [List.append_nil]; exact h)
    generalize s.finished.foldl finishProcessing (s, []) = r at h1
    dsimp only
    refine ⟨?_, rfl⟩
    have h2 : Inv { r.1 with finished := [] } (tr ++ r.2) ops [] := by
      exact ⟨h1.register, h1.acc, h1.each, h1.total, h1.nProcessing, h1.nProcessed, h1.nodup, h1.sub, h1.begun, h1.ended, h1.quits, h1.over, h1.waits,
        h1.deaf, h1.asked, h1.asks, h1.stops⟩
    rw [List.append_assoc, ← List.append_assoc tr]
    refine h2.say ?_ ?_ ?_ ?_ <;> split <;> simp [freed, accepted, Begun]

theorem dispose_keeps {f : State → α} (hf : ∀ s a b c d, f { s with processing := a, nProcessing := b, nProcessed := c, running := d } = f s)
    (hf' : ∀ s, f { s with finished := [] } = f s) (s : State) : f (disposeFinished s).1 = f s := by
  unfold disposeFinished
  split
  · rfl
  · dsimp only
    rw [hf', fold_finish hf]

theorem Inv.config {s : State} {tr : List Out} {ops : List Op} {p : List Nat} (h : Inv s tr ops p) (b : Bool) (c : Config) :
    Inv { s with finisher := b, config := c } tr ops p :=
  ⟨h.register, h.acc, h.each, h.total, h.nProcessing, h.nProcessed, h.nodup, h.sub, h.begun, h.ended, h.quits, h.over, h.waits, h.deaf, h.asked, h.asks, h.stops⟩

/-- a session has finished -/
theorem Inv.cbFinished {s : State} {tr : List Out} {ops : List Op} {id : Nat} (h : Inv s tr ops s.finished) (hm : id ∈ s.processing)
    (hn : id ∉ s.finished) (he : Ended ops tr id) :
    Inv (cbFinished s id).1 (tr ++ (cbFinished s id).2) ops (Service.cbFinished s id).1.finished := by
  have h1 : Inv { s with finished := s.finished ++ [id] } tr ops (s.finished ++ [id]) := by
    refine ⟨h.register, h.acc, h.each, h.total, h.nProcessing, h.nProcessed, ?_, ?_, h.begun, ?_, h.quits, h.over, h.waits, h.deaf, h.asked, h.asks, h.stops⟩
    · rw [List.nodup_append]
      refine ⟨h.nodup, by simp, ?_⟩
      intro a ha b hb e
      rw [List.mem_singleton.mp hb] at e
      exact hn (e ▸ ha)
    · intro i hi
      rcases List.mem_append.mp hi with hi | hi
      · exact h.sub i hi
      · rw [List.mem_singleton.mp hi]; exact hm
    · intro i hi
      rcases hi with hi | hi
      · rcases List.mem_append.mp hi with hi | hi
        · exact h.ended i (.inl hi)
        · rw [List.mem_singleton.mp hi]; exact he
      · exact h.ended i (.inr hi)
  unfold Service.cbFinished
  dsimp only
  split
  · exact (h1.config false s.config).dispose.1
  · rw [List.append_nil]
    exact h1.config true s.config


/-- the session's context is made -/
theorem Inv.begin {s : State} {tr : List Out} {ops : List Op} {p : List Nat} {id : Nat} {o : Out} (h : Inv s tr ops p) (hm : id ∈ s.setups)
    (ho : o = .established id ∨ o = .startError id) :
    Inv { s with setups := s.setups.erase id, processing := id :: s.processing } (tr ++ [o]) ops p := by
  have hf : freed (tr ++ [o]) = freed tr := by rcases ho with rfl | rfl <;> simp [freed_append, freed]
  have ha : accepted (tr ++ [o]) = accepted tr := by rcases ho with rfl | rfl <;> simp [accepted_append, accepted]
  have hc : (tr ++ [o]).count .quit = tr.count .quit := by rcases ho with rfl | rfl <;> simp
  have hl : (s.setups.erase id).length = s.setups.length - 1 := List.length_erase_of_mem hm
  have hp : 0 < s.setups.length := List.length_pos_of_mem hm
  have hlen : (s.setups.erase id).length + (id :: s.processing).length = s.setups.length + s.processing.length := by
    rw [hl, List.length_cons]; omega
  refine ⟨h.register, ?_, ?_, ?_, ?_, ?_, h.nodup, ?_, ?_, ?_, ?_, ?_, ?_, h.deaf, h.asked, h.asks, h.stops⟩
  · rw [ha]; exact h.acc
  · intro i
    rw [hf]
    have := h.each i
    show (s.setups.erase id).count i + (id :: s.processing).count i + (freed tr).count i = if i < s.next then 1 else 0
    by_cases hi : i = id
    · subst hi
      have hc : 0 < s.setups.count i := List.count_pos_iff.mpr hm
      rw [List.count_erase_self, List.count_cons_self]
      omega
    · rw [List.count_erase_of_ne hi, List.count_cons_of_ne (fun e => hi e.symm)]
      exact this
  · rw [hf]
    have := h.total
    show (s.setups.erase id).length + (id :: s.processing).length + (freed tr).length = s.next
    omega
  · show s.nProcessing = UInt32.ofNat ((s.setups.erase id).length + (id :: s.processing).length)
    rw [hlen]; exact h.nProcessing
  · rw [hf]; exact h.nProcessed
  · intro i hi
    exact List.mem_cons_of_mem _ (h.sub i hi)
  · intro i
    rw [hf]
    show _ ↔ i ∈ id :: s.processing ∨ _
    have hb := h.begun i
    unfold Begun at hb ⊢
    rcases ho with rfl | rfl <;> simp only [List.mem_append, List.mem_cons, List.not_mem_nil, or_false, Out.established.injEq, Out.startError.injEq,
      reduceCtorEq, hb, ← or_assoc] <;> grind
  · intro i
    rw [hf]
    intro hi
    rcases h.ended i hi with h | h
    · exact .inl h
    · exact .inr (List.mem_append_left _ h)
  · rw [hc]; exact h.quits
  · intro a b
    show s.quitting = true ∧ (s.setups.erase id).length + (id :: s.processing).length = 0
    rw [hlen]
    exact h.over a b
  · intro a b c
    show (s.setups.erase id).length + (id :: s.processing).length ≠ 0
    rw [hlen]
    exact h.waits a b c

theorem Inv.notBegun {s : State} {tr : List Out} {ops : List Op} {p : List Nat} {id : Nat} (h : Inv s tr ops p) (hm : id ∈ s.setups) :
    id ∉ s.processing ∧ id ∉ freed tr := by
  have := h.each id
  have hc : 0 < s.setups.count id := List.count_pos_iff.mpr hm
  have hle : (if id < s.next then 1 else 0) ≤ 1 := by split <;> decide
  constructor
  · rw [← List.count_eq_zero]; omega
  · rw [← List.count_eq_zero]; omega

theorem Inv.setup {s : State} {tr : List Out} {ops : List Op} {id : Nat} (h : Inv s tr ops s.finished) (hm : id ∈ s.setups) (started : Bool) :
    Inv (setup { s with setups := s.setups.erase id } id started).1 (tr ++ (setup { s with setups := s.setups.erase id } id started).2) ops
      (Service.setup { s with setups := s.setups.erase id } id started).1.finished := by
  unfold Service.setup
  dsimp only
  cases started
  · rw [if_neg (by decide)]
    dsimp only
    rw [List.append_cons]
    refine Inv.cbFinished (h.begin hm (.inr rfl)) (List.mem_cons_self ..) ?_ (.inr (by simp))
    exact fun hi => (h.notBegun hm).1 (h.sub id hi)
  · rw [if_pos rfl]
    exact h.begin hm (.inl rfl)

/-- a connection is accepted -/
theorem Inv.accept {s : State} {tr : List Out} {ops : List Op} {p : List Nat} (h : Inv s tr ops p) (hr : s.running = true) (hq : s.quitting = false) :
    Inv { s with next := s.next + 1, nProcessing := s.nProcessing + 1, setups := s.setups ++ [s.next] } (tr ++ [.accepted s.next]) ops p := by
  have hf : freed (tr ++ [.accepted s.next]) = freed tr := by simp [freed_append, freed]
  have hc : (tr ++ [Out.accepted s.next]).count Out.quit = tr.count Out.quit := by simp
  refine ⟨h.register, ?_, ?_, ?_, ?_, ?_, h.nodup, h.sub, ?_, ?_, ?_, ?_, ?_, h.deaf, h.asked, h.asks, h.stops⟩
  · show _ = List.range (s.next + 1)
    rw [accepted_append, h.acc, List.range_succ]; rfl
  · intro i
    rw [hf]
    have := h.each i
    show (s.setups ++ [s.next]).count i + s.processing.count i + (freed tr).count i = if i < s.next + 1 then 1 else 0
    rw [List.count_append]
    by_cases hi : i = s.next
    · subst hi
      rw [List.count_singleton_self, if_pos (Nat.lt_succ_self _)]
      rw [if_neg (Nat.lt_irrefl _)] at this
      omega
    · have h0 : ([s.next] : List Nat).count i = 0 := by
        rw [List.count_eq_zero]; simpa using hi
      rw [h0]
      by_cases hl : i < s.next
      · rw [if_pos hl] at this
        rw [if_pos (by omega)]
        omega
      · rw [if_neg hl] at this
        rw [if_neg (by omega)]
        omega
  · rw [hf]
    have := h.total
    show (s.setups ++ [s.next]).length + s.processing.length + (freed tr).length = s.next + 1
    rw [List.length_append, List.length_singleton]
    omega
  · show s.nProcessing + 1 = UInt32.ofNat ((s.setups ++ [s.next]).length + s.processing.length)
    rw [h.nProcessing, ofNat_succ, List.length_append, List.length_singleton]
    congr 1
    omega
  · rw [hf]; exact h.nProcessed
  · intro i
    rw [hf]
    refine Iff.trans ?_ (h.begun i)
    unfold Begun
    simp
  · intro i
    rw [hf]
    intro hi
    rcases h.ended i hi with h | h
    · exact .inl h
    · exact .inr (List.mem_append_left _ h)
  · intro hl
    rw [hc]
    exact h.quits (by change s.next + 1 < _ at hl; omega)
  · intro _ h2
    rw [hr] at h2
    cases h2
  · intro _ _ h3
    rw [hq] at h3
    cases h3

/-- something has happened -/
theorem Inv.more {s : State} {tr : List Out} {ops : List Op} {p : List Nat} (h : Inv s tr ops p) (op : Op)
    (hop : op = .shutdown → s.stalled = true ∨ .shutdown ∈ ops) : Inv s tr (ops ++ [op]) p := by
  refine ⟨h.register, h.acc, h.each, h.total, h.nProcessing, h.nProcessed, h.nodup, h.sub, h.begun, ?_, h.quits, h.over, h.waits, h.deaf, ?_, ?_, h.stops⟩
  · intro i hi
    exact (h.ended i hi).imp (List.mem_append_left _) _root_.id
  · intro hs
    rw [h.asked hs, List.mem_append, List.mem_singleton]
    constructor
    · exact .inl
    · rintro (h | h)
      · exact h
      · rcases hop h.symm with h | h
        · rw [hs] at h; cases h
        · exact h
  · exact fun hq => List.mem_append_left _ (h.asks hq)

theorem Inv.connect {s : State} {tr : List Out} {ops : List Op} (h : Inv s tr ops s.finished) (hr : s.running = true) (hs : s.stalled = false)
    (a : Accept) (started : Bool) : Inv (connect s a started).1 (tr ++ (connect s a started).2) ops (Service.connect s a started).1.finished := by
  unfold Service.connect
  split
  · rw [List.append_nil]; exact h
  · next hw =>
    have hq : s.quitting = false := by
      cases hq : s.quitting
      · rfl
      · rw [h.deaf hq] at hw; exact absurd rfl hw
    split
    · rw [List.append_nil]
      exact ⟨h.register, h.acc, h.each, h.total, h.nProcessing, h.nProcessed, h.nodup, h.sub, h.begun, h.ended, h.quits, h.over, h.waits, h.deaf,
        fun _ => h.asked hs, h.asks, h.stops⟩
    · cases a
      · have ha := h.accept hr hq
        dsimp only
        split
        · have hfresh : s.next ∉ s.setups := by
            have := h.each s.next
            rw [if_neg (Nat.lt_irrefl _)] at this
            rw [← List.count_eq_zero]; omega
          have he : (s.setups ++ [s.next]).erase s.next = s.setups := by
            rw [List.erase_append_right _ hfresh]
            simp
          dsimp only
          have := Inv.setup (id := s.next) ha (List.mem_append_right _ (List.mem_singleton.mpr rfl)) started
          dsimp only at this
          rw [he] at this
          rw [List.append_cons]
          exact this
        · exact ha
      · rw [List.append_nil]; exact h
      · have h1 : Inv { s with watching := decide (s.mode ≠ .worker) } tr ops s.finished :=
          ⟨h.register, h.acc, h.each, h.total, h.nProcessing, h.nProcessed, h.nodup, h.sub, h.begun, h.ended, h.quits, h.over, h.waits,
            fun h' => (by change s.quitting = true at h'; rw [hq] at h'; cases h'), h.asked, h.asks, h.stops⟩
        exact h1.say rfl rfl (by simp [Begun]) (by simp)

theorem Inv.shutdown {s : State} {tr : List Out} {ops : List Op} (h : Inv s tr ops s.finished) (hr : s.running = true) :
    Inv (shutdown s).1 (tr ++ (shutdown s).2) (ops ++ [.shutdown]) (Service.shutdown s).1.finished := by
  unfold Service.shutdown
  split
  · next hq => rw [List.append_nil]; exact h.more _ fun _ => .inr (h.asks hq)
  · have hlive : s.setups.length + s.processing.length ≤ s.next := by have := h.total; omega
    have hz : s.next < limit → ((s.nProcessing == 0) = true ↔ s.setups.length + s.processing.length = 0) := by
      intro hl
      rw [beq_iff_eq, h.nProcessing]
      exact ofNat_zero (by omega)
    dsimp only
    generalize hb : (s.nProcessing == 0) = b at hz
    have hf : freed (tr ++ if b then [.quit] else []) = freed tr := by cases b <;> simp [freed_append, freed]
    have ha : accepted (tr ++ if b then [.quit] else []) = accepted tr := by cases b <;> simp [accepted_append, accepted]
    refine ⟨h.register, ?_, ?_, ?_, h.nProcessing, ?_, h.nodup, h.sub, ?_, ?_, ?_, ?_, ?_, fun _ => rfl, ?_, ?_, fun _ => rfl⟩
    · rw [ha]; exact h.acc
    · rw [hf]; exact h.each
    · rw [hf]; exact h.total
    · rw [hf]; exact h.nProcessed
    · intro i
      rw [hf, ← h.begun]
      unfold Begun
      cases b <;> simp
    · intro i
      rw [hf]
      intro hi
      exact (h.ended i hi).imp (List.mem_append_left _) (List.mem_append_left _)
    · intro hl
      rw [hr]
      have := h.quits hl
      rw [hr] at this
      cases b <;> simpa using this
    · intro hl hb'
      rw [hr] at hb'
      refine ⟨rfl, (hz hl).mp ?_⟩
      cases b
      · cases hb'
      · rfl
    · intro hl hb' _ h0
      rw [hr, (hz hl).mpr h0] at hb'
      cases hb'
    · intro _
      simp
    · intro _
      simp

theorem Inv.step {s : State} {tr : List Out} {ops : List Op} (h : Inv s tr ops s.finished) (op : Op) (hw : whole op = true) :
    Inv (step s op).1 (tr ++ (step s op).2) (ops ++ [op]) (Service.step s op).1.finished := by
  unfold Service.step
  split
  · next hn =>
    rw [List.append_nil]
    refine h.more op ?_
    intro _
    rw [Bool.and_eq_true, Bool.or_eq_true] at hn
    cases hst : s.stalled
    · rw [hst] at hn
      have hr : s.running = false := by simpa using hn.1
      exact .inr (h.asks (h.stops hr))
    · exact .inl rfl
  · next hn =>
    by_cases ho : outside op = true
    · cases op with
      | configure c =>
        show Inv _ (tr ++ []) _ _
        rw [List.append_nil]
        exact (h.config s.finisher c).more _ (fun e => nomatch e)
      | _ => cases ho
    · rw [Bool.not_eq_true] at ho
      rw [ho] at hn
      have hr : s.running = true := by
        cases hr : s.running
        · rw [hr] at hn; simp at hn
        · rfl
      have hs : s.stalled = false := by
        cases hs : s.stalled
        · rfl
        · rw [hs] at hn; simp at hn
      cases op with
      | connect a started => exact (h.connect hr hs a started).more _ (fun e => nomatch e)
      | setup started =>
        unfold act
        dsimp only
        split
        · rw [List.append_nil]; exact h.more _ (fun e => nomatch e)
        · next id rest e =>
          have := h.setup (id := id) (by rw [e]; exact List.mem_cons_self ..) started
          rw [e, List.erase_cons_head] at this
          exact this.more _ (fun e => nomatch e)
      | finish id =>
        unfold act
        dsimp only
        split
        · next hc => exact (h.more (.finish id) (fun e => nomatch e)).cbFinished hc.1 hc.2 (.inl (by simp))
        · rw [List.append_nil]; exact h.more _ (fun e => nomatch e)
      | idle =>
        unfold act
        dsimp only
        split
        · exact ((h.config false s.config).dispose.1).more _ (fun e => nomatch e)
        · rw [List.append_nil]; exact h.more _ (fun e => nomatch e)
      | shutdown => exact h.shutdown hr
      | configure c => cases ho
      | load => cases hw
      | store => cases hw

theorem Inv.run : ∀ {ops : List Op} {s : State} {tr : List Out} {past : List Op}, Inv s tr past s.finished → (∀ op ∈ ops, whole op = true) →
    Inv (run s ops).1 (tr ++ (run s ops).2) (past ++ ops) (Service.run s ops).1.finished
  | [], s, tr, past, h, _ => by
    show Inv s (tr ++ []) (past ++ []) s.finished
    rw [List.append_nil, List.append_nil]
    exact h
  | op :: ops, s, tr, past, h, hw => by
    show Inv (Service.run (Service.step s op).1 ops).1 (tr ++ ((Service.step s op).2 ++ _)) _ _
    rw [← List.append_assoc, List.append_cons]
    exact Inv.run (h.step op (hw op (List.mem_cons_self ..))) fun o ho => hw o (List.mem_cons_of_mem _ ho)

theorem Inv.start (mode : Mode) (config : Config) : Inv (start mode config) [] [] (start mode config).finished where
  register := rfl
  acc := rfl
  each id := by simp [Service.start, freed]
  total := rfl
  nProcessing := rfl
  nProcessed := rfl
  nodup := List.nodup_nil
  sub _ h := nomatch h
  begun _ := by simp [Begun, Service.start, freed]
  ended _ h := by rcases h with h | h <;> cases h
  quits _ := rfl
  over _ h := nomatch h
  waits _ _ h := nomatch h
  deaf h := nomatch h
  asked _ := ⟨fun h => (nomatch h), fun h => (nomatch h)⟩
  asks h := nomatch h
  stops h := nomatch h

/-- what holds of a client after `ops` -/
theorem reached (mode : Mode) (config : Config) {ops : List Op} (h : ∀ op ∈ ops, whole op = true) :
    Inv (run (start mode config) ops).1 (run (start mode config) ops).2 ops (run (start mode config) ops).1.finished := by
  have := (Inv.start mode config).run h
  rwa [List.nil_append, List.nil_append] at this

theorem run_append (s : State) (a b : List Op) : run s (a ++ b) = ((run (run s a).1 b).1, (run s a).2 ++ (run (run s a).1 b).2) := by
  induction a generalizing s with
  | nil => rfl
  | cons op a ih =>
    show ((run (step s op).1 (a ++ b)).1, (step s op).2 ++ (run (step s op).1 (a ++ b)).2) = _
    rw [ih]
    show (_, _ ++ (_ ++ _)) = ((run (run (step s op).1 a).1 b).1, ((step s op).2 ++ (run (step s op).1 a).2) ++ (run (run (step s op).1 a).1 b).2)
    rw [List.append_assoc]

theorem run_one (s : State) (ops : List Op) (op : Op) : run s (ops ++ [op]) = ((step (run s ops).1 op).1, (run s ops).2 ++ (step (run s ops).1 op).2) := by
  rw [run_append]
  show (_, _ ++ ((step (run s ops).1 op).2 ++ [])) = _
  rw [List.append_nil]
  rfl

/-- how many sessions there are, by the client's own lists -/
theorem Inv.sessions {s : State} {tr : List Out} {ops : List Op} {p : List Nat} (h : Inv s tr ops p) :
    sessions tr = s.setups.length + s.processing.length := by
  unfold Spec.Service.sessions
  rw [h.acc, List.length_range]
  have := h.total
  omega

theorem Inv.count {s : State} {tr : List Out} {ops : List Op} {p : List Nat} (h : Inv s tr ops p) : (accepted tr).length = s.next := by
  rw [h.acc, List.length_range]

/-- what disposing of the finished sessions says -/
theorem dispose_out (s : State) : freed (disposeFinished s).2 = s.finished ∧ accepted (disposeFinished s).2 = [] := by
  unfold disposeFinished
  split
  · next e => rw [e]; exact ⟨rfl, rfl⟩
  · have ha : ∀ (l : List Nat) (r : Result), accepted (l.foldl finishProcessing r).2 = accepted r.2 := by
      intro l
      induction l with
      | nil => intro r; rfl
      | cons id l ih =>
        intro r
        rw [List.foldl_cons, ih]
        have e : (finishProcessing r id).2 = r.2 ++ (if (r.1.quitting && r.1.nProcessing - 1 == 0) then [.quit] else []) ++ [.freed id] := rfl
        rw [e]
        simp only [accepted_append]
        split <;> simp [accepted]
    dsimp only
    constructor
    · simp only [freed_append, fold_freed]
      split <;> simp [freed]
    · simp only [accepted_append, ha]
      split <;> simp [accepted]

theorem cbFinished_accepted (s : State) (id : Nat) : accepted (cbFinished s id).2 = [] := by
  unfold cbFinished
  dsimp only
  split
  · exact (dispose_out _).2
  · rfl

theorem setup_accepted (s : State) (id : Nat) (b : Bool) : accepted (setup s id b).2 = [] := by
  unfold setup
  dsimp only
  split
  · rfl
  · exact cbFinished_accepted _ _

/-- a connection is accepted only when one waits, the client listens and is not full -/
theorem step_accepted (s : State) (op : Op) (hw : whole op = true) :
    accepted (step s op).2 = [] ∨
    ((∃ started, op = .connect .ok started) ∧ s.running = true ∧ s.stalled = false ∧ s.watching = true ∧ full s = false ∧ accepted (step s op).2 = [s.next]) := by
  unfold step
  split
  · exact .inl rfl
  · next hn =>
    cases op with
    | connect a started =>
      unfold act connect
      dsimp only
      split
      · exact .inl rfl
      · next hw' =>
        split
        · exact .inl rfl
        · next hf =>
          cases a
          · refine .inr ⟨⟨started, rfl⟩, ?_, ?_, by simpa using hw', by simpa using hf, ?_⟩
            · cases hr : s.running
              · rw [hr] at hn; simp [outside] at hn
              · rfl
            · cases hr : s.stalled
              · rfl
              · rw [hr] at hn; simp [outside] at hn
            · dsimp only
              split
              · show s.next :: accepted _ = _
                rw [setup_accepted]
              · rfl
          · exact .inl rfl
          · exact .inl rfl
    | setup started =>
      unfold act
      dsimp only
      split
      · exact .inl rfl
      · exact .inl (setup_accepted _ _ _)
    | finish id =>
      unfold act
      dsimp only
      split
      · exact .inl (cbFinished_accepted _ _)
      · exact .inl rfl
    | idle =>
      unfold act
      dsimp only
      split
      · exact .inl (dispose_out _).2
      · exact .inl rfl
    | shutdown =>
      unfold act
      dsimp only
      unfold shutdown
      split
      · exact .inl rfl
      · dsimp only
        split <;> exact .inl rfl
    | configure c => exact .inl rfl
    | load => cases hw
    | store => cases hw

end Verif.Service
