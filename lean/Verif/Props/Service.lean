import Verif.Client.ServiceFacts
/-
C60-C64: how a client serves connections.
-/
namespace Verif.Props
open Verif.Service Verif.Spec.Service

/-- **C60** (as long as no other thread changes the counter in the middle of an event). Whatever happens to a client,
* a connection is accepted as one session, and a session is let go once, after it has come to its end;
* `milter_client_get_n_processing_sessions` is the number of sessions accepted and not let go, and the number of sessions served is that of those let
  go, both as 32 bit counters;
* `milter_client_processing_context_foreach` visits each session begun and not let go, once. -/
theorem C60_partial (mode : Mode) (config : Config) (ops : List Op) (h : ∀ op ∈ ops, whole op = true) :
    let r := run (start mode config) ops
    (accepted r.2).Nodup ∧ (freed r.2).Nodup ∧ (∀ id ∈ freed r.2, id ∈ accepted r.2 ∧ Ended ops r.2 id) ∧
    r.1.nProcessing.toNat = sessions r.2 % 2 ^ 32 ∧ r.1.nProcessed.toNat = (freed r.2).length % 2 ^ 32 ∧
    r.1.processing.Nodup ∧ ∀ id, id ∈ r.1.processing ↔ Begun r.2 id ∧ id ∉ freed r.2 := by
  have hi := reached mode config h
  dsimp only
  generalize run (start mode config) ops = r at hi ⊢
  have hle : ∀ id, (if id < r.1.next then 1 else 0) ≤ 1 := by intro id; split <;> decide
  refine ⟨?_, ?_, ?_, ?_, ?_, ?_, ?_⟩
  · rw [hi.acc]; exact List.nodup_range
  · rw [List.nodup_iff_count]
    intro id
    have := hi.each id
    have := hle id
    omega
  · intro id hm
    refine ⟨?_, hi.ended id (.inr hm)⟩
    rw [hi.acc, List.mem_range]
    have := hi.each id
    have hc : 0 < (freed r.2).count id := List.count_pos_iff.mpr hm
    refine Classical.byContradiction fun hn => ?_
    rw [if_neg hn] at this
    omega
  · rw [hi.nProcessing, hi.sessions, UInt32.toNat_ofNat']
  · rw [hi.nProcessed, UInt32.toNat_ofNat']
  · rw [List.nodup_iff_count]
    intro id
    have := hi.each id
    have := hle id
    omega
  · intro id
    rw [hi.begun]
    constructor
    · intro hm
      refine ⟨.inl hm, ?_⟩
      have := hi.each id
      have := hle id
      have hc : 0 < r.1.processing.count id := List.count_pos_iff.mpr hm
      rw [← List.count_eq_zero]
      show List.count id (freed r.2) = 0
      omega
    · rintro ⟨hm | hm, hn⟩
      · exact hm
      · exact absurd hm hn

/-- two connections, one of which cannot be started, and a third one; the first two have come to their ends -/
example : let ops := [Op.connect .ok true, .connect .ok false, .connect .ok true, .finish 0, .idle]
    (∀ op ∈ ops, whole op = true) ∧ (run (start .singleLoop {}) ops).2 =
      [.accepted 0, .established 0, .accepted 1, .startError 1, .accepted 2, .established 2, .freed 1, .freed 0, .sessionsFinished 2] ∧
    (run (start .singleLoop {}) ops).1.nProcessing = 1 ∧ (run (start .singleLoop {}) ops).1.processing = [2] := by decide

theorem finisher_waits {s : State} {op : Op} (h : s.finished ≠ [] → s.finisher = true) : (step s op).1.finished ≠ [] → (step s op).1.finisher = true := by
  have hd : ∀ s, (disposeFinished s).1.finished = [] := by
    intro s
    unfold disposeFinished
    split
    · assumption
    · rfl
  have hc : ∀ s id, (cbFinished s id).1.finished ≠ [] → (cbFinished s id).1.finisher = true := by
    intro s id
    unfold cbFinished
    dsimp only
    split
    · intro hn; exact absurd (hd _) hn
    · intro _; rfl
  have hs : ∀ s id b, (s.finished ≠ [] → s.finisher = true) → (setup s id b).1.finished ≠ [] → (setup s id b).1.finisher = true := by
    intro s id b h
    unfold setup
    dsimp only
    split
    · exact h
    · exact hc _ _
  unfold step
  split
  · exact h
  · cases op with
    | connect a b =>
      unfold act connect
      dsimp only
      split
      · exact h
      · split
        · exact h
        · cases a
          · dsimp only
            split
            · exact hs _ _ _ h
            · exact h
          · exact h
          · exact h
    | setup b =>
      unfold act
      dsimp only
      split
      · exact h
      · exact hs _ _ _ h
    | finish id =>
      unfold act
      dsimp only
      split
      · exact hc _ _
      · exact h
    | idle =>
      unfold act
      dsimp only
      split
      · intro hn; exact absurd (hd _) hn
      · exact h
    | shutdown =>
      unfold act
      dsimp only
      unfold shutdown
      split <;> exact h
    | configure c => exact h
    | load =>
      unfold act
      dsimp only
      split <;> exact h
    | store =>
      unfold act
      dsimp only
      split <;> exact h

theorem finisher_reached (mode : Mode) (config : Config) (ops : List Op) :
    (run (start mode config) ops).1.finished ≠ [] → (run (start mode config) ops).1.finisher = true := by
  suffices ∀ s, (s.finished ≠ [] → s.finisher = true) → (run s ops).1.finished ≠ [] → (run s ops).1.finisher = true from
    this _ (fun h => absurd rfl h)
  induction ops with
  | nil => intro s h; exact h
  | cons op ops ih => intro s h; exact ih _ (finisher_waits h)

/-- **C60**: a session which is being served and says it has finished has been let go when the event loop next comes to rest. -/
theorem C60_disposed (mode : Mode) (config : Config) (ops : List Op) (h : ∀ op ∈ ops, whole op = true)
    (hr : (run (start mode config) ops).1.running = true) (hs : (run (start mode config) ops).1.stalled = false) (id : Nat)
    (hm : id ∈ (run (start mode config) ops).1.processing) :
    id ∈ freed (run (start mode config) (ops ++ [.finish id, .idle])).2 := by
  rw [run_append]
  have hi := reached mode config h
  have hfin := finisher_reached mode config ops
  generalize run (start mode config) ops = r at *
  dsimp only
  rw [freed_append]
  refine List.mem_append_right _ ?_
  show id ∈ freed ((step r.1 (.finish id)).2 ++ ((step (step r.1 (.finish id)).1 .idle).2 ++ []))
  rw [List.append_nil, freed_append, List.mem_append]
  have e1 : step r.1 (.finish id) = act r.1 (.finish id) := by unfold step; rw [hr, hs]; rfl
  have idle : ∀ s : State, s.running = true → s.stalled = false → s.finisher = true → id ∈ s.finished → id ∈ freed (step s .idle).2 := by
    intro s h1 h2 h3 h4
    have e : step s .idle = disposeFinished { s with finisher := false } := by
      unfold step act
      rw [h1, h2]
      show (if s.finisher = true then _ else _) = _
      rw [if_pos h3]
    rw [e, (dispose_out _).1]
    exact h4
  by_cases hf : id ∈ r.1.finished
  · have e2 : act r.1 (.finish id) = (r.1, []) := by
      unfold act
      dsimp only
      rw [if_neg (fun h => h.2 hf)]
    rw [e1, e2]
    exact .inr (idle _ hr hs (hfin (List.ne_nil_of_mem hf)) hf)
  · have e2 : act r.1 (.finish id) = cbFinished r.1 id := by
      unfold act
      dsimp only
      rw [if_pos ⟨hm, hf⟩]
    rw [e1, e2]
    unfold cbFinished
    dsimp only
    split
    · rw [(dispose_out _).1]
      exact .inl (List.mem_append_right _ (List.mem_singleton.mpr rfl))
    · exact .inr (idle _ hr hs rfl (List.mem_append_right _ (List.mem_singleton.mpr rfl)))

example : (run (start .worker {}) [.connect .ok true, .setup true]).1.running = true ∧ (run (start .worker {}) [.connect .ok true, .setup true]).1.stalled = false ∧
    0 ∈ (run (start .worker {}) [.connect .ok true, .setup true]).1.processing := by decide

/-- **C60 fails** when a thread of its own accepts connections: a session which is let go while another connection is being accepted is counted for
ever, and after a shutdown the client never comes to its end. -/
theorem C60_accept_loop_violated :
    let ops := [Op.connect .ok true, .setup true, .load, .finish 0, .idle, .store, .setup true]
    sessions (run (start .acceptLoop {}) ops).2 = 1 ∧ (run (start .acceptLoop {}) ops).1.nProcessing = 2 ∧
    (let all := run (start .acceptLoop {}) (ops ++ [.shutdown, .finish 1, .idle])
     sessions all.2 = 0 ∧ .quit ∉ all.2 ∧ all.1.running = true) := by
  decide

/-- **C60 fails** when the client is destroyed while finished sessions wait to be let go: they are let go twice. -/
theorem C60_destroyed_violated :
    let s := (run (start .singleLoop {}) [.connect .ok true, .finish 0]).1
    dispose s = [.freed 0, .freed 0, .sessionsFinished 1, .maintain] := by
  decide

/-- **C60**: after a shutdown which came to its end, destroying the client lets nothing go. -/
theorem C60_destroyed_partial (mode : Mode) (config : Config) (ops : List Op) (h : ∀ op ∈ ops, whole op = true)
    (hn : (accepted (run (start mode config) ops).2).length < 2 ^ 32) (hq : .quit ∈ (run (start mode config) ops).2) :
    dispose (run (start mode config) ops).1 = [] := by
  have hi := reached mode config h
  generalize run (start mode config) ops = r at *
  rw [hi.count] at hn
  have hr : r.1.running = false := by
    cases hr : r.1.running
    · rfl
    · have := hi.quits hn
      rw [hr, if_pos rfl, List.count_eq_zero] at this
      exact absurd hq this
  have h0 := (hi.over hn hr).2
  have hp : r.1.processing = [] := List.eq_nil_of_length_eq_zero (by omega)
  have hf : r.1.finished = [] := by
    cases hf : r.1.finished with
    | nil => rfl
    | cons id l =>
      have := hi.sub id (by rw [hf]; exact List.mem_cons_self ..)
      rw [hp] at this
      cases this
  unfold dispose disposeFinished
  dsimp only
  rw [if_pos hf, hp]
  rfl

example : Out.quit ∈ (run (start .singleLoop {}) [.connect .ok true, .shutdown, .finish 0, .idle]).2 := by decide

/- ## the limit -/

theorem config_step (s : State) (op : Op) : (step s op).1.config = (match op with | .configure c => c | _ => s.config) ∧ (step s op).1.mode = s.mode := by
  have hd : ∀ s, (disposeFinished s).1.config = s.config ∧ (disposeFinished s).1.mode = s.mode := fun s =>
    ⟨dispose_keeps (f := State.config) (fun _ _ _ _ _ => rfl) (fun _ => rfl) s, dispose_keeps (f := State.mode) (fun _ _ _ _ _ => rfl) (fun _ => rfl) s⟩
  have hc : ∀ s id, (cbFinished s id).1.config = s.config ∧ (cbFinished s id).1.mode = s.mode := by
    intro s id
    unfold cbFinished
    dsimp only
    split
    · exact hd _
    · exact ⟨rfl, rfl⟩
  have hs : ∀ s id b, (setup s id b).1.config = s.config ∧ (setup s id b).1.mode = s.mode := by
    intro s id b
    unfold setup
    dsimp only
    split
    · exact ⟨rfl, rfl⟩
    · exact hc _ _
  unfold step
  split
  · next hn =>
    cases op with
    | configure c => rw [Bool.and_eq_true] at hn; exact absurd hn.2 (by simp [outside])
    | _ => exact ⟨rfl, rfl⟩
  · cases op with
    | connect a b =>
      unfold act connect
      dsimp only
      split
      · exact ⟨rfl, rfl⟩
      · split
        · exact ⟨rfl, rfl⟩
        · cases a
          · dsimp only
            split
            · exact hs _ _ _
            · exact ⟨rfl, rfl⟩
          · exact ⟨rfl, rfl⟩
          · exact ⟨rfl, rfl⟩
    | setup b =>
      unfold act
      dsimp only
      split
      · exact ⟨rfl, rfl⟩
      · exact hs _ _ _
    | finish id =>
      unfold act
      dsimp only
      split
      · exact hc _ _
      · exact ⟨rfl, rfl⟩
    | idle =>
      unfold act
      dsimp only
      split
      · exact hd _
      · exact ⟨rfl, rfl⟩
    | shutdown =>
      unfold act
      dsimp only
      unfold shutdown
      split <;> exact ⟨rfl, rfl⟩
    | configure c => exact ⟨rfl, rfl⟩
    | load =>
      unfold act
      dsimp only
      split <;> exact ⟨rfl, rfl⟩
    | store =>
      unfold act
      dsimp only
      split <;> exact ⟨rfl, rfl⟩

theorem config_run : ∀ (ops : List Op) (s : State), (run s ops).1.config = inForce s.config ops ∧ (run s ops).1.mode = s.mode
  | [], _ => ⟨rfl, rfl⟩
  | op :: ops, s => by
    have h := config_run ops (step s op).1
    have h1 := config_step s op
    refine ⟨?_, h.2.trans h1.2⟩
    show (run (step s op).1 ops).1.config = _
    rw [h.1, h1.1]
    cases op <;> rfl

theorem inForce_steady {ops : List Op} (h : ∀ op ∈ ops, steady op = true) (c : Config) : inForce c ops = c := by
  induction ops with
  | nil => rfl
  | cons op ops ih =>
    have := ih fun o ho => h o (List.mem_cons_of_mem _ ho)
    cases op with
    | configure c => exact absurd (h _ (List.mem_cons_self ..)) (by simp [steady])
    | _ => exact this

theorem rev_induction {P : List α → Prop} (nil : P []) (snoc : ∀ l a, P l → P (l ++ [a])) (l : List α) : P l := by
  have : ∀ l : List α, P l.reverse := by
    intro l
    induction l with
    | nil => exact nil
    | cons a l ih => rw [List.reverse_cons]; exact snoc _ _ ih
  simpa using this l.reverse

theorem sessions_step {s : State} {tr : List Out} {ops : List Op} {p : List Nat} (h : Inv s tr ops p) (op : Op) (hw : whole op = true) :
    sessions (tr ++ (step s op).2) ≤ sessions tr ∨ (full s = false ∧ sessions (tr ++ (step s op).2) ≤ sessions tr + 1) := by
  unfold sessions
  rw [accepted_append, freed_append, List.length_append, List.length_append]
  rcases step_accepted s op hw with e | ⟨_, _, _, _, hf, e⟩
  · rw [e]
    refine .inl ?_
    simp only [List.length_nil]
    omega
  · rw [e]
    refine .inr ⟨hf, ?_⟩
    simp only [List.length_cons, List.length_nil]
    have : (freed tr).length ≤ (accepted tr).length := by
      rw [h.count]
      have := h.total
      omega
    omega

/-- **C61** (as long as no other thread changes the counter in the middle of an event). There are never more sessions than `max-connections`. -/
theorem C61_limit_partial (mode : Mode) (config : Config) (ops : List Op) (h : ∀ op ∈ ops, whole op = true) (hc : ∀ op ∈ ops, steady op = true)
    (hm : config.maxConnections ≠ 0) : sessions (run (start mode config) ops).2 ≤ config.maxConnections.toNat := by
  induction ops using rev_induction with
  | nil => exact Nat.zero_le _
  | snoc ops op ih =>
    have h' : ∀ o ∈ ops, whole o = true := fun o ho => h o (List.mem_append_left _ ho)
    have hc' : ∀ o ∈ ops, steady o = true := fun o ho => hc o (List.mem_append_left _ ho)
    have hi := reached mode config h'
    have ih := ih h' hc'
    have hcf : (run (start mode config) ops).1.config = config := (config_run ops _).1.trans (inForce_steady hc' _)
    rw [run_one]
    rcases sessions_step hi op (h op (by simp)) with hs | ⟨hf, hs⟩
    · exact Nat.le_trans hs ih
    · refine Nat.le_trans hs ?_
      unfold full at hf
      rw [hcf, hi.nProcessing, ← hi.sessions] at hf
      have hlt : config.maxConnections.toNat < 2 ^ 32 := UInt32.toNat_lt _
      have hpos : (decide (0 < config.maxConnections)) = true := by
        rw [decide_eq_true_eq, UInt32.pos_iff_ne_zero]
        exact hm
      rw [hpos, Bool.true_and, decide_eq_false_iff_not, UInt32.le_iff_toNat_le, UInt32.toNat_ofNat_of_lt' (Nat.lt_of_le_of_lt ih hlt)] at hf
      omega

example : let config : Config := { maxConnections := 2 }
    let ops := [Op.connect .ok true, .connect .ok true, .finish 1, .idle, .connect .ok true]
    sessions (run (start .singleLoop config) ops).2 = 2 ∧ accepted (run (start .singleLoop config) ops).2 = [0, 1, 2] := by decide

/-- **C61**: as long as the client listens, a waiting connection is accepted exactly when there are fewer sessions than the limit now in force, if there
is a limit. With a thread of its own to accept connections, the others go on meanwhile, and the connection waits. -/
theorem C61_accept_partial (mode : Mode) (config : Config) (ops : List Op) (h : ∀ op ∈ ops, whole op = true)
    (hn : (accepted (run (start mode config) ops).2).length < 2 ^ 32) (started : Bool) :
    let r := run (start mode config) ops
    let max := (inForce config ops).maxConnections
    r.1.running = true → r.1.stalled = false → r.1.watching = true →
    (max = 0 ∨ sessions r.2 < max.toNat → (accepted (step r.1 (.connect .ok started)).2).length = 1) ∧
    (¬ (max = 0 ∨ sessions r.2 < max.toNat) →
      (step r.1 (.connect .ok started)).2 = [] ∧ (mode = .acceptLoop → (step r.1 (.connect .ok started)).1 = r.1)) := by
  have hi := reached mode config h
  have hcf := config_run ops (start mode config)
  rw [hi.count] at hn
  dsimp only
  generalize run (start mode config) ops = r at *
  generalize hmax : (inForce config ops).maxConnections = max
  intro hr hs hw
  have hl : sessions r.2 < 2 ^ 32 := by
    rw [hi.sessions]
    have := hi.total
    omega
  have hfull : full r.1 = true ↔ ¬ (max = 0 ∨ sessions r.2 < max.toNat) := by
    unfold full
    have e : r.1.nProcessing = UInt32.ofNat (sessions r.2) := by rw [hi.sessions]; exact hi.nProcessing
    have ec : r.1.config.maxConnections = max := by rw [hcf.1]; exact hmax
    rw [e, ec, Bool.and_eq_true, decide_eq_true_eq, decide_eq_true_eq, UInt32.pos_iff_ne_zero, UInt32.le_iff_toNat_le, UInt32.toNat_ofNat_of_lt' hl]
    constructor
    · rintro ⟨h1, h2⟩ (h3 | h3)
      · exact h1 h3
      · omega
    · intro hx
      refine ⟨fun h3 => hx (.inl h3), ?_⟩
      refine Nat.le_of_not_lt fun h3 => hx (.inr h3)
  have e1 : step r.1 (.connect .ok started) = connect r.1 .ok started := by unfold step act; rw [hr, hs]; rfl
  rw [e1]
  unfold connect
  constructor
  · intro hx
    have : ¬ full r.1 = true := fun h => hfull.mp h hx
    rw [if_neg (by rw [hw]; decide), if_neg this]
    dsimp only
    split
    · show (r.1.next :: accepted _).length = 1
      rw [setup_accepted]
      rfl
    · rfl
  · intro hx
    rw [if_neg (by rw [hw]; decide), if_pos (hfull.mpr hx)]
    refine ⟨rfl, ?_⟩
    rintro rfl
    have hm : r.1.mode = .acceptLoop := hcf.2
    have : decide (r.1.mode ≠ .acceptLoop) = r.1.stalled := by rw [hm, hs]; rfl
    show ({ r.1 with stalled := decide (r.1.mode ≠ .acceptLoop) } : State) = r.1
    rw [this]

/-- the thread of the event loop accepts a connection when the client is full: then nothing happens any more -/
theorem stalls (s : State) (started : Bool) (hr : s.running = true) (hs : s.stalled = false) (hw : s.watching = true) (hf : full s = true) (hm : s.mode ≠ .acceptLoop)
    (ops : List Op) : (run (step s (.connect .ok started)).1 ops).2 = [] := by
  have e1 : step s (.connect .ok started) = connect s .ok started := by unfold step act; rw [hr, hs]; rfl
  have e2 : (step s (.connect .ok started)).1.stalled = true := by
    rw [e1]
    unfold connect
    rw [hw, if_neg (by decide), if_pos hf]
    exact decide_eq_true hm
  generalize (step s (.connect .ok started)).1 = s' at e2
  induction ops generalizing s' with
  | nil => rfl
  | cons op ops ih =>
    show (step s' op).2 ++ (run (step s' op).1 ops).2 = []
    have : (step s' op).2 = [] ∧ (step s' op).1.stalled = true := by
      unfold step
      split
      · exact ⟨rfl, e2⟩
      · next hn =>
        rw [e2, Bool.or_true, Bool.true_and, Bool.not_eq_true', Bool.not_eq_false] at hn
        cases op with
        | configure c => exact ⟨rfl, e2⟩
        | _ => cases hn
    rw [this.1, ih _ this.2]
    rfl

/-- **C61 fails** in the default mode, and in a worker: "a new connection waits until an existing connection is closed" (doc/configuration.rd:533-538), but
the thread which would see it closed is the one which waits. With `max-connections` 1, a second connection while the first one is being served ends the
service: whatever happens after that, nothing is done: no session ends, no connection is accepted, and a shutdown does not end. -/
theorem C61_stall_violated (ops : List Op) :
    (run (start .singleLoop { maxConnections := 1 }) [.connect .ok true]).2 = [.accepted 0, .established 0] ∧
    (run (run (start .singleLoop { maxConnections := 1 }) [.connect .ok true, .connect .ok true]).1 ops).2 = [] ∧
    (run (run (start .worker { maxConnections := 1 }) [.connect .ok true, .setup true, .connect .ok true]).1 ops).2 = [] :=
  ⟨by decide,
   stalls (run (start .singleLoop { maxConnections := 1 }) [.connect .ok true]).1 true (by decide) (by decide) (by decide) (by decide) (by decide) ops,
   stalls (run (start .worker { maxConnections := 1 }) [.connect .ok true, .setup true]).1 true (by decide) (by decide) (by decide) (by decide) (by decide)
     ops⟩

/- ## maintenance -/

theorem fold_says : ∀ (l : List Nat) (r : Result) (o : Out), o ≠ .quit → (∀ id, o ≠ .freed id) → (o ∈ (l.foldl finishProcessing r).2 ↔ o ∈ r.2)
  | [], _, _, _, _ => Iff.rfl
  | id :: l, r, o, h1, h2 => by
    rw [List.foldl_cons, fold_says l _ o h1 h2]
    have e : (finishProcessing r id).2 = r.2 ++ (if (r.1.quitting && r.1.nProcessing - 1 == 0) then [.quit] else []) ++ [.freed id] := rfl
    rw [e, List.mem_append, List.mem_append, List.mem_singleton]
    constructor
    · rintro ((h | h) | h)
      · exact h
      · split at h
        · exact absurd (List.mem_singleton.mp h) h1
        · cases h
      · exact absurd h (h2 id)
    · exact fun h => .inl (.inl h)

theorem ofNat_sub (a k : Nat) : UInt32.ofNat (a + k) - UInt32.ofNat a = UInt32.ofNat k := by
  rw [UInt32.ofNat_add, UInt32.add_comm, UInt32.add_sub_cancel]

/-- a multiple is reached among the last `k` -/
theorem reaches_iff {i a k : Nat} : (a + k) % i < k ↔ Reaches i a (a + k) := by
  unfold Reaches
  have hd := Nat.div_add_mod (a + k) i
  have hc : i * ((a + k) / i) = ((a + k) / i) * i := Nat.mul_comm _ _
  constructor
  · intro h
    exact ⟨(a + k) / i, by omega, by omega⟩
  · rintro ⟨m, h1, h2⟩
    have hm : m ≤ (a + k) / i := by
      rcases Nat.eq_zero_or_pos i with rfl | hi
      · omega
      · exact (Nat.le_div_iff_mul_le hi).mpr h2
    have : m * i ≤ ((a + k) / i) * i := Nat.mul_le_mul_right _ hm
    omega

/-- what is said when the finished sessions are disposed of -/
theorem dispose_says {s : State} {tr : List Out} {ops : List Op} (h : Inv s tr ops s.finished) (hf : s.finished ≠ []) (hl : s.next < limit) :
    (.maintain ∈ (disposeFinished s).2 ↔ (sessions (tr ++ (disposeFinished s).2) = 0 ∨
      (s.config.interval ≠ 0 ∧ Reaches s.config.interval.toNat (freed tr).length ((freed tr).length + s.finished.length)))) ∧
    ∀ n, .sessionsFinished n ∈ (disposeFinished s).2 ↔ n.toNat = s.finished.length := by
  have hd := h.dispose.1
  have hout := (dispose_out s).1
  have hnext : (disposeFinished s).1.next = s.next := dispose_keeps (f := State.next) (fun _ _ _ _ _ => rfl) (fun _ => rfl) s
  have hcfg : (disposeFinished s).1.config = s.config := dispose_keeps (f := State.config) (fun _ _ _ _ _ => rfl) (fun _ => rfl) s
  have hfr : freed (tr ++ (disposeFinished s).2) = freed tr ++ s.finished := by rw [freed_append, hout]
  have hpr : (disposeFinished s).1.nProcessed = UInt32.ofNat ((freed tr).length + s.finished.length) := by
    rw [hd.nProcessed, hfr, List.length_append]
  have hsz : (freed tr).length + s.finished.length ≤ s.next := by
    have := hd.total
    rw [hfr, List.length_append, hnext] at this
    omega
  have hpg : (disposeFinished s).1.nProcessing = UInt32.ofNat (sessions (tr ++ (disposeFinished s).2)) := by
    rw [hd.sessions]; exact hd.nProcessing
  have hss : sessions (tr ++ (disposeFinished s).2) ≤ s.next := by
    rw [hd.sessions]
    have := hd.total
    rw [hnext] at this
    omega
  have hn : (disposeFinished s).1.nProcessed - s.nProcessed = UInt32.ofNat s.finished.length := by
    rw [hpr, h.nProcessed, ofNat_sub]
  have hpos : 0 < s.finished.length := List.length_pos_iff.mpr hf
  have hk : (UInt32.ofNat s.finished.length).toNat = s.finished.length := UInt32.toNat_ofNat_of_lt' (by have : UInt32.size = limit := rfl; omega)
  have hmnt : needMaintain (disposeFinished s).1 (UInt32.ofNat s.finished.length) = true ↔
      (sessions (tr ++ (disposeFinished s).2) = 0 ∨ (s.config.interval ≠ 0 ∧ Reaches s.config.interval.toNat (freed tr).length ((freed tr).length + s.finished.length))) := by
    unfold needMaintain
    rw [hpg, hcfg, hpr]
    have h0 : (UInt32.ofNat (sessions (tr ++ (disposeFinished s).2)) == 0) = true ↔ sessions (tr ++ (disposeFinished s).2) = 0 := by
      rw [beq_iff_eq]
      exact ofNat_zero (by omega)
    have hp : decide (0 < UInt32.ofNat s.finished.length) = true := by
      rw [decide_eq_true_eq, UInt32.lt_iff_toNat_lt, hk]
      exact hpos
    have hp' : (UInt32.ofNat ((freed tr).length + s.finished.length)).toNat = (freed tr).length + s.finished.length :=
      UInt32.toNat_ofNat_of_lt' (by have : UInt32.size = limit := rfl; omega)
    rw [hp, Bool.and_true]
    split
    · next hz => simp only [h0.mp hz, true_or]
    · next hz =>
      have hz' : sessions (tr ++ (disposeFinished s).2) ≠ 0 := fun e => hz (h0.mpr e)
      split
      · next hi =>
        rw [beq_iff_eq] at hi
        simp only [hz', hi, false_or, Bool.false_eq_true, ne_eq, not_true_eq_false, false_and]
      · next hi =>
        have hi' : s.config.interval ≠ 0 := fun e => hi (beq_iff_eq.mpr e)
        rw [decide_eq_true_eq, UInt32.lt_iff_toNat_lt, UInt32.toNat_mod, hk, hp', reaches_iff]
        simp only [hz', hi', false_or, ne_eq, not_false_eq_true, true_and]
  have e : (disposeFinished s).2 = (s.finished.foldl finishProcessing (s, [])).2 ++ [.sessionsFinished (UInt32.ofNat s.finished.length)] ++
      (if needMaintain (disposeFinished s).1 (UInt32.ofNat s.finished.length) then [.maintain] else []) := by
    rw [← hn]
    unfold disposeFinished
    rw [if_neg hf]
  constructor
  · rw [← hmnt, e, List.mem_append, List.mem_append, fold_says _ _ _ (by simp) (by simp)]
    cases needMaintain (disposeFinished s).1 (UInt32.ofNat s.finished.length) <;> simp
  · intro n
    rw [e, List.mem_append, List.mem_append, fold_says _ _ _ (by simp) (by simp), List.mem_singleton]
    have : Out.sessionsFinished n ∉ (if needMaintain (disposeFinished s).1 (UInt32.ofNat s.finished.length) then [Out.maintain] else []) := by
      split <;> simp
    simp only [this, or_false, List.not_mem_nil, false_or, Out.sessionsFinished.injEq]
    constructor
    · rintro rfl; exact hk
    · intro hx
      apply UInt32.toNat_inj.mp
      rw [hk, hx]

/-- how sessions are let go in one event -/
inductive Lets (s : State) (tr : List Out) (r : Result) : Prop where
  /-- none is -/
  | none (h1 : freed r.2 = []) (h2 : .maintain ∉ r.2) (h3 : ∀ n, .sessionsFinished n ∉ r.2)
  /-- all which have finished are -/
  | all (s' : State) (pre : List Out) (ops : List Op) (h1 : r.2 = pre ++ (disposeFinished s').2) (h2 : r.1 = (disposeFinished s').1)
    (h3 : Inv s' (tr ++ pre) ops s'.finished) (h4 : s'.finished ≠ []) (h5 : s'.config = s.config) (h6 : freed pre = []) (h7 : .maintain ∉ pre)
    (h8 : ∀ n, .sessionsFinished n ∉ pre)

theorem Lets.cbFinished {s : State} {tr : List Out} {ops : List Op} {id : Nat} (h : Inv s tr ops s.finished) (hm : id ∈ s.processing)
    (hn : id ∉ s.finished) (he : Ended ops tr id) : Lets s tr (cbFinished s id) := by
  have h1 : Inv { s with finished := s.finished ++ [id], finisher := false } tr ops (s.finished ++ [id]) := by
    refine ⟨h.register, h.acc, h.each, h.total, h.nProcessing, h.nProcessed, ?_, ?_, h.begun, ?_, h.quits, h.over, h.waits, h.deaf, h.asked, h.asks, h.stops⟩
    · rw [List.nodup_append]
      refine ⟨h.nodup, by simp, ?_⟩
      intro a ha b hb e
      rw [List.mem_singleton.mp hb] at e
      exact hn (e ▸ ha)
    · intro i hi
      rcases List.mem_append.mp hi with hi | hi
      · exact h.sub i hi
      · rw [List.mem_singleton.mp hi]; exact hm
    · intro i hi
      rcases hi with hi | hi
      · rcases List.mem_append.mp hi with hi | hi
        · exact h.ended i (.inl hi)
        · rw [List.mem_singleton.mp hi]; exact he
      · exact h.ended i (.inr hi)
  unfold Service.cbFinished
  dsimp only
  split
  · exact .all _ [] ops rfl rfl (by rw [List.append_nil]; exact h1) (by simp) rfl rfl (by simp) (by simp)
  · exact .none rfl (by simp) (by simp)

theorem Lets.after {s s' : State} {tr pre : List Out} {r : Result} (h : Lets s' (tr ++ pre) r) (hc : s'.config = s.config) (h6 : freed pre = [])
    (h7 : .maintain ∉ pre) (h8 : ∀ n, .sessionsFinished n ∉ pre) : Lets s tr (r.1, pre ++ r.2) := by
  cases h with
  | none a b c =>
    refine .none ?_ ?_ ?_
    · rw [freed_append, h6, a]; rfl
    · rw [List.mem_append]; rintro (h | h)
      · exact h7 h
      · exact b h
    · intro n
      rw [List.mem_append]; rintro (h | h)
      · exact h8 n h
      · exact c n h
  | all s'' pre' ops a b c d e f g i =>
    refine .all s'' (pre ++ pre') ops ?_ b (by rw [← List.append_assoc]; exact c) d (e.trans hc) ?_ ?_ ?_
    · rw [a, List.append_assoc]
    · rw [freed_append, h6, f]; rfl
    · rw [List.mem_append]; rintro (h | h)
      · exact h7 h
      · exact g h
    · intro n
      rw [List.mem_append]; rintro (h | h)
      · exact h8 n h
      · exact i n h

theorem Lets.setup {s : State} {tr : List Out} {ops : List Op} {id : Nat} (h : Inv s tr ops s.finished) (hm : id ∈ s.setups) (started : Bool) :
    Lets s tr (setup { s with setups := s.setups.erase id } id started) := by
  unfold Service.setup
  dsimp only
  cases started
  · rw [if_neg (by decide)]
    refine Lets.after (pre := [.startError id]) (Lets.cbFinished (h.begin hm (.inr rfl)) (List.mem_cons_self ..) ?_ (.inr (by simp))) rfl rfl (by simp)
      (by simp)
    exact fun hi => (h.notBegun hm).1 (h.sub id hi)
  · rw [if_pos rfl]
    exact .none rfl (by simp) (by simp)

theorem Lets.step {s : State} {tr : List Out} {ops : List Op} (h : Inv s tr ops s.finished) (op : Op) (hw : whole op = true) :
    Lets s tr (step s op) := by
  unfold Service.step
  split
  · exact .none rfl (by simp) (by simp)
  · next hn =>
    cases op with
    | connect a started =>
      have hr : s.running = true := by
        cases hr : s.running
        · rw [hr] at hn; simp [outside] at hn
        · rfl
      unfold act
      dsimp only
      unfold connect
      split
      · exact .none rfl (by simp) (by simp)
      · next hwt =>
        have hq : s.quitting = false := by
          cases hq : s.quitting
          · rfl
          · rw [h.deaf hq] at hwt; exact absurd rfl hwt
        split
        · exact .none rfl (by simp) (by simp)
        · cases a
          · have ha := h.accept hr hq
            dsimp only
            split
            · have hfresh : s.next ∉ s.setups := by
                have := h.each s.next
                rw [if_neg (Nat.lt_irrefl _)] at this
                rw [← List.count_eq_zero]; omega
              have he : (s.setups ++ [s.next]).erase s.next = s.setups := by
                rw [List.erase_append_right _ hfresh]
                simp
              have := Lets.setup (id := s.next) ha (List.mem_append_right _ (List.mem_singleton.mpr rfl)) started
              dsimp only at this
              rw [he] at this
              exact Lets.after (pre := [.accepted s.next]) this rfl rfl (by simp) (by simp)
            · exact .none rfl (by simp) (by simp)
          · exact .none rfl (by simp) (by simp)
          · exact .none rfl (by simp) (by simp)
    | setup started =>
      unfold act
      dsimp only
      split
      · exact .none rfl (by simp) (by simp)
      · next id rest e =>
        have := Lets.setup (id := id) h (by rw [e]; exact List.mem_cons_self ..) started
        rw [e, List.erase_cons_head] at this
        exact this
    | finish id =>
      unfold act
      dsimp only
      split
      · next hc => exact Lets.cbFinished (h.more (.finish id) (fun e => nomatch e)) hc.1 hc.2 (.inl (by simp))
      · exact .none rfl (by simp) (by simp)
    | idle =>
      unfold act
      dsimp only
      split
      · by_cases hf : s.finished = []
        · have : disposeFinished { s with finisher := false } = ({ s with finisher := false }, []) := if_pos hf
          rw [this]
          exact .none rfl (by simp) (by simp)
        · exact .all { s with finisher := false } [] ops rfl rfl (by rw [List.append_nil]; exact h.config false s.config) hf rfl rfl (by simp) (by simp)
      · exact .none rfl (by simp) (by simp)
    | shutdown =>
      unfold act
      dsimp only
      unfold shutdown
      split
      · exact .none rfl (by simp) (by simp)
      · dsimp only
        split <;> exact .none rfl (by simp) (by simp)
    | configure c => exact .none rfl (by simp [act]) (by simp [act])
    | load => cases hw
    | store => cases hw

/-- **C62** (as long as no other thread changes the counter in the middle of an event, and fewer than 2³² connections have been accepted). In each event, "maintain"
is signalled exactly when sessions are let go and either none is left, or the number of sessions served reaches a multiple of `maintenance-interval`;
"sessions-finished" is signalled with the number of the sessions let go, if there are any. -/
theorem C62_partial (mode : Mode) (config : Config) (ops : List Op) (h : ∀ op ∈ ops, whole op = true) (op : Op) (hop : whole op = true)
    (hn : (accepted (run (start mode config) (ops ++ [op])).2).length < 2 ^ 32) :
    let before := (run (start mode config) ops).2
    let now := (step (run (start mode config) ops).1 op).2
    let interval := (inForce config ops).interval
    (.maintain ∈ now ↔ freed now ≠ [] ∧ (sessions (before ++ now) = 0 ∨
      (interval ≠ 0 ∧ Reaches interval.toNat (freed before).length (freed (before ++ now)).length))) ∧
    ∀ n, .sessionsFinished n ∈ now ↔ freed now ≠ [] ∧ n.toNat = (freed now).length := by
  have hi := reached mode config h
  have hcf := (config_run ops (start mode config)).1
  have hi' := reached mode config (ops := ops ++ [op]) (by
    intro o ho
    rcases List.mem_append.mp ho with ho | ho
    · exact h o ho
    · rw [List.mem_singleton.mp ho]; exact hop)
  rw [hi'.count] at hn
  rw [run_one] at hn
  dsimp only at hn ⊢
  generalize run (start mode config) ops = r at *
  have hc : inForce config ops = r.1.config := hcf.symm
  rw [hc]
  cases Lets.step hi op hop with
  | none a b c =>
    rw [a]
    exact ⟨⟨fun h => absurd h b, fun h => absurd rfl h.1⟩, fun n => ⟨fun h => absurd h (c n), fun h => absurd rfl h.1⟩⟩
  | all s' pre ops' a b c d e f g i =>
    have hl : s'.next < limit := by
      rw [b, dispose_keeps (f := State.next) (fun _ _ _ _ _ => rfl) (fun _ => rfl)] at hn
      exact hn
    have hs := dispose_says c d hl
    have hfn : freed (step r.1 op).2 = s'.finished := by rw [a, freed_append, f, (dispose_out s').1]; rfl
    have hft : freed (r.2 ++ pre) = freed r.2 := by rw [freed_append, f, List.append_nil]
    rw [hfn]
    constructor
    · rw [a, List.mem_append, freed_append, freed_append, f, (dispose_out s').1, ← List.append_assoc, ← e, List.nil_append, List.length_append]
      have := hs.1
      rw [hft] at this
      simp only [g, false_or, this, ne_eq, d, not_false_eq_true, true_and]
    · intro n
      rw [a, List.mem_append]
      simp only [i n, false_or, hs.2 n, ne_eq, d, not_false_eq_true, true_and]

/-- every second session: of three which end together, while a fourth is there -/
example : let ops := [Op.connect .ok true, .connect .ok true, .connect .ok true, .connect .ok true, .finish 0, .finish 1, .finish 2]
    (step (run (start .singleLoop { interval := 2 }) ops).1 .idle).2 = [.freed 0, .freed 1, .freed 2, .sessionsFinished 3, .maintain] ∧
    (step (run (start .singleLoop { interval := 4 }) ops).1 .idle).2 = [.freed 0, .freed 1, .freed 2, .sessionsFinished 3] := by decide

/-- **C62 fails** with an interval of 0, which is documented to mean that maintenance never happens (doc/configuration.rd:505): it happens whenever nothing is
left to do. -/
theorem C62_never_violated : .maintain ∈ (run (start .singleLoop { interval := 0 }) [.connect .ok true, .finish 0, .idle]).2 := by decide

/- ## shutdown -/

/-- **C63** (as long as no other thread changes the counter in the middle of an event, the client has not stalled (C61), and fewer than 2³² connections have been
accepted). `milter_client_run` returns, once, exactly when a shutdown has been asked for and all sessions accepted have come to their ends and been let go. -/
theorem C63_partial (mode : Mode) (config : Config) (ops : List Op) (h : ∀ op ∈ ops, whole op = true) :
    let r := run (start mode config) ops
    r.1.stalled = false → (accepted r.2).length < 2 ^ 32 →
    r.2.count .quit ≤ 1 ∧ (.quit ∈ r.2 ↔ .shutdown ∈ ops ∧ sessions r.2 = 0) ∧
    (.quit ∈ r.2 → ∀ id ∈ accepted r.2, id ∈ freed r.2 ∧ Ended ops r.2 id) := by
  have hi := reached mode config h
  intro r hs hn
  rw [hi.count] at hn
  have hq := hi.quits hn
  have hiff : .quit ∈ r.2 ↔ r.1.running = false := by
    rw [← List.count_pos_iff]
    show 0 < (run (start mode config) ops).2.count .quit ↔ (run (start mode config) ops).1.running = false
    rw [hq]
    cases (run (start mode config) ops).1.running <;> simp
  refine ⟨?_, ?_, ?_⟩
  · show (run (start mode config) ops).2.count .quit ≤ 1
    rw [hq]
    split <;> decide
  · rw [hiff]
    show _ ↔ _ ∧ sessions (run (start mode config) ops).2 = 0
    rw [hi.sessions, ← hi.asked hs]
    constructor
    · exact hi.over hn
    · rintro ⟨h1, h2⟩
      cases hr : r.1.running
      · rfl
      · exact absurd h2 (hi.waits hn hr h1)
  · intro hm id ha
    have h0 := (hi.over hn (hiff.mp hm)).2
    have hf : id ∈ freed r.2 := by
      have hlt : id < (run (start mode config) ops).1.next := by
        rw [show r = run (start mode config) ops from rfl, hi.acc, List.mem_range] at ha
        exact ha
      have := hi.each id
      rw [if_pos hlt] at this
      have e1 : (run (start mode config) ops).1.setups = [] := List.eq_nil_of_length_eq_zero (by omega)
      have e2 : (run (start mode config) ops).1.processing = [] := List.eq_nil_of_length_eq_zero (by omega)
      rw [e1, e2, List.count_nil] at this
      rw [← List.count_pos_iff]
      show 0 < (freed (run (start mode config) ops).2).count id
      omega
    exact ⟨hf, hi.ended id (.inr hf)⟩

example : let ops := [Op.connect .ok true, .connect .ok true, .finish 1, .shutdown, .connect .ok true, .idle, .finish 0, .idle]
    (run (start .singleLoop {}) ops).1.stalled = false ∧ (run (start .singleLoop {}) ops).2 =
      [.accepted 0, .established 0, .accepted 1, .established 1, .freed 1, .sessionsFinished 1, .quit, .freed 0, .sessionsFinished 1, .maintain] := by decide

/-- **C63**: no connection is accepted after a shutdown has been asked for. -/
theorem C63_no_more (mode : Mode) (config : Config) (ops after : List Op) (h : ∀ op ∈ ops ++ [.shutdown] ++ after, whole op = true) :
    accepted (run (start mode config) (ops ++ [.shutdown] ++ after)).2 = accepted (run (start mode config) ops).2 := by
  induction after using rev_induction with
  | nil =>
    rw [List.append_nil, run_one]
    dsimp only
    rw [accepted_append]
    rcases step_accepted (run (start mode config) ops).1 .shutdown rfl with e | ⟨⟨_, e⟩, _⟩
    · rw [e, List.append_nil]
    · cases e
  | snoc after op ih =>
    have h' : ∀ o ∈ ops ++ [.shutdown] ++ after, whole o = true := fun o ho => h o (by
      rw [← List.append_assoc]; exact List.mem_append_left _ ho)
    rw [← List.append_assoc, run_one]
    dsimp only
    rw [accepted_append, ih h']
    have hi := reached mode config h'
    rcases step_accepted (run (start mode config) (ops ++ [.shutdown] ++ after)).1 op (h op (by simp)) with e | ⟨_, _, hs, hw, _⟩
    · rw [e, List.append_nil]
    · have := (hi.asked hs).mpr (by simp)
      rw [hi.deaf this] at hw
      cases hw

/- ## failures of accept -/

/-- **C64** (not for a worker). A connection which could not be accepted, whatever the reason, is reported, and changes nothing: the client goes on as if
it had not been there. -/
theorem C64_partial (s : State) (started : Bool) (hm : s.mode ≠ .worker) (hf : full s = false) (a : Accept) (ha : a ≠ .ok) :
    (s.running = true → s.stalled = false → s.watching = true → (.acceptError ∈ (step s (.connect a started)).2 ↔ a = .error)) ∧
    (step s (.connect a started)).1 = s ∧ ∀ ops, (run s (.connect a started :: ops)).2 = (step s (.connect a started)).2 ++ (run s ops).2 := by
  have : (step s (.connect a started)).1 = s := by
    unfold step
    split
    · rfl
    · unfold act connect
      dsimp only
      split
      · rfl
      · next hw =>
        rw [hf, if_neg (by decide)]
        cases a
        · exact absurd rfl ha
        · rfl
        · have : decide (s.mode ≠ .worker) = s.watching := by
            rw [decide_eq_true hm]
            simpa using hw
          dsimp only
          rw [this]
  refine ⟨?_, this, fun ops => ?_⟩
  · intro hr hs hw
    unfold step
    rw [if_neg (by simp [hr, hs])]
    unfold act connect
    dsimp only
    rw [if_neg (by simp [hw]), hf, if_neg (by decide)]
    cases a
    · exact absurd rfl ha
    · simp
    · simp
  show _ ++ (run (step s (.connect a started)).1 ops).2 = _
  rw [this]

example : (run (start .singleLoop {}) [.connect .error true, .connect .ok true]).2 = [.acceptError, .accepted 0, .established 0] := by decide

/-- **C64 fails** for a worker: after one connection which could not be accepted (say, because the peer had gone, or for want of file descriptors), it
accepts no more. -/
theorem C64_worker_violated (ops : List Op) (h : ∀ op ∈ ops, whole op = true) :
    accepted (run (start .worker {}) (.connect .error true :: ops)).2 = [] := by
  have key : ∀ s : State, s.watching = false → ∀ ops : List Op, (∀ op ∈ ops, whole op = true) → accepted (run s ops).2 = [] := by
    intro s hw ops
    induction ops generalizing s with
    | nil => intro _; rfl
    | cons op ops ih =>
      intro h
      have hop := h op (List.mem_cons_self ..)
      show accepted ((step s op).2 ++ (run (step s op).1 ops).2) = []
      rw [accepted_append]
      have h1 : accepted (step s op).2 = [] := by
        rcases step_accepted s op hop with e | ⟨_, _, _, e, _⟩
        · exact e
        · rw [hw] at e; cases e
      have h2 : (step s op).1.watching = false := by
        have hd : ∀ s, (disposeFinished s).1.watching = s.watching := dispose_keeps (f := State.watching) (fun _ _ _ _ _ => rfl) (fun _ => rfl)
        have hc : ∀ s id, (cbFinished s id).1.watching = s.watching := by
          intro s id
          unfold cbFinished
          dsimp only
          split
          · exact hd _
          · rfl
        unfold step
        split
        · exact hw
        · cases op with
          | connect a b =>
            unfold act connect
            dsimp only
            rw [if_pos (by rw [hw]; rfl)]
            exact hw
          | setup b =>
            unfold act
            dsimp only
            split
            · exact hw
            · unfold setup
              dsimp only
              split
              · exact hw
              · exact (hc _ _).trans hw
          | finish id =>
            unfold act
            dsimp only
            split
            · exact (hc _ _).trans hw
            · exact hw
          | idle =>
            unfold act
            dsimp only
            split
            · exact (hd _).trans hw
            · exact hw
          | shutdown =>
            unfold act
            dsimp only
            unfold shutdown
            split
            · exact hw
            · rfl
          | configure c => exact hw
          | load => cases hop
          | store => cases hop
      rw [h1, ih _ h2 fun o ho => h o (List.mem_cons_of_mem _ ho)]
      rfl
  show accepted ([Out.acceptError] ++ (run (step (start .worker {}) (.connect .error true)).1 ops).2) = []
  rw [accepted_append, key _ (by decide) ops h]
  rfl

end Verif.Props
