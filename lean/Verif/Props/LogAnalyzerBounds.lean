import Verif.Props.LogAnalyzer
/-
What is true of the statistics of milter-manager-log-analyzer whatever the log is like (C149).
-/
namespace Verif.Props.LogAnalyzer
open Verif Verif.LogAnalyzer Verif.Spec.LogAnalyzer

theorem combine_le (k : Bytes) (ds : List Datum) : ∀ v, v ≤ combine k v ds := by
  induction ds with
  | nil => exact fun v => Nat.le_refl v
  | cons d ds ih =>
    intro v
    refine Nat.le_trans ?_ (ih _)
    dsimp only
    split
    · cases d.kind with
      | count => exact Nat.le_add_right _ _
      | max => exact Nat.le_max_left _ _
    · exact Nat.le_refl _

theorem combine_mono (k : Bytes) {ds ds' : List Datum} (h : ds.Sublist ds') : ∀ {v v' : Nat}, v ≤ v' → combine k v ds ≤ combine k v' ds' := by
  induction h with
  | slnil => exact fun h => h
  | cons d _ ih => exact fun h => ih (Nat.le_trans h (combine_le k [d] _))
  | cons_cons d _ ih =>
    intro v v' h
    refine ih ?_
    dsimp only
    split
    · cases d.kind with
      | count => exact Nat.add_le_add_right h _
      | max => exact Nat.max_le.mpr ⟨Nat.le_trans h (Nat.le_max_left _ _), Nat.le_max_right _ _⟩
    · exact h

theorem during_sublist {a b : List Line} (h : a.Sublist b) (m : Nat) : (during a m).Sublist (during b m) := (h.filter _).map _

theorem flatMap_sublist {α β : Type} (f : α → List β) {a b : List α} (h : a.Sublist b) : (a.flatMap f).Sublist (b.flatMap f) := by
  induction h with
  | slnil => exact List.Sublist.refl _
  | cons x _ ih => rw [List.flatMap_cons]; exact ih.trans (List.sublist_append_right _ _)
  | cons_cons x _ ih => rw [List.flatMap_cons, List.flatMap_cons]; exact List.Sublist.append (List.Sublist.refl _) ih

theorem amount_mono (src : Source) {a b : List Line} (h : a.Sublist b) (m : Nat) (k : Bytes) : amount src a m k ≤ amount src b m k :=
  combine_mono k (flatMap_sublist _ (during_sublist h m)) (Nat.le_refl 0)

theorem below_map {items : List Bytes} {f g : Bytes → Nat} (h : ∀ i, f i ≤ g i) : Below (items.map f) (items.map g) := by
  refine ⟨by rw [List.length_map, List.length_map], fun p hp => ?_⟩
  rw [List.zip_map'] at hp
  obtain ⟨i, _, rfl⟩ := List.mem_map.mp hp
  exact h i

theorem Below.trans {a b c : List Nat} : Below a b → Below b c → Below a c := by
  induction a generalizing b c with
  | nil =>
    rintro ⟨h1, _⟩ ⟨h2, _⟩
    exact ⟨h1.trans h2, fun p hp => by cases hp⟩
  | cons x a ih =>
    rintro ⟨h1, h1'⟩ ⟨h2, h2'⟩
    cases b with
    | nil => cases h1
    | cons y b =>
      cases c with
      | nil => cases h2
      | cons z c =>
        obtain ⟨i1, i2⟩ := ih (b := b) (c := c) ⟨Nat.succ.inj h1, fun p hp => h1' p (List.mem_cons_of_mem _ hp)⟩ ⟨Nat.succ.inj h2, fun p hp => h2' p (List.mem_cons_of_mem _ hp)⟩
        refine ⟨congrArg (· + 1) i1, fun p hp => ?_⟩
        rcases List.mem_cons.mp hp with rfl | hp
        · exact Nat.le_trans (h1' (x, y) List.mem_cons_self) (h2' (y, z) List.mem_cons_self)
        · exact i2 p hp

/-- rows for minutes one after the other; the next is `n` -/
def Steps (rows : List (Nat × List Nat)) (n : Nat) : Prop := ∃ first, rows.map (·.1) = (List.range' first rows.length).map (60 * ·) ∧ (rows ≠ [] → n = first + rows.length)

theorem Steps.nil (n : Nat) : Steps [] n := ⟨n, rfl, fun h => absurd rfl h⟩

theorem Steps.append {old new : List (Nat × List Nat)} {n : Nat} (h : Steps old n) (hn : new.map (·.1) = (List.range' n new.length).map (60 * ·)) : Steps (old ++ new) (n + new.length) := by
  obtain ⟨first, h1, h2⟩ := h
  cases old with
  | nil => exact ⟨n, hn, fun _ => rfl⟩
  | cons r old =>
    have h2 := h2 (List.cons_ne_nil _ _)
    refine ⟨first, ?_, fun _ => ?_⟩
    · rw [List.map_append, h1, hn, List.length_append, ← List.map_append, h2, List.range'_append_1]
    · rw [h2, List.length_append, Nat.add_assoc]

/-- what a generator writes -/
def written (src : Source) (g : Gen) (c : Nat) (next : Option Nat) : List (Nat × List Nat) :=
  (if g.data = [] then [] else [(c, src.items.map fun i => value (normalize i) g.data)]) ++
    match next with
    | some n => (gap (if g.data = [] then c else c + 60) n).map fun t => (t, src.items.map fun _ => 0)
    | none => []

theorem flush_written {src : Source} {g : Gen} {c : Nat} {next : Option Nat} (hc : g.current = some c) (hn : next ≠ some c) :
    ∃ start, flush src g next = { g with db := some ⟨start, rowsOf g ++ written src g c next⟩, data := [], current := some (next.getD c) } := by
  refine ⟨(g.db.getD { start := c }).start, ?_⟩
  unfold flush written rowsOf
  rw [hc]
  dsimp only
  rw [if_neg hn]
  have e : (g.db.getD { start := c }).rows = (g.db.map (·.rows)).getD [] := by cases g.db <;> rfl
  by_cases hd : g.data = []
  · cases next with
    | none => simp only [if_pos hd, List.append_nil, ← e]
    | some n => simp only [if_pos hd, List.nil_append, ← e]
  · cases next with
    | none => simp only [if_neg hd, List.append_nil, ← e]
    | some n => simp only [if_neg hd, List.append_assoc, ← e]

/-- what is true of a generator in the middle of a run: `fed` are the lines it has got -/
structure Kept (src : Source) (fed : List Line) (ok : Nat → List Nat → Prop) (g : Gen) : Prop where
  grid : ∀ c, g.current = some c → c = 60 * minute c
  idle : g.current = none → rowsOf g = [] ∧ g.data = []
  steps : ∀ c, g.current = some c → Steps (rowsOf g) (minute c)
  rows : ∀ r ∈ rowsOf g, ok (minute r.1) r.2
  data : ∀ c, g.current = some c → ∀ k, value k g.data ≤ amount src fed (minute c) k

/-- rows with at most what the lines fed say are in order -/
def Allows (src : Source) (fed : List Line) (ok : Nat → List Nat → Prop) : Prop :=
  ∀ m counts, Below counts (src.items.map fun i => amount src fed m (normalize i)) → ok m counts

theorem written_ok {src : Source} {fed : List Line} {ok : Nat → List Nat → Prop} {g : Gen} (h : Kept src fed ok g) (ha : Allows src fed ok) {c : Nat} (hc : g.current = some c) (next : Option Nat) :
    ∀ r ∈ written src g c next, ok (minute r.1) r.2 := by
  intro r hr
  rcases List.mem_append.mp hr with hr | hr
  · split at hr
    · cases hr
    · rw [List.mem_singleton.mp hr]
      exact ha _ _ (below_map fun i => h.data c hc _)
  · cases next with
    | none => cases hr
    | some n =>
      obtain ⟨t, _, rfl⟩ := List.mem_map.mp hr
      exact ha _ _ (below_map fun i => Nat.zero_le _)

theorem written_none {src : Source} {g : Gen} {c : Nat} (hg : c = 60 * minute c) :
    (written src g c none).map (·.1) = (List.range' (minute c) (written src g c none).length).map (60 * ·) := by
  unfold written
  rw [List.append_nil]
  split
  · rfl
  · show [c] = [60 * minute c]
    rw [← hg]

theorem written_some {src : Source} {g : Gen} {c n : Nat} (hg : c = 60 * minute c) (hn : n = 60 * minute n) (hlt : c < n) :
    (written src g c (some n)).map (·.1) = (List.range' (minute c) (written src g c (some n)).length).map (60 * ·) ∧ minute c + (written src g c (some n)).length = minute n := by
  have hm : minute c < minute n := by omega
  unfold written
  generalize minute c = a at *
  generalize minute n = b at *
  subst hg hn
  by_cases hd : g.data = []
  · simp only [if_pos hd, List.nil_append]
    rw [gap_eq, List.length_map, List.length_map, List.length_range', List.map_map]
    exact ⟨List.map_congr_left (fun _ _ => rfl) |>.trans (List.map_id'' (fun _ => rfl) _), by omega⟩
  · simp only [if_neg hd]
    rw [show 60 * a + 60 = 60 * (a + 1) by omega, gap_eq, List.length_append, List.length_map, List.length_map, List.length_range', List.map_append, List.map_map]
    refine ⟨?_, by show a + (1 + _) = b; omega⟩
    show 60 * a :: _ = (List.range' a (1 + _)).map _
    rw [Nat.add_comm 1, List.range'_succ, List.map_cons]
    exact congrArg (60 * a :: ·) (List.map_congr_left (fun _ _ => rfl) |>.trans (List.map_id'' (fun _ => rfl) _))

theorem Kept.flush {src : Source} {fed : List Line} {ok : Nat → List Nat → Prop} {g : Gen} (h : Kept src fed ok g) (ha : Allows src fed ok) {c n : Nat} (hc : g.current = some c)
    (hn : n = 60 * minute n) (hle : c ≤ n) : Kept src fed ok (flush src g (some n)) ∧ (flush src g (some n)).current = some n := by
  by_cases he : n = c
  · subst he
    have : LogAnalyzer.flush src g (some n) = g := by unfold LogAnalyzer.flush; rw [hc]; dsimp only; rw [if_pos rfl]
    rw [this]
    exact ⟨h, hc⟩
  · obtain ⟨start, e⟩ := flush_written (src := src) (g := g) (next := some n) hc (fun h => he (Option.some.inj h))
    rw [e]
    obtain ⟨w1, w2⟩ := written_some (src := src) (g := g) (h.grid c hc) hn (Nat.lt_of_le_of_ne hle fun h => he h.symm)
    refine ⟨⟨fun c' hc' => ?_, (fun hc' => nomatch hc'), fun c' hc' => ?_, fun r hr => ?_, fun c' hc' k => Nat.zero_le _⟩, rfl⟩
    · cases hc'
      exact hn
    · cases hc'
      show Steps (rowsOf g ++ written src g c (some n)) (minute n)
      rw [← w2]
      exact (h.steps c hc).append w1
    · rcases List.mem_append.mp (show r ∈ rowsOf g ++ written src g c (some n) from hr) with hr | hr
      · exact h.rows r hr
      · exact written_ok h ha hc _ r hr

theorem Kept.more {src : Source} {fed : List Line} {ok : Nat → List Nat → Prop} {g : Gen} (h : Kept src fed ok g) (l : Line) : Kept src (fed ++ [l]) ok g :=
  ⟨h.grid, h.idle, h.steps, h.rows, fun c hc k => Nat.le_trans (h.data c hc k) (amount_mono src (List.sublist_append_left _ _) _ k)⟩

theorem grid_normalize (t : Nat) : normalizeTime t = 60 * minute (normalizeTime t) := by
  rw [normalizeTime_eq]
  unfold minute
  omega

theorem minute_normalize (t : Nat) : minute (normalizeTime t) = minute t := by
  rw [normalizeTime_eq]
  unfold minute
  omega

theorem Kept.feed {src : Source} {fed : List Line} {ok : Nat → List Nat → Prop} {g : Gen} (h : Kept src fed ok g) (ha : Allows src fed ok) (now : Nat) (l : Line) :
    Kept src (fed ++ [l]) ok (feed src now g l) := by
  unfold LogAnalyzer.feed
  dsimp only
  split
  · exact h.more l
  · split
    · exact h.more l
    · split
      · exact h.more l
      · -- the current minute is known from here on
        have h' : Kept src fed ok { g with current := some (g.current.getD (normalizeTime l.1)) } := by
          cases hc : g.current with
          | some c =>
            have : { g with current := some c } = g := by cases g; cases hc; rfl
            show Kept src fed ok { g with current := some c }
            rw [this]
            exact h
          | none =>
            refine ⟨fun c hc' => ?_, (fun hc' => nomatch hc'), fun c hc' => ?_, h.rows, fun c hc' k => ?_⟩
            · cases hc'; exact grid_normalize _
            · show Steps (rowsOf g) _
              rw [(h.idle hc).1]
              exact Steps.nil _
            · show value k g.data ≤ _
              rw [(h.idle hc).2]
              exact Nat.zero_le _
        split
        · rename_i hlt
          refine ⟨h'.grid, (fun hc' => nomatch hc'), h'.steps, h'.rows, fun c hc' k => Nat.zero_le _⟩
        · rename_i hlt
          obtain ⟨k1, k2⟩ := h'.flush ha (n := normalizeTime l.1) rfl (grid_normalize _) (Nat.le_of_not_lt hlt)
          refine ⟨k1.grid, (fun hc' => by rw [show _ = _ from k2] at hc'; cases hc'), k1.steps, k1.rows, fun c hc' k => ?_⟩
          have hcn : c = normalizeTime l.1 := by
            have : (LogAnalyzer.flush src { g with current := some (g.current.getD (normalizeTime l.1)) } (some (normalizeTime l.1))).current = some c := hc'
            rw [k2] at this
            exact (Option.some.inj this).symm
          subst hcn
          show value k (updateData _ _) ≤ _
          rw [value_update, amount_same (minute_normalize _).symm]
          exact combine_mono k (List.Sublist.refl _) (k1.data _ k2 k)

/-- the rows of a database at rest -/
def Settled (ok : Nat → List Nat → Prop) (db : Option Db) : Prop :=
  (∃ n, Steps ((db.map (·.rows)).getD []) n) ∧ ∀ r ∈ (db.map (·.rows)).getD [], ok (minute r.1) r.2

theorem Kept.prepare {src : Source} {ok : Nat → List Nat → Prop} {db : Option Db} (h : Settled ok db) (fed : List Line) : Kept src fed ok (prepare db) := by
  obtain ⟨⟨n, first, h1, h2⟩, h3⟩ := h
  cases db with
  | none => exact ⟨(fun _ hc => nomatch hc), (fun _ => ⟨rfl, rfl⟩), (fun _ hc => nomatch hc), h3, (fun _ hc => nomatch hc)⟩
  | some d =>
    have h1 : d.rows.map (·.1) = (List.range' first d.rows.length).map (60 * ·) := h1
    refine ⟨fun c hc => ?_, (fun hc => nomatch hc), fun c hc => ?_, h3, fun c hc k => Nat.zero_le _⟩
    · cases hc
      have := grid_normalize d.last
      unfold minute at *
      omega
    · cases hc
      show Steps d.rows _
      by_cases he : d.rows = []
      · rw [he]
        exact Steps.nil _
      · refine ⟨first, h1, fun _ => ?_⟩
        have hl : 0 < d.rows.length := List.length_pos_iff.mpr he
        have hlast : d.last = 60 * (first + (d.rows.length - 1)) := by
          have e := congrArg List.getLast? h1
          rw [List.getLast?_map, List.getLast?_map, List.getLast?_range'] at e
          unfold Db.last
          cases hg : d.rows.getLast? with
          | none => exact absurd (List.getLast?_eq_none_iff.mp hg) he
          | some r =>
            rw [hg, if_neg (show ¬ d.rows.length = 0 by omega)] at e
            have e : r.1 = 60 * (first + d.rows.length - 1) := Option.some.inj e
            show r.1 = _
            omega
        rw [hlast]
        unfold normalizeTime minute
        omega

theorem Kept.settled {src : Source} {fed : List Line} {ok : Nat → List Nat → Prop} {g : Gen} (h : Kept src fed ok g) (ha : Allows src fed ok) : Settled ok (LogAnalyzer.flush src g none).db := by
  cases hc : g.current with
  | none =>
    have : LogAnalyzer.flush src g none = g := by unfold LogAnalyzer.flush; rw [hc]
    rw [this]
    have hi := (h.idle hc).1
    unfold rowsOf at hi
    unfold Settled
    rw [hi]
    exact ⟨⟨0, Steps.nil 0⟩, (fun _ hr => nomatch hr)⟩
  | some c =>
    obtain ⟨start, e⟩ := flush_written (src := src) (g := g) (next := none) hc (fun h => nomatch h)
    rw [e]
    refine ⟨⟨_, (h.steps c hc).append (written_none (h.grid c hc))⟩, fun r hr => ?_⟩
    rcases List.mem_append.mp (show r ∈ rowsOf g ++ written src g c none from hr) with hr | hr
    · exact h.rows r hr
    · exact written_ok h ha hc _ r hr

/-- a row has at most what one of the logs says -/
def okOf (src : Source) (logs : List (List Line)) (m : Nat) (counts : List Nat) : Prop := ∃ log ∈ logs, Below counts (rowOf src (during log m))

theorem allows_of {src : Source} {fed log : List Line} {logs : List (List Line)} (h : fed.Sublist log) (hl : log ∈ logs) : Allows src fed (okOf src logs) :=
  fun m _ hb => ⟨log, hl, Below.trans hb (below_map fun i => amount_mono src h m (normalize i))⟩

theorem Settled.more {src : Source} {logs : List (List Line)} {db : Option Db} (h : Settled (okOf src logs) db) (log : List Line) : Settled (okOf src (logs ++ [log])) db :=
  ⟨h.1, fun r hr => by obtain ⟨l, hl, hb⟩ := h.2 r hr; exact ⟨l, List.mem_append_left _ hl, hb⟩⟩

theorem Kept.fold {src : Source} {log : List Line} {logs : List (List Line)} (hl : log ∈ logs) (now : Nat) : ∀ (ls fed : List Line) (g : Gen), (fed ++ ls).Sublist log →
    Kept src fed (okOf src logs) g → Kept src (fed ++ ls) (okOf src logs) (ls.foldl (LogAnalyzer.feed src now) g) := by
  intro ls
  induction ls with
  | nil =>
    intro fed g _ h
    rw [List.append_nil]
    exact h
  | cons l ls ih =>
    intro fed g hs h
    rw [show fed ++ l :: ls = fed ++ [l] ++ ls by simp] at hs ⊢
    exact ih _ _ hs (h.feed (allows_of ((List.sublist_append_left _ _).trans ((List.sublist_append_left _ _).trans hs)) hl) now l)

theorem runOne_settled {src : Source} {log lines : List Line} {logs : List (List Line)} {db : Option Db} (hs : lines.Sublist log) (now : Nat) (h : Settled (okOf src logs) db) :
    Settled (okOf src (logs ++ [log])) (runOne src now db lines) := by
  have hl : log ∈ logs ++ [log] := List.mem_append_right _ (List.mem_singleton.mpr rfl)
  have hk := Kept.fold (src := src) hl now lines [] (prepare db) hs (Kept.prepare (h.more log) [])
  exact hk.settled (allows_of hs hl)

theorem reports_kept {keys : Bytes → Bytes → List Bytes} {log : List Line} {logs : List (List Line)} (hl : log ∈ logs) (now : Nat) (disk : Disk)
    (hb : ∀ n, Settled (okOf (milterReport keys n) logs) (disk.milterReport n)) : ∀ (ls fed : List Line) (gens : List (Bytes × Gen × Gen)), (fed ++ ls).Sublist log →
    (∀ g ∈ gens, Kept (milterReport keys g.1) fed (okOf (milterReport keys g.1) logs) g.2.2) →
    ∀ g ∈ ls.foldl (feedMilters keys now disk) gens, Kept (milterReport keys g.1) (fed ++ ls) (okOf (milterReport keys g.1) logs) g.2.2 := by
  intro ls
  induction ls with
  | nil =>
    intro fed gens _ h
    rw [List.append_nil]
    exact h
  | cons l ls ih =>
    intro fed gens hs h
    rw [show fed ++ l :: ls = fed ++ [l] ++ ls by simp] at hs ⊢
    refine ih _ _ hs ?_
    have hf : fed.Sublist log := (List.sublist_append_left _ _).trans ((List.sublist_append_left _ _).trans hs)
    have key : ∀ gens' : List (Bytes × Gen × Gen), (∀ g ∈ gens', Kept (milterReport keys g.1) fed (okOf (milterReport keys g.1) logs) g.2.2) →
        ∀ g ∈ gens'.map (fun g : Bytes × Gen × Gen => (g.1, LogAnalyzer.feed (milterStatus g.1) now g.2.1 l, LogAnalyzer.feed (milterReport keys g.1) now g.2.2 l)),
          Kept (milterReport keys g.1) (fed ++ [l]) (okOf (milterReport keys g.1) logs) g.2.2 := by
      intro gens' h' g hg
      obtain ⟨g', hg', rfl⟩ := List.mem_map.mp hg
      exact (h' g' hg').feed (allows_of hf hl) now l
    unfold feedMilters
    dsimp only
    cases l.2 with
    | milterEnd name t =>
      dsimp only
      split
      · exact key gens h
      · refine key _ fun g hg => ?_
        rcases List.mem_append.mp hg with hg | hg
        · exact h g hg
        · rw [List.mem_singleton.mp hg]
          exact Kept.prepare (hb name) fed
    | _ => exact key gens h

/-- all databases -/
structure Sound (keys : Bytes → Bytes → List Bytes) (logs : List (List Line)) (d : Disk) : Prop where
  sessions : Settled (okOf sessions logs) d.sessions
  status : Settled (okOf LogAnalyzer.status logs) d.status
  report : Settled (okOf (report keys) logs) d.report
  milters : ∀ n, Settled (okOf (milterStatus n) logs) (d.milterStatus n)
  reports : ∀ n, Settled (okOf (milterReport keys n) logs) (d.milterReport n)

theorem Sound.run {keys : Bytes → Bytes → List Bytes} {logs : List (List Line)} {d : Disk} (h : Sound keys logs d) (now : Nat) (log : List Line) : Sound keys (logs ++ [log]) (run keys now d log) := by
  have hs : (log.filter fun l => ! decide (l.1 < lastUpdate d)).Sublist log := List.filter_sublist
  refine ⟨runOne_settled hs now h.sessions, runOne_settled hs now h.status, runOne_settled hs now h.report, fun n => ?_, fun n => ?_⟩
  · rw [run_milter]
    exact runOne_settled hs now (h.milters n)
  · have hl : log ∈ logs ++ [log] := List.mem_append_right _ (List.mem_singleton.mpr rfl)
    have hg := reports_kept (keys := keys) hl now d (fun n => (h.reports n).more log) (log.filter fun l => ! decide (l.1 < lastUpdate d)) [] [] hs (fun _ h => nomatch h)
    show Settled _ (match genOf n _ with | some g => _ | none => _)
    cases hf : genOf n ((log.filter fun l => ! decide (l.1 < lastUpdate d)).foldl (feedMilters keys now d) []) with
    | none => exact (h.reports n).more log
    | some g =>
      have hk := hg g (List.mem_of_find?_eq_some hf)
      rw [genOf_name hf] at hk
      exact hk.settled (allows_of hs hl)

theorem milterReport_row (keys : Bytes → Bytes → List Bytes) (n : Bytes) (said : List Stat) : rowOf (milterReport keys n) said = milterReportRow keys n said := by
  have hfind : ∀ s, (milterReport keys n).find s = (foundBy keys n s).map fun k => { key := k } := by
    intro s
    cases s with
    | headerAdd m name value =>
      show (if name = [] ∨ value = [] ∨ n ≠ m then [] else _) = (if (m == n) = true then found keys (.headerAdd m name value) else []).map _
      by_cases hm : m = n
      · subst hm
        rw [if_pos (show (m == m) = true by simp)]
        have := report_find keys (.headerAdd m name value)
        rw [← this]
        show _ = if name = [] ∨ value = [] then [] else _
        simp only [ne_eq, not_true_eq_false, or_false]
      · rw [if_neg (show ¬ (m == n) = true by simpa using hm), if_pos (.inr (.inr fun h => hm h.symm))]
        rfl
    | _ => rfl
  refine List.map_congr_left fun i _ => ?_
  rw [combine_count _ (plain_data (fun s d hd => ?_) said), Nat.zero_add]
  · induction said with
    | nil => rfl
    | cons s said ih =>
      rw [List.flatMap_cons, List.flatMap_cons, List.countP_append, List.countP_append, ih, hfind, List.countP_map]
      rfl
  · rw [hfind] at hd
    obtain ⟨k, _, rfl⟩ := List.mem_map.mp hd
    exact ⟨rfl, rfl⟩

theorem Settled.never {src : Source} {logs : List (List Line)} {db : Option Db} {row : List Stat → List Nat} (h : Settled (okOf src logs) db) (hr : ∀ said, rowOf src said = row said) :
    Never row (Spec.LogAnalyzer.rows db) logs := by
  obtain ⟨⟨n, first, h1, _⟩, h3⟩ := h
  refine ⟨fun rs hrs => ?_, fun rs hrs r hm => ?_⟩
  · have e : (db.map (·.rows)).getD [] = rs := by rw [show db.map (·.rows) = some rs from hrs]; rfl
    rw [e] at h1
    exact ⟨first, h1⟩
  · have e : (db.map (·.rows)).getD [] = rs := by rw [show db.map (·.rows) = some rs from hrs]; rfl
    rw [e] at h3
    obtain ⟨log, hl, hb⟩ := h3 r hm
    exact ⟨log, hl, hr _ ▸ hb⟩

/-- **C149**, what is true whatever the logs are like, in whatever order their lines, whatever each run is given and whenever it is made: each database has one row for each of some minutes one after the other, so that
rrdtool never refuses an update, and no row has more than what one of the logs says of its minute: no line is counted in another minute, and none twice. -/
theorem C149_never_more (keys : Bytes → Bytes → List Bytes) (rs : List (Nat × List Line)) : NeverMore keys (runs keys {} rs) (rs.map (·.2)) := by
  have key : ∀ (rs : List (Nat × List Line)) (logs : List (List Line)) (d : Disk), Sound keys logs d → Sound keys (logs ++ rs.map (·.2)) (runs keys d rs) := by
    intro rs
    induction rs with
    | nil =>
      intro logs d h
      rw [List.map_nil, List.append_nil]
      exact h
    | cons r rs ih =>
      intro logs d h
      rw [List.map_cons, show logs ++ r.2 :: rs.map (·.2) = logs ++ [r.2] ++ rs.map (·.2) by simp]
      exact ih _ _ (h.run r.1 r.2)
  have h0 : ∀ src, Settled (okOf src []) none := fun src => ⟨⟨0, Steps.nil 0⟩, (fun _ hr => nomatch hr)⟩
  have h := key rs [] {} ⟨h0 _, h0 _, h0 _, fun _ => h0 _, fun _ => h0 _⟩
  rw [List.nil_append] at h
  exact ⟨h.sessions.never sessions_row, h.status.never status_row, h.report.never (report_row keys), fun n => (h.milters n).never (milter_row n), fun n => (h.reports n).never (milterReport_row keys n)⟩

/-- a log out of order, given twice, the second time with more of it: the row of minute 10 has two of its three sessions -/
example : rows (runs virus {} [(700, [(600, .sessionEnd (ascii "accept")), (590, .sessionEnd (ascii "accept"))]),
      (1200, [(600, .sessionEnd (ascii "accept")), (590, .sessionEnd (ascii "accept")), (601, .sessionEnd (ascii "accept")), (602, .sessionEnd (ascii "accept")), (661, .sessionEnd (ascii "reject"))])]).status =
    some [(600, [0, 2, 0, 0, 0, 0, 0, 0]), (660, [0, 0, 1, 0, 0, 0, 0, 0])] := by
  decide +kernel

end Verif.Props.LogAnalyzer
