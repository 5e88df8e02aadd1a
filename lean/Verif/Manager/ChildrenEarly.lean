import Verif.Manager.ChildrenIntake
import Verif.Spec.Early
/-
Milters that leave a message before its end.
-/
namespace Verif.Children
open Verif
open Verif.Server (St)
open Verif.Spec.Children
open Verif.Spec.Early

def Part.state : Part → St
  | .header _ _ => .header
  | .endOfHeader => .endOfHeader
  | .body _ => .body

def asHeaders (l : List (Bytes × Bytes)) : List Header := l.map fun h => ⟨h.1, some h.2⟩

def arrivedQueue (a : Arrived) : List St :=
  (if a.headers = [] then [] else [.header]) ++ (if a.ended then [.endOfHeader] else []) ++ (if a.chunks = [] then [] else [.body])

/-- parts arrive in order, no piece of the body is empty -/
structure Orderly (a : Arrived) : Prop where
  ended : a.chunks ≠ [] → a.ended = true
  pieces : ∀ c ∈ a.chunks, c ≠ []

/-- the milters to come take part in the message -/
def Crew (s : Sys) (rest : List Nat) : Prop := ∀ j ∈ rest, j < s.count ∧ attending (s.kids j).ctx

/-- milter `i` reads the message, `rest` are to follow -/
structure Reading (s : Sys) (i : Nat) (rest : List Nat) (a : Arrived) : Prop where
  taking : Taking s i rest (asHeaders a.headers) a.chunks.flatten (arrivedQueue a)
  crew : Crew s rest
  orderly : Orderly a

/-- milter `i` has got the latest part or, while it gets everything again, a part of it; it has not answered -/
structure Holding (s : Sys) (i : Nat) (st : St) (rest : List Nat) (a : Arrived) : Prop where
  giving : Giving s i st rest
  message : attending (s.kids i).ctx
  known : i < s.count
  crew : Crew s rest
  headers : s.headers.getD [] = asHeaders a.headers
  queue : s.commandQueue = arrivedQueue a
  stored : stored s = a.chunks.flatten
  fresh : St.body ∈ s.commandQueue ∨ s.replacedForEach = false
  original : s.originalHeaders = none
  early : s.state = .header ∨ s.state = .endOfHeader ∨ s.state = .body
  got : st ∈ s.commandQueue
  orderly : Orderly a

theorem Orderly.add {a : Arrived} {p : Part} (h : Orderly a) (hp : a.allows p) : Orderly (a.add p) := by
  cases p with
  | header n v => exact ⟨h.ended, h.pieces⟩
  | endOfHeader => exact ⟨fun _ => rfl, h.pieces⟩
  | body b =>
    refine ⟨fun _ => hp.1, fun c hc => ?_⟩
    rcases List.mem_append.mp hc with hc | hc
    · exact h.pieces c hc
    · rw [List.mem_singleton.mp hc]; exact hp.2.1

theorem enter {n i : Nat} {rest : List Nat} {s : Sys} {a : Arrived} {p : Part} (h : Reading s i rest a) (hp : a.allows p) :
    ∃ v, Entry n i rest s v p.event (p.command (converts s i)) (Part.state p) (asHeaders (a.add p).headers) (a.add p).chunks.flatten
      (arrivedQueue (a.add p)) := by
  have ht := h.taking
  cases p with
  | header name value =>
    have he : a.ended = false := hp
    have hc : a.chunks = [] := Classical.byContradiction fun hn => by have := h.orderly.ended hn; rw [he] at this; cases this
    obtain ⟨v, hv⟩ := enter_header (n := n) name value ht (by
      unfold arrivedQueue
      rw [he, hc]
      by_cases hh : a.headers = [] <;> simp [hh])
    refine ⟨v, ?_⟩
    have e1 : asHeaders (a.add (.header name value)).headers = asHeaders a.headers ++ [⟨name, some value⟩] := by
      simp [Arrived.add, asHeaders]
    have e2 : arrivedQueue (a.add (.header name value)) = [.header] := by
      simp [Arrived.add, arrivedQueue, he, hc]
    rw [e1, e2]
    exact hv
  | endOfHeader =>
    have he : a.ended = false := hp
    have hc : a.chunks = [] := Classical.byContradiction fun hn => by have := h.orderly.ended hn; rw [he] at this; cases this
    obtain ⟨v, hv⟩ := enter_endOfHeader (n := n) ht (by
      unfold arrivedQueue
      rw [he, hc]
      by_cases hh : a.headers = [] <;> simp [hh])
    refine ⟨v, ?_⟩
    have e2 : arrivedQueue (a.add .endOfHeader) = arrivedQueue a ++ [.endOfHeader] := by
      simp [Arrived.add, arrivedQueue, he, hc]
    rw [e2]
    exact hv
  | body b =>
    obtain ⟨he, hb, hl⟩ := hp
    obtain ⟨q', hq'⟩ : ∃ q', q' = (if a.headers = [] then [] else [St.header]) ++ [.endOfHeader] := ⟨_, rfl⟩
    obtain ⟨v, hv⟩ := enter_body (n := n) b hl ht (q' := q')
      (by rw [hq']; by_cases hh : a.headers = [] <;> simp [hh])
      (by rw [hq']; unfold arrivedQueue; rw [he]; by_cases hh : a.chunks = [] <;> simp [hh])
    refine ⟨v, ?_⟩
    have e1 : (a.add (.body b)).chunks.flatten = a.chunks.flatten ++ b := by simp [Arrived.add]
    have e2 : arrivedQueue (a.add (.body b)) = q' ++ [.body] := by
      rw [hq']
      simp [Arrived.add, arrivedQueue, he]
    rw [e1, e2]
    exact hv

theorem Crew.still {s s' : Sys} {i : Nat} {rest : List Nat} (h : Crew s rest) (hs : Still i s s') (hi : i ∉ rest) : Crew s' rest := by
  intro j hj
  have e : s'.count = s.count := by
    have := hs.roles.apart
    injection this with _ this
    injection this
  rw [e, hs.others j (by rintro rfl; exact hi hj)]
  exact h j hj

theorem Taking.count_eq {s s' : Sys} (h : SameRoles s s') : s'.count = s.count := by
  have := h.apart
  injection this with _ this
  injection this

/-- milter `i` says continue to a part -/
theorem read_on {n i : Nat} {rest : List Nat} {s : Sys} {a : Arrived} {p : Part} (h : Reading s i rest a) (hp : a.allows p) :
    ∃ s', Taken (n + 1) s p.event ∧ run (n + 1) s (quietly [p.event, .flushed i, .reply i .cont]) = some s' ∧
      Reading s' i rest (a.add p) ∧ Still i s s' ∧
      commands s'.out = commands s.out ++ [(i, p.command (converts s i))] ∧ told s'.out = told s.out ++ [.reply .cont] := by
  obtain ⟨v, hv⟩ := enter (n := n) h hp
  obtain ⟨s', tk, e, t, st, c, o⟩ := hv.continues h.taking.oracle
  exact ⟨s', tk, e, ⟨t, h.crew.still st (List.nodup_cons.mp h.taking.nodup).1, h.orderly.add hp⟩, st, c, o⟩

theorem arrived_upTo {a : Arrived} (h : Orderly a) {p : Part} (hp : a.allows p) :
    ∃ hh hb, arrivedQueue (a.add p) = queueUpTo hh hb (Part.state p) := by
  refine ⟨decide (a.headers ≠ []), true, ?_⟩
  cases p with
  | header name value =>
    have he : a.ended = false := hp
    have hc : a.chunks = [] := Classical.byContradiction fun hn => by have := h.ended hn; rw [he] at this; cases this
    simp [Arrived.add, arrivedQueue, he, hc, queueUpTo, Part.state]
  | endOfHeader =>
    have he : a.ended = false := hp
    have hc : a.chunks = [] := Classical.byContradiction fun hn => by have := h.ended hn; rw [he] at this; cases this
    by_cases hh : a.headers = [] <;> simp [Arrived.add, arrivedQueue, he, hc, queueUpTo, Part.state, hh]
  | body b =>
    obtain ⟨he, hb, hl⟩ := hp
    by_cases hh : a.headers = [] <;> simp [Arrived.add, arrivedQueue, he, queueUpTo, Part.state, hh]

/-- milter `i` has got a part -/
theorem read_part {n i : Nat} {rest : List Nat} {s : Sys} {a : Arrived} {p : Part} (h : Reading s i rest a) (hp : a.allows p) :
    ∃ s', Taken (n + 1) s p.event ∧ run (n + 1) s (quietly [p.event, .flushed i]) = some s' ∧
      Holding s' i (Part.state p) rest (a.add p) ∧ s'.state = Part.state p ∧ Still i s s' ∧
      commands s'.out = commands s.out ++ [(i, p.command (converts s i))] ∧ told s'.out = told s.out := by
  obtain ⟨v, hv⟩ := enter (n := n) h hp
  have tv := hv.taking
  have hi := (List.nodup_cons.mp h.taking.nodup).1
  obtain ⟨c, tk, e, ha, ho, hm⟩ := pass_on (n := n) (s := s) (v := v) h.taking.oracle tv.oracle tv.linked tv.ready tv.message hv.content
    hv.state hv.early (hv.steps _)
  obtain ⟨w, hw⟩ : ∃ w, w = passed v i c (Part.state p) (p.command (converts s i)) := ⟨_, rfl⟩
  rw [← hw] at e
  have kw : w.kids = (withCtx v i c).kids := by rw [hw]; rfl
  have st : Still i v w := by
    have r : SameRoles v w := by
      rw [hw]
      exact (sameRoles_ctx (s := v) (i := i) (c := c) ho).trans ⟨rfl, fun _ => rfl, fun _ => rfl, rfl⟩
    refine ⟨r, by rw [hw]; rfl, by rw [hw]; rfl, by rw [hw]; rfl, by rw [hw]; rfl, by rw [hw]; rfl, by rw [hw]; rfl, fun k hk => ?_, by rw [hw]; rfl⟩
    rw [kw]
    exact withCtx_other _ _ _ _ hk
  have hord := h.orderly.add hp
  have sw : w.state = Part.state p := by rw [hw]; exact hv.latest.state
  have early : Part.state p = .header ∨ Part.state p = .endOfHeader ∨ Part.state p = .body := by
    cases p <;> simp [Part.state]
  have hcon : inContent (Part.state p) := by cases p <;> simp [Part.state, inContent]
  have qw : w.commandQueue = arrivedQueue (a.add p) := by rw [hw]; exact tv.queue
  refine ⟨w, tk, e, ⟨⟨by rw [hw]; exact tv.oracle, ?_, ?_, hcon, by rw [sw]; exact hcon, by rw [hw]; exact hv.waiting, tv.nodup,
    by rw [hw]; exact tv.chunkPos, by rw [hw]; exact tv.chunkMax, by rw [hw]; exact tv.option, ?_, ?_, ?_,
    by rw [hw]; exact tv.emitted, ?_⟩, ?_, by rw [hw]; exact tv.known, ?_, by rw [hw]; exact tv.headers, qw, by rw [hw]; exact tv.stored,
    Or.inr (by rw [hw]; exact tv.fresh), by rw [hw]; exact tv.original, by rw [sw]; exact early, ?_, hord⟩, sw, hv.still.trans st, ?_, ?_⟩
  · rw [kw, withCtx_kid]; exact tv.linked
  · rw [kw, withCtx_ctx]; exact ha
  · intro hin
    cases hh : w.headers with
    | some hs => exact ⟨hs, rfl⟩
    | none =>
      exfalso
      have : w.headers.getD [] = asHeaders (a.add p).headers := by rw [hw]; exact tv.headers
      rw [hh] at this
      rw [qw] at hin
      have hne : (a.add p).headers ≠ [] := by
        intro hn
        unfold arrivedQueue at hin
        rw [if_pos hn] at hin
        revert hin
        cases (a.add p).ended <;> by_cases hc : (a.add p).chunks = [] <;> simp [hc]
      unfold asHeaders at this
      exact hne (by simpa using this.symm)
  · obtain ⟨hh, hb, hq⟩ := arrived_upTo h.orderly hp
    exact ⟨hh, hb, by rw [qw, sw]; exact hq⟩
  · intro _ f hf
    have := tv.tail f (by rw [hw] at hf; exact hf)
    exact ⟨by rw [hw]; exact this.1, Nat.le_of_eq this.2, fun _ => this.2⟩
  · intro j hj
    have hne : j ≠ i := by rintro rfl; exact hi hj
    rw [kw, withCtx_other _ _ _ _ hne]
    exact tv.others j hj
  · rw [kw, withCtx_ctx]; exact hm
  · exact (h.crew.still hv.still hi).still st hi
  · rw [qw]
    have he : ∀ b, p = .body b → a.ended = true := fun b hb => by subst hb; exact hp.1
    cases p <;> simp [Part.state, arrivedQueue, Arrived.add]
  · rw [hw]
    show commands (v.out ++ _) = _
    rw [hv.out, commands_append]
    rfl
  · rw [hw]
    show told (v.out ++ _) = _
    rw [hv.out, told_append]
    simp [told]

/-- what has arrived, as it is sent to the next milter -/
theorem again_plan {s : Sys} {i j : Nat} {st : St} {rest : List Nat} {a : Arrived} (h : Holding s i st rest a) :
    plan s j = a.again (pieces s.chunkSize) (converts s j) := by
  have hq := h.queue
  have e1 : St.header ∈ s.commandQueue ↔ a.headers ≠ [] := by
    rw [hq]; unfold arrivedQueue
    by_cases h1 : a.headers = [] <;> by_cases h2 : a.chunks = [] <;> cases a.ended <;> simp [h1, h2]
  have e2 : St.endOfHeader ∈ s.commandQueue ↔ a.ended = true := by
    rw [hq]; unfold arrivedQueue
    by_cases h1 : a.headers = [] <;> by_cases h2 : a.chunks = [] <;> cases a.ended <;> simp [h1, h2]
  have e3 : St.body ∈ s.commandQueue ↔ a.chunks ≠ [] := by
    rw [hq]; unfold arrivedQueue
    by_cases h1 : a.headers = [] <;> by_cases h2 : a.chunks = [] <;> cases a.ended <;> simp [h1, h2]
  have e4 : St.endOfMessage ∉ s.commandQueue := by
    rw [hq]; unfold arrivedQueue
    by_cases h1 : a.headers = [] <;> by_cases h2 : a.chunks = [] <;> cases a.ended <;> simp [h1, h2]
  have hm : (asHeaders a.headers).map (headerCmd (converts s j)) =
      a.headers.map (fun h => .header h.1 (unspaced (converts s j) h.2)) := by
    unfold asHeaders
    rw [List.map_map]
    refine List.map_congr_left fun x _ => ?_
    show Cmd.header x.1 (sentValue (converts s j) (some x.2)) = _
    rw [unspaced_eq]
    rfl
  unfold plan Arrived.again afterHeaders bodyCmds endCmds
  rw [h.headers, hm, h.stored, if_neg e4]
  congr 1
  · by_cases hh : a.headers = []
    · rw [if_neg (by rw [e1]; simp [hh]), hh]; rfl
    · rw [if_pos (e1.mpr hh)]
  · by_cases he : a.ended = true
    · rw [if_pos (e2.mpr he), if_pos he]
      by_cases hc : a.chunks = []
      · rw [if_neg (by rw [e3]; simp [hc]), hc]
        simp [pieces_nil]
      · rw [if_pos (e3.mpr hc)]
        simp
    · rw [if_neg (by rw [e2]; exact he), if_neg he]

/-- what does not change while milters leave a message -/
structure Moved (s s' : Sys) : Prop where
  roles : SameRoles s s'
  chunkSize : s'.chunkSize = s.chunkSize
  changeFrom : s'.changeFrom = s.changeFrom
  quarantine : s'.quarantine = s.quarantine
  replaced : s'.replaced = s.replaced
  status : s'.statuses .endOfMessage = s.statuses .endOfMessage
  code : s'.code = s.code
  refused : refused s' = refused s

theorem Moved.refl (s : Sys) : Moved s s := ⟨.refl s, rfl, rfl, rfl, rfl, rfl, rfl, rfl⟩

theorem Moved.trans {a b c : Sys} (h1 : Moved a b) (h2 : Moved b c) : Moved a c :=
  ⟨h1.1.trans h2.1, h2.2.trans h1.2, h2.3.trans h1.3, h2.4.trans h1.4, h2.5.trans h1.5, h2.6.trans h1.6, h2.7.trans h1.7, h2.8.trans h1.8⟩

theorem Still.moved {i : Nat} {s s' : Sys} (h : Still i s s') : Moved s s' := ⟨h.1, h.2, h.3, h.4, h.5, h.6, h.7, h.9⟩

theorem flatten_nonempty {l : List Bytes} (h : ∀ c ∈ l, c ≠ []) (hl : l ≠ []) : l.flatten ≠ [] := by
  cases l with
  | nil => exact absurd rfl hl
  | cons x l =>
    have := h x (by simp)
    simp [this]

/-- milter `i` accepts, the next one gets what has arrived or some of it -/
theorem accept_leaves {n i j : Nat} {rest : List Nat} {s : Sys} {st : St} {a : Arrived} (h : Holding s i st (j :: rest) a)
    {cs ds : List Cmd} (hp : a.again (pieces s.chunkSize) (converts s j) = cs ++ ds) (hne : cs ≠ []) :
    ∃ s' st', run (n + 2) s (quietly (.reply i .accept :: receives j (cs.length - 1))) = some s' ∧ Holding s' j st' rest a ∧
      Got s' j st' ∧ remaining s' j st' = ds ∧ Moved s s' ∧ commands s'.out = commands s.out ++ cs.map (j, ·) ∧
      told s'.out = told s.out ∧ (∀ k, k ≠ i → k ≠ j → s'.kids k = s.kids k) ∧
      Ready (s'.kids i).ctx ∧ (s'.kids i).ctx.processingMessage = false := by
  have g := h.giving
  have e1 : St.header ∈ s.commandQueue → s.headers ≠ some [] := by
    intro hin hn
    have h1 := h.headers
    rw [hn] at h1
    have h2 : a.headers = [] := by
      unfold asHeaders at h1
      simpa using h1.symm
    rw [h.queue] at hin
    unfold arrivedQueue at hin
    rw [if_pos h2] at hin
    revert hin
    cases a.ended <;> by_cases hc : a.chunks = [] <;> simp [hc]
  have e2 : St.body ∈ s.commandQueue → Children.stored s ≠ [] := by
    intro hin
    rw [h.stored]
    refine flatten_nonempty h.orderly.pieces fun hc => ?_
    rw [h.queue] at hin
    unfold arrivedQueue at hin
    rw [if_pos hc] at hin
    revert hin
    by_cases hh : a.headers = [] <;> cases a.ended <;> simp [hh]
  obtain ⟨c, cs', s1, p1, x1, t1, r1, m1, d1, w1, em1, ⟨k1, rd1⟩, dr1, o1, co1, st1, ch1, eo1, q1, sr1, cn1, ss1, hd1, at1, ⟨ng1, pm1⟩, rf1⟩ :=
    handover' (n := n) true g (Or.inl rfl) h.fresh e1 e2
  rw [again_plan h, hp] at p1
  obtain ⟨c0, cs0, rfl⟩ : ∃ c0 cs0, cs = c0 :: cs0 := by
    cases cs with
    | nil => exact absurd rfl hne
    | cons c0 cs0 => exact ⟨_, _, rfl⟩
  simp only [List.cons_append, List.cons.injEq] at p1
  obtain ⟨rfl, rfl⟩ := p1
  obtain ⟨s2, st2, x2, t2, i2, r2, m2, d2, c2, sr2, k2, at2⟩ := replay_part (n := n + 1) t1 (cmdState_content c0) r1
  obtain ⟨s3, x3, g3, r3, o3, c3, sr3, k3, at3⟩ := flushed_event (n := n + 1) t2 i2
  have hnd := List.nodup_cons.mp g.nodup
  have hkj : ∀ k ∈ rest, k ≠ j := by rintro k hk rfl; exact (List.nodup_cons.mp hnd.2).1 hk
  have hki : ∀ k ∈ rest, k ≠ i := by rintro k hk rfl; exact hnd.1 (by simp [hk])
  have hij : i ≠ j := by rintro rfl; exact hnd.1 (by simp)
  have cc : carried s3 = carried s1 := c3.trans c2
  injection cc with c1' c2' c3' c4' c5' c6' c7' c8' c9' c10' c11' c12' c13' c14' c15' c16' c17' c18'
  have b3 := g3.base
  have hst1 : s1.statuses .endOfMessage = s.statuses .endOfMessage := by
    rw [st1, if_neg]
    intro hn
    have hin := h.got
    rw [hn, h.queue] at hin
    unfold arrivedQueue at hin
    revert hin
    by_cases h1 : a.headers = [] <;> by_cases h2 : a.chunks = [] <;> cases a.ended <;> simp [h1, h2]
  injection dr1 with dr1 dr2 dr3 dr4 dr5
  have ks : ∀ k, k ≠ i → k ≠ j → s3.kids k = s.kids k := fun k h1 h2 => by rw [k3 k h2, k2 k h2, k1 k h1 h2]
  have hj := h.crew j (by simp)
  refine ⟨s3, st2, ?_, ⟨⟨b3.oracle, b3.linked, g3.at', i2, b3.state, c1'.trans w1, hnd.2, b3.chunkPos, b3.chunkMax, b3.option,
      b3.headers, b3.queue, b3.file, c12'.trans em1, fun k hk => by
        rw [ks k (hki k hk) (hkj k hk)]; exact g.others k (by simp [hk])⟩,
    at3 (at2 (at1 hj.2)), by rw [c16', cn1]; exact hj.1, fun k hk => by
      rw [c16', cn1, ks k (hki k hk) (hkj k hk)]; exact h.crew k (by simp [hk]),
    by rw [c3', hd1]; exact h.headers, by rw [c2', q1]; exact h.queue, by rw [c5', dr2]; exact h.stored,
    g3.fresh.imp And.left id, by rw [c4', o1]; exact h.original, by rw [c15', ss1]; exact h.early, g3.queued, h.orderly⟩, g3, r3.trans r2,
    ⟨(sr1.trans sr2).trans sr3, by rw [c6', ch1], by rw [c9', dr4], by rw [c10', dr5], by rw [c11', dr3], by rw [c14', hst1],
      by rw [c13', co1], by rw [c18', rf1]⟩, ?_, ?_, ks, ?_, ?_⟩
  · unfold receives
    rw [List.length_cons, Nat.add_sub_cancel,
      show (Event.reply i .accept :: ((List.replicate cs0.length [.flushed j, .reply j .cont]).flatten ++ [.flushed j])) =
        [.reply i .accept] ++ (List.replicate cs0.length [Event.flushed j, .reply j .cont]).flatten ++ [.flushed j] from by simp,
      quietly_append, quietly_append]
    exact run_trans (run_trans (run_one x1) x2) (run_one x3)
  · rw [o3, commands_append, m2, m1]
    simp [commands]
  · rw [o3, told_append, d2, d1]
    simp [told]
  · rw [k3 i hij, k2 i hij]; exact rd1
  · rw [k3 i hij, k2 i hij, pm1]; simp

/-- the state in which nothing of the body is left to send -/
def stopped (u : Sys) : Sys := { u with processingState := .body, sendingBody := false }

/-- milter `j` has got the whole body that has arrived and says continue -/
theorem stopped_cont {d : Dispatch} {j : Nat} {u : Sys} (hs : (u.kids j).ctx.state = .body) (hr : Ready (u.kids j).ctx)
    (hst : u.state = .body) (hsend : u.sendingBody = true) (hun : unsent u = []) (hlast : nextIn (stateCommand .body) u.commandQueue = none) :
    cbContinue d j u = some ((), logged (voted (stopped u) .body .continue_) (.emit (.reply .cont))) := by
  have start : cbContinue d j u = afterContinue d j .body (voted u .body .continue_) := by
    rw [← hs]
    rfl
  have nothing : sendNextCommand d j .body (voted (stopped u) .body .continue_) = some (.notChange, voted (stopped u) .body .continue_) := by
    unfold sendNextCommand
    rw [get_bind, show (voted (stopped u) .body .continue_).commandQueue = u.commandQueue from rfl, hlast]
    rfl
  rw [start]
  unfold afterContinue
  have hrk : ¬ (voted u .body .continue_).state.rank < St.body.rank := by
    show ¬ u.state.rank < _
    rw [hst]
    exact Nat.lt_irrefl _
  dsimp only
  rw [get_bind, if_neg hrk, show (voted u St.body .continue_).sendingBody = true from hsend]
  simp only [if_true]
  rw [bind_eq (send_body_nothing (s := voted u .body .continue_) hr hun)]
  simp only [if_true]
  show (do handleStatus (← sendNextCommand d j .body) : M Unit) (voted (stopped u) .body .continue_) = _
  rw [bind_eq nothing]
  rfl

theorem stopped_event {n i : Nat} {u : Sys} (hst : u.state = .body) (hsend : u.sendingBody = true) (hun : unsent u = [])
    (hlast : nextIn (stateCommand .body) u.commandQueue = none) (ho : u.oracle = []) (hl : (u.kids i).linked = true)
    (ha : At (u.kids i).ctx .body) :
    ∃ c, next (n + 1) u (.reply i .cont) [] = some (onward (stopped u) i c .body) ∧ Ready c ∧ c.option = (u.kids i).ctx.option ∧
      (attending (u.kids i).ctx → attending c) := by
  obtain ⟨c', h1, h2, h3, h4, h5⟩ := cont_ctx ha (Or.inr (Or.inr rfl))
  have h6 := cont_keeps ha (Or.inr (Or.inr rfl))
  rw [h1] at h6
  dsimp only at h6
  refine ⟨c', next_eq ho ?_, h3, h5, fun h => ⟨h6.1.trans h.1, h6.2.trans h.2⟩⟩
  rw [reply_step ho]
  obtain ⟨u1, hu1⟩ : ∃ u1, u1 = withCtx u i { c' with stack := frame .body :: (u.kids i).ctx.stack } := ⟨_, rfl⟩
  obtain ⟨u2, hu2⟩ : ∃ u2, u2 = logged u1 (.heard i (.reply .cont)) := ⟨_, rfl⟩
  have k2 : (u2.kids i).ctx = { c' with stack := frame .body :: (u.kids i).ctx.stack } := by
    rw [hu2, hu1]; exact withCtx_ctx _ _ _
  have l1 : (u1.kids i).linked = true := by rw [hu1, withCtx_kid]; exact hl
  have r2 : Ready (u2.kids i).ctx := by
    rw [k2]
    exact ⟨h3.quitted, h3.nextStates, h3.timer, h3.body, h3.queue, h3.count, h3.sentEom, h3.skip, h3.option⟩
  have cb := stopped_cont (d := dispatch n) (j := i) (u := u2) (by rw [k2]; exact h4) r2 (by rw [hu2, hu1]; exact hst)
    (by rw [hu2, hu1]; exact hsend) (by rw [hu2, hu1]; exact hun) (by rw [hu2, hu1]; exact hlast)
  have : stepCtx (dispatch (n + 1)) i (.reply .cont true) u = some (true, onward (stopped u) i c' .body) := by
    rw [stepCtx_eq]
    simp only [Server.step, h1]
    rw [← hu1]
    refine drive_emit (s1 := logged (voted (stopped u2) .body .continue_) (.emit (.reply .cont))) ?_ ?_
    · rw [signal_reply l1, ← hu2]
      exact cb
    · have e : onward (stopped u) i c' .body = withCtx (logged (voted (stopped u2) .body .continue_) (.emit (.reply .cont))) i
          { c' with stack := (u.kids i).ctx.stack } := by
        rw [hu2, hu1]
        show logged (logged (voted (withCtx (stopped u) i c') _ _) _) _ = logged (logged (voted (withCtx (withCtx (stopped u) i _) i _) _ _) _) _
        rw [withCtx_twice, ← h2]
      rw [e]
      refine resume_eq (f := frame .body) (stack := (u.kids i).ctx.stack) (by rw [hu2, hu1]; exact ho) ?_ ?_
      · show (u2.kids i).ctx.stack = _
        rw [k2]
      · show Server.exec { (u2.kids i).ctx with stack := _ } true _ = _
        rw [k2]
        exact frame_ctx h3.body h3.sentEom (by rw [h4]; simp)
  rw [bind_eq this]
  rfl

/-- milter `j` has got everything that has arrived and says continue: the MTA goes on -/
theorem caught {n j : Nat} {rest : List Nat} {s : Sys} {st : St} {a : Arrived} (h : Holding s j st rest a) (g : Got s j st)
    (hr : remaining s j st = []) :
    ∃ s', next (n + 1) s (.reply j .cont) [] = some s' ∧ Reading s' j rest a ∧ Still j s s' ∧ commands s'.out = commands s.out ∧
      told s'.out = told s.out ++ [.reply .cont] := by
  have hst : st = s.state := base_last g.base g.queued hr
  have gv := h.giving
  have early : st = .header ∨ st = .endOfHeader ∨ st = .body := by rw [hst]; exact h.early
  have hne : st ≠ .endOfMessage := by rcases early with rfl | rfl | rfl <;> simp
  obtain ⟨hh, hb, hq⟩ := gv.queue
  rw [← hst] at hq
  have hlast : nextIn (stateCommand st) s.commandQueue = none := by
    rw [hq]
    rcases early with rfl | rfl | rfl <;> cases hh <;> rfl
  have hsne : s.state ≠ .endOfMessage := by rw [← hst]; exact hne
  -- the event
  have ev : ∃ c w, (w = s ∨ (st = .body ∧ unsent s = [] ∧ w = stopped s)) ∧ next (n + 1) s (.reply j .cont) [] = some (onward w j c st) ∧ Ready c ∧
      c.option = (s.kids j).ctx.option ∧ (attending (s.kids j).ctx → attending c) := by
    by_cases hbody : st = .body
    · subst hbody
      have hun : unsent s = [] := by
        cases hu : unsent s with
        | nil => rfl
        | cons x l =>
          simp only [remaining] at hr
          rw [pieces_cons gv.chunkPos (by rw [hu]; simp)] at hr
          simp at hr
      obtain ⟨c, e, r, o, m⟩ := stopped_event (n := n) hst.symm (g.sending rfl) hun hlast gv.oracle gv.linked gv.at'
      exact ⟨c, _, Or.inr ⟨rfl, hun, rfl⟩, e, r, o, m⟩
    · have lt : Latest s st := by
        refine ⟨hst.symm, hlast, ?_, fun hx => absurd hx hbody⟩
        rintro rfl
        obtain ⟨hs, hhs⟩ := g.base.headers g.queued
        refine ⟨hs, hhs, ?_⟩
        simp only [remaining, hhs, Option.getD_some] at hr
        have := (List.append_eq_nil_iff.mp hr).1
        rw [List.map_eq_nil_iff, List.drop_eq_nil_iff] at this
        exact this
      obtain ⟨c, e, r, o, m⟩ := onward_event (n := n) lt gv.oracle gv.linked gv.at' early
      exact ⟨c, s, Or.inl rfl, e, r, o, m⟩
  obtain ⟨c, w, hw, e, r, o, m⟩ := ev
  have kw : w.kids = s.kids := by rcases hw with rfl | ⟨_, _, rfl⟩ <;> rfl
  have hnd := List.nodup_cons.mp gv.nodup
  have st1 : Still j s w := by
    rcases hw with rfl | ⟨_, _, rfl⟩
    · exact .refl j _
    · exact ⟨⟨rfl, fun _ => rfl, fun _ => rfl, rfl⟩, rfl, rfl, rfl, rfl, rfl, rfl, fun _ _ => rfl, rfl⟩
  have st2 : Still j w (onward w j c st) := by
    have ro : SameRoles w (onward w j c st) :=
      (sameRoles_ctx (s := w) (i := j) (c := c) (by rw [kw]; exact o)).trans ⟨rfl, fun _ => rfl, fun _ => rfl, rfl⟩
    refine ⟨ro, rfl, rfl, rfl, rfl, ?_, rfl, fun k hk => withCtx_other _ _ _ _ hk, refused_set _ _ _ (.inl rfl)⟩
    show setStatusOf w.statuses st _ .endOfMessage = _
    unfold setStatusOf
    rw [if_neg (Ne.symm hne)]
  have stl := st1.trans st2
  have hfresh : s.replacedForEach = false := by
    rcases g.fresh with ⟨hbin, hx⟩ | hf
    · exfalso
      rw [hq] at hbin
      rcases hx with rfl | rfl <;> cases hh <;> simp [queueUpTo] at hbin
    · exact hf
  refine ⟨_, e, ⟨⟨?_, ?_, ?_, ?_, ?_, Or.inl ?_, gv.nodup, ?_, ?_, ?_, ?_, ?_, ?_, ?_, ?_, ?_, ?_, ?_, ?_, ?_⟩, h.crew.still stl hnd.1, h.orderly⟩, stl, ?_, ?_⟩
  · rcases hw with rfl | ⟨_, _, rfl⟩ <;> exact gv.oracle
  · show ((withCtx w j c).kids j).linked = true
    rw [withCtx_kid, kw]; exact gv.linked
  · show Ready ((withCtx w j c).kids j).ctx
    rw [withCtx_ctx]; exact r
  · show attending ((withCtx w j c).kids j).ctx
    rw [withCtx_ctx]; exact m h.message
  · rcases hw with rfl | ⟨_, _, rfl⟩ <;> exact h.known
  · rcases hw with rfl | ⟨_, _, rfl⟩ <;> exact gv.waiting
  · rcases hw with rfl | ⟨_, _, rfl⟩ <;> exact gv.chunkPos
  · rcases hw with rfl | ⟨_, _, rfl⟩ <;> exact gv.chunkMax
  · rcases hw with rfl | ⟨_, _, rfl⟩ <;> exact gv.option
  · rcases hw with rfl | ⟨_, _, rfl⟩ <;> exact h.headers
  · intro hx
    rw [← h.queue, hq] at hx
    have hhd : st = .header := by
      rcases early with rfl | rfl | rfl
      · rfl
      · cases hh <;> simp [queueUpTo] at hx
      · cases hh <;> simp [queueUpTo] at hx
    subst hhd
    have e0 : (onward w j c .header).headerIndex = s.headerIndex := by
      rcases hw with rfl | ⟨hx, _⟩
      · rfl
      · cases hx
    rw [e0]
    have h1 := g.index rfl
    simp only [remaining] at hr
    have := (List.append_eq_nil_iff.mp hr).1
    rw [List.map_eq_nil_iff, List.drop_eq_nil_iff] at this
    rw [h.headers] at h1 this
    exact Nat.le_antisymm h1 this
  · rcases hw with rfl | ⟨_, _, rfl⟩ <;> exact h.queue
  · rcases hw with rfl | ⟨_, _, rfl⟩ <;> exact h.stored
  · intro f hf
    have hf' : s.bodyFile = some f := by rcases hw with rfl | ⟨_, _, rfl⟩ <;> exact hf
    obtain ⟨f1, f2, f3⟩ := g.base.file hsne f hf'
    refine ⟨by rcases hw with rfl | ⟨_, _, rfl⟩ <;> exact f1, ?_⟩
    by_cases hbin : St.body ∈ s.commandQueue
    · have hbd : st = .body := by
        rw [hq] at hbin
        rcases early with rfl | rfl | rfl
        · simp [queueUpTo] at hbin
        · cases hh <;> simp [queueUpTo] at hbin
        · rfl
      have hun : unsent s = [] := by
        rcases hw with rfl | ⟨_, hun, _⟩
        · subst hbd
          cases hu : unsent w with
          | nil => rfl
          | cons x l =>
            simp only [remaining] at hr
            rw [pieces_cons gv.chunkPos (by rw [hu]; simp)] at hr
            simp at hr
        · exact hun
      unfold unsent at hun
      rw [f1, hf'] at hun
      have := List.drop_eq_nil_iff.mp hun
      omega
    · exact f3 hbin
  · rcases hw with rfl | ⟨_, _, rfl⟩ <;> exact hfresh
  · have : (onward w j c st).state = s.state := by rcases hw with rfl | ⟨_, _, rfl⟩ <;> rfl
    rw [this, ← hst]
    rcases early with rfl | rfl | rfl <;> simp
  · rcases hw with rfl | ⟨_, _, rfl⟩ <;> exact gv.emitted
  · rcases hw with rfl | ⟨_, _, rfl⟩ <;> exact h.original
  · intro k hk
    rw [stl.others k (by rintro rfl; exact hnd.1 hk)]
    exact gv.others k hk
  · have : (onward w j c st).out = s.out ++ [.heard j (.reply .cont)] ++ [.emit (.reply .cont)] := by
      rcases hw with rfl | ⟨_, _, rfl⟩ <;> rfl
    rw [this, commands_append, commands_append]
    simp [commands]
  · have : (onward w j c st).out = s.out ++ [.heard j (.reply .cont)] ++ [.emit (.reply .cont)] := by
      rcases hw with rfl | ⟨_, _, rfl⟩ <;> rfl
    rw [this, told_append, told_append]
    simp [told]

/-- the milter has left the message -/
def Aside (s : Sys) (k : Nat) : Prop := Ready (s.kids k).ctx ∧ (s.kids k).ctx.processingMessage = false

theorem Moved.converts {s s' : Sys} (h : Moved s s') : converts s' = converts s := funext h.roles.converts

/-- milters leave until one reads on -/
theorem leaves_run {n : Nat} {convert : Nat → Bool} {cut : Bytes → List Bytes} {a : Arrived} {i j : Nat} {rest later : List Nat}
    {es : List Event} {cs : List (Nat × Cmd)} (hl : Leaves convert cut a i rest es cs j later) :
    ∀ {s : Sys} {st : St}, Holding s i st rest a → converts s = convert → pieces s.chunkSize = cut →
    ∃ s', run (n + 2) s (quietly es) = some s' ∧ Reading s' j later a ∧ Moved s s' ∧ commands s'.out = commands s.out ++ cs ∧
      told s'.out = told s.out ++ [.reply .cont] ∧ (∃ front, rest = front ++ j :: later) ∧
      (∀ k, k ∉ i :: rest → s'.kids k = s.kids k) ∧ (∀ k ∈ i :: rest, k ∉ j :: later → Aside s' k) ∧
      ∀ k ∈ later, s'.kids k = s.kids k := by
  induction hl with
  | @reads i j later =>
    intro s st h hc hp
    obtain ⟨s1, st1, e1, h1, g1, r1, m1, c1, t1, k1, rd1, pm1⟩ := accept_leaves (n := n) h (cs := a.again cut (convert j)) (ds := [])
      (by rw [hc, hp]; simp) (by
        rw [← hc, ← hp, ← again_plan h]
        obtain ⟨hh, hb, hq⟩ := h.giving.queue
        unfold plan afterHeaders
        have hgot := h.got
        rw [h.queue] at hgot
        by_cases hx : St.endOfHeader ∈ s.commandQueue
        · rw [if_pos hx]; simp
        · rw [if_neg hx]
          have hin : St.header ∈ s.commandQueue := by
            rw [hq] at hx ⊢
            rcases h.early with e | e | e <;> rw [e] at hx ⊢ <;> cases hh <;> simp [queueUpTo] at hx ⊢
          rw [if_pos hin]
          have hne : a.headers ≠ [] := by
            intro hn
            rw [h.queue] at hin
            unfold arrivedQueue at hin
            rw [if_pos hn] at hin
            revert hin
            cases a.ended <;> by_cases hc : a.chunks = [] <;> simp [hc]
          rw [h.headers]
          unfold asHeaders
          simp [hne])
    obtain ⟨s2, e2, h2, m2, c2, t2⟩ := caught (n := n + 1) h1 g1 r1
    have hnd := List.nodup_cons.mp h.giving.nodup
    refine ⟨s2, ?_, h2, m1.trans m2.moved, by rw [c2, c1], by rw [t2, t1], ⟨[], rfl⟩, fun k hk => ?_, fun k hk hk' => ?_, fun k hk => ?_⟩
    · rw [quietly_append]
      exact run_trans e1 (run_one e2)
    · have hki : k ≠ i := fun e => hk (by simp [e])
      have hkj : k ≠ j := fun e => hk (by simp [e])
      rw [m2.others k hkj, k1 k hki hkj]
    · have hki : k = i := by
        rcases List.mem_cons.mp hk with e | e
        · exact e
        · exact absurd e hk'
      subst hki
      have hkj : k ≠ j := fun e => hk' (by simp [e])
      unfold Aside
      rw [m2.others k hkj]
      exact ⟨rd1, pm1⟩
    · have hki : k ≠ i := by rintro rfl; exact hnd.1 (by simp [hk])
      have hkj : k ≠ j := by rintro rfl; exact (List.nodup_cons.mp hnd.2).1 hk
      rw [m2.others k hkj, k1 k hki hkj]
  | @leaves i k j rest later got others es cs gets something next ih =>
    intro s st h hc hp
    obtain ⟨s1, st1, e1, h1, g1, r1, m1, c1, t1, k1, rd1, pm1⟩ := accept_leaves (n := n) h (cs := got) (ds := others)
      (by rw [hc, hp]; exact gets) something
    obtain ⟨s2, e2, h2, m2, c2, t2, ⟨front, hf⟩, k2, a2, l2⟩ := ih h1 (by rw [m1.converts]; exact hc) (by rw [m1.chunkSize]; exact hp)
    have hnd := List.nodup_cons.mp h.giving.nodup
    refine ⟨s2, ?_, h2, m1.trans m2, by rw [c2, c1, List.append_assoc], by rw [t2, t1], ⟨k :: front, by rw [hf]; rfl⟩, fun x hx => ?_,
      fun x hx hx' => ?_, fun x hx => ?_⟩
    · rw [quietly_append]
      exact run_trans e1 e2
    · have hxi : x ≠ i := fun e => hx (by simp [e])
      have hxk : x ∉ k :: rest := fun e => hx (List.mem_cons_of_mem _ e)
      rw [k2 x hxk, k1 x hxi (fun e => hxk (by simp [e]))]
    · rcases List.mem_cons.mp hx with rfl | hx
      · unfold Aside
        rw [k2 x hnd.1]
        exact ⟨rd1, pm1⟩
      · exact a2 x hx hx'
    · have hin : x ∈ rest := by rw [hf]; simp [hx]
      have hxi : x ≠ i := by rintro rfl; exact hnd.1 (by simp [hin])
      have hxk : x ≠ k := by rintro rfl; exact (List.nodup_cons.mp hnd.2).1 hin
      rw [l2 x hx, k1 x hxi hxk]

theorem later_ne {i j : Nat} {rest front later : List Nat} (hn : (i :: rest).Nodup) (hf : i :: rest = front ++ j :: later) {k : Nat}
    (hk : k ∈ later) : k ≠ i := by
  rintro rfl
  cases front with
  | nil =>
    simp only [List.nil_append, List.cons.injEq] at hf
    exact (List.nodup_cons.mp hn).1 (hf.2 ▸ hk)
  | cons y front =>
    simp only [List.cons_append, List.cons.injEq] at hf
    exact (List.nodup_cons.mp hn).1 (by rw [hf.2]; simp [hk])

theorem later_mem {i j : Nat} {rest front later : List Nat} (hn : (i :: rest).Nodup) (hf : i :: rest = front ++ j :: later) {k : Nat}
    (hk : k ∈ later) : k ∈ rest := by
  have h1 := later_ne hn hf hk
  have : k ∈ i :: rest := by rw [hf]; simp [hk]
  rcases List.mem_cons.mp this with e | e
  · exact absurd e h1
  · exact e

/-- parts of a message are read -/
theorem reads_run {n : Nat} {convert : Nat → Bool} {cut : Bytes → List Bytes} {a : Arrived} {i j : Nat} {rest later : List Nat}
    {ps : List Part} {es : List Event} {cs : List (Nat × Cmd)} (hr : Reads convert cut a i rest ps es cs j later) :
    ∀ {s : Sys}, Reading s i rest a → converts s = convert → pieces s.chunkSize = cut →
    ∃ s', run (n + 2) s (quietly es) = some s' ∧ Reading s' j later (ps.foldl Arrived.add a) ∧ Moved s s' ∧
      commands s'.out = commands s.out ++ cs ∧ told s'.out = told s.out ++ List.replicate ps.length (.reply .cont) ∧
      (∃ front, i :: rest = front ++ j :: later) ∧
      (∀ k, k ∉ i :: rest → s'.kids k = s.kids k) ∧ (∀ k ∈ i :: rest, k ∉ j :: later → Aside s' k) ∧
      ∀ k ∈ later, s'.kids k = s.kids k := by
  induction hr with
  | nothing =>
    intro s h _ _
    exact ⟨s, rfl, h, .refl s, by simp, by simp, ⟨[], rfl⟩, fun _ _ => rfl, fun k hk hk' => absurd hk hk', fun _ _ => rfl⟩
  | @continues a i j rest later p ps es cs allowed next ih =>
    intro s h hc hp
    obtain ⟨s1, _, e1, h1, st1, c1, t1⟩ := read_on (n := n + 1) h allowed
    obtain ⟨s2, e2, h2, m2, c2, t2, ⟨f2, hf2⟩, k2, a2, l2⟩ := ih h1 (by rw [st1.moved.converts]; exact hc) (by rw [st1.chunkSize]; exact hp)
    refine ⟨s2, ?_, h2, st1.moved.trans m2, ?_, ?_, ⟨f2, hf2⟩, fun k hk => ?_, a2, fun k hk => ?_⟩
    · rw [quietly_append]
      exact run_trans e1 e2
    · rw [c2, c1, hc]; simp
    · rw [t2, t1, List.length_cons, List.replicate_succ]; simp
    · rw [k2 k hk, st1.others k (fun e => hk (by simp [e]))]
    · rw [l2 k hk, st1.others k (later_ne h.taking.nodup hf2 hk)]
  | @accepts a i k j rest rest' later p ps es es' cs cs' allowed goes next ih =>
    intro s h hc hp
    obtain ⟨s1, _, e1, h1, _, st1, c1, t1⟩ := read_part (n := n + 1) h allowed
    obtain ⟨s2, e2, h2, m2, c2, t2, ⟨f, hf⟩, k2, a2, l2⟩ := leaves_run (n := n) goes h1 (by rw [st1.moved.converts]; exact hc)
      (by rw [st1.chunkSize]; exact hp)
    have m12 := st1.moved.trans m2
    obtain ⟨s3, e3, h3, m3, c3, t3, ⟨f', hf'⟩, k3, a3, l3⟩ := ih h2 (by rw [m12.converts]; exact hc) (by rw [m12.chunkSize]; exact hp)
    refine ⟨s3, ?_, h3, m12.trans m3, ?_, ?_, ⟨i :: f ++ f', by rw [hf, hf']; simp⟩, fun x hx => ?_, fun x hx hx' => ?_,
      fun x hx => ?_⟩
    · rw [quietly_append, quietly_append]
      exact run_trans (run_trans e1 e2) e3
    · rw [c3, c2, c1, hc]; simp
    · rw [t3, t2, t1, List.length_cons, List.replicate_succ]; simp
    · rw [k3 x (fun e => hx (by rw [hf]; simp [e])), k2 x hx, st1.others x (fun e => hx (by simp [e]))]
    · by_cases hin : x ∈ k :: rest'
      · exact a3 x hin hx'
      · unfold Aside
        rw [k3 x hin]
        exact a2 x hx hin
    · have hin : x ∈ rest' := later_mem h2.taking.nodup hf' hx
      have hir : x ≠ i := by
        rintro rfl
        exact (List.nodup_cons.mp h.taking.nodup).1 (by rw [hf]; simp [hin])
      rw [l3 x hx, l2 x hin, st1.others x hir]

theorem parts_all (m : Message) : (parts m).foldl Arrived.add {} = ⟨m.headers, true, m.chunks⟩ := by
  have h1 : ∀ (l : List (Bytes × Bytes)) (a : Arrived),
      (l.map (fun h => Part.header h.1 h.2)).foldl Arrived.add a = { a with headers := a.headers ++ l } := by
    intro l
    induction l with
    | nil => intro a; simp
    | cons x l ih => intro a; rw [List.map_cons, List.foldl_cons, ih]; simp [Arrived.add]
  have h2 : ∀ (l : List Bytes) (a : Arrived), (l.map Part.body).foldl Arrived.add a = { a with chunks := a.chunks ++ l } := by
    intro l
    induction l with
    | nil => intro a; simp
    | cons x l ih => intro a; rw [List.map_cons, List.foldl_cons, ih]; simp [Arrived.add]
  unfold parts
  rw [List.foldl_append, List.foldl_append, h1, h2]
  simp [Arrived.add]

theorem Opening.reading {s : Sys} {i : Nat} {rest : List Nat} (h : Opening s i rest) (hc : Crew s rest) : Reading s i rest {} :=
  ⟨h.taking, hc, ⟨fun h => absurd rfl h, fun c hc => by cases hc⟩⟩

/-- a message arrives, and milters leave it before its end -/
theorem early_intake {n i j : Nat} {rest later : List Nat} {s : Sys} {m : Message} {es : List Event} {cs : List (Nat × Cmd)}
    (h : Opening s i rest) (hc : Crew s rest) (hr : Reads (converts s) (pieces s.chunkSize) {} i rest (parts m) es cs j later) :
    ∃ s', run (n + 2) s (quietly (es ++ [.endOfMessage m.last, .flushed j])) = some s' ∧ Closing s' j later ∧ Moved s s' ∧
      draft s' = m.draft ∧ s'.originalHeaders = some m.draft.headers ∧ s'.eomChunk = m.last ∧ s'.replacedForEach = false ∧
      (St.header ∈ s'.commandQueue ↔ m.headers ≠ []) ∧ (St.body ∈ s'.commandQueue ↔ m.chunks ≠ []) ∧
      commands s'.out = commands s.out ++ cs ++ [(j, .endOfMessage m.last)] ∧
      told s'.out = told s.out ++ List.replicate (parts m).length (.reply .cont) ∧ Crew s' later ∧
      (∃ front, i :: rest = front ++ j :: later) ∧
      (∀ k, k ∉ i :: rest → s'.kids k = s.kids k) ∧ (∀ k ∈ i :: rest, k ∉ j :: later → Aside s' k) ∧
      ∀ k ∈ later, s'.kids k = s.kids k := by
  obtain ⟨s1, e1, h1, m1, c1, t1, f1, k1, a1, l1⟩ := reads_run (n := n) hr (h.reading hc) rfl rfl
  rw [parts_all] at h1
  have tk := h1.taking
  have hq : arrivedQueue ⟨m.headers, true, m.chunks⟩ ++ [.endOfMessage] = queueOf (decide (m.headers ≠ [])) (decide (m.chunks ≠ [])) := by
    unfold arrivedQueue queueOf
    by_cases ha : m.headers = [] <;> by_cases hb : m.chunks = [] <;> simp [ha, hb]
  obtain ⟨s2, _, e2, cl2, st2, hd2, or2, so2, q2, eo2, fr2, c2, t2⟩ := take_endOfMessage (n := n + 1) m.last tk hq
  have mv := m1.trans st2.moved
  have hnd := List.nodup_cons.mp tk.nodup
  obtain ⟨front, hf⟩ := f1
  have hj : j ∈ i :: rest := by rw [hf]; simp
  refine ⟨s2, ?_, cl2, mv, ?_, ?_, eo2, fr2, ?_, ?_, ?_, ?_, h1.crew.still st2 hnd.1, ⟨front, hf⟩, fun k hk => ?_, fun k hk hk' => ?_,
    fun k hk => ?_⟩
  · rw [quietly_append]
    exact run_trans e1 e2
  · unfold draft Message.draft
    rw [hd2, so2, mv.changeFrom, mv.quarantine, mv.replaced, h.replaced, h.changeFrom, h.quarantine]
    rfl
  · rw [or2]; rfl
  · rw [q2]; by_cases ha : m.headers = [] <;> by_cases hb : m.chunks = [] <;> simp [ha, hb, queueOf]
  · rw [q2]; by_cases ha : m.headers = [] <;> by_cases hb : m.chunks = [] <;> simp [ha, hb, queueOf]
  · rw [c2, c1]
  · rw [t2, t1]
  · rw [st2.others k (by rintro rfl; exact hk hj), k1 k hk]
  · unfold Aside
    rw [st2.others k (by rintro rfl; exact hk' (by simp))]
    exact a1 k hk hk'
  · rw [st2.others k (by rintro rfl; exact hnd.1 hk), l1 k hk]

end Verif.Children
