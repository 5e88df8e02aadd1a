import Verif.Props.SessionSays
import Verif.Props.ChildrenRounds
/-
C115: what the MTA reads in the course of a session.
-/
namespace Verif.Props
open Verif Verif.Session Verif.Spec.Children Verif.Spec.Client Verif.Spec.Phase
open Verif.Leader (Front)
open Verif.Children (Sys Emit converts pieces)
open Verif.Spec (Pointwise)
open Verif.Spec.Session (whole)
open Verif.Spec.Course (Text textAfter Fair reason isQuestion isEnd Read isHeard)
open Verif.Server (St)

theorem flushes_fromMilter (out : List Nat) : ∀ e ∈ out.map Children.Event.flushed, fromMilter e = true := by
  intro e he
  obtain ⟨i, _, rfl⟩ := List.mem_map.mp he
  rfl

theorem append_fromMilter {a b : List Children.Event} (ha : ∀ e ∈ a, fromMilter e = true) (hb : ∀ e ∈ b, fromMilter e = true) :
    ∀ e ∈ a ++ b, fromMilter e = true := by
  intro e he
  rcases List.mem_append.mp he with h | h
  · exact ha e h
  · exact hb e h

theorem moves_fromMilter {s : Sys} {who : List Nat} {st : St} (es : List Children.Event) : ∀ {t t' : Talk}, t.moves s who st es = some t' →
    ∀ e ∈ es, fromMilter e = true := by
  induction es with
  | nil => exact fun _ e he => nomatch he
  | cons x es ih =>
    intro t t' h e he
    simp only [Talk.moves, Option.bind_eq_some_iff] at h
    obtain ⟨t1, h1, h2⟩ := h
    rcases List.mem_cons.mp he with rfl | he
    · exact move_fromMilter h1
    · exact ih h2 e he

/-- the last packets go out -/
theorem closes {n : Nat} {s u : Sys} {opens : List Children.Event} {out : List Nat}
    (hu : Children.run (n + 4) s (quietly opens) = some u) (hn : Children.Phase.NearRest u) (hc : Clears u out) :
    ∃ s', Children.run (n + 4) s (quietly (opens ++ out.map .flushed)) = some s' ∧ AtRest s' ∧ told s'.out = told u.out := by
  obtain ⟨s1, r1, a1, _, t1, _, _, _⟩ := Children.Phase.cleared (n := n) hn hc
  refine ⟨s1, ?_, a1, t1⟩
  rw [Children.quietly_append]
  exact Children.run_trans hu r1

/-- a decision is one -/
theorem refusing_decision {r : Reply} (h : (refusing r).isSome = true) : (decisionOf r).isSome = true := by
  cases r <;> first | rfl | (cases h; done)

theorem verdict_decision {status : Status} {role : Nat → Role} {l : List Nat} :
    (decisionOf (Spec.Children.verdict status role l)).isSome = true := by
  unfold Spec.Children.verdict lastReply
  split <;> rfl

theorem content_word {e : Children.Event} (h : Session.isContent e) (talk : List Children.Event) : IsWord ⟨e, talk, [.reply .cont]⟩ := by
  cases e <;> first | exact h.elim | exact ⟨rfl, rfl, _, rfl, rfl⟩

theorem beforeEnd_content (m : Message) : ∀ e ∈ Children.beforeEnd m, Session.isContent e := by
  intro e he
  unfold Children.beforeEnd at he
  rcases List.mem_append.mp he with he | he
  · rcases List.mem_append.mp he with he | he
    · obtain ⟨_, _, rfl⟩ := List.mem_map.mp he; trivial
    · cases List.mem_singleton.mp he; trivial
  · obtain ⟨_, _, rfl⟩ := List.mem_map.mp he; trivial

/-- a milter says continue to each part -/
theorem exchanges_says {n i : Nat} {s u : Sys} {es : List Children.Event} (h : Children.Exchanges n i s es u)
    (hes : ∀ e ∈ es, Session.isContent e) :
    ∃ l, Says n s l u ∧ eventsOf l = (es.flatMap fun e => [e, .flushed i, .reply i .cont]) ∧
      heardOf l = List.replicate es.length (.reply .cont) ∧ l.length = es.length ∧ ∀ x ∈ l, IsWord x := by
  induction h with
  | nil s => exact ⟨[], .nil s, rfl, rfl, rfl, fun _ h => nomatch h⟩
  | @cons s s1 s2 e es taken happens tells rest ih =>
    obtain ⟨l, h1, h2, h3, h4, h5⟩ := ih fun x hx => hes x (List.mem_cons_of_mem _ hx)
    refine ⟨⟨e, [.flushed i, .reply i .cont], [.reply .cont]⟩ :: l, .cons taken ?_ happens tells h1, ?_, ?_, ?_, ?_⟩
    · intro x hx
      simp at hx
      rcases hx with rfl | rfl <;> rfl
    · show [e, .flushed i, .reply i .cont] ++ eventsOf l = _
      rw [h2]
      rfl
    · show [Emit.reply .cont] ++ heardOf l = _
      rw [h3, List.length_cons, List.replicate_succ]
      rfl
    · rw [List.length_cons, List.length_cons, h4]
    · intro x hx
      rcases List.mem_cons.mp hx with rfl | hx
      · exact content_word (hes e List.mem_cons_self) _
      · exact h5 x hx

theorem part_content (p : Spec.Early.Part) : Session.isContent p.event := by cases p <;> trivial

theorem leaves_fromMilter {convert : Nat → Bool} {cut : Bytes → List Bytes} {a : Spec.Early.Arrived} {i j : Nat} {rest later : List Nat}
    {es : List Children.Event} {cs : List (Nat × Cmd)} (h : Spec.Early.Leaves convert cut a i rest es cs j later) :
    ∀ e ∈ es, fromMilter e = true := by
  induction h with
  | reads =>
    intro e he
    rw [List.cons_append] at he
    rcases List.mem_cons.mp he with rfl | he
    · rfl
    · rcases List.mem_append.mp he with he | he
      · exact receives_fromMilter _ _ e he
      · cases List.mem_singleton.mp he; rfl
  | leaves gets something next ih =>
    intro e he
    rw [List.cons_append] at he
    rcases List.mem_cons.mp he with rfl | he
    · rfl
    · rcases List.mem_append.mp he with he | he
      · exact receives_fromMilter _ _ e he
      · exact ih e he

theorem reaches_fromMilter {convert : Nat → Bool} {cut : Bytes → List Bytes} {a : Spec.Early.Arrived} {i j : Nat} {rest later : List Nat}
    {es : List Children.Event} {cs : List (Nat × Cmd)} (h : Spec.Early.Reaches convert cut a i rest es cs j later) :
    ∀ e ∈ es, fromMilter e = true := by
  induction h with
  | here => exact fun e he => nomatch he
  | leaves gets something next ih =>
    intro e he
    rw [List.cons_append] at he
    rcases List.mem_cons.mp he with rfl | he
    · rfl
    · rcases List.mem_append.mp he with he | he
      · exact receives_fromMilter _ _ e he
      · exact ih e he

/-- parts of a message are read -/
theorem reads_says {n : Nat} {convert : Nat → Bool} {cut : Bytes → List Bytes} {a : Spec.Early.Arrived} {i j : Nat} {rest later : List Nat}
    {ps : List Spec.Early.Part} {es : List Children.Event} {cs : List (Nat × Cmd)}
    (hr : Spec.Early.Reads convert cut a i rest ps es cs j later) :
    ∀ {s : Sys}, Children.Reading s i rest a → converts s = convert → pieces s.chunkSize = cut →
    ∃ u l, Says (n + 2) s l u ∧ Children.Reading u j later (ps.foldl Spec.Early.Arrived.add a) ∧ eventsOf l = es ∧
      heardOf l = List.replicate ps.length (.reply .cont) ∧ l.length = ps.length ∧ ∀ x ∈ l, IsWord x := by
  induction hr with
  | nothing =>
    intro s h _ _
    exact ⟨s, [], .nil s, h, rfl, rfl, rfl, fun _ h => nomatch h⟩
  | @continues a i j rest later p ps es cs allowed next ih =>
    intro s h hc hp
    obtain ⟨s1, tk, e1, h1, st1, c1, t1⟩ := Children.read_on (n := n + 1) h allowed
    obtain ⟨u, l, l1, l2, l3, l4, l5, l6⟩ := ih h1 (by rw [st1.moved.converts]; exact hc) (by rw [st1.chunkSize]; exact hp)
    refine ⟨u, ⟨p.event, [.flushed i, .reply i .cont], [.reply .cont]⟩ :: l, .cons tk ?_ e1 t1 l1, l2, ?_, ?_, ?_, ?_⟩
    · intro x hx
      simp at hx
      rcases hx with rfl | rfl <;> rfl
    · show [p.event, .flushed i, .reply i .cont] ++ eventsOf l = _
      rw [l3]
    · show [Emit.reply .cont] ++ heardOf l = _
      rw [l4, List.length_cons, List.replicate_succ]
      rfl
    · rw [List.length_cons, List.length_cons, l5]
    · intro x hx
      rcases List.mem_cons.mp hx with rfl | hx
      · exact content_word (part_content p) _
      · exact l6 x hx
  | @accepts a i k j rest rest' later p ps es es' cs cs' allowed goes next ih =>
    intro s h hc hp
    obtain ⟨s1, tk, e1, h1, _, st1, c1, t1⟩ := Children.read_part (n := n + 1) h allowed
    obtain ⟨s2, e2, h2, m2, c2, t2, -, -, -, -⟩ := Children.leaves_run (n := n) goes h1 (by rw [st1.moved.converts]; exact hc)
      (by rw [st1.chunkSize]; exact hp)
    have m12 := st1.moved.trans m2
    obtain ⟨u, l, l1, l2, l3, l4, l5, l6⟩ := ih h2 (by rw [m12.converts]; exact hc) (by rw [m12.chunkSize]; exact hp)
    refine ⟨u, ⟨p.event, .flushed i :: es, [.reply .cont]⟩ :: l, .cons tk ?_ ?_ ?_ l1, l2, ?_, ?_, ?_, ?_⟩
    · intro x hx
      rcases List.mem_cons.mp hx with rfl | hx
      · rfl
      · exact leaves_fromMilter goes x hx
    · show Children.run (n + 2) s (quietly ([p.event, .flushed i] ++ es)) = _
      rw [Children.quietly_append]
      exact Children.run_trans e1 e2
    · rw [t2, t1]
    · show [p.event, .flushed i] ++ es ++ eventsOf l = _
      rw [l3]
    · show [Emit.reply .cont] ++ heardOf l = _
      rw [l4, List.length_cons, List.replicate_succ]
      rfl
    · rw [List.length_cons, List.length_cons, l5]
    · intro x hx
      rcases List.mem_cons.mp hx with rfl | hx
      · exact content_word (part_content p) _
      · exact l6 x hx

theorem first_length (m : Message) (c : Bool) : (m.first c).length - 1 = (Children.beforeEnd m).length := by
  rw [← parts_length m c]
  unfold Spec.Early.parts Children.beforeEnd
  simp

/-- a message that has been read up to its end -/
theorem message_says {n : Nat} {s u s' : Sys} {l : List Segment} (hl : Says n s l u) (hw : ∀ x ∈ l, IsWord x) (hne : l ≠ []) {last : Bytes}
    (tk : Children.Taken n u (.endOfMessage last)) {talk : List Children.Event} (ht : ∀ e ∈ talk, fromMilter e = true)
    (hr : Children.run n s (quietly (eventsOf l ++ .endOfMessage last :: talk)) = some s') {requests : List Emit} {r : Reply}
    (ha : ∀ e ∈ requests, ∃ c, asksFor e = some c) (hd : (decisionOf r).isSome = true)
    (htold : told s'.out = told s.out ++ (heardOf l ++ (requests ++ [.reply r]))) :
    ∃ l', Says n s l' s' ∧ eventsOf l' = eventsOf l ++ .endOfMessage last :: talk ∧ heardOf l' = heardOf l ++ (requests ++ [.reply r]) ∧
      Shaped false l' := by
  refine ⟨l ++ [⟨.endOfMessage last, talk, requests ++ [.reply r]⟩], hl.last _ tk ht hr htold, ?_, ?_, ?_⟩
  · rw [eventsOf_append]
    simp [eventsOf]
  · rw [heardOf_append]
    simp [heardOf]
  · exact shaped_words hw (.finish ha hd (.nil true)) false fun h => absurd h hne

/-- one turn -/
def TurnSays (n : Nat) (s : Sys) (t : Turn) (emits : List Emit) : Prop :=
  ∃ s' l, Says n s l s' ∧ eventsOf l = t.events ∧ heardOf l = emits ∧ Shaped false l ∧ AtRest s'

theorem reports_eq (m : Message) (role : Nat → Role) (size i : Nat) (order : List Nat) : reports m role size i order =
    List.replicate (Children.beforeEnd m).length (.reply .cont) ++
      ((i :: order).flatMap (fun j => ((role j).effective.filter isRecipientEdit).map Emit.reply) ++
        changes m.draft.headers (pieces size (outcome role m.draft (i :: order)).body) (outcome role m.draft (i :: order))) := by
  unfold reports
  rw [first_length, List.append_assoc]

theorem arrives_eq (m : Message) (i : Nat) : m.arrives i =
    ((Children.beforeEnd m).flatMap fun e => [e, .flushed i, .reply i .cont]) ++ [.endOfMessage m.last, .flushed i] := by
  unfold Message.arrives Children.beforeEnd
  simp [List.flatMap_append, List.flatMap_map]

theorem parts_beforeEnd (m : Message) : (Spec.Early.parts m).length = (Children.beforeEnd m).length := by
  rw [← first_length m true, ← parts_length m true]

/-- everybody lets a message pass -/
theorem message_turn (n : Nat) {s : Sys} {m : Message} {role : Nat → Role} {size i : Nat} {order : List Nat} (hrest : AtRest s)
    (h : Posting s m role size i order []) : TurnSays (n + 2) s (.message m role size i order)
      (reports m role size i order ++ [.reply (Spec.Children.verdict (s.statuses .endOfMessage) role (i :: order))]) := by
  have ho := posting_opening hrest h
  obtain ⟨s1, _, _, _, _, _, _, _, _, _, _, _, u, x1, k1, _, _⟩ := Children.intake (n := n + 1) m ho (by rw [Enc.chunkSize_eq]; exact h.lengths)
  obtain ⟨l, l1, l2, l3, l4, l5⟩ := exchanges_says x1 (beforeEnd_content m)
  obtain ⟨s', r1, _, t1, rests⟩ := posted_runs n hrest h
  have hev : Turn.opening (.message m role size i order) = eventsOf l ++ .endOfMessage m.last :: (.flushed i :: (finishes i (role i) ++
      (handed m role size i order).tail.flatMap fun x => turn x.1 (x.2.length - 1) (role x.1))) := by
    unfold Turn.opening
    dsimp only
    rw [arrives_eq, l2]
    simp
  rw [hev] at r1
  rw [reports_eq, ← l3, List.append_assoc] at t1
  obtain ⟨l', p1, p2, p3, p4⟩ := message_says l1 l5 (by rw [← List.length_pos_iff, l4]; unfold Children.beforeEnd; simp; omega) k1 (by
      intro e he
      rcases List.mem_cons.mp he with rfl | he
      · rfl
      · exact chatter_fromMilter role i (handed m role size i order) e he) r1
    (requests_ask role (i :: order) _ _ _) verdict_decision t1
  refine ⟨s', l', p1, ?_, ?_, p4, rests⟩
  · rw [p2, ← hev]
    exact (List.append_nil _).symm
  · rw [p3, reports_eq, ← l3]
    simp only [List.append_assoc]

/-- one of them refuses it -/
theorem refused_turn (n : Nat) {s : Sys} {m : Message} {role : Nat → Role} {size i : Nat} {order later : List Nat} {answer : Reply}
    {out : List Nat} (hrest : AtRest s) (h : Posting s m role size i order later) (hans : (refusing answer).isSome = true)
    (hcounts : (s.kids ((i :: order).getLastD 0)).evaluation = false)
    (hcode : s.code = none ∨ ∃ a b c, answer = .replyCode a b c)
    (clears : ∀ s', Children.run (n + 4) s (quietly (Turn.opening (.refused m role size i order answer out))) = some s' → Clears s' out) :
    TurnSays (n + 4) s (.refused m role size i order answer out) (reports m role size i order ++ [.reply answer]) := by
  have ho := posting_opening hrest h
  obtain ⟨s1, _, _, _, _, _, _, _, _, _, _, _, u, x1, k1, _, _⟩ := Children.intake (n := n + 3) m ho (by rw [Enc.chunkSize_eq]; exact h.lengths)
  obtain ⟨l, l1, l2, l3, l4, l5⟩ := exchanges_says x1 (beforeEnd_content m)
  obtain ⟨v, x, r1, _, _, t1, near⟩ := refused_runs (n + 2) (out := out) hrest h hans hcounts hcode
  obtain ⟨s', r2, rests, t2⟩ := closes r1 near (clears v r1)
  have hev : Turn.opening (.refused m role size i order answer out) ++ out.map .flushed =
      eventsOf l ++ .endOfMessage m.last :: (.flushed i :: (passing role i (handed m role size i order).tail ++
        (role ((i :: order).getLastD 0)).requests.map (.reply ((i :: order).getLastD 0) ·) ++ [.reply ((i :: order).getLastD 0) answer] ++
        out.map .flushed)) := by
    unfold Turn.opening
    dsimp only
    rw [arrives_eq, l2]
    simp
  rw [hev] at r2
  rw [← t2, reports_eq, ← l3, List.append_assoc] at t1
  obtain ⟨l', p1, p2, p3, p4⟩ := message_says l1 l5 (by rw [← List.length_pos_iff, l4]; unfold Children.beforeEnd; simp; omega) k1 (by
      intro e he
      rcases List.mem_cons.mp he with rfl | he
      · rfl
      · refine append_fromMilter (append_fromMilter (append_fromMilter (passing_fromMilter role _ i) ?_) ?_) (flushes_fromMilter out) e he
        · intro e he
          obtain ⟨r, _, rfl⟩ := List.mem_map.mp he
          rfl
        · intro e he
          cases List.mem_singleton.mp he
          rfl) r2
    (requests_ask role (i :: order) _ _ _) (refusing_decision hans) t1
  refine ⟨s', l', p1, ?_, ?_, p4, rests⟩
  · rw [p2, ← hev]; rfl
  · rw [p3, reports_eq, ← l3]
    simp only [List.append_assoc]

/-- some leave a message before its end -/
theorem early_front (n : Nat) {s : Sys} {m : Message} {size i j : Nat} {all order : List Nat} {es : List Children.Event}
    {cs : List (Nat × Cmd)} (hrest : AtRest s) (h : Followed s size i all)
    (hr : Spec.Early.Reads (converts s) (pieces size) {} i all (Spec.Early.parts m) es cs j order) :
    ∃ u l, Says (n + 2) s l u ∧ Children.Taken (n + 2) u (.endOfMessage m.last) ∧ eventsOf l = es ∧
      heardOf l = List.replicate (Children.beforeEnd m).length (.reply .cont) ∧ (∀ x ∈ l, IsWord x) ∧ l ≠ [] := by
  have ho := followed_opening hrest h
  rw [h.chunk] at hr
  obtain ⟨u, l, l1, h1, l2, l3, l4, l5⟩ := reads_says (n := n) hr (ho.reading (followed_crew h)) rfl rfl
  rw [Children.parts_all] at h1
  have hq : Children.arrivedQueue ⟨m.headers, true, m.chunks⟩ ++ [.endOfMessage] =
      Children.queueOf (decide (m.headers ≠ [])) (decide (m.chunks ≠ [])) := by
    unfold Children.arrivedQueue Children.queueOf
    by_cases ha : m.headers = [] <;> by_cases hb : m.chunks = [] <;> simp [ha, hb]
  obtain ⟨_, tk, _⟩ := Children.take_endOfMessage (n := n + 1) m.last h1.taking hq
  rw [parts_beforeEnd] at l3 l4
  exact ⟨u, l, l1, tk, l2, l3, l5, by rw [← List.length_pos_iff, l4]; unfold Children.beforeEnd; simp; omega⟩

theorem early_turn (n : Nat) {s : Sys} {m : Message} {role : Nat → Role} {size i j : Nat} {all order : List Nat} {es : List Children.Event}
    {cs : List (Nat × Cmd)} (hrest : AtRest s) (h : Followed s size i all)
    (hr : Spec.Early.Reads (converts s) (pieces size) {} i all (Spec.Early.parts m) es cs j order) (ha : Acting s m role j order) :
    TurnSays (n + 2) s (.early m es role size j order)
      (reports m role size j order ++ [.reply (Spec.Children.verdict (s.statuses .endOfMessage) role (j :: order))]) := by
  obtain ⟨u, l, l1, k1, l2, l3, l5, l6⟩ := early_front n hrest h hr
  obtain ⟨s', r1, _, t1, rests⟩ := early_runs n hrest h hr ha
  have hev : Turn.opening (.early m es role size j order) = eventsOf l ++ .endOfMessage m.last :: (.flushed j :: (finishes j (role j) ++
      (handed m role size j order).tail.flatMap fun x => turn x.1 (x.2.length - 1) (role x.1))) := by
    unfold Turn.opening
    dsimp only
    rw [l2]
    simp
  rw [hev] at r1
  rw [reports_eq, ← l3, List.append_assoc] at t1
  obtain ⟨l', p1, p2, p3, p4⟩ := message_says l1 l5 l6 k1 (by
      intro e he
      rcases List.mem_cons.mp he with rfl | he
      · rfl
      · exact chatter_fromMilter role j (handed m role size j order) e he) r1
    (requests_ask role (j :: order) _ _ _) verdict_decision t1
  refine ⟨s', l', p1, ?_, ?_, p4, rests⟩
  · rw [p2, ← hev]
    exact (List.append_nil _).symm
  · rw [p3, reports_eq, ← l3]
    simp only [List.append_assoc]

theorem earlyRefused_turn (n : Nat) {s : Sys} {m : Message} {role : Nat → Role} {size i j : Nat} {all order later : List Nat}
    {es : List Children.Event} {cs : List (Nat × Cmd)} {answer : Reply} {out : List Nat} (hrest : AtRest s) (h : Followed s size i all)
    (hr : Spec.Early.Reads (converts s) (pieces size) {} i all (Spec.Early.parts m) es cs j (order ++ later)) (ha : Acting s m role j order)
    (hans : (refusing answer).isSome = true) (hcounts : (s.kids ((j :: order).getLastD 0)).evaluation = false)
    (hcode : s.code = none ∨ ∃ a b c, answer = .replyCode a b c)
    (clears : ∀ s', Children.run (n + 4) s (quietly (Turn.opening (.earlyRefused m es role size j order answer out))) = some s' → Clears s' out) :
    TurnSays (n + 4) s (.earlyRefused m es role size j order answer out) (reports m role size j order ++ [.reply answer]) := by
  obtain ⟨u, l, l1, k1, l2, l3, l5, l6⟩ := early_front (n + 2) hrest h hr
  obtain ⟨v, x, r1, _, _, t1, near⟩ := earlyRefused_runs (n + 2) (out := out) hrest h hr ha hans hcounts hcode
  obtain ⟨s', r2, rests, t2⟩ := closes r1 near (clears v r1)
  have hev : Turn.opening (.earlyRefused m es role size j order answer out) ++ out.map .flushed =
      eventsOf l ++ .endOfMessage m.last :: (.flushed j :: (passing role j (handed m role size j order).tail ++
        (role ((j :: order).getLastD 0)).requests.map (.reply ((j :: order).getLastD 0) ·) ++ [.reply ((j :: order).getLastD 0) answer] ++
        out.map .flushed)) := by
    unfold Turn.opening
    dsimp only
    rw [l2]
    simp
  rw [hev] at r2
  rw [← t2, reports_eq, ← l3, List.append_assoc] at t1
  obtain ⟨l', p1, p2, p3, p4⟩ := message_says l1 l5 l6 k1 (by
      intro e he
      rcases List.mem_cons.mp he with rfl | he
      · rfl
      · refine append_fromMilter (append_fromMilter (append_fromMilter (passing_fromMilter role _ j) ?_) ?_) (flushes_fromMilter out) e he
        · intro e he
          obtain ⟨r, _, rfl⟩ := List.mem_map.mp he
          rfl
        · intro e he
          cases List.mem_singleton.mp he
          rfl) r2
    (requests_ask role (j :: order) _ _ _) (refusing_decision hans) t1
  refine ⟨s', l', p1, ?_, ?_, p4, rests⟩
  · rw [p2, ← hev]; rfl
  · rw [p3, reports_eq, ← l3]
    simp only [List.append_assoc]

theorem turnedDown_turn (n : Nat) {s : Sys} {size i j k : Nat} {all rest' later : List Nat} {ps : List Spec.Early.Part}
    {p : Spec.Early.Part} {es es' : List Children.Event} {cs cs' : List (Nat × Cmd)} {answer : Reply} {out : List Nat}
    (hrest : AtRest s) (h : Followed s size i all)
    (hr : Spec.Early.Reads (converts s) (pieces size) {} i all ps es cs j rest')
    (hp : (ps.foldl Spec.Early.Arrived.add {}).allows p)
    (hl : Spec.Early.Reaches (converts s) (pieces size) ((ps.foldl Spec.Early.Arrived.add {}).add p) j rest' es' cs' k later)
    (hans : (refusing answer).isSome = true) (hcounts : (s.kids k).evaluation = false)
    (hst : ∀ st, s.statuses st ≠ .reject ∧ s.statuses st ≠ .temporaryFailure ∧ s.statuses st ≠ .discard)
    (hcode : s.code = none ∨ ∃ a b c, answer = .replyCode a b c)
    (clears : ∀ s', Children.run (n + 4) s (quietly (Turn.opening (.turnedDown (es ++ [p.event, .flushed j] ++ es') k answer out))) = some s' →
      Clears s' out) :
    TurnSays (n + 4) s (.turnedDown (es ++ [p.event, .flushed j] ++ es') k answer out)
      (List.replicate ps.length (.reply .cont) ++ [.reply answer]) := by
  have ho := followed_opening hrest h
  obtain ⟨u, l, l1, h1, l2, l3, l4, l5⟩ := reads_says (n := n + 2) (by rw [h.chunk] at hr; exact hr) (ho.reading (followed_crew h)) rfl rfl
  obtain ⟨_, tk, _⟩ := Children.read_part (n := n + 3) h1 hp
  obtain ⟨v, x, r1, _, _, t1, near⟩ := turnedDown_runs (n + 2) (out := out) hrest h hr hp hl hans hcounts hst hcode
  obtain ⟨s', r2, rests, t2⟩ := closes r1 near (clears v r1)
  have hev : Turn.opening (.turnedDown (es ++ [p.event, .flushed j] ++ es') k answer out) ++ out.map .flushed =
      eventsOf l ++ p.event :: (.flushed j :: (es' ++ [.reply k answer] ++ out.map .flushed)) := by
    unfold Turn.opening
    dsimp only
    rw [l2]
    simp
  rw [hev] at r2
  rw [← t2, ← l3] at t1
  refine ⟨s', l ++ [⟨p.event, .flushed j :: (es' ++ [.reply k answer] ++ out.map .flushed), [.reply answer]⟩], l1.last _ tk ?_ r2 t1, ?_, ?_, ?_, rests⟩
  · intro e he
    rcases List.mem_cons.mp he with rfl | he
    · rfl
    · refine append_fromMilter (append_fromMilter (reaches_fromMilter hl) ?_) (flushes_fromMilter out) e he
      intro e he
      cases List.mem_singleton.mp he
      rfl
  · rw [eventsOf_append]
    show eventsOf l ++ (_ ++ []) = Turn.opening _ ++ out.map .flushed
    rw [hev, List.append_nil]
  · rw [heardOf_append, l3]
    simp [heardOf]
  · refine shaped_words l5 (.word ?_ (.nil true)) false fun _ => .word ?_ (.nil true)
    all_goals
      refine ⟨?_, ?_, answer, rfl, refusing_decision hans⟩ <;> cases p <;> rfl

/-- the whole session -/
theorem course_says (n : Nat) {s : Sys} {turns : List Turn} {emits : List Emit} {sent : List (Nat × Cmd)}
    (hc : Course (n + 4) s turns emits sent) : AtRest s → (∀ t ∈ turns, isHeard t = true) →
    ∃ s' l, Says (n + 4) s l s' ∧ eventsOf l = turns.flatMap Turn.events ∧ heardOf l = emits ∧ Shaped false l := by
  have one : ∀ {s : Sys} {t : Turn} {rest : List Turn} {mine emits : List Emit}, TurnSays (n + 4) s t mine →
      (∀ s', Children.run (n + 4) s (quietly t.events) = some s' → AtRest s' →
        ∃ s'' l, Says (n + 4) s' l s'' ∧ eventsOf l = rest.flatMap Turn.events ∧ heardOf l = emits ∧ Shaped false l) →
      ∃ s'' l, Says (n + 4) s l s'' ∧ eventsOf l = (t :: rest).flatMap Turn.events ∧ heardOf l = mine ++ emits ∧ Shaped false l := by
    intro s t rest mine emits ht hn
    obtain ⟨s', l, h1, h2, h3, h4, h5⟩ := ht
    obtain ⟨s'', l', g1, g2, g3, g4⟩ := hn s' (by rw [← h2]; exact h1.run.1) h5
    refine ⟨s'', l ++ l', h1.append g1, ?_, ?_, h4.append g4⟩
    · rw [eventsOf_append, h2, g2, List.flatMap_cons]
    · rw [heardOf_append, h3, g3]
  have hh : ∀ {t : Turn} {rest : List Turn}, (∀ x ∈ t :: rest, isHeard x = true) → ∀ x ∈ rest, isHeard x = true :=
    fun h x hx => h x (List.mem_cons_of_mem _ hx)
  induction hc with
  | @done s => exact fun _ _ => ⟨s, [], .nil s, rfl, rfl, .nil false⟩
  | @ask s e talk out rest emits sent cmd st t v command somebody talks over verdict clears next ih =>
    intro hrest hd
    obtain ⟨calm, hfb⟩ := atRest_calm hrest command somebody
    have hf : ∀ i ∈ addressees s e, Children.Phase.Proper (s.kids i).fallback := fun i hi => isFallback_proper (hfb i hi)
    obtain ⟨u, r1, inv⟩ := conversed (n + 2) command calm hf talks
    obtain ⟨hne, hp⟩ := votes_ne (n + 2) command calm hf talks over
    have hnear := settled_near hrest (fun i hi => Children.Phase.addressees_alive hi) inv over
    have hw := verdict_worst hne hp verdict
    obtain ⟨s', r2, rests, t2⟩ := closes r1 hnear.1 (clears u r1)
    obtain ⟨w, tk, _⟩ := Children.Phase.command_asked (n := n + 3) command calm hf
    have ho : { s with oracle := [] } = s := by cases s; simp [hrest.oracle.symm]
    refine one (mine := [.reply (report v t.code)]) ⟨s', [⟨e, talk ++ out.map .flushed, [.reply (report v t.code)]⟩], .cons ⟨w, ?_⟩ ?_ (by rw [← r2]; rfl) ?_ (.nil s'), ?_, rfl, ?_, rests⟩
      fun s' r' a' => ih s' r' a' (hh hd)
    · rw [ho]; exact tk
    · exact append_fromMilter (moves_fromMilter talk talks) (flushes_fromMilter out)
    · rw [t2, (inv.settled over).told, hw]
    · exact List.append_nil _
    · refine .word ⟨?_, ?_, _, rfl, ?_⟩ (.nil true)
      · cases e <;> first | rfl | cases command
      · cases e <;> first | rfl | cases command
      · rw [report_decision (hp v verdict.1)]
        rfl
  | @nobody s e rest emits sent cmd st command gone gone' next ih =>
    intro _ hd
    have := hd _ List.mem_cons_self
    cases this
  | @deserted s out rest emits sent gone somebody clears next ih =>
    intro _ hd
    have := hd _ List.mem_cons_self
    cases this
  | @abort s out rest emits sent clears next ih =>
    intro hrest hd
    obtain ⟨u, x, h1, a, c, _, p, _, d⟩ := Children.Phase.abort_all (d := Children.dispatch (n + 4)) hrest.oracle
    have hn : Children.next (n + 4) s .abort [] = some u := Children.next_eq (e := .abort) hrest.oracle h1
    have hr : Children.run (n + 4) s (quietly [.abort]) = some u := by simp only [quietly, List.map_cons, List.map_nil, Children.run, hn]
    obtain ⟨s', r2, rests, t2⟩ := closes hr
      (apart_near hrest (a.oracle.trans hrest.oracle) (a.pending hrest.pending) a.frame a.count (fun i => (a.kids i).apart) d).1 (clears _ hr)
    have ho : { s with oracle := [] } = s := by cases s; simp [hrest.oracle.symm]
    refine one (mine := []) ⟨s', [⟨.abort, out.map .flushed, []⟩], .cons ⟨u, ?_⟩ (flushes_fromMilter out) r2 ?_ (.nil s'), ?_, rfl, .abort (.nil false), rests⟩
      fun s' r' a' => ih s' r' a' (hh hd)
    · rw [ho]
      show (Children.abortAll (Children.dispatch (n + 4)) s).bind _ = _
      rw [h1]
      rfl
    · rw [t2, a.told]
      exact (List.append_nil _).symm
    · exact List.append_nil _
  | @message s m role size i order rest emits sent posting next ih =>
    intro hrest hd
    have := one (message_turn (n + 2) hrest posting) fun s' r' a' => ih s' (by rw [← r']; exact congrArg _ (congrArg _ (List.append_nil _).symm)) a' (hh hd)
    simpa using this
  | @refused s m role size i order later answer out rest emits sent posting refusal counts code clears next ih =>
    intro hrest hd
    have := one (refused_turn n hrest posting refusal counts code clears) fun s' r' a' => ih s' r' a' (hh hd)
    simpa using this
  | @early s m role size i j all order es cs rest emits sent followed reads acting next ih =>
    intro hrest hd
    have := one (early_turn (n + 2) hrest followed reads acting) fun s' r' a' => ih s' (by rw [← r']; exact congrArg _ (congrArg _ (List.append_nil _).symm)) a' (hh hd)
    simpa using this
  | @earlyRefused s m role size i j all order later es cs answer out rest emits sent followed reads acting refusal counts code clears next ih =>
    intro hrest hd
    have := one (earlyRefused_turn n hrest followed reads acting refusal counts code clears) fun s' r' a' => ih s' r' a' (hh hd)
    simpa using this
  | @turnedDown s size i j k all rest' later ps p es es' cs cs' answer out rest emits sent followed reads allowed reaches refusal counts fresh code clears next ih =>
    intro hrest hd
    have := one (turnedDown_turn n hrest followed reads allowed reaches refusal counts fresh code clears) fun s' r' a' => ih s' r' a' (hh hd)
    simpa using this

/-- **C115**: `s` is any state a session can get into in which the MTA is connected and has negotiated, no message has ended without
an answer, and nothing is under way with the milters.  Then come any number of commands of the MTA and messages, as in C97.  Then the
MTA reads one answer for every command, in the order of the commands, and nothing else: before the end of a message exactly the
decision the manager has come to; at the end of a message first the requests of the milters together, as far as the MTA
has granted them, then the reason for a quarantine, if one is given, then the decision, and reports of progress in between.  Nothing is written when
the MTA gives up a message.  Missing: commands for which no milter is there
any more (C53_nobody_violated), reply codes the MTA's side refuses (C53_code_violated), and plain refusals after a reply code
(C53_stale_code_violated). -/
theorem C115_partial (order : Requests → Requests) (fallback atDisconnect : Status) (size : Nat) (kids : List Children.Kid) (chunk : Nat)
    (depth : Nat) (history : List Session.Event) (s : Session.Session)
    (hs : Session.run order depth (Session.new fallback atDisconnect size kids chunk) history = some s)
    (hat : s.front.attached = true) (hl : s.front.client.link = .ready)
    (hneg : ∃ o, Client.Event.got (.negotiate o) ∈ s.front.client.log)
    (hi : Spec.Client.interrupted s.front.client.log = false) (he : Spec.Client.atEnd s.front.client.log = false)
    (hsent : s.front.leader.sentEnd = false)
    (hflags : hasFlag (negotiated s.front.client.log) 0x04 = hasFlag (negotiated s.front.client.log) 0x80)
    (n : Nat) (turns : List Turn) (emits : List Emit) (sent : List (Nat × Cmd)) (hrest : AtRest s.milters)
    (hc : Course (n + 4) s.milters turns emits sent) (heard : ∀ t ∈ turns, isHeard t = true)
    (fair : Fair (lastCustom s.front.client.log) emits) :
    ∃ s' read, Session.run order (n + 4) s ((turns.flatMap Turn.events).map whole) = some s' ∧
      Children.run (n + 4) s.milters (quietly (turns.flatMap Turn.events)) = some s'.milters ∧
      Read (negotiated s.front.client.log) ((turns.flatMap Turn.events).filter isQuestion) emits read ∧
      written s'.front.client.log = written s.front.client.log ++
        (read.map fun rs => (Enc.encodeReplies order [] rs).flatten).flatten := by
  have hidle := session_idle hs hat hl hneg hi he hsent
  have hopt : s.front.client.option = negotiated s.front.client.log := hidle.good.settled.agrees.option
  obtain ⟨m', l, h1, h2, h3, h4⟩ := course_says n hc hrest heard
  obtain ⟨f', read, r1, _, r3, r4⟩ := says_read (order := order) h1 h4 hidle (fun h => nomatch h) (by rw [hopt]; exact hflags) (by rw [h3]; exact fair)
  rw [h2, hopt, h3] at r3
  rw [h2] at r1
  exact ⟨_, read, r1, by rw [← h2]; exact h1.run.1, r3, r4⟩

namespace SessionCases
open Cases

/-- two messages, one of which is refused with a text, and a third one the MTA gives up -/
def threeMails : List Turn :=
  Cases.envelope 1 ++ [.message note busy 4 0 [1]] ++ Cases.envelope 3 ++
    [.refused note (fun _ => ⟨false, true, [], false⟩) 4 0 [] (.replyCode 550 [53, 46, 49, 46, 49] (some [110, 111])) [1],
      .ask (.envelopeFrom [4]) (answers 2) [], .abort [0, 1]]

/-- what the manager has to say about them -/
def threeAnswers : List Emit :=
  [.reply .cont, .reply .cont, .reply .cont, .reply .cont, .reply .cont, .reply .cont, .reply (.deleteRecipient [2]),
    .edit (.insert 1 [5] (some [6])), .reply (.changeFrom [9] none), .reply .cont,
    .reply .cont, .reply .cont, .reply .cont, .reply .cont, .reply .cont, .reply .cont, .reply (.replyCode 550 [53, 46, 49, 46, 49] (some [110, 111])),
    .reply .cont]

end SessionCases
open SessionCases Cases

/-- the hypotheses of C115 are met -/
example : ((Session.run id 20 (Session.new .accept .temporaryFailure 0 [{}, {}] 4) ((upToConnect 2).map whole)).any fun s =>
    s.front.attached && decide (s.front.client.link = .ready) && !Spec.Client.interrupted s.front.client.log &&
    !Spec.Client.atEnd s.front.client.log && s.front.client.log.any (fun x => match x with | .got (.negotiate _) => true | _ => false) &&
    !s.front.leader.sentEnd && (hasFlag (negotiated s.front.client.log) 0x04 == hasFlag (negotiated s.front.client.log) 0x80) &&
    decide (lastCustom s.front.client.log = none) &&
    atRestB s.milters && decide ((courseB 20 s.milters threeMails).map (·.1) = some threeAnswers) && threeMails.all isHeard) = true ∧
    Fair none threeAnswers := by
  refine ⟨by decide +kernel, ?_⟩
  simp only [threeAnswers, Fair, and_true, true_and]
  exact (C10_accepts {} 550 (some [53, 46, 49, 46, 49]) none).mp (by decide +kernel)

/-- and this is what the MTA reads -/
example : writesAfter [{}, {}] (upToConnect 2) (threeMails.flatMap Turn.events) =
    some (one 99 ++ one 99 ++ one 99 ++ one 99 ++ one 99 ++ one 99 ++
      [0, 0, 0, 3, 45, 2, 0] ++ [0, 0, 0, 9, 105, 0, 0, 0, 1, 5, 0, 6, 0] ++ [0, 0, 0, 3, 101, 9, 0] ++ one 99 ++
      one 99 ++ one 99 ++ one 99 ++ one 99 ++ one 99 ++ one 99 ++ [0, 0, 0, 14, 121, 53, 53, 48, 32, 53, 46, 49, 46, 49, 32, 110, 111, 0] ++ one 99) := by
  decide +kernel

end Verif.Props
