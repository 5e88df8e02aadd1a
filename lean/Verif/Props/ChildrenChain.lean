import Verif.Manager.ChildrenIntake
import Verif.Manager.ChildrenRefusal
import Verif.Props.ChildrenMessage
/-
C28, C29: milters are chained, and the body is handed on in pieces.
-/
namespace Verif.Props
open Verif Verif.Children Verif.Spec.Children
open Verif.Server (St)

/-! ## C29 -/

theorem pieces_cut (size : Nat) (h : 0 < size) (b : Bytes) : IsCut size b (pieces size b) := by
  induction b using pieces.induct (size := size) with
  | case1 b hb =>
    have : b = [] := hb.resolve_right (by omega)
    subst this
    rw [pieces_nil]
    exact ⟨rfl, by simp⟩
  | case2 b hb ih =>
    have hne : b ≠ [] := fun h => hb (Or.inl h)
    rw [pieces_cons h hne]
    refine ⟨by simp [ih.whole], ?_⟩
    intro c hc
    rcases List.mem_cons.mp hc with rfl | hc
    · refine ⟨?_, by simp; omega⟩
      intro h0
      rcases List.take_eq_nil_iff.mp h0 with h0 | h0
      · omega
      · exact hne h0
    · exact ih.sizes c hc

/-! ## C28 -/

theorem after_nil (c : Bool) (d : Draft) : d.after c [] = d := by
  cases d
  simp [Draft.after]

theorem passing_compile {v : Status} (b : Bool) (h : Passing v) :
    Status.compile v (voteOf b) = voteOf (decide (v ≠ .continue_) && b) := by
  rcases h with rfl | rfl | rfl <;> cases b <;> rfl

theorem passing_vote (b : Bool) : Passing (voteOf b) := by
  cases b
  · exact Or.inr (Or.inl rfl)
  · exact Or.inr (Or.inr rfl)

theorem verdict_cons {v : Status} (role : Nat → Role) (i : Nat) (order : List Nat) (h : Passing v) :
    verdict v role (i :: order) = verdict (Status.compile v (voteOf (role i).accepts)) role order := by
  unfold verdict
  rw [passing_compile _ h, List.all_cons, ← Bool.and_assoc]
  congr 2
  generalize (decide (v ≠ .continue_) && (role i).accepts) = b
  cases b <;> rfl

/-- milter `i` has got the end of the message, its requests follow -/
theorem requests_effect {n i : Nat} {rest : List Nat} {role : Role} {s : Sys} (h : Closing s i rest) (hfresh : s.replacedForEach = false)
    (r1 : role.convert = converts s i) (r2 : role.counts = !(s.kids i).evaluation) (r3 : ∀ r ∈ role.requests, isModification r = true) :
    ∃ s', run (n + 1) s (quietly (role.requests.map (.reply i ·))) = some s' ∧ Closing s' i rest ∧
      draft s' = (draft s).after role.convert role.effective ∧ commands s'.out = commands s.out ∧
      told s'.out = told s.out ++ (role.effective.filter isRecipientEdit).map .reply ∧
      ((∀ r ∈ role.requests, replacement r = none) → s'.replacedForEach = false) ∧ Kept' i s s' := by
  obtain ⟨s1, e1, c1, d1, m1, t1, b1, k1⟩ := requests_run (n := n) h r3
  have he : role.effective = if (s.kids i).evaluation then [] else role.requests := by
    unfold Role.effective
    rw [r2]
    cases (s.kids i).evaluation <;> rfl
  refine ⟨s1, e1, c1, ?_, m1, ?_, b1 hfresh, k1⟩
  · rw [d1, hfresh, requestedAll_false, r1, he]
    cases (s.kids i).evaluation <;> simp [after_nil]
  · rw [t1, he]
    cases (s.kids i).evaluation <;> simp

/-- the message passes from milter `i` through the milters `order`, up to the last one of these; the milters `rest` are
still to come -/
theorem passes (n : Nat) (role : Nat → Role) (rest : List Nat) (order : List Nat) :
    ∀ (s : Sys) (i : Nat), Closing s i (order ++ rest) → s.replacedForEach = false → Passing (s.statuses .endOfMessage) →
    (∀ j ∈ i :: order, (role j).convert = converts s j ∧ (role j).counts = !(s.kids j).evaluation ∧
      ∀ r ∈ (role j).requests, isModification r = true) →
    (∀ x ∈ relay role ((draft s).after (role i).convert (role i).effective) order,
      (St.header ∈ s.commandQueue → x.2.headers ≠ []) ∧ (St.body ∈ s.commandQueue → x.2.body ≠ [])) →
    (St.body ∉ s.commandQueue → ∀ j ∈ i :: order, ∀ r ∈ (role j).requests, replacement r = none) →
    let to := deliveries (pieces s.chunkSize) (decide (St.header ∈ s.commandQueue)) (decide (St.body ∈ s.commandQueue)) s.eomChunk role
      ((draft s).after (role i).convert (role i).effective) order
    ∃ s', run (n + 2) s (quietly (passing role i to)) = some s' ∧ Closing s' ((i :: order).getLastD 0) rest ∧
      s'.replacedForEach = false ∧ draft s' = outcome role (draft s) (i :: order).dropLast ∧
      commands s'.out = commands s.out ++ to.flatMap (fun x => x.2.map (x.1, ·)) ∧
      told s'.out = told s.out ++ (i :: order).dropLast.flatMap (fun j => ((role j).effective.filter isRecipientEdit).map .reply) ∧
      Passing (s'.statuses .endOfMessage) ∧
      verdict (s'.statuses .endOfMessage) role [(i :: order).getLastD 0] = verdict (s.statuses .endOfMessage) role (i :: order) ∧
      SameRoles s s' ∧ s'.originalHeaders = s.originalHeaders ∧ s'.code = s.code ∧ s'.count = s.count ∧ s'.chunkSize = s.chunkSize ∧
      (∀ k, k ∉ i :: order → s'.kids k = s.kids k) ∧ ∀ k ∈ (i :: order).dropLast, Ready (s'.kids k).ctx := by
  intro s i h hfresh hst hrole hne hnob
  induction order generalizing s i with
  | nil =>
    exact ⟨s, rfl, h, hfresh, rfl, by simp [deliveries, relay], by simp, hst, rfl, .refl s, rfl, rfl, rfl, rfl, fun _ _ => rfl,
      by simp⟩
  | cons j order ih =>
    obtain ⟨r1, r2, r3⟩ := hrole i (by simp)
    obtain ⟨s1, e1, c1, hd, m1, t1, b1, k1⟩ := requests_effect (n := n + 1) h hfresh r1 r2 r3
    rw [← hd] at hne
    have hq := k1.commandQueue
    have hfst := hne (j, draft s1) (by simp [relay])
    obtain ⟨s2, e2, c2, f2, m2, t2, d2, o2, st2, ch2, eo2, q2, sr2, co2, cn2, ki2, rd2⟩ := delivery (n := n) (role i).accepts c1
      (by
        by_cases hb : St.body ∈ s.commandQueue
        · exact Or.inl (by rw [hq]; exact hb)
        · exact Or.inr (b1 (hnob hb i (by simp))))
      (by
        intro hh
        rw [hq] at hh
        intro hs
        exact hfst.1 hh (by show s1.headers.getD [] = []; rw [hs]; rfl))
      (by
        intro hb
        rw [hq] at hb
        exact hfst.2 hb)
    have sr := k1.roles.trans sr2
    have hst2 : s2.statuses .endOfMessage = Status.compile (s.statuses .endOfMessage) (voteOf (role i).accepts) := by
      rw [st2, k1.status]
    obtain ⟨s3, e3, c3, f3, d3, m3, t3, p3, v3, sr3, o3, co3, cn3, ch3, ki3, rd3⟩ := ih s2 j c2 f2
      (by rw [hst2, passing_compile _ hst]; exact passing_vote _)
      (by
        intro k hk
        obtain ⟨x1, x2, x3⟩ := hrole k (by simp [List.mem_cons.mp hk])
        exact ⟨by rw [x1, sr.converts], by rw [x2, sr.evaluation], x3⟩)
      (by
        intro x hx
        rw [q2, hq]
        rw [d2] at hx
        exact hne x (by simp only [relay, List.mem_cons]; exact Or.inr hx))
      (by
        intro hb k hk
        rw [q2, hq] at hb
        exact hnob hb k (by simp [List.mem_cons.mp hk]))
    rw [q2, hq, ch2, k1.chunkSize, eo2, k1.eomChunk, d2] at e3 m3
    have hp : plan s1 j = chain (role j).convert (decide (St.header ∈ s.commandQueue)) (decide (St.body ∈ s.commandQueue))
        (draft s1).headers (pieces s.chunkSize (draft s1).body) s.eomChunk := by
      rw [plan_eq _ _ c1.queue, hq, k1.chunkSize, k1.eomChunk, (hrole j (by simp)).1, k1.roles.converts]
      rfl
    have hlast : (i :: j :: order).getLastD 0 = (j :: order).getLastD 0 := by simp [List.getLastD]
    refine ⟨s3, ?_, ?_, f3, ?_, ?_, ?_, p3, ?_, sr.trans sr3, (o3.trans o2).trans k1.originalHeaders, (co3.trans co2).trans k1.code,
      (cn3.trans cn2).trans k1.count, (ch3.trans ch2).trans k1.chunkSize, ?_, ?_⟩
    · have e4 := run_trans (run_trans e1 e2) e3
      rw [← quietly_append, ← quietly_append, hp] at e4
      rw [← hd]
      simpa [deliveries, relay, passing, finishes, receives] using e4
    · rw [hlast]; exact c3
    · rw [d3, d2, List.dropLast_cons_of_ne_nil (x := i) (by simp)]
      unfold outcome
      rw [List.foldl_cons, hd]
    · rw [m3, m2, m1, hp, ← hd]
      simp [deliveries, relay]
    · rw [t3, t2, t1, List.dropLast_cons_of_ne_nil (x := i) (by simp)]
      simp
    · rw [hlast, v3, hst2, ← verdict_cons _ _ _ hst]
    · intro k hk
      have hki : k ≠ i := fun e => hk (by simp [e])
      have hkj : k ≠ j := fun e => hk (by simp [e])
      rw [ki3 k (fun e => hk (List.mem_cons_of_mem _ e)), ki2 k hki hkj, k1.others k hki]
    · intro k hk
      rw [List.dropLast_cons_of_ne_nil (by simp)] at hk
      rcases List.mem_cons.mp hk with rfl | hk
      · rw [ki3 k (fun e => (List.nodup_cons.mp h.nodup).1 (by
          rw [List.cons_append]
          rcases List.mem_cons.mp e with rfl | e
          · exact List.mem_cons_self
          · exact List.mem_cons_of_mem _ (List.mem_append.mpr (.inl e))))]
        exact rd2
      · exact rd3 k hk

theorem passing_finishes (role : Nat → Role) (to : List (Nat × List Cmd)) : ∀ i,
    finishes i (role i) ++ to.flatMap (fun x => turn x.1 (x.2.length - 1) (role x.1)) =
      passing role i to ++ finishes ((i :: to.map (·.1)).getLastD 0) (role ((i :: to.map (·.1)).getLastD 0)) := by
  induction to with
  | nil => intro i; simp [passing]
  | cons x to ih =>
    intro i
    have := ih x.1
    rw [List.flatMap_cons, passing]
    unfold turn
    rw [← List.append_assoc, ← List.append_assoc, List.append_assoc _ (finishes x.1 _)]
    unfold turn at this
    rw [this]
    simp [List.getLastD]

theorem deliveries_who (cut : Bytes → List Bytes) (a b : Bool) (l : Bytes) (role : Nat → Role) (order : List Nat) : ∀ d,
    (deliveries cut a b l role d order).map (·.1) = order := by
  induction order with
  | nil => intro d; rfl
  | cons i order ih =>
    intro d
    have := ih (d.after (role i).convert (role i).effective)
    simp only [deliveries, relay, List.map_cons, List.map_map] at this ⊢
    rw [this]

theorem split_last (i : Nat) (order : List Nat) : (i :: order).dropLast ++ [(i :: order).getLastD 0] = i :: order := by
  induction order generalizing i with
  | nil => rfl
  | cons j order ih =>
    have := ih j
    rw [List.dropLast_cons_of_ne_nil (by simp)]
    simp only [List.getLastD, List.cons_append] at this ⊢
    rw [List.getLast_cons (by simp)]
    rw [this]

/-- the milters `who` have let a message pass -/
structure Passed (who : List Nat) (s s' : Sys) : Prop where
  oracle : s'.oracle = []
  pending : s'.pending = none
  running : s'.allExpired = s.allExpired
  count : s'.count = s.count
  option : s'.option = s.option
  chunkSize : s'.chunkSize = s.chunkSize
  blank : Spec.Phase.Blank s'
  index : s'.headerIndex = 0
  ctxOption : ∀ k, (s'.kids k).ctx.option = (s.kids k).ctx.option
  shell : ∀ k, shell (s'.kids k) = shell (s.kids k)
  others : ∀ k, k ∉ who → s'.kids k = s.kids k
  ready : ∀ k ∈ who, Ready (s'.kids k).ctx

theorem chain_runs (n : Nat) (role : Nat → Role) (original : List Header) (order : List Nat)
    (s : Sys) (i : Nat) (h : Closing s i order) (hfresh : s.replacedForEach = false) (horig : s.originalHeaders = some original)
    (hst : Passing (s.statuses .endOfMessage))
    (hrole : ∀ j ∈ i :: order, (role j).convert = converts s j ∧ (role j).counts = !(s.kids j).evaluation ∧
      ∀ r ∈ (role j).requests, isModification r = true)
    (hne : ∀ x ∈ relay role ((draft s).after (role i).convert (role i).effective) order,
      (St.header ∈ s.commandQueue → x.2.headers ≠ []) ∧ (St.body ∈ s.commandQueue → x.2.body ≠ []))
    (hnob : St.body ∉ s.commandQueue → ∀ j ∈ i :: order, ∀ r ∈ (role j).requests, replacement r = none) :
    let to := deliveries (pieces s.chunkSize) (decide (St.header ∈ s.commandQueue)) (decide (St.body ∈ s.commandQueue)) s.eomChunk role
      ((draft s).after (role i).convert (role i).effective) order
    let result := outcome role (draft s) (i :: order)
    ∃ s', run (n + 2) s (quietly (finishes i (role i) ++ to.flatMap fun x => turn x.1 (x.2.length - 1) (role x.1))) = some s' ∧
      commands s'.out = commands s.out ++ to.flatMap (fun x => x.2.map (x.1, ·)) ∧
      told s'.out = told s.out ++ (i :: order).flatMap (fun j => ((role j).effective.filter isRecipientEdit).map .reply) ++
        changes original (pieces s.chunkSize result.body) result ++ [.reply (verdict (s.statuses .endOfMessage) role (i :: order))] ∧
      Passed (i :: order) s s' ∧ s'.replaced = result.replaced ∧
      ((∀ j ∈ i :: order, ∀ r ∈ (role j).requests, replacement r = none) → s'.replacedForEach = false) := by
  intro to result
  obtain ⟨s1, e1, c1, f1, d1, m1, t1, p1, v1, sr1, o1, co1, cn1, ch1, ki1, rd1⟩ := passes n role [] order s i (by simpa using h) hfresh hst hrole hne hnob
  have hsplit := split_last i order
  generalize hk : (i :: order).getLastD 0 = k at *
  have hmem : k ∈ i :: order := by rw [← hsplit]; simp
  obtain ⟨r1, r2, r3⟩ := hrole k hmem
  obtain ⟨s2, e2, c2, d2, m2, t2, b2, k2⟩ := requests_effect (n := n + 1) c1 f1 (r1.trans (sr1.converts k).symm)
    (by rw [r2, sr1.evaluation]) r3
  obtain ⟨s3, e3, m3, t3, ki3, rd3, sh3, op3, eq3⟩ := conclusion (n := n) (original := original) (role k).accepts _ c2 ((k2.originalHeaders.trans o1).trans horig)
    (by rw [k2.status]; exact passing_compile _ p1)
  have hv : lastReply (decide (s1.statuses .endOfMessage ≠ .continue_) && (role k).accepts) =
      verdict (s.statuses .endOfMessage) role (i :: order) := by
    rw [← v1]
    simp [verdict]
  have hd : draft s2 = outcome role (draft s) (i :: order) := by
    rw [d2, d1, ← hsplit]
    unfold outcome
    rw [List.foldl_append]
    simp
  have f3 : s3.oracle = s2.oracle ∧ s3.pending = none ∧ s3.allExpired = s2.allExpired ∧ s3.count = s2.count ∧
      s3.option = s2.option ∧ s3.chunkSize = s2.chunkSize ∧ Spec.Phase.Blank s3 ∧ s3.headerIndex = 0 ∧ s3.replaced = s2.replaced ∧
      s3.replacedForEach = s2.replacedForEach := by
    rw [eq3]
    exact ⟨rfl, rfl, rfl, rfl, rfl, rfl, ⟨rfl, rfl, rfl, rfl, rfl, rfl, rfl, rfl, rfl⟩, rfl, rfl, rfl⟩
  have sr2 := sr1.trans k2.roles
  have ap := sr2.apart
  simp only [Prod.mk.injEq] at ap
  refine ⟨s3, ?_, ?_, ?_, ⟨f3.1.trans c2.oracle, f3.2.1, f3.2.2.1.trans ap.2.1, f3.2.2.2.1.trans ap.2.2, f3.2.2.2.2.1.trans sr2.option,
    f3.2.2.2.2.2.1.trans (k2.chunkSize.trans ch1), f3.2.2.2.2.2.2.1, f3.2.2.2.2.2.2.2.1, fun x => ?_, fun x => ?_, fun x hx => ?_,
    fun x hx => ?_⟩, ?_, fun hno => ?_⟩
  · rw [passing_finishes, deliveries_who, hk, finishes, quietly_append, quietly_append]
    exact run_trans e1 (run_trans e2 (run_one e3))
  · rw [m3, m2, m1]
  · rw [t3, t2, t1, hv, k2.chunkSize, ch1, hd]
    rw [show stored s2 = (draft s2).body from rfl, hd]
    have hf : (i :: order).flatMap (fun j => ((role j).effective.filter isRecipientEdit).map Emit.reply) =
        (i :: order).dropLast.flatMap (fun j => ((role j).effective.filter isRecipientEdit).map Emit.reply) ++
          ((role k).effective.filter isRecipientEdit).map Emit.reply := by
      conv => lhs; rw [← hsplit]
      simp
    rw [hf]
    simp [result]
  · by_cases hx : x = k
    · subst hx; rw [op3, sr2.ctxOption]
    · rw [ki3 x hx, sr2.ctxOption]
  · by_cases hx : x = k
    · subst hx; rw [sh3, sr2.shell]
    · rw [ki3 x hx, sr2.shell]
  · have hxk : x ≠ k := fun e => hx (e ▸ hmem)
    rw [ki3 x hxk, k2.others x hxk, ki1 x hx]
  · by_cases hxk : x = k
    · subst hxk; exact rd3
    · rw [ki3 x hxk, k2.others x hxk]
      refine rd1 x ?_
      rw [← hsplit] at hx
      rcases List.mem_append.mp hx with hx | hx
      · exact hx
      · exact absurd (List.mem_singleton.mp hx) hxk
  · rw [f3.2.2.2.2.2.2.2.2.1]
    show (draft s2).replaced = _
    rw [hd]
  · rw [f3.2.2.2.2.2.2.2.2.2]
    exact b2 (hno k hmem)

/-- **C28**, from the end of the message on: `s` is a state in which milter `i` has got the end of the message and the milters
`order` are still to come.  Whatever these milters ask for (`role`), and whether they end with
"continue" or "accept", each of the milters in `order` is sent exactly the headers and the body as
its predecessors left them, in this order and one command after the other, and the next one only
after the final reply of the one before; at the end the MTA is told the changes all requests
together amount to, and to accept the message if everybody says so. -/
theorem C28_chain_partial (n : Nat) (role : Nat → Role) (original : List Header) (order : List Nat)
    (s : Sys) (i : Nat) (h : Closing s i order) (hfresh : s.replacedForEach = false) (horig : s.originalHeaders = some original)
    (hst : Passing (s.statuses .endOfMessage))
    -- the roles are those of the milters
    (hrole : ∀ j ∈ i :: order, (role j).convert = converts s j ∧ (role j).counts = !(s.kids j).evaluation ∧
      ∀ r ∈ (role j).requests, isModification r = true)
    -- nobody removes all headers or the whole body
    (hne : ∀ x ∈ relay role ((draft s).after (role i).convert (role i).effective) order,
      (St.header ∈ s.commandQueue → x.2.headers ≠ []) ∧ (St.body ∈ s.commandQueue → x.2.body ≠ []))
    -- a body is replaced only if there is one
    (hnob : St.body ∉ s.commandQueue → ∀ j ∈ i :: order, ∀ r ∈ (role j).requests, replacement r = none) :
    ∃ cut : Bytes → List Bytes, (∀ b, IsCut s.chunkSize b (cut b)) ∧
    let to := deliveries cut (decide (St.header ∈ s.commandQueue)) (decide (St.body ∈ s.commandQueue)) s.eomChunk role
      ((draft s).after (role i).convert (role i).effective) order
    let result := outcome role (draft s) (i :: order)
    ∃ s', run (n + 2) s (quietly (finishes i (role i) ++ to.flatMap fun x => turn x.1 (x.2.length - 1) (role x.1))) = some s' ∧
      commands s'.out = commands s.out ++ to.flatMap (fun x => x.2.map (x.1, ·)) ∧
      told s'.out = told s.out ++ (i :: order).flatMap (fun j => ((role j).effective.filter isRecipientEdit).map .reply) ++
        changes original (cut result.body) result ++ [.reply (verdict (s.statuses .endOfMessage) role (i :: order))] := by
  obtain ⟨s', h1, h2, h3, -⟩ := chain_runs n role original order s i h hfresh horig hst hrole hne hnob
  exact ⟨pieces s.chunkSize, pieces_cut s.chunkSize h.chunkPos, s', h1, h2, h3⟩

/-- one of the milters `who` has refused a message -/
structure Turned (who : List Nat) (s s' : Sys) : Prop where
  oracle : s'.oracle = []
  pending : s'.pending = none
  running : s'.allExpired = s.allExpired
  count : s'.count = s.count
  blank : Spec.Phase.Blank s'
  others : ∀ k, k ∉ who → Children.Phase.Apart (s.kids k) (s'.kids k) ∧ Children.Phase.due s' k ≤ Children.Phase.due s k + 1
  linked : ∀ k, (s'.kids k).linked = (s.kids k).linked
  retry : ∀ k, (s'.kids k).tryRetry = (s.kids k).tryRetry
  fallback : ∀ k, (s'.kids k).fallback = (s.kids k).fallback
  ctxOption : ∀ k, (s'.kids k).ctx.option = (s.kids k).ctx.option
  took : ∀ k ∈ who, (∀ x ∈ (s'.kids k).ctx.nextStates, x = .abort) ∧ (s'.kids k).ctx.nextStates.length ≤ 1 ∧
    (s'.kids k).ctx.timer = none ∧ Spec.Phase.MsgBlank (s'.kids k).ctx

theorem refusal_runs (n : Nat) (role : Nat → Role) (original : List Header) (order rest : List Nat)
    (s : Sys) (i : Nat) (answer : Reply) (h : Closing s i (order ++ rest)) (hfresh : s.replacedForEach = false)
    (horig : s.originalHeaders = some original) (hst : Passing (s.statuses .endOfMessage))
    (hans : (refusing answer).isSome = true)
    -- the one that refuses counts, and no code is left over from somebody else's refusal
    (hcounts : (s.kids ((i :: order).getLastD 0)).evaluation = false)
    (hcode : s.code = none ∨ ∃ a b c, answer = .replyCode a b c)
    (hrole : ∀ j ∈ i :: order, (role j).convert = converts s j ∧ (role j).counts = !(s.kids j).evaluation ∧
      ∀ r ∈ (role j).requests, isModification r = true)
    (hne : ∀ x ∈ relay role ((draft s).after (role i).convert (role i).effective) order,
      (St.header ∈ s.commandQueue → x.2.headers ≠ []) ∧ (St.body ∈ s.commandQueue → x.2.body ≠ []))
    (hnob : St.body ∉ s.commandQueue → ∀ j ∈ i :: order, ∀ r ∈ (role j).requests, replacement r = none) :
    let to := deliveries (pieces s.chunkSize) (decide (St.header ∈ s.commandQueue)) (decide (St.body ∈ s.commandQueue)) s.eomChunk role
      ((draft s).after (role i).convert (role i).effective) order
    let k := (i :: order).getLastD 0
    let result := outcome role (draft s) (i :: order)
    ∃ s' aborts, run (n + 2) s (quietly (passing role i to ++ (role k).requests.map (.reply k ·) ++ [.reply k answer])) = some s' ∧
      commands s'.out = commands s.out ++ to.flatMap (fun x => x.2.map (x.1, ·)) ++ aborts ∧
      (∀ x ∈ aborts, x.2 = .abort) ∧
      (∀ j ∈ rest, j < s.count → Spec.Phase.inMessage (s.kids j) = true → (j, .abort) ∈ aborts) ∧
      (∀ j < s.count, Spec.Phase.inMessage (s'.kids j) = false) ∧
      told s'.out = told s.out ++ (i :: order).flatMap (fun j => ((role j).effective.filter isRecipientEdit).map .reply) ++
        changes original (pieces s.chunkSize result.body) result ++ [.reply answer] ∧ Turned (i :: order) s s' := by
  obtain ⟨s1, e1, c1, f1, d1, m1, t1, p1, v1, sr1, o1, co1, cn1, ch1, ki1, rd1⟩ := passes n role rest order s i h hfresh hst hrole hne hnob
  have hsplit := split_last i order
  generalize hk : (i :: order).getLastD 0 = k at *
  have hmem : k ∈ i :: order := by rw [← hsplit]; simp
  obtain ⟨r1, r2, r3⟩ := hrole k hmem
  obtain ⟨s2, e2, c2, d2, m2, t2, b2, k2⟩ := requests_effect (n := n + 1) c1 f1 (r1.trans (sr1.converts k).symm)
    (by rw [r2, sr1.evaluation]) r3
  obtain ⟨v, hv⟩ := Option.isSome_iff_exists.mp hans
  have hcomp : Status.compile (s1.statuses .endOfMessage) v = v := by
    have : v = .reject ∨ v = .temporaryFailure ∨ v = .discard := by
      cases answer <;> first | (simp [refusing] at hv; done) | skip
      case replyCode c x m =>
        simp only [refusing] at hv
        split at hv
        · cases hv; simp
        · split at hv
          · cases hv; simp
          · cases hv
      all_goals
        cases hv
        simp
    rcases this with rfl | rfl | rfl <;> rcases p1 with h | h | h <;> rw [h] <;> rfl
  obtain ⟨s3, x, e3, m3, a3, ab3, in3, t3, or3, pe3, ru3, cn3, bl3, oth3, at3, due3⟩ := refusal_event (n := n) (original := original) c2 ((k2.originalHeaders.trans o1).trans horig) hv
    (by rw [k2.roles.evaluation, sr1.evaluation]; exact hcounts) (by rw [k2.status]; exact hcomp) (by rw [k2.code, co1]; exact hcode)
  have hd : draft s2 = outcome role (draft s) (i :: order) := by
    rw [d2, d1, ← hsplit]
    unfold outcome
    rw [List.foldl_append]
    simp
  have sr2 := sr1.trans k2.roles
  have ap := sr2.apart
  simp only [Prod.mk.injEq] at ap
  have sh : ∀ j, (s2.kids j).linked = (s.kids j).linked ∧ (s2.kids j).tryRetry = (s.kids j).tryRetry ∧
      (s2.kids j).fallback = (s.kids j).fallback := by
    intro j
    have := sr2.shell j
    unfold shell at this
    injection this
    exact ⟨by assumption, by assumption, by assumption⟩
  have hkeep : ∀ j, (s3.kids j).linked = (s2.kids j).linked ∧ (s3.kids j).tryRetry = (s2.kids j).tryRetry ∧
      (s3.kids j).fallback = (s2.kids j).fallback ∧ (s3.kids j).ctx.option = (s2.kids j).ctx.option := by
    intro j
    by_cases hj : j = k
    · subst hj; exact ⟨at3.linked, at3.retry, at3.fallback, at3.option⟩
    · have := oth3 j hj
      exact ⟨this.linked, this.retry, this.fallback, this.option⟩
  have hturned : Turned (i :: order) s s3 := by
    refine ⟨or3, pe3, ru3.trans ap.2.1, cn3.trans ap.2.2, bl3, fun j hj => ?_, fun j => (hkeep j).1.trans (sh j).1,
      fun j => (hkeep j).2.1.trans (sh j).2.1, fun j => (hkeep j).2.2.1.trans (sh j).2.2,
      fun j => (hkeep j).2.2.2.trans (sr2.ctxOption j), fun j hj => ?_⟩
    · have hjk : j ≠ k := fun e => hj (e ▸ hmem)
      have e : s2.kids j = s.kids j := by rw [k2.others j hjk, ki1 j hj]
      have h1 := oth3 j hjk
      have h2 := due3 j
      unfold Children.Phase.due at h2 ⊢
      rw [e] at h1 h2
      exact ⟨h1, h2⟩
    · by_cases hjk : j = k
      · subst hjk
        have a := c2.at'
        have d := due3 j
        unfold Children.Phase.due at d
        rw [a.nextStates] at d
        refine ⟨fun x hx => ?_, d, at3.timer, at3.body ⟨a.body, a.queue, a.count, a.sentEom, a.skip⟩⟩
        rcases at3.next x hx with hx | hx
        · rw [a.nextStates] at hx; cases hx
        · exact hx
      · have e : s2.kids j = s1.kids j := k2.others j hjk
        have r : Ready (s1.kids j).ctx := rd1 j (by
          rw [← hsplit] at hj
          rcases List.mem_append.mp hj with hj | hj
          · exact hj
          · exact absurd (List.mem_singleton.mp hj) hjk)
        rw [← e] at r
        have o := oth3 j hjk
        have d := due3 j
        unfold Children.Phase.due at d
        rw [r.nextStates] at d
        refine ⟨fun x hx => ?_, d, o.timer.trans r.timer, o.body ⟨r.body, r.queue, r.count, r.sentEom, r.skip⟩⟩
        rcases o.next x hx with hx | hx
        · rw [r.nextStates] at hx; cases hx
        · exact hx
  refine ⟨s3, x, ?_, ?_, a3, ?_, ?_, ?_, hturned⟩
  · rw [quietly_append, quietly_append]
    exact run_trans (run_trans e1 e2) (run_one e3)
  · rw [m3, m2, m1]
  · intro j hj hlt hm
    have hjk : j ≠ k := by
      rintro rfl
      exact (List.nodup_cons.mp c1.nodup).1 hj
    refine ab3 j (by rw [k2.count, cn1]; exact hlt) hjk ?_
    have hjo : j ∉ i :: order := by
      intro e
      have hn := h.nodup
      rw [← List.cons_append] at hn
      exact (List.nodup_append.mp hn).2.2 j e j hj rfl
    rw [k2.others j hjk, ki1 j hjo]
    exact hm
  · intro j hj
    exact in3 j (by rw [k2.count, cn1]; exact hj)
  · rw [t3, t2, t1, k2.chunkSize, ch1, hd]
    rw [show stored s2 = (draft s2).body from rfl, hd]
    have hf : (i :: order).flatMap (fun j => ((role j).effective.filter isRecipientEdit).map Emit.reply) =
        (i :: order).dropLast.flatMap (fun j => ((role j).effective.filter isRecipientEdit).map Emit.reply) ++
          ((role k).effective.filter isRecipientEdit).map Emit.reply := by
      conv => lhs; rw [← hsplit]
      simp
    rw [hf]
    simp

/-- **C28**, a refusal: the milters from `i` on let the message pass, up to the last one of `order`, which refuses it (`answer`)
when it has made its requests; the milters `rest` are still to come.  The MTA is told the refusal and nothing
after it; those to come get no part of the message, and who follows it is told that it is over. -/
theorem C28_refusal_partial (n : Nat) (role : Nat → Role) (original : List Header) (order rest : List Nat)
    (s : Sys) (i : Nat) (answer : Reply) (h : Closing s i (order ++ rest)) (hfresh : s.replacedForEach = false)
    (horig : s.originalHeaders = some original) (hst : Passing (s.statuses .endOfMessage))
    (hans : (refusing answer).isSome = true)
    -- the one that refuses counts, and no code is left over from somebody else's refusal
    (hcounts : (s.kids ((i :: order).getLastD 0)).evaluation = false)
    (hcode : s.code = none ∨ ∃ a b c, answer = .replyCode a b c)
    (hrole : ∀ j ∈ i :: order, (role j).convert = converts s j ∧ (role j).counts = !(s.kids j).evaluation ∧
      ∀ r ∈ (role j).requests, isModification r = true)
    (hne : ∀ x ∈ relay role ((draft s).after (role i).convert (role i).effective) order,
      (St.header ∈ s.commandQueue → x.2.headers ≠ []) ∧ (St.body ∈ s.commandQueue → x.2.body ≠ []))
    (hnob : St.body ∉ s.commandQueue → ∀ j ∈ i :: order, ∀ r ∈ (role j).requests, replacement r = none) :
    ∃ cut : Bytes → List Bytes, (∀ b, IsCut s.chunkSize b (cut b)) ∧
    let to := deliveries cut (decide (St.header ∈ s.commandQueue)) (decide (St.body ∈ s.commandQueue)) s.eomChunk role
      ((draft s).after (role i).convert (role i).effective) order
    let k := (i :: order).getLastD 0
    let result := outcome role (draft s) (i :: order)
    ∃ s' aborts, run (n + 2) s (quietly (passing role i to ++ (role k).requests.map (.reply k ·) ++ [.reply k answer])) = some s' ∧
      commands s'.out = commands s.out ++ to.flatMap (fun x => x.2.map (x.1, ·)) ++ aborts ∧
      (∀ x ∈ aborts, x.2 = .abort) ∧
      (∀ j ∈ rest, j < s.count → Spec.Phase.inMessage (s.kids j) = true → (j, .abort) ∈ aborts) ∧
      (∀ j < s.count, Spec.Phase.inMessage (s'.kids j) = false) ∧
      told s'.out = told s.out ++ (i :: order).flatMap (fun j => ((role j).effective.filter isRecipientEdit).map .reply) ++
        changes original (cut result.body) result ++ [.reply answer] := by
  obtain ⟨s', x, h1, h2, h3, h4, h5, h6, -⟩ := refusal_runs n role original order rest s i answer h hfresh horig hst hans hcounts hcode hrole
    hne hnob
  exact ⟨pieces s.chunkSize, pieces_cut s.chunkSize h.chunkPos, s', x, h1, h2, h3, h4, h5, h6⟩

/-- **C28**: in the state `s` the answers to DATA are in, milter `i` is the first one and `order` are
the others that have the message to see.  The MTA sends the message `m`.  Whatever the milters ask
for, each milter is sent exactly the headers and the body as its predecessors left them, in this
order, one command after the other, and the next milter gets its first command only after the final
reply of the one before; at the end the MTA is told the changes all requests together amount to. -/
theorem C28_partial (n : Nat) (role : Nat → Role) (s : Sys) (i : Nat) (order : List Nat) (m : Message)
    (h : Opening s i order) (hst : Passing (s.statuses .endOfMessage))
    (hlen : ∀ c ∈ m.chunks, c.length ≤ 65535)
    (hrole : ∀ j ∈ i :: order, (role j).convert = converts s j ∧ (role j).counts = !(s.kids j).evaluation ∧
      ∀ r ∈ (role j).requests, isModification r = true)
    -- nobody removes all headers or the whole body
    (hne : ∀ x ∈ relay role (m.draft.after (role i).convert (role i).effective) order,
      (m.headers ≠ [] → x.2.headers ≠ []) ∧ (m.chunks ≠ [] → x.2.body ≠ []))
    -- a body is replaced only if there is one
    (hnob : m.chunks = [] → ∀ j ∈ i :: order, ∀ r ∈ (role j).requests, replacement r = none) :
    ∃ cut : Bytes → List Bytes, (∀ b, IsCut s.chunkSize b (cut b)) ∧
    let to := (i, m.first (role i).convert) ::
      deliveries cut (decide (m.headers ≠ [])) (decide (m.chunks ≠ [])) m.last role
        (m.draft.after (role i).convert (role i).effective) order
    let result := outcome role m.draft (i :: order)
    ∃ s', run (n + 2) s (quietly (m.arrives i ++ finishes i (role i) ++
        to.tail.flatMap fun x => turn x.1 (x.2.length - 1) (role x.1))) = some s' ∧
      commands s'.out = commands s.out ++ to.flatMap (fun x => x.2.map (x.1, ·)) ∧
      told s'.out = told s.out ++ List.replicate ((m.first (role i).convert).length - 1) (.reply .cont) ++
        (i :: order).flatMap (fun j => ((role j).effective.filter isRecipientEdit).map .reply) ++
        changes m.draft.headers (cut result.body) result ++ [.reply (verdict (s.statuses .endOfMessage) role (i :: order))] := by
  obtain ⟨s1, e1, c1, st, d1, o1, l1, f1, qh, qb, m1, t1, -⟩ := intake (n := n + 1) m h (by rw [Enc.chunkSize_eq]; exact hlen)
  have e3 : decide (St.header ∈ s1.commandQueue) = decide (m.headers ≠ []) := by simp only [qh]
  have e4 : decide (St.body ∈ s1.commandQueue) = decide (m.chunks ≠ []) := by simp only [qb]
  obtain ⟨cut, hcut, s2, e2, m2, t2⟩ := C28_chain_partial n role m.draft.headers order s1 i c1 f1 o1
    (by rw [st.status]; exact hst)
    (by
      intro j hj
      rw [st.roles.converts, st.roles.evaluation]
      exact hrole j hj)
    (by
      intro x hx
      rw [d1] at hx
      rw [qh, qb]
      exact hne x hx)
    (by
      intro hb
      exact hnob (by rw [qb] at hb; simpa using hb))
  rw [d1, l1, e3, e4] at e2 m2
  rw [d1, st.status] at t2
  have hc := (hrole i (by simp)).1
  refine ⟨cut, by rw [st.chunkSize] at hcut; exact hcut, s2, ?_, ?_, ?_⟩
  · have := run_trans e1 e2
    rw [← quietly_append] at this
    simpa using this
  · rw [m2, m1, ← hc]
    simp
  · rw [t2, t1, ← hc]

namespace Cases

/-- up to the answers to DATA, the second of three milters knowing about leading spaces -/
def spacedSession : List Event :=
  negotiation 3 (fun i => ⟨6, 0x1ff, if i = 1 then 0x100000 else 0⟩) ++ [.connect [] .unspec] ++ answers 3 ++
  [.envelopeFrom [1]] ++ answers 3 ++ [.envelopeRecipient [2]] ++ answers 3 ++ [.data] ++ answers 3

/-- what the three milters do -/
def editing : Nat → Role
  | 0 => ⟨true, true, [.addHeader [5] [6], .changeHeader [3] 1 [7], .replaceBody [1, 2, 3], .replaceBody [4, 5]], true⟩
  | 1 => ⟨false, false, [.deleteHeader [3] 1, .addRecipient [8] none], false⟩
  | _ => ⟨true, true, [.deleteRecipient [2], .changeFrom [9] none, .quarantine [1]], true⟩

def letter : Message := ⟨[([3], [0x20, 4]), ([4], [5])], [[9, 9], [8]], [7]⟩

end Cases

open Cases

example (s : Sys) (i : Nat) (rest : List Nat) (h : openingB s i rest = true) : Opening s i rest := openingB_opening h

/-- three milters, the second one in evaluation mode; the hypotheses of `C28_partial` are met -/
example : ((run 20 (init [{}, { evaluation := true }, {}] 2) (plain spacedSession)).any fun s =>
    openingB s 0 [1, 2] && decide (s.statuses .endOfMessage = .notChange) &&
    [0, 1, 2].all (fun j => decide ((editing j).convert = converts s j) &&
      decide ((editing j).counts = !(s.kids j).evaluation) && (editing j).requests.all isModification)) = true ∧
    (∀ x ∈ relay editing (letter.draft.after (editing 0).convert (editing 0).effective) [1, 2],
      (letter.headers ≠ [] → x.2.headers ≠ []) ∧ (letter.chunks ≠ [] → x.2.body ≠ [])) ∧
    (letter.chunks = [] → ∀ j ∈ [0, 1, 2], ∀ r ∈ (editing j).requests, replacement r = none) := by
  refine ⟨by decide +kernel, ?_, fun h => nomatch h⟩
  decide +kernel

/-- the first of three milters rejects the message: when the message is in, the hypotheses of `C28_refusal_partial` are met (`intake`
leads from `Opening` to `Closing`), the second and the third have it still to see, -/
example : ((run 20 (init [{}, { evaluation := true }, {}] 2) (plain spacedSession)).any fun s =>
    openingB s 0 ([] ++ [1, 2]) && decide (s.statuses .endOfMessage = .notChange) && !(s.kids 0).evaluation && decide (s.code = none) &&
    [1, 2].all fun j => Spec.Phase.inMessage (s.kids j)) = true ∧ (refusing .reject).isSome = true := by
  refine ⟨by decide +kernel, rfl⟩

/-- and are told to abort; the MTA is told the changes and then the refusal -/
example : ((run 20 (init [{}, { evaluation := true }, {}] 2) (plain (spacedSession ++ letter.arrives 0))).any fun s =>
    (run 20 s (plain ([.reply 0 (.addHeader [5] [6])] ++ [.reply 0 .reject]))).any fun s' =>
      decide (told (s'.out.drop s.out.length) = [.edit (.insert 2 [5] (some [0x20, 6])), .reply .reject]) &&
      decide (commands (s'.out.drop s.out.length) = [(1, .abort), (2, .abort)])) = true := by
  decide +kernel

/-- what the third of them gets, and what the MTA is told -/
example : (deliveries (fun b => [b]) true true letter.last editing
      (letter.draft.after (editing 0).convert (editing 0).effective) [1, 2]).getLast? =
      some (2, [.header [3] [7], .header [4] [5], .header [5] [6], .endOfHeader, .body [1, 2, 3, 4, 5], .endOfMessage [7]]) ∧
    changes letter.draft.headers [[1, 2], [3, 4], [5]] (outcome editing letter.draft [0, 1, 2]) =
      [.reply (.replaceBody [1, 2]), .reply (.replaceBody [3, 4]), .reply (.replaceBody [5]),
       .edit (.change [3] 1 (some [0x20, 7])), .edit (.insert 2 [5] (some [0x20, 6])), .reply (.changeFrom [9] none), .reply (.quarantine [1])] := by
  decide +kernel

namespace Cases

/-- a message of one header and a piece of body, up to its end, as milter 0 gets it -/
def content : List Event := Message.arrives ⟨[([3], [4])], [[9]], []⟩ 0

/-- what happens to a message in a session with `k` milters when these things follow -/
def after (k chunkSize : Nat) (es : List Event) (p : List Out → Bool) : Bool :=
  (run 20 (init (List.replicate k {}) chunkSize) (plain (upToData k ++ content))).any fun s =>
    (run 20 s (plain es)).any fun s' => p (s'.out.drop s.out.length)

end Cases

/-- **C28 fails**: the first milter replaces the body by an empty one; the second one gets the
headers and then nothing.  The MTA is told to continue in its place. -/
theorem C28_empty_body_violated :
    after 2 4 [.reply 0 (.replaceBody []), .reply 0 .cont, .flushed 1, .reply 1 .cont, .flushed 1, .reply 1 .cont] (fun out =>
      decide (commands out = [(1, .header [3] [4]), (1, .endOfHeader)]) && decide (told out = [.reply .cont])) = true := by
  decide +kernel

/-- **C28 fails**: the first milter deletes the only header; the second one gets nothing, and the MTA
no answer. -/
theorem C28_no_header_violated :
    after 2 4 [.reply 0 (.deleteHeader [3] 1), .reply 0 .cont] (fun out =>
      decide (commands out = []) && decide (told out = [])) = true := by
  decide +kernel

/-- **C28 fails**: a message without a body gets one from the first milter, and another one from the
second; the MTA is told the two together. -/
theorem C28_two_bodies_violated :
    ((run 20 (init [{}, {}] 4) (plain (upToData 2 ++ Message.arrives ⟨[([3], [4])], [], []⟩ 0))).any fun s =>
      (run 20 s (plain ([.reply 0 (.replaceBody [1]), .reply 0 .cont] ++ turn 1 2 ⟨true, true, [.replaceBody [2]], false⟩))).any fun s' =>
        decide (told (s'.out.drop s.out.length) = [.reply (.replaceBody [1, 2]), .reply .cont])) = true := by
  decide +kernel

/-- **C28 fails**: the first milter says continue once more after it has finished with the message;
the second one, which is busy with the first header, is given up, and the MTA is told to continue. -/
theorem C28_twice_violated :
    ((run 20 (init [{}, {}] 4) (plain (upToData 2 ++ content ++ [.reply 0 .cont, .flushed 1]))).any fun s =>
      !isQuitted s 1 && (run 20 s (plain [.reply 0 .cont])).any fun s' =>
        isQuitted s' 1 && decide (told (s'.out.drop s.out.length) = [.reply .cont])) = true := by
  decide +kernel

/-! ## C29 -/

def bodyOf : Cmd → Option Bytes
  | .body b => some b
  | _ => none

/-- the pieces of a body among commands -/
def bodies (cs : List (Nat × Cmd)) : List Bytes := cs.filterMap fun x => bodyOf x.2

theorem stored_eq (s : Sys) : storedBody s = stored s := by
  unfold storedBody stored
  cases s.body with
  | some b => rfl
  | none => cases s.bodyFile <;> rfl

/-- **C29**: the body the MTA sends is what is stored, in whatever pieces it comes and however long it is. -/
theorem C29_kept_partial (n : Nat) (s : Sys) (i : Nat) (rest : List Nat) (m : Message) (h : Opening s i rest)
    (hlen : ∀ c ∈ m.chunks, c.length ≤ 65535) :
    ∃ s', run (n + 1) s (quietly (m.arrives i)) = some s' ∧ Closing s' i rest ∧ storedBody s' = m.chunks.flatten := by
  obtain ⟨s1, e1, c1, st, d1, -⟩ := intake (n := n) m h (by rw [Enc.chunkSize_eq]; exact hlen)
  exact ⟨s1, e1, c1, (stored_eq s1).trans (congrArg Draft.body d1)⟩

/-- **C29**: when milter `i` has finished, milter `j` is sent the body, in memory or in a file, in pieces that make
it up and are not longer than the chunk size. -/
theorem C29_partial (n : Nat) (s : Sys) (i j : Nat) (rest : List Nat) (h : Closing s i (j :: rest))
    (hq : St.body ∈ s.commandQueue) (hb : storedBody s ≠ []) (hh : St.header ∈ s.commandQueue → s.headers ≠ some []) :
    ∃ k s' new, run (n + 2) s (quietly (.reply i .cont :: ((List.replicate k [.flushed j, .reply j .cont]).flatten ++ [.flushed j]))) =
        some s' ∧ commands s'.out = commands s.out ++ new ∧ (∀ x ∈ new, x.1 = j) ∧
      (bodies new).flatten = storedBody s ∧ (∀ b ∈ bodies new, b ≠ [] ∧ b.length ≤ s.chunkSize) ∧
      new.getLast? = some (j, .endOfMessage s.eomChunk) := by
  rw [stored_eq] at hb ⊢
  obtain ⟨s2, e2, c2, f2, m2, -⟩ := delivery (n := n) false h (Or.inl hq) hh (fun _ => hb)
  have hcut := pieces_cut s.chunkSize h.chunkPos (stored s)
  have hbody : bodies ((plan s j).map (j, ·)) = pieces s.chunkSize (stored s) := by
    rw [plan_eq _ _ h.queue, decide_eq_true hq]
    have e1 : ∀ (c : Bool) (l : List Header), (l.map fun h => Cmd.header h.name (unspaced c (h.value.getD []))).filterMap bodyOf = [] := by
      intro c l
      simp [bodyOf]
    have e2 : ∀ l : List Bytes, (l.map Cmd.body).filterMap bodyOf = l := by
      intro l
      simp [List.filterMap_map, Function.comp_def, bodyOf]
    unfold bodies chain
    rw [List.filterMap_map]
    show List.filterMap bodyOf _ = _
    rw [List.filterMap_append, List.filterMap_cons, if_pos rfl, List.filterMap_append, e2]
    have e3 : (if decide (St.header ∈ s.commandQueue) = true then
          List.map (fun h => Cmd.header h.name (unspaced (converts s j) (h.value.getD []))) (draft s).headers
        else []).filterMap bodyOf = [] := by
      split
      · exact e1 _ _
      · rfl
    rw [e3]
    simp [bodyOf]
  refine ⟨_, s2, _, e2, m2, by simp, ?_, ?_, ?_⟩
  · rw [hbody]; exact hcut.whole
  · rw [hbody]; exact hcut.sizes
  · rw [plan_eq _ _ h.queue]
    unfold chain
    rw [← List.cons_append, ← List.append_assoc, List.map_append, List.getLast?_append]
    rfl

/-- a body of five bytes is stored, the chunk size is two, milter 1 is still to come -/
example : ((run 20 (init [{}, {}] 2) (plain (upToData 2))).any fun s =>
    openingB s 0 [1] && (run 20 s (quietly (Message.arrives ⟨[([3], [4])], [[9, 8, 7], [6, 5]], []⟩ 0))).any fun s' =>
      decide (storedBody s' = [9, 8, 7, 6, 5]) && decide (St.body ∈ s'.commandQueue) && decide (s'.headers ≠ some [])) = true := by
  decide +kernel

/-- it might as well be in a file -/
example (s : Sys) (i : Nat) (rest : List Nat) (b : Bytes) (h : Closing s i rest) (hr : s.replacedForEach = false) :
    Closing { s with body := none, bodyFile := some (b, 0) } i rest ∧
      storedBody { s with body := none, bodyFile := some (b, 0) } = b :=
  ⟨⟨h.oracle, h.linked, h.at', h.state, h.waiting, h.nodup, h.chunkPos, h.chunkMax, h.option, h.headers, h.queue,
    (fun hf => by rw [show s.replacedForEach = true from hf] at hr; cases hr), h.emitted, h.others⟩, rfl⟩

/-- **C29 fails**: a chunk size of 0 can be configured; the next milter is sent empty pieces one after
the other and nothing of the body. -/
theorem C29_zero_violated :
    after 2 0 ([.reply 0 .cont] ++ (List.replicate 7 [.flushed 1, .reply 1 .cont]).flatten) (fun out =>
      decide (commands out = [(1, .header [3] [4]), (1, .endOfHeader)] ++ List.replicate 6 (1, .body []))) = true := by
  decide +kernel

end Verif.Props
