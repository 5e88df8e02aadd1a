import Verif.Manager.ChildrenEarly
import Verif.Manager.ChildrenRefusal
/-
A milter refuses a message before its end.
-/
namespace Verif.Children
open Verif
open Verif.Server (St)
open Verif.Spec.Children
open Verif.Spec.Early

theorem reaches_run {n : Nat} {convert : Nat → Bool} {cut : Bytes → List Bytes} {a : Arrived} {i j : Nat} {rest later : List Nat}
    {es : List Event} {cs : List (Nat × Cmd)} (hl : Reaches convert cut a i rest es cs j later) :
    ∀ {s : Sys} {st : St}, Holding s i st rest a → converts s = convert → pieces s.chunkSize = cut →
    ∃ s' st', run (n + 2) s (quietly es) = some s' ∧ Holding s' j st' later a ∧ Moved s s' ∧ commands s'.out = commands s.out ++ cs ∧
      told s'.out = told s.out ∧ (∃ front, i :: rest = front ++ j :: later) ∧
      (∀ k, k ∉ i :: rest → s'.kids k = s.kids k) ∧ (∀ k ∈ later, s'.kids k = s.kids k) ∧ ∀ k ∈ i :: rest, k ∉ j :: later → Aside s' k := by
  induction hl with
  | here =>
    intro s st h _ _
    exact ⟨s, st, rfl, h, .refl s, by simp, rfl, ⟨[], rfl⟩, fun _ _ => rfl, fun _ _ => rfl, fun k hk hk' => absurd hk hk'⟩
  | @leaves i k j rest later got others es cs gets something next ih =>
    intro s st h hc hp
    obtain ⟨s1, st1, e1, h1, g1, r1, m1, c1, t1, k1, rd1, pm1⟩ := accept_leaves (n := n) h (cs := got) (ds := others)
      (by rw [hc, hp]; exact gets) something
    obtain ⟨s2, st2, e2, h2, m2, c2, t2, ⟨front, hf⟩, k2, l2, a2⟩ := ih h1 (by rw [m1.converts]; exact hc) (by rw [m1.chunkSize]; exact hp)
    have hnd := List.nodup_cons.mp h.giving.nodup
    refine ⟨s2, st2, ?_, h2, m1.trans m2, by rw [c2, c1, List.append_assoc], by rw [t2, t1], ⟨i :: front, by rw [hf]; rfl⟩, fun x hx => ?_,
      fun x hx => ?_, fun x hx hx' => ?_⟩
    · rw [quietly_append]
      exact run_trans e1 e2
    · have hxi : x ≠ i := fun e => hx (by simp [e])
      have hxk : x ∉ k :: rest := fun e => hx (List.mem_cons_of_mem _ e)
      rw [k2 x hxk, k1 x hxi (fun e => hxk (by simp [e]))]
    · have hin : x ∈ k :: rest := by rw [hf]; simp [hx]
      have hxi : x ≠ i := by rintro rfl; exact hnd.1 hin
      have hxk : x ≠ k := later_ne hnd.2 hf hx
      rw [l2 x hx, k1 x hxi hxk]
    · rcases List.mem_cons.mp hx with rfl | hx
      · unfold Aside
        rw [k2 x hnd.1]
        exact ⟨rd1, pm1⟩
      · exact a2 x hx hx'

/-- a refusal counts more than what passes -/
theorem compile_refusing {c v : Status} {r : Reply} (hr : refusing r = some v) (h : isRefused c = false) : Status.compile c v = v := by
  have : v = .reject ∨ v = .temporaryFailure ∨ v = .discard := by
    cases r <;> first | (simp [refusing] at hr; done) | skip
    case replyCode c x m =>
      simp only [refusing] at hr
      split at hr
      · cases hr; simp
      · split at hr
        · cases hr; simp
        · cases hr
    all_goals
      cases hr
      simp
  rcases this with rfl | rfl | rfl <;> cases c <;> first | rfl | cases h

/-- parts of a message are read, and then one is refused -/
theorem early_refusal {n i j k : Nat} {rest rest' later : List Nat} {s : Sys} {ps : List Part} {p : Part} {es es' : List Event}
    {cs cs' : List (Nat × Cmd)} {answer : Reply}
    (h : Opening s i rest) (hc : Crew s rest) (hr : Reads (converts s) (pieces s.chunkSize) {} i rest ps es cs j rest')
    (hp : (ps.foldl Arrived.add {}).allows p)
    (hl : Reaches (converts s) (pieces s.chunkSize) ((ps.foldl Arrived.add {}).add p) j rest' es' cs' k later)
    (hans : (refusing answer).isSome = true) (hst : ∀ st, isRefused (s.statuses st) = false)
    (hcounts : (s.kids k).evaluation = false) (hcode : s.code = none ∨ ∃ a b c, answer = .replyCode a b c) :
    ∃ s' x, run (n + 2) s (quietly (es ++ [p.event, .flushed j] ++ es' ++ [.reply k answer])) = some s' ∧
      commands s'.out = commands s.out ++ cs ++ [(j, p.command (converts s j))] ++ cs' ++ x ∧
      (∀ y ∈ x, y.2 = .abort) ∧
      (∀ y ∈ later, Spec.Phase.inMessage (s.kids y) = true → (y, .abort) ∈ x) ∧
      (∀ y < s.count, Spec.Phase.inMessage (s'.kids y) = false) ∧
      told s'.out = told s.out ++ List.replicate ps.length (.reply .cont) ++ [.reply answer] ∧
      ∃ u st, Refusal k u s' x ∧ Moved s u ∧ At (u.kids k).ctx st ∧ k ∈ i :: rest ∧ (∀ y, y ∉ i :: rest → u.kids y = s.kids y) ∧
        (∀ y ∈ later, u.kids y = s.kids y) ∧ ∀ y ∈ i :: rest, y ∉ k :: later → Aside u y := by
  obtain ⟨s1, e1, h1, m1, c1, t1, ⟨f1, hf1⟩, k1, a1, l1⟩ := reads_run (n := n) hr (h.reading hc) rfl rfl
  obtain ⟨s2, _, e2, h2, _, st2, c2, t2⟩ := read_part (n := n + 1) h1 hp
  have m12 := m1.trans st2.moved
  obtain ⟨s3, st3, e3, h3, m3, c3, t3, ⟨f3, hf3⟩, k3, l3, a3⟩ := reaches_run (n := n) hl h2 m12.converts (by rw [m12.chunkSize])
  have m123 := m12.trans m3
  obtain ⟨v, hv⟩ := Option.isSome_iff_exists.mp hans
  have cnt : s3.count = s.count := by
    have := m123.roles.apart
    simp only [Prod.mk.injEq] at this
    exact this.2.2
  have hst3 : isRefused (s3.statuses st3) = false := by
    have : refused s3 st3 = refused s st3 := by rw [m123.refused]
    unfold refused at this
    rw [this]
    exact hst st3
  obtain ⟨s4, x, e4, r4, t4⟩ := refusing_event (n := n) (original := []) h3.giving (Or.inl ⟨h3.known, h3.message.1⟩)
    (fun he => by
      have hg := h3.got
      rw [he, h3.queue] at hg
      unfold arrivedQueue at hg
      exfalso
      revert hg
      generalize Arrived.add (List.foldl Arrived.add {} ps) p = b
      by_cases h1 : b.headers = [] <;> by_cases h2 : b.chunks = [] <;> cases b.ended <;> simp [h1, h2]) hv
    (by rw [m123.roles.evaluation]; exact hcounts) (compile_refusing hv hst3)
    (by rw [m123.code]; exact hcode)
  have hne : st3 ≠ .endOfMessage := by
    intro he
    have hg := h3.got
    rw [he, h3.queue] at hg
    unfold arrivedQueue at hg
    revert hg
    generalize Arrived.add (List.foldl Arrived.add {} ps) p = b
    by_cases h1 : b.headers = [] <;> by_cases h2 : b.chunks = [] <;> cases b.ended <;> simp [h1, h2]
  have hlater : ∀ y ∈ later, s3.kids y = s.kids y := by
    intro y hy
    have hy' : y ∈ rest' := by
      cases f3 with
      | nil =>
        simp only [List.nil_append, List.cons.injEq] at hf3
        rw [hf3.2]; exact hy
      | cons z f3 => exact later_mem h2.giving.nodup hf3 hy
    have hyj : y ≠ j := by rintro rfl; exact (List.nodup_cons.mp h1.taking.nodup).1 hy'
    rw [l3 y hy, st2.others y hyj, l1 y hy']
  have hsub : ∀ y ∈ j :: rest', y ∈ i :: rest := by intro y hy; rw [hf1]; exact List.mem_append_right _ hy
  refine ⟨s4, x, ?_, ?_, r4.only, fun y hy hm => ?_, fun y hy => r4.over y (by rw [cnt]; exact hy), ?_,
    s3, st3, r4, m123, h3.giving.at', hsub k (by rw [hf3]; simp), fun y hy => ?_, hlater, fun y hy hy' => ?_⟩
  · rw [quietly_append, quietly_append, quietly_append]
    exact run_trans (run_trans (run_trans e1 e2) e3) (run_one e4)
  · rw [r4.commands, c3, c2, c1, m1.converts]
  · have hyk : y ≠ k := by rintro rfl; exact (List.nodup_cons.mp h3.giving.nodup).1 hy
    refine r4.aborted y (h3.crew y hy).1 hyk ?_
    rw [hlater y hy]
    exact hm
  · rw [t4, if_neg hne, t3, t2, t1]
    simp
  · rw [k3 y (fun e => hy (hsub y e)), st2.others y (fun e => hy (hsub y (by simp [e]))), k1 y hy]
  · by_cases hin : y ∈ j :: rest'
    · exact a3 y hin hy'
    · unfold Aside
      rw [k3 y hin, st2.others y (fun e => hin (by simp [e]))]
      exact a1 y hy hin

end Verif.Children
