import Verif.Manager.DetectorRc
import Verif.Spec.DetectorRc
import Verif.Props.Systemd
/-
C135 and C136: milters on Debian without systemd, and on FreeBSD.
-/
namespace Verif.Props.Detector
open Verif Verif.Detector Spec.Detector Spec.DetectorRc

/-! ### values -/

theorem fine_no_dollar {q : Quote} {v : Bytes} (h : FineValue q v) : 0x24 ∉ v := by
  intro hm
  cases q with
  | no => exact (h.2 _ hm).2 (by decide)
  | double => exact h _ hm (by decide)
  | single => exact h _ hm (by decide)

theorem fine_no_feed {q : Quote} {v : Bytes} (h : FineValue q v) : 0x0a ∉ q.print v := by
  have hv : 0x0a ∉ v := by
    intro hm
    cases q with
    | no => exact (h.2 _ hm).1 (by decide)
    | double => exact h _ hm (by decide)
    | single => exact h _ hm (by decide)
  cases q <;> simp [Quote.print, hv]

theorem fine_no_equals {q : Quote} {v : Bytes} (h : FineValue q v) : 0x3d ∉ q.print v := by
  have hv : 0x3d ∉ v := by
    intro hm
    cases q with
    | no => exact (h.2 _ hm).2 (by decide)
    | double => exact h _ hm (by decide)
    | single => exact h _ hm (by decide)
  cases q <;> simp [Quote.print, hv]

theorem fine_not_empty {q : Quote} {v : Bytes} (h : FineValue q v) : q.print v ≠ [] := by
  cases q with
  | no => exact h.1
  | double => simp [Quote.print]
  | single => simp [Quote.print]

theorem positional_no (v : Bytes) (h : 0x24 ∉ v) : positional v = false := by
  cases v with
  | nil => rfl
  | cons c s =>
    have : c ≠ 0x24 := fun e => h (e ▸ List.mem_cons_self ..)
    simp [positional, this]

/-- a fine value means itself, whatever is set -/
theorem normalize_fine {q : Quote} {v : Bytes} (h : FineValue q v) (self : Option Bytes) (vars : Vars) :
    normalize self vars (q.print v) = some v := by
  have hd := fine_no_dollar h
  have hu : unquote (q.print v) = v := by
    cases q with
    | no =>
      refine unquote_plain v fun c hc => ?_
      have hm := h.2 c (List.mem_of_mem_head? hc)
      exact ⟨fun e => hm.2 (by rw [e]; decide), fun e => hm.2 (by rw [e]; decide)⟩
    | double => exact unquote_quoted 0x22 (Or.inl rfl) v fun hm => h _ hm (by decide)
    | single => exact unquote_quoted 0x27 (Or.inr rfl) v fun hm => h _ hm (by decide)
  have he := expand_text (lookup self vars) v [] hd
  unfold normalize
  dsimp only
  rw [hu, positional_no v hd]
  rw [List.append_nil] at he
  rw [if_neg (by simp), he]
  simp [expand]

theorem rcNormalize_fine {q : Quote} {v : Bytes} (h : FineValue q v) (self : Option Bytes) (other vars : Vars) :
    rcNormalize self other vars (q.print v) = some v := normalize_fine h _ _

/-! ### rc.conf -/

theorem splitLast_none : ∀ (w seen : Bytes), 0x3d ∉ w → splitLast seen w = none := by
  intro w
  induction w with
  | nil => intros; rfl
  | cons c s ih =>
    intro seen h
    have hc : c ≠ 0x3d := fun e => h (e ▸ List.mem_cons_self ..)
    unfold splitLast
    rw [ih _ fun hm => h (List.mem_cons_of_mem _ hm)]
    simp [hc]

theorem splitLast_one : ∀ (k seen w : Bytes), 0x3d ∉ w → w ≠ [] → (seen ≠ [] ∨ k ≠ []) →
    splitLast seen (k ++ 0x3d :: w) = some (seen.reverse ++ k, w) := by
  intro k
  induction k with
  | nil =>
    intro seen w hw h0 hs
    have hs : seen ≠ [] := hs.resolve_right (· rfl)
    rw [List.nil_append]
    unfold splitLast
    rw [splitLast_none w _ hw]
    simp [hs, h0]
  | cons c k ih =>
    intro seen w hw h0 _
    rw [List.cons_append]
    unfold splitLast
    rw [ih (c :: seen) w hw h0 (Or.inl (by simp))]
    simp

theorem takeWhile_feed (l r : Bytes) (h : 0x0a ∉ l) : (l ++ 0x0a :: r).takeWhile (· ≠ 0x0a) = l :=
  (takeWhile_stop (p := fun c => decide (c ≠ 0x0a)) l
    (fun c hc => by simpa using fun e : c = 0x0a => h (e ▸ hc)) 0x0a (by decide) r).1

/-- a text without a byte is the beginning of a text up to that byte -/
theorem isPrefix_stop {p n r : Bytes} {x : UInt8} (hp : x ∉ p) (h : p <+: n ++ x :: r) : p <+: n := by
  induction p generalizing n with
  | nil => exact List.nil_prefix
  | cons c p ih =>
    cases n with
    | nil =>
      rw [List.nil_append] at h
      have := List.cons_prefix_cons.mp h
      exact absurd (this.1 ▸ List.mem_cons_self ..) hp
    | cons d n =>
      rw [List.cons_append] at h
      have := List.cons_prefix_cons.mp h
      exact List.cons_prefix_cons.mpr ⟨this.1, ih (fun hm => hp (List.mem_cons_of_mem _ hm)) this.2⟩

theorem name_no_equals {n : Bytes} (h : Name n) : 0x3d ∉ n := name_bytes h _ (by decide)

theorem name_no_feed {n : Bytes} (h : Name n) : 0x0a ∉ n := name_bytes h _ (by decide)

theorem own_no_equals {p : Bytes} (h : Name p) : 0x3d ∉ p ++ [0x5f] := by
  simp [name_no_equals h]

/-- a line that sets a variable of the milter -/
theorem rcSetting_own {p k : Bytes} {q : Quote} {v : Bytes} (hk : k ≠ []) (hk' : 0x0a ∉ k) (hv : FineValue q v) :
    rcSetting p (ConfLine.print (.set (p ++ [0x5f] ++ k) q v)) = some (k, q.print v) := by
  have e : ConfLine.print (.set (p ++ [0x5f] ++ k) q v) = (p ++ [0x5f]) ++ (k ++ 0x3d :: q.print v ++ [0x0a]) := by
    simp [ConfLine.print]
  unfold rcSetting
  rw [e, if_pos (by simp)]
  have : ((p ++ [0x5f]) ++ (k ++ 0x3d :: q.print v ++ [0x0a])).drop (p.length + 1) = k ++ 0x3d :: q.print v ++ [0x0a] := by
    rw [List.drop_append_of_le_length (by simp)]; simp
  rw [this, takeWhile_feed _ _ (by simp [hk', fine_no_feed hv]),
    splitLast_one k [] _ (fine_no_equals hv) (fine_not_empty hv) (Or.inr hk)]
  rfl

/-- a line that sets something else -/
theorem rcSetting_other {p n : Bytes} {q : Quote} {v : Bytes} (hp : Name p) (hv : FineValue q v)
    (h : ∀ k, k ≠ [] → n ≠ p ++ [0x5f] ++ k) (hn : 0x0a ∉ n) :
    rcSetting p (ConfLine.print (.set n q v)) = none := by
  have e : ConfLine.print (.set n q v) = n ++ 0x3d :: (q.print v ++ [0x0a]) := by simp [ConfLine.print]
  unfold rcSetting
  split
  · rename_i hh
    rw [e] at hh
    obtain ⟨k, hk⟩ := isPrefix_stop (own_no_equals hp) (List.isPrefixOf_iff_prefix.mp hh)
    have k0 : k = [] := Classical.byContradiction fun hne => h k hne hk.symm
    subst k0
    rw [List.append_nil] at hk
    rw [e, ← hk, List.drop_append_of_le_length (by simp)]
    have : (p ++ [0x5f]).drop (p.length + 1) = [] := by simp
    rw [this, List.nil_append]
    have : (0x3d :: (q.print v ++ [0x0a]) : Bytes) = (0x3d :: q.print v) ++ 0x0a :: [] := rfl
    rw [this, takeWhile_feed _ _ (by simp [fine_no_feed hv])]
    unfold splitLast
    rw [splitLast_none _ _ (fine_no_equals hv)]
    simp
  · rfl

theorem rcSetting_head {p : Bytes} (hp : Name p) (c : UInt8) (s : Bytes) (hc : ¬Word c) : rcSetting p (c :: s) = none := by
  unfold rcSetting
  split
  · rename_i hh
    obtain ⟨d, t, rfl⟩ : ∃ d t, p = d :: t := by
      cases p with
      | nil => exact absurd rfl hp.1
      | cons d t => exact ⟨d, t, rfl⟩
    have := List.cons_prefix_cons.mp (List.isPrefixOf_iff_prefix.mp hh)
    exact absurd (this.1 ▸ hp.2.1 d (List.mem_cons_self ..)) hc
  · rfl

theorem confLine_end (l : ConfLine) (h : l.Fine) : ∃ b, l.print = b ++ [0x0a] ∧ 0x0a ∉ b := by
  cases l with
  | blank => exact ⟨[], rfl, by simp⟩
  | comment t => exact ⟨[0x23] ++ t, rfl, by simp [show 0x0a ∉ t from h]⟩
  | set n q v => exact ⟨n ++ [0x3d] ++ q.print v, rfl, by simp [name_no_feed h.1, fine_no_feed h.2]⟩

/-- a file of settings gives every variable of the milter its last value -/
theorem rcConf_fine (self : Option Bytes) (p : Bytes) (hp : Name p) (other : Vars) (k : Bytes) (hk : k ≠ []) :
    ∀ (ls : List ConfLine) (vars : Vars), (∀ l ∈ ls, l.Fine) →
      rcConf self p other (printConf ls) vars k = (lastSet (p ++ [0x5f] ++ k) ls).or (vars k) := by
  intro ls
  induction ls with
  | nil => intros; rfl
  | cons l ls ih =>
    intro vars h
    have hl := h l (List.mem_cons_self ..)
    obtain ⟨b, hb, h0⟩ := confLine_end l hl
    have e : printConf (l :: ls) = l.print ++ printConf ls := rfl
    have ih' := fun vars => ih vars fun l' hl' => h l' (List.mem_cons_of_mem _ hl')
    unfold rcConf
    rw [e, hb, eachLine_cons b h0, ← hb, List.foldl_cons]
    refine (ih' _).trans ?_
    cases l with
    | blank =>
      rw [show rcSetting p (ConfLine.print .blank) = none from rcSetting_head hp _ _ (by decide)]
      rfl
    | comment t =>
      rw [show rcSetting p (ConfLine.print (.comment t)) = none from rcSetting_head hp _ _ (by decide)]
      rfl
    | set n q v =>
      by_cases hn : ∃ k', k' ≠ [] ∧ n = p ++ [0x5f] ++ k'
      · obtain ⟨k', hk', rfl⟩ := hn
        have hf : 0x0a ∉ k' := fun hm => name_no_feed hl.1 (List.mem_append_right _ hm)
        rw [rcSetting_own hk' hf hl.2]
        dsimp only
        rw [rcNormalize_fine hl.2]
        by_cases hkk : k = k'
        · subst hkk
          simp only [lastSet, if_pos]
          cases lastSet (p ++ [0x5f] ++ k) ls <;> rfl
        · have : ¬p ++ [0x5f] ++ k' = p ++ [0x5f] ++ k := fun e => hkk (List.append_cancel_left e).symm
          simp only [lastSet, if_neg this, if_neg hkk]
      · have hno : ∀ k', k' ≠ [] → n ≠ p ++ [0x5f] ++ k' := fun k' h0 e => hn ⟨k', h0, e⟩
        rw [rcSetting_other hp hl.2 hno (name_no_feed hl.1)]
        dsimp only
        simp only [lastSet, if_neg (hno k hk)]

/-! ### the script -/

theorem scriptLine_end (p : Bytes) (hp : Name p) (l : ScriptLine) (h : l.Fine p) : ∃ b, l.print p = b ++ [0x0a] ∧ 0x0a ∉ b := by
  cases l with
  | comment t => exact ⟨[0x23] ++ t, rfl, by simp [show 0x0a ∉ t from h.1]⟩
  | command t => exact ⟨t, rfl, h.1⟩
  | assign n q v => exact ⟨n ++ [0x3d] ++ q.print v, rfl, by simp [name_no_feed h.1, fine_no_feed h.2.1]⟩
  | default k s q v =>
    refine ⟨ascii ": ${" ++ p ++ [0x5f] ++ k ++ s.print ++ q.print v ++ [0x7d], by simp [ScriptLine.print], ?_⟩
    have h1 : (0x0a : UInt8) ∉ ascii ": ${" := by decide
    have h2 : (0x0a : UInt8) ∉ s.print := by cases s <;> decide
    simp only [List.mem_append, not_or, List.mem_singleton]
    exact ⟨⟨⟨⟨⟨⟨h1, name_no_feed hp⟩, by decide⟩, name_no_feed h.1⟩, h2⟩, fine_no_feed h.2⟩, by decide⟩

theorem assigned_self (key : Bytes) (w : Bytes) (h0 : w ≠ []) (hw : 0x0a ∉ w) :
    assigned key (key ++ [0x3d] ++ w ++ [0x0a]) = some w := by
  have e : key ++ [0x3d] ++ w ++ [0x0a] = (key ++ [0x3d]) ++ (w ++ 0x0a :: []) := by simp
  unfold assigned
  rw [e, if_pos (by simp)]
  have : ((key ++ [0x3d]) ++ (w ++ 0x0a :: [])).drop (key.length + 1) = w ++ 0x0a :: [] := by
    rw [List.drop_append_of_le_length (by simp)]; simp
  rw [this, takeWhile_feed _ _ hw]
  dsimp only
  rw [if_neg h0]

theorem assigned_other (key n r : Bytes) (hk : 0x3d ∉ key) (hn : 0x3d ∉ n) (h : n ≠ key) :
    assigned key (n ++ 0x3d :: r) = none := by
  unfold assigned
  rw [if_neg]
  intro hh
  obtain ⟨t, ht⟩ := List.isPrefixOf_iff_prefix.mp hh
  rw [List.append_assoc] at ht
  have h1 := (takeWhile_stop (p := fun c => decide (c ≠ 0x3d)) key (fun c hc => by simpa using fun e : c = 0x3d => hk (e ▸ hc)) 0x3d (by decide) t).1
  have h2 := (takeWhile_stop (p := fun c => decide (c ≠ 0x3d)) n (fun c hc => by simpa using fun e : c = 0x3d => hn (e ▸ hc)) 0x3d (by decide) r).1
  rw [List.cons_append, List.nil_append] at ht
  rw [ht, h2] at h1
  exact h h1

theorem assigned_none (key l : Bytes) (h : 0x3d ∉ l) : assigned key l = none := by
  unfold assigned
  rw [if_neg]
  intro hh
  exact h ((List.isPrefixOf_iff_prefix.mp hh).subset (by simp))

theorem assigned_head (d : UInt8) (t : Bytes) (c : UInt8) (s : Bytes) (h : c ≠ d) : assigned (d :: t) (c :: s) = none := by
  unfold assigned
  rw [if_neg]
  intro hh
  exact h (List.cons_prefix_cons.mp (List.isPrefixOf_iff_prefix.mp hh)).1.symm

/-- the name is the last one assigned -/
theorem rcName_fine (p : Bytes) (hp : Name p) : ∀ (ls : List ScriptLine) (self : Option Bytes), (∀ l ∈ ls, l.Fine p) →
    (eachLine (printScript p ls)).foldl (fun self line =>
      match assigned (ascii "name") line with
      | some v => rcNormalize self (fun _ => none) (fun _ => none) v
      | none => self) self = (lastAssigned (ascii "name") ls).or self := by
  intro ls
  induction ls with
  | nil => intros; rfl
  | cons l ls ih =>
    intro self h
    have hl := h l (List.mem_cons_self ..)
    obtain ⟨b, hb, h0⟩ := scriptLine_end p hp l hl
    have e : printScript p (l :: ls) = l.print p ++ printScript p ls := rfl
    have ih' := fun self => ih self fun l' hl' => h l' (List.mem_cons_of_mem _ hl')
    rw [e, hb, eachLine_cons b h0, ← hb, List.foldl_cons]
    refine (ih' _).trans ?_
    cases l with
    | comment t =>
      rw [show assigned (ascii "name") (ScriptLine.print p (.comment t)) = none from assigned_head _ _ _ _ (by decide)]
      rfl
    | command t =>
      rw [show assigned (ascii "name") (ScriptLine.print p (.command t)) = none from
        assigned_none _ _ (by simp [ScriptLine.print, show 0x3d ∉ t from hl.2.2])]
      rfl
    | default k s q v =>
      rw [show assigned (ascii "name") (ScriptLine.print p (.default k s q v)) = none from assigned_head _ _ _ _ (by decide)]
      rfl
    | assign n q v =>
      by_cases hn : n = ascii "name"
      · subst hn
        rw [show assigned (ascii "name") (ScriptLine.print p (.assign (ascii "name") q v)) = some (q.print v) from
          assigned_self _ _ hl.2.2.2.1 (fine_no_feed hl.2.1)]
        dsimp only
        rw [rcNormalize_fine hl.2.1]
        simp only [lastAssigned, if_pos]
        cases lastAssigned (ascii "name") ls <;> rfl
      · have e : ScriptLine.print p (.assign n q v) = n ++ 0x3d :: (q.print v ++ [0x0a]) := by simp [ScriptLine.print]
        rw [e, assigned_other _ _ _ (by decide) (name_no_equals hl.1) hn]
        simp only [lastAssigned, if_neg hn]

theorem defaultHere_none (p s : Bytes) (h : 0x7b ∉ s) : defaultHere p s = none := by
  unfold defaultHere
  rw [if_neg]
  intro hh
  exact h ((List.isPrefixOf_iff_prefix.mp hh).subset (by simp))

theorem rcDefault_none (p : Bytes) : ∀ s : Bytes, 0x7b ∉ s → rcDefault p s = none := by
  intro s
  induction s with
  | nil => intros; rfl
  | cons c s ih =>
    intro h
    unfold rcDefault
    rw [defaultHere_none p _ h]
    exact ih fun hm => h (List.mem_cons_of_mem _ hm)

theorem separator_word (c : UInt8) (s : Bytes) (h : Word c) : separator (c :: s) = none := by
  have h1 : c ≠ 0x3a := fun e => absurd (e ▸ h) (by decide)
  have h2 : c ≠ 0x2d := fun e => absurd (e ▸ h) (by decide)
  have h3 : c ≠ 0x3d := fun e => absurd (e ▸ h) (by decide)
  unfold separator
  split <;> simp_all

theorem separator_print (s : Separator) (r : Bytes) : separator (s.print ++ r) = some r := by
  cases s <;> rfl

theorem defaultName_fine (s : Separator) (r : Bytes) : ∀ (k taken : Bytes), (taken ≠ [] ∨ k ≠ []) → (∀ c ∈ k, Word c) →
    defaultName taken (k ++ (s.print ++ r)) = some (taken.reverse ++ k, r) := by
  intro k
  induction k with
  | nil =>
    intro taken h _
    have h : taken ≠ [] := h.resolve_right (· rfl)
    rw [List.nil_append]
    have hs := separator_print s r
    cases s <;>
    · simp only [Separator.print] at hs ⊢
      first
      | (rw [show ascii "=" ++ r = 0x3d :: r from rfl] at hs ⊢; unfold defaultName; rw [if_neg h, hs]; simp)
      | (rw [show ascii ":-" ++ r = 0x3a :: 0x2d :: r from rfl] at hs ⊢; unfold defaultName; rw [if_neg h, hs]; simp)
      | (rw [show ascii "-" ++ r = 0x2d :: r from rfl] at hs ⊢; unfold defaultName; rw [if_neg h, hs]; simp)
  | cons c k ih =>
    intro taken _ hw
    rw [List.cons_append]
    unfold defaultName
    have : (if taken = [] then none else separator (c :: (k ++ (s.print ++ r)))) = none := by
      split
      · rfl
      · exact separator_word c _ (hw c (List.mem_cons_self ..))
    rw [this]
    dsimp only
    rw [ih (c :: taken) (Or.inl (by simp)) fun c' hc' => hw c' (List.mem_cons_of_mem _ hc')]
    simp

theorem beforeLast_end : ∀ w : Bytes, beforeLast (w ++ [0x7d]) = some w := by
  intro w
  induction w with
  | nil => rfl
  | cons c w ih =>
    rw [List.cons_append]
    unfold beforeLast
    rw [ih]

theorem rcDefault_fine (p k : Bytes) (s : Separator) (w : Bytes) (hk : Name k) :
    rcDefault p (ascii ": ${" ++ p ++ [0x5f] ++ k ++ s.print ++ w ++ [0x7d]) = some (k, w) := by
  have e : ascii ": ${" ++ p ++ [0x5f] ++ k ++ s.print ++ w ++ [0x7d] =
      0x3a :: 0x20 :: 0x24 :: ([0x7b] ++ p ++ [0x5f] ++ (k ++ (s.print ++ (w ++ [0x7d])))) := by
    rw [show ascii ": ${" = [0x3a, 0x20, 0x24, 0x7b] from rfl]
    simp
  have h1 : ∀ (c : UInt8) (r : Bytes), c ≠ 0x24 → defaultHere p (c :: r) = none := by
    intro c r hc
    unfold defaultHere
    rw [if_neg]
    intro hh
    exact hc (List.cons_prefix_cons.mp (List.isPrefixOf_iff_prefix.mp hh)).1.symm
  have h2 : defaultHere p (0x24 :: ([0x7b] ++ p ++ [0x5f] ++ (k ++ (s.print ++ (w ++ [0x7d]))))) = some (k, w) := by
    unfold defaultHere
    have e2 : (0x24 :: ([0x7b] ++ p ++ [0x5f] ++ (k ++ (s.print ++ (w ++ [0x7d])))) : Bytes) =
        ([0x24, 0x7b] ++ p ++ [0x5f]) ++ (k ++ (s.print ++ (w ++ [0x7d]))) := by simp
    rw [e2, if_pos (by simp)]
    have : (([0x24, 0x7b] ++ p ++ [0x5f]) ++ (k ++ (s.print ++ (w ++ [0x7d])))).drop (p.length + 3) =
        k ++ (s.print ++ (w ++ [0x7d])) := by
      rw [List.drop_append_of_le_length (by simp)]; simp
    rw [this, defaultName_fine s _ k [] (Or.inr hk.1) hk.2.1]
    simp [beforeLast_end]
  rw [e]
  unfold rcDefault
  rw [h1 _ _ (by decide)]
  dsimp only
  unfold rcDefault
  rw [h1 _ _ (by decide)]
  dsimp only
  unfold rcDefault
  rw [h2]

theorem rcAssignment_no (p l : Bytes) (h : ¬(p ++ [0x5f]) <+: l) : rcAssignment p l = none := by
  unfold rcAssignment
  rw [if_neg]
  intro hh
  exact h (List.isPrefixOf_iff_prefix.mp hh)

theorem rcAssignment_none (p l : Bytes) (h : 0x3d ∉ l) : rcAssignment p l = none := by
  unfold rcAssignment
  split
  · split
    · rfl
    · rename_i c s hs
      have hn : 0x3d ∉ s := by
        intro hm
        have : (0x3d : UInt8) ∈ (l.drop (p.length + 1)).takeWhile (· ≠ 0x0a) := by rw [hs]; exact List.mem_cons_of_mem _ hm
        exact h (List.mem_of_mem_drop ((List.takeWhile_sublist _).subset this))
      have := takeWhile_all' (p := fun c => decide (c ≠ 0x3d)) s fun c hc => by simpa using fun e : c = 0x3d => hn (e ▸ hc)
      dsimp only
      rw [this.1]
      simp
  · rfl

theorem not_prefix_head {p : Bytes} (hp : Name p) (c : UInt8) (s : Bytes) (hc : ¬Word c) : ¬(p ++ [0x5f]) <+: c :: s := by
  intro hh
  obtain ⟨d, t, rfl⟩ : ∃ d t, p = d :: t := by
    cases p with
    | nil => exact absurd rfl hp.1
    | cons d t => exact ⟨d, t, rfl⟩
  have := List.cons_prefix_cons.mp hh
  exact absurd (this.1 ▸ hp.2.1 d (List.mem_cons_self ..)) hc

theorem load_no {n r : Bytes} (hn : Name n) : ¬(ascii "load_rc_conf ").isPrefixOf ((n ++ 0x3d :: r).dropWhile Conditions.isBlank) = true := by
  obtain ⟨d, t, rfl⟩ : ∃ d t, n = d :: t := by
    cases n with
    | nil => exact absurd rfl hn.1
    | cons d t => exact ⟨d, t, rfl⟩
  have hd : Conditions.isBlank d = false := by
    cases h : Conditions.isBlank d with
    | false => rfl
    | true => exact (blank_word ((blank_iff d).mp h) (hn.2.1 d (List.mem_cons_self ..))).elim
  rw [List.cons_append, List.dropWhile_cons_of_neg (by simp [hd]), ← List.cons_append]
  intro hh
  have := isPrefix_stop (by decide) (List.isPrefixOf_iff_prefix.mp hh)
  exact absurd (hn.2.1 0x20 (this.subset (by decide))) (by decide)

/-- what the second pass gathers: the last default of every variable and the last arguments of the
command -/
def lastDefault (k : Bytes) (ls : List ScriptLine) : Option Bytes := (defaultsOf k ls).getLast?

theorem rcLine_fine (p : Bytes) (hp : Name p) (self : Option Bytes) (other : Vars) (l : ScriptLine) (h : l.Fine p) (s : Rc) :
    (∀ k, (s.line self p other (l.print p)).vars k = (defaultsOf k [l]).getLast?.or (s.vars k)) ∧
    (s.line self p other (l.print p)).args = (lastAssigned (ascii "command_args") [l]).or s.args := by
  cases l with
  | comment t =>
    have h1 : (ScriptLine.print p (.comment t)).dropWhile Conditions.isBlank = 0x23 :: (t ++ [0x0a]) := by
      simp only [ScriptLine.print, List.cons_append, List.nil_append]
      exact List.dropWhile_cons_of_neg (by decide)
    have h2 : (ScriptLine.print p (.comment t)).takeWhile (· ≠ 0x0a) = [0x23] ++ t :=
      takeWhile_feed ([0x23] ++ t) [] (by simp [show 0x0a ∉ t from h.1])
    unfold Rc.line
    dsimp only
    rw [h1, if_neg (by simp [ascii]), h2, rcDefault_none p _ (by simp [show 0x7b ∉ t from h.2])]
    dsimp only
    have h3 : rcAssignment p (ScriptLine.print p (.comment t)) = none := by
      have e : ScriptLine.print p (.comment t) = 0x23 :: (t ++ [0x0a]) := by simp [ScriptLine.print]
      rw [e]
      exact rcAssignment_no p _ (not_prefix_head hp 0x23 (t ++ [0x0a]) (by decide))
    rw [h3]
    dsimp only
    rw [show assigned (ascii "command_args") (ScriptLine.print p (.comment t)) = none from assigned_head _ _ _ _ (by decide)]
    exact ⟨fun _ => rfl, rfl⟩
  | command t =>
    have h2 : (ScriptLine.print p (.command t)).takeWhile (· ≠ 0x0a) = t := takeWhile_feed t [] h.1
    have h3 : 0x3d ∉ ScriptLine.print p (.command t) := by simp [ScriptLine.print, show 0x3d ∉ t from h.2.2]
    unfold Rc.line
    dsimp only
    rw [h2, rcDefault_none p _ h.2.1]
    dsimp only
    rw [rcAssignment_none p _ h3]
    dsimp only
    rw [assigned_none _ _ h3]
    dsimp only
    split <;> exact ⟨fun _ => rfl, rfl⟩
  | assign n q v =>
    have e : ScriptLine.print p (.assign n q v) = n ++ 0x3d :: (q.print v ++ [0x0a]) := by simp [ScriptLine.print]
    have h2 : (ScriptLine.print p (.assign n q v)).takeWhile (· ≠ 0x0a) = n ++ [0x3d] ++ q.print v :=
      takeWhile_feed (n ++ [0x3d] ++ q.print v) [] (by simp [name_no_feed h.1, fine_no_feed h.2.1])
    have h3 : 0x7b ∉ n ++ [0x3d] ++ q.print v := by
      have := name_bytes h.1 0x7b (by decide)
      have hv := h.2.2.1
      cases q <;> simp [Quote.print, this, hv]
    have h4 : ¬(p ++ [0x5f]) <+: ScriptLine.print p (.assign n q v) := fun hh =>
      h.2.2.2.2 (isPrefix_stop (own_no_equals hp) (e ▸ hh))
    unfold Rc.line
    dsimp only
    rw [if_neg (e ▸ load_no h.1), h2, rcDefault_none p _ h3]
    dsimp only
    rw [rcAssignment_no p _ h4]
    dsimp only
    by_cases hn : n = ascii "command_args"
    · subst hn
      rw [show assigned (ascii "command_args") (ScriptLine.print p (.assign (ascii "command_args") q v)) = some (q.print v) from
        assigned_self _ _ h.2.2.2.1 (fine_no_feed h.2.1)]
      dsimp only
      rw [rcNormalize_fine h.2.1]
      exact ⟨fun _ => rfl, by simp [lastAssigned]⟩
    · rw [e, assigned_other _ _ _ (by decide) (name_no_equals h.1) hn]
      exact ⟨fun _ => rfl, by simp [lastAssigned, hn]⟩
  | default k s' q v =>
    have h1 : (ScriptLine.print p (.default k s' q v)).dropWhile Conditions.isBlank = ScriptLine.print p (.default k s' q v) :=
      List.dropWhile_cons_of_neg (by decide)
    have h2 : (ScriptLine.print p (.default k s' q v)).takeWhile (· ≠ 0x0a) =
        ascii ": ${" ++ p ++ [0x5f] ++ k ++ s'.print ++ q.print v ++ [0x7d] := by
      obtain ⟨b, hb, h0⟩ := scriptLine_end p hp _ h
      have hb' : ScriptLine.print p (.default k s' q v) = (ascii ": ${" ++ p ++ [0x5f] ++ k ++ s'.print ++ q.print v ++ [0x7d]) ++ [0x0a] := by
        simp [ScriptLine.print]
      have : b = ascii ": ${" ++ p ++ [0x5f] ++ k ++ s'.print ++ q.print v ++ [0x7d] := List.append_cancel_right (hb.symm.trans hb')
      rw [hb', ← this]
      exact takeWhile_feed b [] h0
    unfold Rc.line
    dsimp only
    rw [h1, if_neg, h2, rcDefault_fine p k s' _ h.1]
    · dsimp only
      rw [rcNormalize_fine h.2]
      refine ⟨fun k' => ?_, rfl⟩
      by_cases hk : k' = k
      · subst hk; simp [defaultsOf]
      · simp [defaultsOf, hk, Ne.symm hk]
    · intro hh
      exact absurd (List.cons_prefix_cons.mp (List.isPrefixOf_iff_prefix.mp hh)).1 (by decide)

theorem defaultsOf_cons (k : Bytes) (l : ScriptLine) (ls : List ScriptLine) : defaultsOf k (l :: ls) = defaultsOf k [l] ++ defaultsOf k ls := by
  unfold defaultsOf
  cases l with
  | default k' s q v => by_cases h : k' = k <;> simp [h]
  | _ => simp

theorem lastAssigned_cons (n : Bytes) (l : ScriptLine) (ls : List ScriptLine) :
    lastAssigned n (l :: ls) = (lastAssigned n ls).or (lastAssigned n [l]) := by
  cases l with
  | assign n' q v => by_cases h : n' = n <;> simp [lastAssigned, h]
  | _ => simp [lastAssigned]

theorem rcScript_fine (p : Bytes) (hp : Name p) (self : Option Bytes) (other : Vars) : ∀ (ls : List ScriptLine) (s : Rc), (∀ l ∈ ls, l.Fine p) →
    (∀ k, ((eachLine (printScript p ls)).foldl (Rc.line self p other) s).vars k = (defaultsOf k ls).getLast?.or (s.vars k)) ∧
    ((eachLine (printScript p ls)).foldl (Rc.line self p other) s).args = (lastAssigned (ascii "command_args") ls).or s.args := by
  intro ls
  induction ls with
  | nil => intro s _; exact ⟨fun _ => rfl, rfl⟩
  | cons l ls ih =>
    intro s h
    have hl := h l (List.mem_cons_self ..)
    obtain ⟨b, hb, h0⟩ := scriptLine_end p hp l hl
    have e : printScript p (l :: ls) = l.print p ++ printScript p ls := rfl
    have ih' := fun s => ih s fun l' hl' => h l' (List.mem_cons_of_mem _ hl')
    rw [e, hb, eachLine_cons b h0, ← hb, List.foldl_cons]
    obtain ⟨i1, i2⟩ := ih' (s.line self p other (l.print p))
    obtain ⟨j1, j2⟩ := rcLine_fine p hp self other l hl s
    refine ⟨fun k => ?_, ?_⟩
    · rw [i1, j1, defaultsOf_cons k l ls, List.getLast?_append]
      cases (defaultsOf k ls).getLast? <;> rfl
    · rw [i2, j2, lastAssigned_cons _ l ls]
      cases lastAssigned (ascii "command_args") ls <;> rfl

end Verif.Props.Detector
