import Verif.Props.Headers
import Verif.Spec.HeaderDiff
/-
C15: header edits sent to the MTA.
-/
namespace Verif.Props
open Verif Verif.Spec Verif.HeaderDiff

def names (l : List Header) : List Bytes := l.map (·.name)

theorem index_of_distinct (l : List Header) (h : Header) (hd : (names l).Nodup) (hm : h ∈ l) :
    Headers.indexInSameName l h = some 1 := by
  unfold Headers.indexInSameName
  induction l with
  | nil => simp at hm
  | cons x l ih =>
    simp only [names, List.map_cons, List.nodup_cons] at hd
    rw [Headers.indexInSameNameFrom]
    by_cases hx : x = h
    · subst hx; simp
    · have hm' : h ∈ l := by
        rcases List.mem_cons.1 hm with e | e
        · exact absurd e.symm hx
        · exact e
      have hn : x.name ≠ h.name := fun e => hd.1 (e ▸ List.mem_map.2 ⟨h, hm', rfl⟩)
      rw [if_pos hn]
      exact ih hd.2 hm'

theorem find_mem (l : List Header) (h : Header) (hm : h ∈ l) : Headers.find l h = some h := by
  unfold Headers.find
  induction l with
  | nil => simp at hm
  | cons x l ih =>
    rw [List.find?_cons]
    by_cases hx : x = h
    · subst hx; simp
    · have hb : (x == h) = false := by simpa using hx
      rw [hb]
      rcases List.mem_cons.1 hm with e | e
      · exact absurd e.symm hx
      · exact ih e

theorem remove_mem (l : List Header) (h : Header) (hm : h ∈ l) :
    (Headers.remove l h).2 = l.erase h := by
  simp [Headers.remove, find_mem l h hm]

theorem find_not_mem (l : List Header) (h : Header) (hm : h ∉ l) : Headers.find l h = none := by
  simp only [Headers.find, List.find?_eq_none, beq_iff_eq]
  rintro x hx rfl; exact hm hx

theorem lookup_none (l : List Header) (n : Bytes) : 
    Headers.lookupByName l n = none ↔ n ∉ names l := by
  simp only [Headers.lookupByName, List.find?_eq_none, beq_iff_eq, names, List.mem_map, not_exists,
    not_and]

theorem lookup_some (l : List Header) (n : Bytes) (f : Header)
    (h : Headers.lookupByName l n = some f) : f ∈ l ∧ f.name = n := by
  have h1 := List.mem_of_find?_eq_some h
  have h2 := List.find?_some h
  exact ⟨h1, by simpa using h2⟩

/-- Position 1 of a name that occurs once. -/
theorem position_unique (a b : List Header) (h : Header) (ha : h.name ∉ names a) :
    Headers.position (a ++ h :: b) h.name 1 = some a.length := by
  unfold Headers.position
  induction a with
  | nil => simp [Headers.positionFrom]
  | cons x a ih =>
    simp only [names, List.map_cons, List.mem_cons, not_or] at ha
    rw [List.cons_append, Headers.positionFrom, if_pos (Ne.symm ha.1), ih ha.2]
    rfl

theorem split_unique_name (l : List Header) (h : Header) (hm : h ∈ l) (hd : (names l).Nodup) :
    ∃ a b, l = a ++ h :: b ∧ h.name ∉ names a ∧ h.name ∉ names b := by
  obtain ⟨a, b, rfl⟩ := List.append_of_mem hm
  refine ⟨a, b, rfl, ?_, ?_⟩
  · intro hc
    simp only [names, List.map_append, List.map_cons] at hd
    exact (List.nodup_append.1 hd).2.2 _ hc _ (by simp) rfl
  · intro hc
    simp only [names, List.map_append, List.map_cons] at hd
    exact (List.nodup_cons.1 (List.nodup_append.1 hd).2.1).1 hc

/-- **C15**, exact part: what a final list may look like for the edits to reproduce it
exactly: original headers are kept or changed in value, in their order, and new headers
may be put anywhere as long as their name is not the name of a later original header. -/
inductive Edited : List Header → List Header → Prop
  | nil : Edited [] []
  | keep (n v v' os fs) : Edited os fs → Edited (⟨n, v⟩ :: os) (⟨n, some v'⟩ :: fs)
  | same (h os fs) : Edited os fs → Edited (h :: os) (h :: fs)
  | new (n v os fs) : n ∉ names os → Edited os fs → Edited os (⟨n, v⟩ :: fs)

theorem walk_edited (original os fs done : List Header) (he : Edited os fs)
    (hsub : ∀ h ∈ os, h ∈ original) (hnd : (names original).Nodup) (hndo : (names os).Nodup)
    (hdone : ∀ n ∈ names os, n ∉ names done)
    (hlen : done.length + os.length + fs.length < intLimit) :
    mta (done ++ os) (walk original done.length os fs).1 = done ++ fs ∧
    (walk original done.length os fs).2 = [] := by
  induction he generalizing done with
  | nil => simp [walk, mta]
  | same h os fs he ih =>
    simp only [names, List.map_cons, List.nodup_cons] at hndo
    have hf : Headers.find (h :: os) h = some h := find_mem _ _ List.mem_cons_self
    rw [walk, hf]
    simp only
    rw [remove_mem _ _ List.mem_cons_self, List.erase_cons_head]
    have := ih (done ++ [h]) (fun x hx => hsub x (List.mem_cons_of_mem _ hx)) hndo.2
      (by
        intro n hn hc
        simp only [names, List.map_append, List.mem_append, List.map_cons, List.map_nil,
          List.mem_singleton] at hc
        rcases hc with hc | hc
        · exact hdone n (by simp [names]; right; simpa [names] using hn) hc
        · subst hc; exact hndo.1 hn)
      (by simp only [List.length_append, List.length_cons, List.length_nil] at *; omega)
    simpa using this
  | keep n v v' os fs he ih =>
    by_cases hv : v = some v'
    · subst hv
      simp only [names, List.map_cons, List.nodup_cons] at hndo
      have hf : Headers.find (⟨n, some v'⟩ :: os) ⟨n, some v'⟩ = some ⟨n, some v'⟩ :=
        find_mem _ _ List.mem_cons_self
      rw [walk, hf]
      simp only
      rw [remove_mem _ _ List.mem_cons_self, List.erase_cons_head]
      have := ih (done ++ [⟨n, some v'⟩]) (fun x hx => hsub x (List.mem_cons_of_mem _ hx)) hndo.2
        (by
          intro m hn hc
          simp only [names, List.map_append, List.mem_append, List.map_cons, List.map_nil,
            List.mem_singleton] at hc
          rcases hc with hc | hc
          · exact hdone m (by simp [names]; right; simpa [names] using hn) hc
          · subst hc; exact hndo.1 hn)
        (by simp only [List.length_append, List.length_cons, List.length_nil] at *; omega)
      simpa using this
    · simp only [names, List.map_cons, List.nodup_cons] at hndo
      have hnm : (⟨n, some v'⟩ : Header) ∉ (⟨n, v⟩ : Header) :: os := by
        intro hc
        rcases List.mem_cons.1 hc with e | e
        · exact hv (by simpa using (congrArg Header.value e).symm)
        · exact hndo.1 (List.mem_map.2 ⟨_, e, rfl⟩)
      have hl : Headers.lookupByName (⟨n, v⟩ :: os) n = some ⟨n, v⟩ := by
        simp [Headers.lookupByName]
      rw [walk, find_not_mem _ _ hnm]
      simp only
      rw [hl]
      simp only
      rw [index_of_distinct original _ hnd (hsub _ List.mem_cons_self)]
      simp only
      rw [remove_mem _ _ List.mem_cons_self, List.erase_cons_head]
      have hch : (Headers.change (done ++ ⟨n, v⟩ :: os) n 1 (some v')).2 =
          done ++ ⟨n, some v'⟩ :: os := by
        have hp := position_unique done os ⟨n, v⟩ (hdone n (by simp [names]))
        simp only at hp
        unfold Headers.change
        simp only [hp]
        rw [List.getElem?_append_right (Nat.le_refl _), Nat.sub_self]
        simp
      have := ih (done ++ [⟨n, some v'⟩]) (fun x hx => hsub x (List.mem_cons_of_mem _ hx)) hndo.2
        (by
          intro m hn hc
          simp only [names, List.map_append, List.mem_append, List.map_cons, List.map_nil,
            List.mem_singleton] at hc
          rcases hc with hc | hc
          · exact hdone m (by simp [names]; right; simpa [names] using hn) hc
          · subst hc; exact hndo.1 hn)
        (by simp only [List.length_append, List.length_cons, List.length_nil] at *; omega)
      simp only [List.length_append, List.length_cons, List.length_nil, List.append_assoc,
        List.cons_append, List.nil_append, Nat.zero_add] at this
      refine ⟨?_, this.2⟩
      show mta (mtaStep (done ++ ⟨n, v⟩ :: os) (.change n 1 (some v'))) _ = _
      have e : mtaStep (done ++ ⟨n, v⟩ :: os) (.change n 1 (some v')) = done ++ ⟨n, some v'⟩ :: os := hch
      rw [e]
      exact this.1
  | new n v os fs hn he ih =>
    have hnm : (⟨n, v⟩ : Header) ∉ os := fun hc => hn (List.mem_map.2 ⟨_, hc, rfl⟩)
    rw [walk, find_not_mem _ _ hnm]
    simp only
    rw [(lookup_none os n).2 hn]
    simp only
    have := ih (done ++ [⟨n, v⟩]) hsub hndo
      (by
        intro m hm hc
        simp only [names, List.map_append, List.mem_append, List.map_cons, List.map_nil,
          List.mem_singleton] at hc
        rcases hc with hc | hc
        · exact hdone m hm hc
        · subst hc; exact hn hm)
      (by simp only [List.length_append, List.length_cons, List.length_nil] at *; omega)
    simp only [List.length_append, List.length_cons, List.length_nil, List.append_assoc,
      List.cons_append, List.nil_append, Nat.zero_add] at this
    refine ⟨?_, this.2⟩
    show mta (mtaStep (done ++ os) (.insert done.length n v)) _ = _
    have e : mtaStep (done ++ os) (.insert done.length n v) = done ++ ⟨n, v⟩ :: os := by
      show Headers.insert _ _ _ _ = _
      rw [C14_insert _ _ _ _ (by
        simp only [List.length_append, List.length_cons] at *; omega),
        List.take_left, List.drop_left]
    rw [e]
    exact this.1

/-- **C15** when no original header is deleted or reordered and original names are
distinct: the MTA ends up with exactly the milters' final headers. -/
theorem C15_edited_partial (original final : List Header) (hnd : (names original).Nodup)
    (he : Edited original final) (hlen : original.length + final.length < intLimit) :
    mta original (emit original final) = final := by
  have := walk_edited original original final [] he (fun _ h => h) hnd hnd (by simp [names])
    (by simpa using hlen)
  unfold emit
  rw [C14_copy]
  simp only [List.nil_append, List.length_nil] at this
  simp only [this.2, deletions, List.reverse_nil, List.map_nil, List.append_nil]
  exact this.1

/-! Deletions: the same headers, but not always in the same order. -/

theorem insert_perm (l : List Header) (i : Nat) (n : Bytes) (v : Option Bytes) :
    (Headers.insert l i n v).Perm (⟨n, v⟩ :: l) := by
  unfold Headers.insert
  split
  · have := @List.perm_middle _ (⟨n, v⟩ : Header) (l.take i) (l.drop i)
    rwa [List.take_append_drop] at this
  · have := @List.perm_middle _ (⟨n, v⟩ : Header) l []
    rwa [List.append_nil] at this

/-- What is known while the edits are being applied: the MTA's list holds the final headers
dealt with and the originals not yet matched, the latter with names of their own. -/
structure Mid (L done P : List Header) : Prop where
  perm : L.Perm (done ++ P)
  nodup : (names P).Nodup
  apart : ∀ h ∈ P, h.name ∉ names done

theorem Mid.locate {L done P : List Header} (m : Mid L done P) (p : Header) (hp : p ∈ P) :
    ∃ a b, L = a ++ p :: b ∧ p.name ∉ names a ∧ (a ++ b).Perm (done ++ P.erase p) := by
  have hL : p ∈ L := m.perm.mem_iff.2 (List.mem_append.2 (.inr hp))
  obtain ⟨a, b, rfl⟩ := List.append_of_mem hL
  have h1 : (done ++ P).Perm (p :: (done ++ P.erase p)) :=
    ((List.perm_cons_erase hp).append_left done).trans List.perm_middle
  have h2 : (a ++ b).Perm (done ++ P.erase p) :=
    ((List.perm_middle.symm.trans m.perm).trans h1).cons_inv
  refine ⟨a, b, rfl, ?_, h2⟩
  intro hc
  obtain ⟨q, hq, hn⟩ := List.mem_map.1 hc
  rcases List.mem_append.1 (h2.mem_iff.1 (List.mem_append.2 (.inl hq))) with hq | hq
  · exact m.apart p hp (hn ▸ List.mem_map.2 ⟨q, hq, rfl⟩)
  · have : (names (p :: P.erase p)).Nodup :=
      ((List.perm_cons_erase hp).map _).nodup_iff.1 m.nodup
    simp only [names, List.map_cons, List.nodup_cons] at this
    exact this.1 (hn ▸ List.mem_map.2 ⟨q, hq, rfl⟩)

theorem Mid.erase_names {L done P : List Header} (m : Mid L done P) (p : Header) (hp : p ∈ P) :
    (names (P.erase p)).Nodup ∧ p.name ∉ names (P.erase p) := by
  have : (names (p :: P.erase p)).Nodup :=
    ((List.perm_cons_erase hp).map _).nodup_iff.1 m.nodup
  simp only [names, List.map_cons, List.nodup_cons] at this
  exact ⟨this.2, this.1⟩

/-- moving to the next final header `h` once the header `p` of that name is accounted for -/
theorem Mid.next {L done P : List Header} (m : Mid L done P) (p h : Header) (hp : p ∈ P)
    (hn : p.name = h.name) (L' : List Header) (hL' : L'.Perm (h :: (done ++ P.erase p))) :
    Mid L' (done ++ [h]) (P.erase p) := by
  obtain ⟨h1, h2⟩ := m.erase_names p hp
  refine ⟨?_, h1, ?_⟩
  · rw [List.append_assoc]
    exact hL'.trans List.perm_middle.symm
  · intro q hq hc
    simp only [names, List.map_append, List.mem_append, List.map_cons, List.map_nil,
      List.mem_singleton] at hc
    rcases hc with hc | hc
    · exact m.apart q (List.mem_of_mem_erase hq) hc
    · exact h2 (by rw [hn, ← hc]; exact List.mem_map.2 ⟨q, hq, rfl⟩)

theorem walk_perm (original : List Header) (hnd : (names original).Nodup) (fs done L P : List Header)
    (i : Nat) (hsub : ∀ h ∈ P, h ∈ original) (hfs : ∀ h ∈ fs, h.value ≠ none) (m : Mid L done P) :
    Mid (mta L (walk original i P fs).1) (done ++ fs) (walk original i P fs).2 ∧
    ∀ h ∈ (walk original i P fs).2, h ∈ original := by
  induction fs generalizing done L P i with
  | nil => simpa [walk, mta] using ⟨m, hsub⟩
  | cons h fs ih =>
    have hfs' : ∀ x ∈ fs, x.value ≠ none := fun x hx => hfs x (List.mem_cons_of_mem _ hx)
    have hassoc : done ++ h :: fs = (done ++ [h]) ++ fs := by simp
    rw [walk]
    by_cases hP : h ∈ P
    · rw [find_mem P h hP]
      simp only
      rw [remove_mem P h hP, hassoc]
      refine ih (done ++ [h]) L (P.erase h) (i + 1)
        (fun x hx => hsub x (List.mem_of_mem_erase hx)) hfs' ?_
      refine m.next h h hP rfl L ?_
      exact m.perm.trans (((List.perm_cons_erase hP).append_left done).trans List.perm_middle)
    · rw [find_not_mem P h hP]
      simp only
      cases hl : Headers.lookupByName P h.name with
      | none =>
        simp only
        have hn := (lookup_none P h.name).1 hl
        rw [hassoc]
        refine ih (done ++ [h]) (Headers.insert L i h.name h.value) P (i + 1) hsub hfs' ?_
        refine ⟨?_, m.nodup, ?_⟩
        · refine (insert_perm L i h.name h.value).trans ?_
          rw [List.append_assoc]
          exact (m.perm.cons h).trans List.perm_middle.symm
        · intro q hq hc
          simp only [names, List.map_append, List.mem_append, List.map_cons, List.map_nil,
            List.mem_singleton] at hc
          rcases hc with hc | hc
          · exact m.apart q hq hc
          · exact hn (hc ▸ List.mem_map.2 ⟨q, hq, rfl⟩)
      | some f =>
        obtain ⟨hf, hfn⟩ := lookup_some P h.name f hl
        simp only
        rw [index_of_distinct original f hnd (hsub f hf)]
        simp only
        rw [remove_mem P f hf, hassoc]
        obtain ⟨v, hv⟩ : ∃ v, h.value = some v := by
          cases e : h.value with
          | none => exact absurd e (hfs h List.mem_cons_self)
          | some v => exact ⟨v, rfl⟩
        refine ih (done ++ [h]) (Headers.change L h.name 1 h.value).2 (P.erase f) (i + 1)
          (fun x hx => hsub x (List.mem_of_mem_erase hx)) hfs' ?_
        refine m.next f h hf hfn _ ?_
        obtain ⟨a, b, rfl, ha, hab⟩ := m.locate f hf
        have hp := position_unique a b f ha
        rw [hfn] at hp
        have hch : (Headers.change (a ++ f :: b) h.name 1 h.value).2 = a ++ h :: b := by
          rw [hv]
          unfold Headers.change
          simp only [hp]
          rw [List.getElem?_append_right (Nat.le_refl _), Nat.sub_self]
          have : (⟨f.name, some v⟩ : Header) = h := by
            cases h; simp_all
          simp [this]
        rw [hch]
        exact List.perm_middle.trans (hab.cons h)

theorem deletions_perm (original : List Header) (hnd : (names original).Nodup) (R L done P : List Header)
    (hsub : ∀ h ∈ R, h ∈ original) (hR : P.Perm R) (m : Mid L done P) :
    (mta L (R.map (fun h => Edit.delete h.name (Headers.indexInSameName original h)))).Perm done := by
  induction R generalizing L P with
  | nil =>
    have : P = [] := hR.eq_nil
    subst this
    simpa [mta] using m.perm
  | cons p R ih =>
    have hp : p ∈ P := hR.mem_iff.2 List.mem_cons_self
    obtain ⟨a, b, rfl, ha, hab⟩ := m.locate p hp
    rw [List.map_cons, index_of_distinct original p hnd (hsub p List.mem_cons_self)]
    show (mta (Headers.delete (a ++ p :: b) p.name 1).2 _).Perm done
    have hd : (Headers.delete (a ++ p :: b) p.name 1).2 = a ++ b := by
      unfold Headers.delete
      rw [position_unique a b p ha]
      show (a ++ p :: b).eraseIdx a.length = a ++ b
      rw [List.eraseIdx_append_of_length_le (Nat.le_refl _), Nat.sub_self]
      rfl
    rw [hd]
    refine ih (a ++ b) (P.erase p) (fun x hx => hsub x (List.mem_cons_of_mem _ hx)) ?_
      ⟨hab, (m.erase_names p hp).1, fun q hq => m.apart q (List.mem_of_mem_erase hq)⟩
    exact ((List.perm_cons_erase hp).symm.trans hR).cons_inv

/-- **C15** for distinct original names: the MTA ends up with exactly the milters' final
headers (names, values and multiplicities), possibly in another order. -/
theorem C15_content_partial (original final : List Header) (hnd : (names original).Nodup)
    (hv : ∀ h ∈ final, h.value ≠ none) :
    (mta original (emit original final)).Perm final := by
  unfold emit
  rw [C14_copy]
  have m : Mid original [] original := ⟨.refl _, hnd, by simp [names]⟩
  obtain ⟨h1, h2⟩ := walk_perm original hnd final [] original original 0 (fun _ h => h) hv m
  simp only
  have : mta original ((walk original 0 original final).1 ++
      deletions original (walk original 0 original final).2) =
      mta (mta original (walk original 0 original final).1)
        (deletions original (walk original 0 original final).2) := by
    unfold mta; rw [List.foldl_append]
  rw [this]
  unfold deletions
  refine deletions_perm original hnd _ _ _ _ (fun h hh => h2 h (List.mem_reverse.1 hh))
    (List.reverse_perm _).symm ?_
  simpa using h1

/-- nothing changed: nothing is sent -/
theorem C15_unchanged (l : List Header) : emit l l = [] := by
  unfold emit
  rw [C14_copy]
  have : ∀ (l' : List Header) (i : Nat), walk l i l' l' = ([], []) := by
    intro l'
    induction l' with
    | nil => intro i; rfl
    | cons h l' ih =>
      intro i
      rw [walk, find_mem _ _ List.mem_cons_self]
      simp only
      rw [remove_mem _ _ List.mem_cons_self, List.erase_cons_head, ih]
  rw [this]
  rfl

/-- non-vacuity: a changed, a kept and two new headers -/
example : Edited
    [⟨ascii "From", some (ascii "a")⟩, ⟨ascii "Subject", some (ascii "s")⟩]
    [⟨ascii "X-New", some (ascii "1")⟩, ⟨ascii "From", some (ascii "b")⟩,
     ⟨ascii "Subject", some (ascii "s")⟩, ⟨ascii "X-End", some (ascii "2")⟩] :=
  .new _ _ _ _ (by decide) (.keep _ _ _ _ _ (.same _ _ _ (.new _ _ _ _ (by decide) .nil)))

/-- **C15 is violated** as to order: the milters delete `A` and append `X`, the MTA gets
`X` before `B`. -/
theorem C15_order_violated :
    let A : Header := ⟨ascii "A", some (ascii "1")⟩
    let B : Header := ⟨ascii "B", some (ascii "2")⟩
    let X : Header := ⟨ascii "X", some (ascii "3")⟩
    emit [A, B] [B, X] = [.insert 1 (ascii "X") (some (ascii "3")), .delete (ascii "A") (some 1)] ∧
    mta [A, B] (emit [A, B] [B, X]) = [X, B] := by
  intro A B X
  have e : emit [A, B] [B, X] =
      [.insert 1 (ascii "X") (some (ascii "3")), .delete (ascii "A") (some 1)] := by decide
  refine ⟨e, ?_⟩
  rw [e]
  have : Headers.insert [A, B] 1 (ascii "X") (some (ascii "3")) = [A, X, B] := by
    rw [C14_insert _ _ _ _ (by rw [intLimit_eq]; decide)]; rfl
  show (Headers.delete (Headers.insert [A, B] 1 (ascii "X") (some (ascii "3"))) (ascii "A") 1).2 = _
  rw [this]
  decide

/-- **C15 is violated** as to content with repeated headers: the milters turn two equal
`X: 1` into one `X: 2`, the MTA is told to change the first and then to delete the first
again, and keeps `X: 1`. -/
theorem C15_repeated_violated :
    let X1 : Header := ⟨ascii "X", some (ascii "1")⟩
    let X2 : Header := ⟨ascii "X", some (ascii "2")⟩
    mta [X1, X1] (emit [X1, X1] [X2]) = [X1] := by
  decide

/-- and a reordering is not sent at all -/
theorem C15_reorder_violated :
    let A : Header := ⟨ascii "A", some (ascii "1")⟩
    let B : Header := ⟨ascii "B", some (ascii "2")⟩
    emit [A, B] [B, A] = [] := by
  decide

end Verif.Props
