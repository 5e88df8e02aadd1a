import Verif.Spec.Flags
import Verif.Props.Options
/-
C58: strings of flag names.  C59: which log messages are written.
-/
namespace Verif.Props
open Verif Verif.Names Verif.Spec.Flags

theorem hasBit_not (a : UInt32) (k : Nat) (hk : k < 32) : hasBit (~~~a) k = !hasBit a k := by
  unfold hasBit
  rw [← UInt32.toNat_toBitVec, ← UInt32.toNat_toBitVec, UInt32.toBitVec_not]
  have := BitVec.getLsbD_not (x := a.toBitVec) (i := k)
  simpa [BitVec.getLsbD, hk] using this

theorem hasBit_zero (k : Nat) : hasBit 0 k = false := by simp [hasBit]

theorem hasBit_fold (c : List (Bytes × UInt32)) (k : Nat) : ∀ m, hasBit (c.foldl (fun m v => m ||| v.2) m) k = (hasBit m k || c.any fun v => hasBit v.2 k) := by
  induction c with
  | nil => intro m; simp
  | cons v c ih => intro m; rw [List.foldl_cons, ih, hasBit_or, List.any_cons, Bool.or_assoc]

theorem sign_text (append : Bool) (s : Option Bool) (name : Bytes) (h1 : name.head? ≠ some 0x2b) (h2 : name.head? ≠ some 0x2d) :
    sign append (signText s ++ name) = (s.getD append, name) := by
  cases s with
  | some b => cases b <;> rfl
  | none =>
    show sign append name = (append, name)
    cases name with
    | nil => rfl
    | cons x name =>
      unfold sign
      split
      · next h => cases h; exact absurd rfl h1
      · next h => cases h; exact absurd rfl h2
      · rfl

theorem item_spec (c : Class) (d : UInt32) (append : Bool) (acc : UInt32 × List Bytes) (i : Item)
    (h1 : i.name.head? ≠ some 0x2b) (h2 : i.name.head? ≠ some 0x2d) :
    (item c d append acc (signText i.sign ++ i.name)).2 = acc.2 ++ (if known c i.name then [] else [i.name]) ∧
    ∀ k < 32, hasBit (item c d append acc (signText i.sign ++ i.name)).1 k =
      if standsFor c d (i.sign.getD append) i.name k then i.sign.getD append else hasBit acc.1 k := by
  unfold item
  rw [sign_text append i.sign i.name h1 h2]
  dsimp only
  generalize i.sign.getD append = adds
  by_cases ha : i.name = Names.all
  · rw [if_pos ha]
    refine ⟨?_, ?_⟩
    · cases adds <;> simp [known, ha]
    · intro k hk
      cases adds with
      | false => simp [standsFor, ha, hasBit_zero]
      | true =>
        simp only [if_true, hasBit_or, mask, hasBit_fold, standsFor, ha, Bool.not_true, Bool.false_or, hasBit_zero]
        show (hasBit acc.1 k || c.any fun v => hasBit v.2 k) = if (c.any fun v => hasBit v.2 k) = true then true else hasBit acc.1 k
        cases (c.any fun v => hasBit v.2 k) <;> simp
  · rw [if_neg ha]
    cases hb : byNick c i.name with
    | none =>
      refine ⟨?_, ?_⟩
      · simp [known, ha, hb]
      · intro k hk
        simp [standsFor, ha, hb]
    | some v =>
      dsimp only
      refine ⟨?_, ?_⟩
      · cases adds <;> simp [known, ha, hb]
      · intro k hk
        have hs : standsFor c d adds i.name k = hasBit (if v = 0 ∧ i.name = Names.default then d else v) k := by
          unfold standsFor
          rw [if_neg ha, hb]
          dsimp only
          split <;> rfl
        rw [hs]
        generalize (if v = 0 ∧ i.name = Names.default then d else v) = w
        cases adds with
        | false =>
          simp only [Bool.false_eq_true, if_false, hasBit_and, hasBit_not w k hk]
          cases hasBit w k <;> simp
        | true =>
          simp only [if_true, hasBit_or]
          cases hasBit w k <;> simp

theorem items_spec (c : Class) (d : UInt32) (append : Bool) (items : List Item)
    (h : ∀ i ∈ items, i.name.head? ≠ some 0x2b ∧ i.name.head? ≠ some 0x2d) : ∀ acc : UInt32 × List Bytes,
    ((items.map fun i => signText i.sign ++ i.name).foldl (item c d append) acc).2 =
      acc.2 ++ (items.filter fun i => !known c i.name).map (·.name) ∧
    ∀ k < 32, hasBit ((items.map fun i => signText i.sign ++ i.name).foldl (item c d append) acc).1 k =
      ((items.filterMap fun i => if standsFor c d (i.sign.getD append) i.name k then some (i.sign.getD append) else none).getLast?).getD
        (hasBit acc.1 k) := by
  induction items with
  | nil => intro acc; simp
  | cons i items ih =>
    intro acc
    obtain ⟨g1, g2⟩ := item_spec c d append acc i (h i List.mem_cons_self).1 (h i List.mem_cons_self).2
    obtain ⟨i1, i2⟩ := ih (fun x hx => h x (List.mem_cons_of_mem _ hx)) (item c d append acc (signText i.sign ++ i.name))
    rw [List.map_cons, List.foldl_cons]
    refine ⟨?_, ?_⟩
    · rw [i1, g1, List.filter_cons]
      cases known c i.name <;> simp
    · intro k hk
      rw [i2 k hk, g2 k hk, List.filterMap_cons]
      split
      · rw [List.getLast?_cons]; cases List.getLast? _ <;> rfl
      · rfl

theorem joined_head (items : List Item) (hn : ∀ i ∈ items, i.name.head? ≠ some 0x2b ∧ i.name.head? ≠ some 0x2d)
    (hf : ∀ i, items.head? = some i → i.sign = none) :
    (joinWith [0x7c] (items.map fun i => signText i.sign ++ i.name)).head? ≠ some 0x2b ∧
    (joinWith [0x7c] (items.map fun i => signText i.sign ++ i.name)).head? ≠ some 0x2d := by
  cases items with
  | nil => exact ⟨(fun h => nomatch h), (fun h => nomatch h)⟩
  | cons i items =>
    have hs := hf i rfl
    have hi := hn i List.mem_cons_self
    have : ∀ rest, (joinWith [0x7c] ((signText i.sign ++ i.name) :: rest)).head? = i.name.head? ∨
        (joinWith [0x7c] ((signText i.sign ++ i.name) :: rest)).head? = some 0x7c ∧ i.name = [] := by
      intro rest
      rw [hs]
      cases rest with
      | nil => exact .inl rfl
      | cons b rest =>
        cases hname : i.name with
        | nil => exact .inr ⟨rfl, rfl⟩
        | cons x n => exact .inl rfl
    rcases this (items.map fun i => signText i.sign ++ i.name) with h | ⟨h, _⟩ <;> rw [List.map_cons, h]
    · exact hi
    · exact ⟨by decide, by decide⟩

/-- **C58**: in the flags a string of names denotes, a flag is set exactly if the last name that stands for it adds it, or, if none
does, if the string begins with a sign and it is set already.  The names reported as unknown are those that are unknown, in
their order. -/
theorem C58 (c : Class) (lead : Option Bool) (items : List Item) (base defaultFlags : UInt32) (h : Readable lead items) :
    (flagsFromString c (text lead items) base defaultFlags).2 = (items.filter fun i => !known c i.name).map (·.name) ∧
    ∀ k < 32, hasBit (flagsFromString c (text lead items) base defaultFlags).1 k =
      ((items.filterMap (says c defaultFlags lead k)).getLast?).getD (lead.isSome && hasBit base k) := by
  have hn : ∀ i ∈ items, i.name.head? ≠ some 0x2b ∧ i.name.head? ≠ some 0x2d := fun i hi => (h.names i hi).2
  obtain ⟨joined, hj⟩ : ∃ j, j = joinWith [0x7c] (items.map fun i => signText i.sign ++ i.name) := ⟨_, rfl⟩
  have h1 : sign true (text lead items) = (lead.getD true, joined) ∧ signed (text lead items) = lead.isSome := by
    unfold text
    rw [← hj]
    cases lead with
    | some b => cases b <;> exact ⟨rfl, rfl⟩
    | none =>
      have := joined_head items hn (h.first rfl)
      rw [← hj] at this
      refine ⟨sign_text true none joined this.1 this.2, ?_⟩
      show signed joined = false
      simp [signed, this.1, this.2]
  have h2 : strsplit 0x7c joined = items.map fun i => signText i.sign ++ i.name := by
    by_cases hjn : joined = []
    · have := h.single (hj.symm.trans hjn)
      rw [hjn, this]
      rfl
    · rw [hj]
      refine strsplit_join 0x7c _ (by rw [← hj]; exact hjn) ?_
      intro a ha
      obtain ⟨i, hi, rfl⟩ := List.mem_map.mp ha
      have := (h.names i hi).1
      cases hs : i.sign with
      | none => exact this
      | some b => cases b <;> simpa [signText] using this
  unfold flagsFromString
  rw [h1.1, h1.2]
  dsimp only
  rw [h2]
  obtain ⟨g1, g2⟩ := items_spec c defaultFlags (lead.getD true) items hn (if lead.isSome then base else 0, [])
  refine ⟨by simpa using g1, ?_⟩
  intro k hk
  rw [g2 k hk]
  have : hasBit (if lead.isSome then base else 0) k = (lead.isSome && hasBit base k) := by
    cases lead.isSome <;> simp [hasBit_zero]
  rw [this]
  rfl

/-- "-warning|error|+debug" with critical, warning and error set -/
example : Readable (some false) [⟨none, ascii "warning"⟩, ⟨none, ascii "error"⟩, ⟨some true, ascii "debug"⟩] ∧
    text (some false) [⟨none, ascii "warning"⟩, ⟨none, ascii "error"⟩, ⟨some true, ascii "debug"⟩] = ascii "-warning|error|+debug" ∧
    flagsFromString Logger.levels (ascii "-warning|error|+debug") 0xe 0 = (0x42, []) := by
  refine ⟨⟨?_, (fun h => nomatch h), (fun h => ?_)⟩, by decide, by decide⟩
  · intro i hi
    simp only [List.mem_cons, List.not_mem_nil, or_false] at hi
    rcases hi with rfl | rfl | rfl <;> decide
  · exact absurd h (by decide)

/-- **C58**: the name of a value of an enumeration denotes that value, if names are distinct. -/
theorem C58_enum (c : Class) (hd : (c.map (·.1)).Nodup) (v : UInt32) (name : Bytes) (h : nickName c v = some name) :
    enumFromString c name = (v, false) := by
  obtain ⟨x, hx, rfl⟩ := Option.map_eq_some_iff.mp h
  have hv : x.2 = v := by simpa using List.find?_some hx
  have hm := List.mem_of_find?_eq_some hx
  have : c.lookup x.1 = some x.2 := by
    clear hx h
    induction c with
    | nil => cases hm
    | cons y c ih =>
      rw [List.map_cons, List.nodup_cons] at hd
      rcases List.mem_cons.mp hm with rfl | hm
      · rw [List.lookup_cons, beq_self_eq_true]
      · have hne : x.1 ≠ y.1 := fun e => hd.1 (e ▸ List.mem_map_of_mem hm)
        rw [List.lookup_cons, beq_eq_false_iff_ne.mpr hne]
        exact ih hd.2 hm
  unfold enumFromString byNick
  rw [this, hv]

example : (Logger.levels.map (·.1)).Nodup ∧ nickName Logger.levels 0x40 = some (ascii "debug") := by decide

/-! ## C59 -/
open Verif.Logger Verif.Spec.Logger

theorem and_ne_zero (a b : UInt32) : (a &&& b != 0) = true ↔ ∃ k, hasBit a k = true ∧ hasBit b k = true := by
  constructor
  · intro h
    have h : (a &&& b) ≠ 0 := by simpa using h
    have h0 : (a &&& b).toNat ≠ 0 := fun e => h (UInt32.toNat_inj.mp (by rw [e]; rfl))
    obtain ⟨k, hk⟩ := Nat.exists_testBit_of_ne_zero h0
    refine ⟨k, ?_⟩
    have := hasBit_and a b k
    rw [show hasBit (a &&& b) k = true from hk] at this
    simpa using this.symm
  · rintro ⟨k, h1, h2⟩
    have := hasBit_and a b k
    rw [h1, h2] at this
    refine bne_iff_ne.mpr fun e => ?_
    rw [e, hasBit_zero] at this
    cases this

theorem meets_comm (a b : UInt32) : meets a b = meets b a := by unfold meets; rw [UInt32.and_comm]

/-- who wants which levels -/
def interest (w : Wanted) (key : Bytes) : UInt32 :=
  if key = consoleKey then actual w.log else if key = syslogKey then w.syslog.getD 0 else w.others key

/-- what holds of the loggers -/
structure Kept (s : Logger.State) (w : Wanted) : Prop where
  target : s.target = w.log
  syslog : s.syslog = w.syslog
  sum : s.interesting = s.interests.foldl (fun m v => m ||| v.2) 0
  right : ∀ x ∈ s.interests, x.2 = interest w x.1
  there : ∀ key, interest w key ≠ 0 → (key, interest w key) ∈ s.interests

theorem keys_ne : syslogKey ≠ consoleKey := by decide

/-- one interest changes -/
theorem Kept.put {s s' : Logger.State} {w w' : Wanted} (h : Kept s w) (key : Bytes) (ht : s'.target = w'.log) (hy : s'.syslog = w'.syslog)
    (hi : ∀ k, k ≠ key → interest w' k = interest w k) (hs : s'.interests = s.interests) : Kept (setInteresting s' key (interest w' key)) w' := by
  have hmem : ∀ x, x ∈ Logger.put s'.interests key (interest w' key) ↔ x = (key, interest w' key) ∨ (x ∈ s.interests ∧ x.1 ≠ key) := by
    intro x
    unfold Logger.put
    rw [List.mem_cons, List.mem_filter, hs]
    simp
  refine ⟨ht, hy, rfl, ?_, ?_⟩
  · intro x hx
    rcases (hmem x).mp hx with rfl | ⟨hx, hk⟩
    · rfl
    · rw [hi _ hk]; exact h.right x hx
  · intro k hk
    refine (hmem _).mpr ?_
    by_cases he : k = key
    · rw [he]; exact .inl rfl
    · rw [hi k he] at hk ⊢
      exact .inr ⟨h.there k hk, he⟩

theorem Kept.setTarget {s : Logger.State} {w : Wanted} (h : Kept s w) (l : UInt32) : Kept (setTarget s l) { w with log := l } := by
  refine Kept.put (s' := { s with target := l }) (w' := { w with log := l }) h consoleKey rfl h.syslog ?_ rfl
  intro k hk
  unfold interest
  rw [if_neg hk, if_neg hk]

theorem interest_syslog (w : Wanted) (o : Option UInt32) : ∀ k, k ≠ syslogKey → interest { w with syslog := o } k = interest w k := by
  intro k hk
  unfold interest
  simp only [if_neg hk]

theorem Kept.setSyslog {s : Logger.State} {w : Wanted} (h : Kept s w) (o : Option UInt32) (l : UInt32) :
    Kept (setSyslog { s with syslog := o } l) { w with syslog := some l } :=
  Kept.put (s' := { s with syslog := some l }) (w' := { w with syslog := some l }) h syslogKey h.target rfl (interest_syslog w _) rfl

theorem Kept.step {s : Logger.State} {w : Wanted} (h : Kept s w) (op : Op) (hp : proper op = true) : Kept (step s op) (w.after op) := by
  cases op with
  | setTarget l => exact h.setTarget l
  | setTargetByString n =>
    cases n with
    | none => exact h.setTarget 0
    | some n =>
      show Kept (setTargetByString s (some n)).2 { w with log := named w.log (some n) }
      unfold Logger.setTargetByString named
      rw [h.target]
      dsimp only
      split
      · exact h.setTarget _
      · exact h
  | setInteresting k l =>
    have hp : k ≠ consoleKey ∧ k ≠ syslogKey := by simpa [proper] using hp
    have := Kept.put (s' := s) (w' := w.after (.setInteresting k l)) h k h.target h.syslog (by
      intro k' hk
      unfold interest Wanted.after
      simp only [if_neg hk]) rfl
    rwa [show interest (w.after (.setInteresting k l)) k = l by simp [interest, Wanted.after, hp]] at this
  | setProperty l => cases hp
  | setSyslogProperty l => cases hp
  | startSyslog e =>
    show Kept (if s.syslog.isSome then s else startSyslog s e) (if w.syslog.isSome then w else _)
    rw [h.syslog]
    cases hw : w.syslog with
    | some t => exact h
    | none =>
      show Kept (startSyslog s e) { w with syslog := some (if e.isSome then named 0 e else w.log) }
      cases e with
      | none =>
        show Kept (Logger.setSyslog s s.target) _
        rw [h.target]
        exact h.setSyslog s.syslog _
      | some n =>
        show Kept (setSyslogByString { s with syslog := some 0 } 0 (some n)).2 { w with syslog := some (named 0 (some n)) }
        unfold Logger.setSyslogByString named
        dsimp only
        split
        · exact h.setSyslog _ _
        · have hi : ∀ k, interest { w with syslog := some 0 } k = interest w k := by
            intro k
            unfold interest
            rw [hw]
            rfl
          exact ⟨h.target, rfl, h.sum, fun x hx => (h.right x hx).trans (hi _).symm, fun k hk => by rw [hi] at hk ⊢; exact h.there k hk⟩
  | setSyslog l =>
    show Kept (if s.syslog.isSome then Logger.setSyslog s l else s) { w with syslog := w.syslog.map fun _ => l }
    rw [h.syslog]
    cases hw : w.syslog with
    | none =>
      have : { w with syslog := none } = w := by cases w; cases hw; rfl
      rw [Option.map_none, this]
      exact h
    | some t => exact h.setSyslog s.syslog l
  | setSyslogByString n =>
    show Kept (match s.syslog with | some current => (setSyslogByString s current n).2 | none => s) { w with syslog := w.syslog.map fun l => named l n }
    rw [h.syslog]
    cases hw : w.syslog with
    | none =>
      have : { w with syslog := none } = w := by cases w; cases hw; rfl
      rw [Option.map_none, this]
      exact h
    | some t =>
      cases n with
      | none => exact h.setSyslog s.syslog 0
      | some n =>
        show Kept (setSyslogByString s t (some n)).2 { w with syslog := some (named t (some n)) }
        unfold Logger.setSyslogByString named
        dsimp only
        split
        · exact h.setSyslog s.syslog _
        · have : { w with syslog := some t } = w := by cases w; cases hw; rfl
          rw [this]
          exact h
  | stopSyslog =>
    show Kept (if s.syslog.isSome then Logger.stopSyslog s else s) { w with syslog := none }
    rw [h.syslog]
    cases hw : w.syslog with
    | none =>
      have : { w with syslog := none } = w := by cases w; cases hw; rfl
      rw [this]
      exact h
    | some t =>
      exact Kept.put (s' := { s with syslog := none }) (w' := { w with syslog := none }) h syslogKey h.target rfl (interest_syslog w _) rfl

theorem Kept.init : Kept Logger.init ⟨0, none, fun _ => 0⟩ := by
  refine ⟨rfl, rfl, by decide, ?_, ?_⟩
  · intro x hx
    cases List.mem_singleton.mp hx
    rfl
  · intro key hk
    unfold interest at hk ⊢
    by_cases h1 : key = consoleKey
    · subst h1
      exact List.mem_singleton.mpr rfl
    · rw [if_neg h1] at hk
      split at hk <;> exact absurd rfl hk

theorem kept_run (ops : List Op) (hp : ∀ op ∈ ops, proper op = true) : ∀ {s : Logger.State} {w : Wanted}, Kept s w →
    Kept (run s ops) (ops.foldl Wanted.after w) := by
  induction ops with
  | nil => exact fun h => h
  | cons op ops ih => exact fun h => ih (fun x hx => hp x (List.mem_cons_of_mem _ hx)) (h.step op (hp op List.mem_cons_self))

theorem need_iff {s : Logger.State} {w : Wanted} (h : Kept s w) (level : UInt32) :
    needLog s level = true ↔ ∃ key, meets level (interest w key) = true := by
  unfold needLog meets
  rw [and_ne_zero, h.sum]
  constructor
  · rintro ⟨k, h1, h2⟩
    rw [hasBit_fold, hasBit_zero, Bool.false_or, List.any_eq_true] at h1
    obtain ⟨x, hx, h1⟩ := h1
    refine ⟨x.1, (and_ne_zero _ _).mpr ⟨k, h2, ?_⟩⟩
    rw [← h.right x hx]
    exact h1
  · rintro ⟨key, hk⟩
    obtain ⟨k, h1, h2⟩ := (and_ne_zero _ _).mp hk
    refine ⟨k, ?_, h1⟩
    rw [hasBit_fold, hasBit_zero, Bool.false_or, List.any_eq_true]
    refine ⟨_, h.there key ?_, h2⟩
    intro e
    rw [e, hasBit_zero] at h2
    cases h2

/-- **C59**: whatever was done with the loggers by their functions, a message is written to the log exactly if its level
is among those last asked for (the default ones if none were), whoever else is interested in what. -/
theorem C59_log_partial (ops : List Op) (hp : ∀ op ∈ ops, proper op = true) (level : UInt32) :
    console (run Logger.init ops) level = meets level (actual (wanted ops).log) := by
  have h : Kept (run Logger.init ops) (wanted ops) := kept_run ops hp Kept.init
  have hr : resolved (run Logger.init ops) = actual (wanted ops).log := by
    unfold resolved actual
    rw [h.target]
  unfold console
  rw [hr]
  show (_ && meets level (actual (wanted ops).log)) = _
  cases hm : meets level (actual (wanted ops).log) with
  | false => exact Bool.and_false _
  | true =>
    rw [(need_iff h level).mpr ⟨consoleKey, hm⟩]
    rfl

/-- **C59**: and to syslog exactly if its level is among those asked for there; if the default was asked for there, if its level is among
those anybody wants. -/
theorem C59_syslog_partial (ops : List Op) (hp : ∀ op ∈ ops, proper op = true) (level : UInt32) :
    syslogs (run Logger.init ops) level = true ↔ ∃ t, (wanted ops).syslog = some t ∧
      if t = 0 then meets level (actual (wanted ops).log) = true ∨ ∃ key, key ≠ consoleKey ∧ key ≠ syslogKey ∧ meets level ((wanted ops).others key) = true
      else meets level t = true := by
  have h : Kept (run Logger.init ops) (wanted ops) := kept_run ops hp Kept.init
  unfold syslogs
  rw [h.syslog]
  cases hw : (wanted ops).syslog with
  | none => simp
  | some t =>
    have hi : interest (wanted ops) syslogKey = t := by
      unfold interest
      rw [if_neg keys_ne, if_pos rfl, hw]
      rfl
    dsimp only
    constructor
    · intro hs
      rw [Bool.and_eq_true] at hs
      refine ⟨t, rfl, ?_⟩
      split
      · next ht =>
        obtain ⟨key, hk⟩ := (need_iff h level).mp hs.1
        by_cases h1 : key = consoleKey
        · rw [h1] at hk
          exact .inl hk
        · by_cases h2 : key = syslogKey
          · rw [h2, hi, ht] at hk
            exact absurd hk (by simp [meets])
          · refine .inr ⟨key, h1, h2, ?_⟩
            unfold interest at hk
            rwa [if_neg h1, if_neg h2] at hk
      · next ht =>
        rw [if_neg ht] at hs
        exact hs.2
    · rintro ⟨t', e, hs⟩
      cases e
      rw [Bool.and_eq_true]
      by_cases ht : t = 0
      · rw [if_pos ht] at hs
        have hn : needLog (run Logger.init ops) level = true := by
          refine (need_iff h level).mpr ?_
          rcases hs with hs | ⟨key, h1, h2, hs⟩
          · exact ⟨consoleKey, hs⟩
          · refine ⟨key, ?_⟩
            unfold interest
            rwa [if_neg h1, if_neg h2]
        refine ⟨hn, ?_⟩
        rw [if_pos ht]
        show meets level _ = true
        rw [meets_comm]
        exact hn
      · rw [if_neg ht] at hs ⊢
        exact ⟨(need_iff h level).mpr ⟨syslogKey, by rw [hi]; exact hs⟩, hs⟩

theorem level_lookup_mem {c : List (Bytes × UInt32)} {name : Bytes} {v : UInt32} (h : c.lookup name = some v) : (name, v) ∈ c := by
  induction c with
  | nil => cases h
  | cons x c ih =>
    rw [List.lookup_cons] at h
    split at h
    · next e => cases h; rw [eq_of_beq e]; exact List.mem_cons_self ..
    · exact List.mem_cons_of_mem _ (ih h)

theorem level_lookup_none {c : List (Bytes × UInt32)} {name : Bytes} (h : c.lookup name = none) (v : UInt32) : (name, v) ∉ c := by
  induction c with
  | nil => exact List.not_mem_nil
  | cons x c ih =>
    rw [List.lookup_cons] at h
    split at h
    · cases h
    · next e =>
      intro hm
      rcases List.mem_cons.mp hm with rfl | hm
      · simp at e
      · exact ih h hm

/-- the names of the levels -/
theorem level_names (name : Bytes) (adds : Bool) :
    known levels name = isName name ∧ ∀ k, 1 ≤ k → k ≤ 9 → standsFor levels defaultLevel adds name k = means name k := by
  by_cases ha : name = ascii "all"
  · subst ha
    refine ⟨by decide, fun k h1 h2 => ?_⟩
    have : ∀ adds : Bool, ∀ k < 10, 1 ≤ k → standsFor levels defaultLevel adds (ascii "all") k = means (ascii "all") k := by decide
    exact this adds k (by omega) h1
  have ha' : ¬ name = Names.all := ha
  cases hl : levels.lookup name with
  | some v =>
    have hm := level_lookup_mem hl
    have key : ∀ x ∈ levels, known levels x.1 = isName x.1 ∧ ∀ adds : Bool, ∀ k < 10, 1 ≤ k → standsFor levels defaultLevel adds x.1 k = means x.1 k := by
      decide +kernel
    have := key _ hm
    exact ⟨this.1, fun k h1 h2 => this.2 adds k (by omega) h1⟩
  | none =>
    have hn := level_lookup_none hl
    have h1 : isName name = false := by
      have key : ∀ x ∈ levelNames, ∃ v ∈ levels, v.1 = x.1 := by decide
      unfold isName
      simp only [Bool.or_eq_false_iff, decide_eq_false_iff_not]
      refine ⟨⟨⟨ha, ?_⟩, ?_⟩, ?_⟩
      · rintro rfl; exact hn 0 (by decide)
      · rintro rfl; exact hn 1 (by decide)
      · rw [List.any_eq_false]
        intro x hx e
        obtain ⟨v, hv, hv'⟩ := key x hx
        refine hn v.2 ?_
        rw [← of_decide_eq_true e, ← hv']
        exact hv
    refine ⟨?_, ?_⟩
    · rw [h1]; simp [known, ha', byNick, hl]
    · intro k _ _
      unfold standsFor byNick
      rw [if_neg ha', hl]
      symm
      unfold isName at h1
      simp only [Bool.or_eq_false_iff, decide_eq_false_iff_not] at h1
      unfold means
      simp only [Bool.or_eq_false_iff, decide_eq_false_iff_not]
      refine ⟨⟨ha, ?_⟩, ?_⟩
      · simp [h1.1.1.2]
      · intro hm
        exact (List.any_eq_false.mp h1.2 _ hm) (by simp)

/-- **C59**: a level is among those a string of names denotes exactly if the last name which stands for it adds it, or, if none does, if the string begins
with a sign and the level was asked for already (or is one of the usual ones, if nothing was asked for).  Unknown names are reported. -/
theorem C59_names (lead : Option Bool) (items : List Item) (base : UInt32) (h : Readable lead items) :
    (levelFromString (text lead items) base).2 = (items.filter fun i => !isName i.name).map (·.name) ∧
    ∀ k, 1 ≤ k → k ≤ 9 → hasBit (levelFromString (text lead items) base).1 k =
      ((items.filterMap fun i => if means i.name k then some (i.sign.getD (lead.getD true)) else none).getLast?).getD
        (lead.isSome && if base = 0 then usual k else hasBit base k) := by
  have hsig : signed (text lead items) = lead.isSome := by
    unfold text
    cases lead with
    | some b => cases b <;> rfl
    | none =>
      have := joined_head items (fun i hi => (h.names i hi).2) (h.first rfl)
      show signed (joinWith _ _) = false
      simp [signed, this.1, this.2]
  have base' : ∀ k, 1 ≤ k → k ≤ 9 → (lead.isSome && hasBit (if base = 0 && lead.isSome then defaultLevel else base) k) =
      (lead.isSome && if base = 0 then usual k else hasBit base k) := by
    intro k h1 h2
    cases lead with
    | none => rfl
    | some b =>
      have : ∀ k < 10, 1 ≤ k → hasBit defaultLevel k = usual k := by decide
      by_cases hb : base = 0
      · simp [hb, this k (by omega) h1]
      · simp [hb]
  obtain ⟨g1, g2⟩ := C58 levels lead items (if base = 0 && lead.isSome then defaultLevel else base) defaultLevel h
  have hsays : ∀ k, 1 ≤ k → k ≤ 9 → (says levels defaultLevel lead k) = fun i => if means i.name k then some (i.sign.getD (lead.getD true)) else none := by
    intro k h1 h2
    funext i
    unfold says
    dsimp only
    rw [(level_names i.name _).2 k h1 h2]
  have hknown : (fun i : Item => !known levels i.name) = fun i => !isName i.name := by
    funext i
    rw [(level_names i.name true).1]
  rw [hknown] at g1
  have all : ∀ b, flagsFromString levels Names.all b defaultLevel = (0x3ff, []) := by
    intro b
    have h1 : signed Names.all = false := by decide
    have h2 : flagsFromString levels Names.all 0 defaultLevel = (0x3ff, []) := by decide +kernel
    rw [← h2]
    unfold flagsFromString
    rw [h1]
    rfl
  unfold levelFromString
  rw [hsig]
  by_cases ht : text lead items = Names.all
  · rw [if_pos ht]
    rw [ht, all] at g1 g2
    refine ⟨g1, fun k h1 h2 => ?_⟩
    have := g2 k (by omega)
    rw [hsays k h1 h2, base' k h1 h2] at this
    rw [← this]
    have : ∀ k < 10, 1 ≤ k → hasBit allLevels k = hasBit 0x3ff k := by decide
    exact this k (by omega) h1
  · rw [if_neg ht]
    refine ⟨g1, fun k h1 h2 => ?_⟩
    have := g2 k (by omega)
    rw [hsays k h1 h2, base' k h1 h2] at this
    exact this

/-- "+debug|-statistics" when nothing has been asked for -/
example : text (some true) [⟨none, ascii "debug"⟩, ⟨some false, ascii "statistics"⟩] = ascii "+debug|-statistics" ∧
    levelFromString (ascii "+debug|-statistics") 0 = (0x5e, []) := by decide

/-- debug messages are asked for in addition, and syslog is told to take warnings only -/
example : let ops := [Op.setTargetByString (some (ascii "+debug")), .startSyslog none, .setInteresting [1] 0x80, .setSyslogByString (some (ascii "warning"))]
    (∀ op ∈ ops, proper op = true) ∧ console (run Logger.init ops) 0x40 = true ∧ console (run Logger.init ops) 0x80 = false ∧
    syslogs (run Logger.init ops) 0x40 = false ∧ syslogs (run Logger.init ops) 0x08 = true := by decide

/-- **C59 fails** if the level is set as a property of the logger: debug messages are asked for, and not written. -/
theorem C59_property_violated : (run Logger.init [.setProperty 0x40]).target = 0x40 ∧ console (run Logger.init [.setProperty 0x40]) 0x40 = false := by
  decide

/-- **C59 fails** if all levels are taken away: the default ones are written again. -/
theorem C59_nothing_violated :
    (setTargetByString (run Logger.init [.setTarget 0x40]) (some (ascii "-all"))).1 = true ∧
    (let s := run Logger.init [.setTarget 0x40, .setTargetByString (some (ascii "-all"))]
     console s 0x40 = false ∧ console s 0x08 = true) := by
  decide

end Verif.Props
