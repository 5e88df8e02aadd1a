import Verif.Core.CommandEncoder
import Verif.Core.CommandDecoder
import Verif.Core.DecoderLemmas
import Verif.Spec.Command
namespace Verif.CmdDec
open Verif Verif.Spec Verif.Decoder Verif.Enc

/-! ### Locality -/

theorem findIdx_mem {q : Bytes} {k : Nat} (h : q.findIdx? (· == 0) = some k) :
    k < q.length ∧ (0 : UInt8) ∈ q := by
  rw [List.findIdx?_eq_some_iff_getElem] at h
  obtain ⟨hk, h0, _⟩ := h
  refine ⟨hk, ?_⟩
  have : q[k] = 0 := by simpa using h0
  rw [← this]; exact List.getElem_mem hk

theorem ite_both {α : Type} {P : Prop} [Decidable P] {a b c d : α} (h1 : P → a = c)
    (h2 : ¬P → b = d) : (if P then a else b) = (if P then c else d) := by
  by_cases h : P
  · rw [if_pos h, if_pos h, h1 h]
  · rw [if_neg h, if_neg h, h2 h]

theorem findNull1_append (q x : Bytes) :
    findNull1 (q ++ x) q.length =
      match q.findIdx? (· == 0) with
      | none => .fail
      | some k => if k = 0 then .fail else .ok k := by
  unfold findNull1
  rw [findNull_append]
  cases q.findIdx? (· == 0) <;> rfl

theorem decodeDefineMacros_local (n : Nat) (q x y : Bytes) (acc : MacroTable)
    (hn : q.length ≤ n) :
    decodeDefineMacros (q ++ x) q.length acc = decodeDefineMacros (q ++ y) q.length acc := by
  induction n generalizing q acc with
  | zero =>
    have : q.length = 0 := by omega
    rw [this, decodeDefineMacros, decodeDefineMacros]; simp
  | succ n ih =>
    rw [decodeDefineMacros, decodeDefineMacros]
    by_cases h0 : q.length = 0
    · simp [h0]
    · simp only [h0, if_false]
      rw [findNull1_append, findNull1_append]
      cases hk : q.findIdx? (· == 0) with
      | none => rfl
      | some k =>
        obtain ⟨hlt, _⟩ := findIdx_mem hk
        simp only
        by_cases hk0 : k = 0
        · simp [hk0]
        · simp only [hk0, if_false]
          have e1 : ∀ z : Bytes, (q ++ z).drop (k + 1) = q.drop (k + 1) ++ z :=
            fun z => List.drop_append_of_le_length (by omega)
          have e2 : ∀ z : Bytes, (q ++ z).take k = q.take k :=
            fun z => List.take_append_of_le_length (by omega)
          have e3 : q.length - (k + 1) = (q.drop (k + 1)).length := by rw [List.length_drop]
          rw [e1, e1, e2, e2, e3, findNull_append, findNull_append]
          cases hk2 : (q.drop (k + 1)).findIdx? (· == 0) with
          | none => rfl
          | some k2 =>
            obtain ⟨hlt2, _⟩ := findIdx_mem hk2
            simp only [HRes.ofOption_some]
            generalize hr : q.drop (k + 1) = r at *
            have hrl : r.length ≤ n := by rw [← hr, List.length_drop]; omega
            have f1 : ∀ z : Bytes, (r ++ z).drop (k2 + 1) = r.drop (k2 + 1) ++ z :=
              fun z => List.drop_append_of_le_length (by omega)
            have f2 : ∀ z : Bytes, (r ++ z).take k2 = r.take k2 :=
              fun z => List.take_append_of_le_length (by omega)
            have f3 : r.length - (k2 + 1) = (r.drop (k2 + 1)).length := by rw [List.length_drop]
            rw [f1, f1, f2, f2, f3]
            exact ih _ _ (by rw [List.length_drop]; omega)

theorem decodeString_local (c : UInt8) (q x y : Bytes) (mk : Bytes → Cmd) :
    decodeString (c :: q ++ x) (q.length + 1) mk = decodeString (c :: q ++ y) (q.length + 1) mk := by
  simp only [decodeString, List.cons_append, List.drop_succ_cons, List.drop_zero,
    Nat.add_sub_cancel]
  rw [findNull1_append, findNull1_append]
  cases hk : q.findIdx? (· == 0) with
  | none => rfl
  | some k =>
    have := (findIdx_mem hk).2
    rw [cstr_local q x this, cstr_local q y this]

theorem decodeHeaderContent_local (q x y : Bytes) :
    decodeHeaderContent (q ++ x) q.length = decodeHeaderContent (q ++ y) q.length := by
  simp only [decodeHeaderContent]
  rw [findNull1_append, findNull1_append]
  cases hk : q.findIdx? (· == 0) with
  | none => rfl
  | some k =>
    obtain ⟨hlt, h0⟩ := findIdx_mem hk
    rw [cstr_local q x h0, cstr_local q y h0]
    have e1 : ∀ z : Bytes, (q ++ z).drop (k + 1) = q.drop (k + 1) ++ z :=
      fun z => List.drop_append_of_le_length (by omega)
    have e3 : q.length - (k + 1) = (q.drop (k + 1)).length := by rw [List.length_drop]
    simp only
    by_cases hk0 : k = 0
    · simp [hk0]
    · simp only [hk0, if_false, HRes.bind_ok]
      rw [e1, e1, e3, findNull_append, findNull_append]
      cases hk2 : (q.drop (k + 1)).findIdx? (· == 0) with
      | none => rfl
      | some k2 =>
        have := (findIdx_mem hk2).2
        rw [cstr_local _ x this, cstr_local _ y this]

theorem decodeFamily_local (inet : Inet) (host : Bytes) (f : UInt8) (r x y : Bytes) :
    decodeFamily inet host f (r ++ x) r.length = decodeFamily inet host f (r ++ y) r.length := by
  unfold decodeFamily
  split
  · by_cases hge : (r.length : Int) ≥ 2
    · match r, hge with
      | p :: p2 :: r, _ =>
        simp only [List.cons_append]
        have : (((p :: p2 :: r).length : Int) - 2).toNat = r.length := by
          simp only [List.length_cons]; omega
        rw [this, findNull1_append, findNull1_append]
        cases hk2 : r.findIdx? (· == 0) with
        | none => rfl
        | some k2 =>
          have h0 := (findIdx_mem hk2).2
          rw [cstr_local r x h0, cstr_local r y h0]
    · unfold checkAtLeast
      rw [if_neg hge, if_neg (by omega)]; rfl
  · rfl

theorem split_at_null {q : Bytes} {k : Nat} (h : q.findIdx? (· == 0) = some k) :
    q = q.take k ++ 0 :: q.drop (k + 1) ∧ IsCStr (q.take k) ∧ (q.take k).length = k := by
  rw [List.findIdx?_eq_some_iff_getElem] at h
  obtain ⟨hk, h0, hlt⟩ := h
  have e0 : q[k] = 0 := by simpa using h0
  refine ⟨?_, ?_, by rw [List.length_take]; omega⟩
  · rw [← e0, List.getElem_cons_drop, List.take_append_drop]
  · intro hm
    obtain ⟨i, hi, hv⟩ := List.mem_iff_getElem.1 hm
    rw [List.length_take] at hi
    rw [List.getElem_take] at hv
    have := hlt i (by omega)
    rw [hv] at this
    exact this (by decide)

theorem decodeConnectContent_local (inet : Inet) (q x y : Bytes)
    (hC : ∀ host, IsCStr host → host ≠ [] → q ≠ host ++ [0]) :
    decodeConnectContent inet (q ++ x) q.length = decodeConnectContent inet (q ++ y) q.length := by
  simp only [decodeConnectContent]
  rw [findNull1_append, findNull1_append]
  cases hk : q.findIdx? (· == 0) with
  | none => rfl
  | some k =>
    obtain ⟨hlt, h0⟩ := findIdx_mem hk
    rw [cstr_local q x h0, cstr_local q y h0]
    have e1 : ∀ z : Bytes, (q ++ z).drop (k + 1) = q.drop (k + 1) ++ z :=
      fun z => List.drop_append_of_le_length (by omega)
    simp only
    by_cases hk0 : k = 0
    · simp [hk0]
    · simp only [hk0, if_false, HRes.bind_ok]
      rw [e1, e1]
      cases hr : q.drop (k + 1) with
      | nil =>
        obtain ⟨hs, hc, hl⟩ := split_at_null hk
        rw [hr] at hs
        exact absurd hs (hC _ hc (fun e => hk0 (by rw [← hl, e]; rfl)))
      | cons f r =>
        have hrl : q.length = k + 2 + r.length := by
          have := congrArg List.length hr
          rw [List.length_drop, List.length_cons] at this; omega
        have hleft : (q.length : Int) - ((k + 2 : Nat) : Int) = (r.length : Int) := by omega
        rw [hleft]
        simp only [List.cons_append]
        have := fun host => decodeFamily_local inet host f r x y
        simp only [this]

theorem readBE32_local (q x y : Bytes) (h : 4 ≤ q.length) :
    readBE32 (q ++ x) = readBE32 (q ++ y) := by
  match q, h with
  | _ :: _ :: _ :: _ :: _, _ => simp [readBE32]

theorem checkAtLeast_bind {α : Type} (a e : Int) (ha : 0 ≤ a) (f : Unit → HRes α) :
    (checkAtLeast a e >>= f) = if a ≥ e then f () else .fail := by
  unfold checkAtLeast
  split
  · rfl
  · rw [if_neg (by omega)]; rfl

theorem checkExact_bind {α : Type} (a e : Int) (ha : 0 ≤ a) (f : Unit → HRes α) :
    (checkExact a e >>= f) = if a = e then f () else .fail := by
  unfold checkExact
  split
  · rfl
  · split
    · rfl
    · rw [if_neg (by omega)]; rfl

theorem bind_both {α β : Type} {a : HRes α} {f g : α → HRes β} (h : ∀ x, f x = g x) :
    (a >>= f) = (a >>= g) := by
  cases a with
  | ok x => exact h x
  | fail => rfl
  | ub => rfl

theorem decodeOption_local (c : UInt8) (q x y : Bytes) :
    decodeOption (c :: q ++ x) (q.length + 1) = decodeOption (c :: q ++ y) (q.length + 1) := by
  unfold decodeOption
  simp only [List.cons_append, List.drop_succ_cons, List.drop_zero]
  rw [checkAtLeast_bind _ _ (by omega), checkAtLeast_bind _ _ (by omega)]
  apply ite_both _ (fun _ => rfl)
  intro h1
  rw [readBE32_local q x y (by omega)]
  apply bind_both; intro v
  rw [checkAtLeast_bind _ _ (by omega), checkAtLeast_bind _ _ (by omega)]
  apply ite_both _ (fun _ => rfl)
  intro h2
  rw [List.drop_append_of_le_length (l₁ := q) (i := 4) (by omega),
    List.drop_append_of_le_length (l₁ := q) (i := 4) (by omega),
    readBE32_local (q.drop 4) x y (by rw [List.length_drop]; omega)]
  apply bind_both; intro v
  rw [checkAtLeast_bind _ _ (by omega), checkAtLeast_bind _ _ (by omega)]
  apply ite_both _ (fun _ => rfl)
  intro h3
  rw [List.drop_append_of_le_length (l₁ := q) (i := 8) (by omega),
    List.drop_append_of_le_length (l₁ := q) (i := 8) (by omega),
    readBE32_local (q.drop 8) x y (by rw [List.length_drop]; omega)]

theorem decodeNegotiate_local (c : UInt8) (q x y : Bytes) :
    decodeNegotiate (c :: q ++ x) (q.length + 1) = decodeNegotiate (c :: q ++ y) (q.length + 1) := by
  unfold decodeNegotiate
  rw [decodeOption_local c q x y]

theorem decodeDefineMacro_local (c d : UInt8) (q x y : Bytes) :
    decodeDefineMacro (c :: d :: q ++ x) (q.length + 2) =
      decodeDefineMacro (c :: d :: q ++ y) (q.length + 2) := by
  simp only [decodeDefineMacro, List.cons_append]
  by_cases hc : c = 0
  · simp [hc]
  by_cases hd : d = 0
  · simp [hd, hc]
  have hlen : ∀ z : Bytes, ((c :: d :: (q ++ z)).takeWhile (· != 0)).length - 1 ≥ 1 := by
    intro z
    simp [hc, hd]
  rw [if_pos (hlen x), if_pos (hlen y)]
  rw [Nat.add_sub_cancel, decodeDefineMacros_local q.length q x y [] (Nat.le_refl _)]

theorem decode_cons (inet : Inet) (c : UInt8) (q x y : Bytes) (h : SelfContained (c :: q)) :
    decode inet (c :: q ++ x) (q.length + 1) = decode inet (c :: q ++ y) (q.length + 1) := by
  show dispatch inet c (c :: q ++ x) (q.length + 1) = dispatch inet c (c :: q ++ y) (q.length + 1)
  unfold dispatch
  apply ite_both (fun _ => decodeNegotiate_local c q x y); intro _
  apply ite_both; rotate_left; intro _
  apply ite_both
  · intro hc
    exact decodeConnectContent_local inet q x y
      (fun host h1 h2 e => h.2.2 host h1 h2 (by rw [hc, e]))
  intro _
  apply ite_both (fun _ => decodeString_local c q x y _); intro _
  apply ite_both (fun _ => decodeString_local c q x y _); intro _
  apply ite_both (fun _ => decodeString_local c q x y _); intro _
  apply ite_both (fun _ => rfl); intro _
  apply ite_both
  · intro _
    simp only [List.cons_append, List.drop_succ_cons, List.drop_zero, Nat.add_sub_cancel]
    rw [decodeHeaderContent_local q x y]
  intro _
  apply ite_both (fun _ => rfl); intro _
  apply ite_both
  · intro _
    simp only [decodeBody, List.cons_append, List.drop_succ_cons, List.drop_zero,
      Nat.add_sub_cancel, List.take_left]
  intro _
  apply ite_both
  · intro _
    simp only [decodeEndOfMessage, List.cons_append, List.drop_succ_cons, List.drop_zero,
      Nat.add_sub_cancel, List.take_left]
  intro _
  apply ite_both (fun _ => rfl); intro _
  apply ite_both (fun _ => rfl); intro _
  apply ite_both (fun _ => decodeString_local c q x y _); intro _
  · rfl
  · intro hc
    cases q with
    | nil => exact absurd (by rw [hc]) h.2.1
    | cons d q => exact decodeDefineMacro_local c d q x y

/-- Every self-contained command packet is decoded from its own bytes only. -/
theorem decode_local (inet : Inet) (p : Bytes) (h : SelfContained p) :
    Local (decode inet) p := by
  cases p with
  | nil => exact absurd rfl h.1
  | cons c q =>
    intro t
    have := decode_cons inet c q (t ++ [0]) [0] h
    simpa using this

end Verif.CmdDec
