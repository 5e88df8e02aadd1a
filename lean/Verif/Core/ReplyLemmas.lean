import Verif.Core.CommandRoundTrip
import Verif.Core.ReplyEncoder
import Verif.Core.ReplyDecoder
import Verif.Spec.Reply
namespace Verif.RepDec
open Verif Verif.Spec Verif.Decoder Verif.Enc
open Verif.CmdDec (findIdx_mem findNull1_append ite_both bind_both split_at_null readBE32_local
  checkAtLeast_bind checkExact_bind findNull1_cstr drop_cstr decodeOption_local
  decodeHeaderContent_local)

/-! ### Locality -/

theorem findSpace_append (q x : Bytes) :
    findSpace (q ++ x) q.length = .ok (q.findIdx? (· == 0x20)) := by
  induction q with
  | nil => simp [findSpace]
  | cons c q ih =>
    simp only [List.cons_append, List.length_cons, findSpace, List.findIdx?_cons]
    by_cases hc : c = 0x20
    · simp [hc]
    · simp only [hc, if_false, ih, beq_iff_eq]
      simp

theorem splitText_local (code : Nat) (q x y : Bytes) (h0 : (0 : UInt8) ∈ q)
    (hs : ∀ a b, q = a ++ 0 :: b → IsCStr a → (0x20 : UInt8) ∉ b) :
    splitText code (q ++ x) q.length = splitText code (q ++ y) q.length := by
  unfold splitText
  rw [findSpace_append, findSpace_append]
  cases hk : q.findIdx? (· == 0x20) with
  | none => simp only [cstr_local q x h0, cstr_local q y h0]
  | some k =>
    rw [List.findIdx?_eq_some_iff_getElem] at hk
    obtain ⟨hlt, hsp, _⟩ := hk
    have hsp : q[k] = 0x20 := by simpa using hsp
    simp only
    have h0' : (0 : UInt8) ∈ q.drop (k + 1) := by
      cases hj : q.findIdx? (· == 0) with
      | none =>
        rw [List.findIdx?_eq_none_iff] at hj
        exact absurd (hj 0 h0) (by decide)
      | some j =>
        obtain ⟨hsplit, hc, hl⟩ := split_at_null hj
        have hnb := hs _ _ hsplit hc
        obtain ⟨hjlt, _⟩ := findIdx_mem hj
        have hkj : k < j := by
          apply Classical.byContradiction
          intro hge
          have hne : k ≠ j := by
            intro e; subst e
            rw [List.findIdx?_eq_some_iff_getElem] at hj
            obtain ⟨_, hz, _⟩ := hj
            rw [hsp] at hz; exact absurd hz (by decide)
          apply hnb
          rw [← hsp]
          exact List.mem_drop_iff_getElem.2 ⟨k - (j + 1), by omega, by
            congr 1; omega⟩
        have hz : q[j] = 0 := by
          rw [List.findIdx?_eq_some_iff_getElem] at hj
          obtain ⟨_, hz, _⟩ := hj
          simpa using hz
        rw [← hz]
        exact List.mem_drop_iff_getElem.2 ⟨j - (k + 1), by omega, by congr 1; omega⟩
    rw [List.drop_append_of_le_length (by omega), List.drop_append_of_le_length (by omega),
      List.take_append_of_le_length (by omega), List.take_append_of_le_length (by omega),
      cstr_local _ x h0', cstr_local _ y h0']

/-- reading the text after the digits, when it contains its terminator and no blank
after it -/
theorem decodeCodeText_local (code : Nat) (q x y : Bytes) (h0 : (0 : UInt8) ∈ q)
    (hs : ∀ a b, q = a ++ 0 :: b → IsCStr a → (0x20 : UInt8) ∉ b) :
    decodeCodeText code (q ++ x) q.length = decodeCodeText code (q ++ y) q.length := by
  cases q with
  | nil => simp at h0
  | cons c q =>
    unfold decodeCodeText
    simp only [List.cons_append, List.head?_cons]
    apply ite_both
    · intro hc
      have hc : c = 0x20 := by simpa using hc
      subst hc
      have h0q : (0 : UInt8) ∈ q := by
        rcases List.mem_cons.1 h0 with h | h
        · exact absurd h (by decide)
        · exact h
      exact splitText_local code q x y h0q (fun a b e ha => hs (0x20 :: a) b (by rw [e]; rfl) (by
        intro hm
        rcases List.mem_cons.1 hm with h | h
        · exact absurd h (by decide)
        · exact ha h))
    · intro _
      exact splitText_local code (c :: q) x y h0 hs

theorem decodeReplyCode_local (q x y : Bytes)
    (h : ∀ a b, q = a ++ 0 :: b → IsCStr a → (0x20 : UInt8) ∉ b) :
    decodeReplyCode (0x79 :: q ++ x) (q.length + 1) =
      decodeReplyCode (0x79 :: q ++ y) (q.length + 1) := by
  unfold decodeReplyCode
  rw [checkAtLeast_bind _ _ (by omega), checkAtLeast_bind _ _ (by omega)]
  apply ite_both _ (fun _ => rfl)
  intro h1
  match q, h, h1 with
  | a :: b :: c :: r, h, _ =>
    simp only [List.cons_append, List.drop_succ_cons, List.drop_zero, Nat.add_sub_cancel,
      List.length_cons]
    apply ite_both _ (fun _ => rfl)
    rintro ⟨ha, hb, hc⟩
    have e1 := findNull1_append (a :: b :: c :: r) x
    have e2 := findNull1_append (a :: b :: c :: r) y
    simp only [List.cons_append, List.length_cons] at e1 e2
    rw [e1, e2]
    cases hk : (a :: b :: c :: r).findIdx? (· == 0) with
    | none => rfl
    | some k =>
      simp only
      apply bind_both
      intro _
      have h0 := (findIdx_mem hk).2
      have na : a ≠ 0 := by rcases ha with h | h <;> subst h <;> decide
      have nb : b ≠ 0 := by intro e; subst e; exact absurd hb (by decide)
      have nc : c ≠ 0 := by intro e; subst e; exact absurd hc (by decide)
      have h0r : (0 : UInt8) ∈ r := by
        simp only [List.mem_cons] at h0
        rcases h0 with h | h | h | h
        · exact absurd h.symm na
        · exact absurd h.symm nb
        · exact absurd h.symm nc
        · exact h
      have := decodeCodeText_local ((a.toNat - 48) * 100 + (b.toNat - 48) * 10 + (c.toNat - 48))
        r x y h0r (fun a' b' e hc' => h (a :: b :: c :: a') b' (by rw [e]; rfl) (by
          unfold IsCStr at *
          simp only [List.mem_cons, not_or]
          exact ⟨na.symm, nb.symm, nc.symm, hc'⟩))
      rw [show r.length + 1 + 1 + 1 + 1 - 4 = r.length by omega]
      exact this

theorem decodeTwo_local (q x y : Bytes) :
    decodeTwo (q ++ x) q.length = decodeTwo (q ++ y) q.length := by
  unfold decodeTwo
  rw [findNull1_append, findNull1_append]
  cases hk : q.findIdx? (· == 0) with
  | none => rfl
  | some k =>
    obtain ⟨hlt, h0⟩ := findIdx_mem hk
    rw [cstr_local q x h0, cstr_local q y h0]
    simp only
    by_cases hk0 : k = 0
    · simp [hk0]
    · simp only [hk0, if_false, HRes.bind_ok]
      apply bind_both; intro a
      apply ite_both (fun _ => rfl); intro _
      rw [List.drop_append_of_le_length (by omega), List.drop_append_of_le_length (by omega)]
      rw [show q.length - (k + 1) = (q.drop (k + 1)).length by rw [List.length_drop]]
      rw [findNull1_append, findNull1_append]
      cases hk2 : (q.drop (k + 1)).findIdx? (· == 0) with
      | none => rfl
      | some k2 =>
        have h0 := (findIdx_mem hk2).2
        rw [cstr_local _ x h0, cstr_local _ y h0]

theorem decodeReplyString_local (c : UInt8) (q x y : Bytes) (mk : Bytes → Reply) :
    decodeReplyString (c :: q ++ x) (q.length + 1) mk =
      decodeReplyString (c :: q ++ y) (q.length + 1) mk := by
  simp only [decodeReplyString, List.cons_append, List.drop_succ_cons, List.drop_zero,
    Nat.add_sub_cancel]
  rw [findNull1_append, findNull1_append]
  cases hk : q.findIdx? (· == 0) with
  | none => rfl
  | some k =>
    have := (findIdx_mem hk).2
    rw [cstr_local q x this, cstr_local q y this]

/-- an index and two terminated strings decode from these bytes only -/
theorem decodeIndexed_ok (idx name value rest : Bytes) (n : Nat) (hi : idx.length = 4)
    (h1 : IsCStr name) (h2 : IsCStr value)
    (hn : (idx ++ (name ++ 0 :: (value ++ [0]))).length ≤ n) :
    decodeIndexed (idx ++ (name ++ 0 :: (value ++ 0 :: rest))) n =
      if name = [] then .fail else
      match readBE32 idx with
      | .ok i => .ok (i, name, if value = [] then none else some value)
      | .fail => .fail
      | .ub => .ub := by
  match idx, hi with
  | [a, b, c, d], _ =>
    simp only [List.length_append, List.length_cons, List.length_nil] at hn
    unfold decodeIndexed
    rw [if_neg (by omega)]
    simp only [List.cons_append, List.nil_append, readBE32, HRes.bind_ok, List.drop_succ_cons,
      List.drop_zero]
    by_cases h0 : name = []
    · subst h0
      rw [if_pos rfl]
      simp only [List.nil_append]
      have : findNull1 (0 :: (value ++ 0 :: rest)) (n - 4) = .fail := by
        have := findNull_cstr [] (value ++ 0 :: rest) (n - 4) (by simp [IsCStr])
          (by simp only [List.length_nil]; omega)
        unfold findNull1
        rw [List.nil_append] at this
        rw [this]; rfl
      rw [this]; rfl
    · rw [if_neg h0, findNull1_cstr name _ _ h1 h0 (by omega)]
      simp only [HRes.bind_ok]
      rw [cstr_append name _ h1, drop_cstr, findNull_cstr value _ _ h2 (by omega)]
      simp only [HRes.bind_ok]
      rw [cstr_append value _ h2]
      by_cases hv : value = []
      · subst hv; simp
      · have : value.length ≠ 0 := by cases value <;> simp_all
        simp [this, hv]

/-- an index followed by an empty name fails whatever follows -/
theorem decodeIndexed_noName (idx rest : Bytes) (n : Nat) (hi : idx.length = 4) (hn : 5 ≤ n) :
    decodeIndexed (idx ++ 0 :: rest) n = .fail := by
  match idx, hi with
  | [a, b, c, d], _ =>
    unfold decodeIndexed
    rw [if_neg (by omega)]
    simp only [List.cons_append, List.nil_append, readBE32, HRes.bind_ok, List.drop_succ_cons,
      List.drop_zero]
    have : findNull1 (0 :: rest) (n - 4) = .fail := by
      have := findNull_cstr [] rest (n - 4) (by simp [IsCStr])
        (by simp only [List.length_nil]; omega)
      unfold findNull1
      rw [List.nil_append] at this
      rw [this]; rfl
    rw [this]; rfl

theorem decodeIndexed_local (q x y : Bytes)
    (h : q.length ≤ 1 ∨
      (∃ idx rest, q = idx ++ 0 :: rest ∧ idx.length = 4) ∨
      (∃ idx name value rest, q = idx ++ (name ++ 0 :: (value ++ 0 :: rest)) ∧
        idx.length = 4 ∧ IsCStr name ∧ IsCStr value)) :
    decodeIndexed (q ++ x) (q.length + 1 + 1) = decodeIndexed (q ++ y) (q.length + 1 + 1) := by
  rcases h with h | ⟨idx, rest, rfl, hi⟩ | ⟨idx, name, value, rest, rfl, hi, h1, h2⟩
  · unfold decodeIndexed
    rw [if_pos (by omega), if_pos (by omega)]
  · have e : ∀ z, idx ++ 0 :: rest ++ z = idx ++ 0 :: (rest ++ z) := by simp
    have hl : 5 ≤ (idx ++ 0 :: rest).length + 1 + 1 := by
      simp only [List.length_append, List.length_cons]; omega
    rw [e, e, decodeIndexed_noName idx _ _ hi hl, decodeIndexed_noName idx _ _ hi hl]
  · have e : ∀ z, idx ++ (name ++ 0 :: (value ++ 0 :: rest)) ++ z =
        idx ++ (name ++ 0 :: (value ++ 0 :: (rest ++ z))) := by simp
    have hl : (idx ++ (name ++ 0 :: (value ++ [0]))).length ≤
        (idx ++ (name ++ 0 :: (value ++ 0 :: rest))).length + 1 + 1 := by
      simp only [List.length_append, List.length_cons, List.length_nil]; omega
    rw [e, e, decodeIndexed_ok idx name value _ _ hi h1 h2 hl,
      decodeIndexed_ok idx name value _ _ hi h1 h2 hl]

theorem decodeRequests_local (n : Nat) (q x y : Bytes) (acc : Requests) (hn : q.length ≤ n) :
    decodeRequests (q ++ x) q.length acc = decodeRequests (q ++ y) q.length acc := by
  induction n generalizing q acc with
  | zero =>
    have : q.length = 0 := by omega
    rw [this, decodeRequests, decodeRequests]; simp
  | succ n ih =>
    rw [decodeRequests, decodeRequests]
    apply ite_both (fun _ => rfl); intro h0
    apply ite_both (fun _ => rfl); intro h4
    rw [readBE32_local q x y (by omega)]
    cases readBE32 (q ++ y) with
    | fail => rfl
    | ub => rfl
    | ok stage =>
      simp only
      have e1 : ∀ z : Bytes, (q ++ z).drop 4 = q.drop 4 ++ z :=
        fun z => List.drop_append_of_le_length (by omega)
      rw [e1, e1, show q.length - 4 = (q.drop 4).length by rw [List.length_drop]]
      have hrl : (q.drop 4).length ≤ n := by rw [List.length_drop]; omega
      generalize q.drop 4 = r at hrl ⊢
      rw [findNull1_append, findNull1_append]
      cases hk : r.findIdx? (· == 0) with
      | none => rfl
      | some k =>
        obtain ⟨hlt, _⟩ := findIdx_mem hk
        simp only
        by_cases hk0 : k = 0
        · simp [hk0]
        · simp only [hk0, if_false]
          cases stageToCommand stage with
          | none => rfl
          | some c =>
            simp only
            have f1 : ∀ z : Bytes, (r ++ z).drop (k + 1) = r.drop (k + 1) ++ z :=
              fun z => List.drop_append_of_le_length (by omega)
            have f2 : ∀ z : Bytes, (r ++ z).take k = r.take k :=
              fun z => List.take_append_of_le_length (by omega)
            rw [f1, f1, f2, f2,
              show r.length - (k + 1) = (r.drop (k + 1)).length by rw [List.length_drop]]
            exact ih _ _ (by rw [List.length_drop]; omega)

theorem decodeOption_ok_length {m : Bytes} {len : Nat} {o : Opt}
    (h : CmdDec.decodeOption m len = .ok o) : 13 ≤ len := by
  unfold CmdDec.decodeOption at h
  apply Classical.byContradiction
  intro hlt
  cases len with
  | zero => simp [checkAtLeast] at h
  | succ len =>
    rw [checkAtLeast_bind _ _ (by omega)] at h
    split at h
    case isFalse => simp at h
    cases h1 : readBE32 (m.drop 1) with
    | fail => rw [h1] at h; simp at h
    | ub => rw [h1] at h; simp at h
    | ok v =>
      rw [h1] at h
      simp only [HRes.bind_ok] at h
      rw [checkAtLeast_bind _ _ (by omega)] at h
      split at h
      case isFalse => simp at h
      cases h2 : readBE32 (m.drop 5) with
      | fail => rw [h2] at h; simp at h
      | ub => rw [h2] at h; simp at h
      | ok v =>
        rw [h2] at h
        simp only [HRes.bind_ok] at h
        rw [checkAtLeast_bind _ _ (by omega), if_neg (by omega)] at h
        simp at h

theorem decodeNegotiate_local (c : UInt8) (q x y : Bytes) :
    decodeNegotiate (c :: q ++ x) (q.length + 1) = decodeNegotiate (c :: q ++ y) (q.length + 1) := by
  unfold decodeNegotiate
  rw [decodeOption_local c q x y]
  cases ho : CmdDec.decodeOption (c :: q ++ y) (q.length + 1) with
  | fail => rfl
  | ub => rfl
  | ok o =>
    have hl := decodeOption_ok_length ho
    simp only [HRes.bind_ok]
    apply ite_both (fun _ => rfl); intro _
    simp only [List.cons_append, List.drop_succ_cons]
    rw [List.drop_append_of_le_length (by omega), List.drop_append_of_le_length (by omega)]
    rw [show q.length + 1 - 13 = (q.drop 12).length by rw [List.length_drop]; omega]
    rw [decodeRequests_local _ (q.drop 12) x y [] (Nat.le_refl _)]

theorem decode_cons (c : UInt8) (q x y : Bytes) (h : SelfContainedReply (c :: q)) :
    decode (c :: q ++ x) (q.length + 1) = decode (c :: q ++ y) (q.length + 1) := by
  show dispatch c (c :: q ++ x) (q.length + 1) = dispatch c (c :: q ++ y) (q.length + 1)
  obtain ⟨_, hy, hi, hr⟩ := h
  have drops : ∀ z : Bytes, (c :: q ++ z).drop 1 = q ++ z := fun _ => rfl
  have hidx : (c = 0x69 ∨ c = 0x6d) →
      decodeIndexed (q ++ x) (q.length + 1 + 1) = decodeIndexed (q ++ y) (q.length + 1 + 1) := by
    intro hc
    apply decodeIndexed_local
    have := hi (by rcases hc with h | h <;> simp [h])
    simpa using this
  unfold dispatch
  apply ite_both (fun _ => decodeNegotiate_local c q x y); intro _
  apply ite_both (fun _ => rfl); intro _
  apply ite_both
  · intro hc; subst hc
    exact decodeReplyCode_local q x y (fun a b e ha => hy a b (by rw [e]) ha)
  intro _
  apply ite_both (fun _ => rfl); intro _
  apply ite_both (fun _ => rfl); intro _
  apply ite_both (fun _ => rfl); intro _
  apply ite_both (fun _ => rfl); intro _
  apply ite_both
  · intro _
    unfold decodeAddHeader
    rw [drops, drops, Nat.add_sub_cancel, decodeHeaderContent_local q x y]
  intro _
  apply ite_both
  · intro hc
    unfold decodeInsertHeader
    rw [drops, drops, hidx (Or.inl hc)]
  intro _
  apply ite_both
  · intro hc
    unfold decodeChangeHeader
    rw [drops, drops, hidx (Or.inr hc)]
  intro _
  apply ite_both
  · intro _
    unfold decodeChangeFrom
    rw [drops, drops, Nat.add_sub_cancel, decodeTwo_local q x y]
  intro _
  apply ite_both
  · intro hc
    subst hc
    have h0 : (0 : UInt8) ∈ q := by
      have := hr (by simp)
      rcases List.mem_cons.1 this with h | h
      · exact absurd h (by decide)
      · exact h
    unfold decodeAddRecipient
    rw [drops, drops, cstr_local q x h0, cstr_local q y h0]
  intro _
  apply ite_both
  · intro _
    unfold decodeAddRecipientParams
    rw [drops, drops, Nat.add_sub_cancel, decodeTwo_local q x y]
  intro _
  apply ite_both (fun _ => decodeReplyString_local c q x y _); intro _
  apply ite_both
  · intro _
    unfold decodeReplaceBody
    rw [drops, drops, Nat.add_sub_cancel, List.take_left, List.take_left]
  intro _
  apply ite_both (fun _ => rfl); intro _
  apply ite_both (fun _ => decodeReplyString_local c q x y _); intro _
  rfl

/-- Every self-contained reply packet is decoded from its own bytes only. -/
theorem decode_local (p : Bytes) (h : SelfContainedReply p) : Local decode p := by
  cases p with
  | nil => exact absurd rfl h.1
  | cons c q =>
    intro t
    have := decode_cons c q (t ++ [0]) [0] h
    simpa using this

end Verif.RepDec
