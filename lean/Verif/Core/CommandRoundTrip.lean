import Verif.Core.CommandLemmas
namespace Verif.CmdDec
open Verif Verif.Spec Verif.Decoder Verif.Enc

theorem findNull1_cstr (s x : Bytes) (n : Nat) (hs : IsCStr s) (h0 : s ≠ []) (hn : s.length < n) :
    findNull1 (s ++ 0 :: x) n = .ok s.length := by
  unfold findNull1
  rw [findNull_cstr s x n hs hn]
  have : s.length ≠ 0 := by cases s <;> simp_all
  simp [this]

theorem drop_cstr (s x : Bytes) : (s ++ 0 :: x).drop (s.length + 1) = x := by
  rw [← List.drop_drop, List.drop_left]; rfl

theorem decodeString_rt (c : UInt8) (s : Bytes) (hs : IsCStr s) (h0 : s ≠ []) (mk : Bytes → Cmd) :
    decodeString (c :: (s ++ [0]) ++ [0]) (c :: (s ++ [0])).length mk = .ok (mk s) := by
  unfold decodeString
  simp only [List.cons_append, List.drop_succ_cons, List.drop_zero, List.length_cons,
    List.length_append, List.append_assoc, List.nil_append]
  rw [findNull1_cstr s [0] _ hs h0 (by simp), cstr_append s [0] hs]
  rfl

theorem decodeHeader_rt (n v : Bytes) (hn : IsCStr n) (h0 : n ≠ []) (hv : IsCStr v) :
    decodeHeaderContent ((n ++ 0 :: (v ++ [0])) ++ [0]) (n ++ 0 :: (v ++ [0])).length
      = .ok (n, v) := by
  unfold decodeHeaderContent
  simp only [List.append_assoc, List.cons_append, List.nil_append]
  rw [findNull1_cstr n _ _ hn h0 (by simp)]
  simp only [HRes.bind_ok]
  rw [cstr_append n _ hn, drop_cstr, findNull_cstr v _ _ hv (by simp; omega), cstr_append v _ hv]
  rfl

theorem readOpt (o : Opt) (c : UInt8) (x : Bytes) (len : Nat) (h : 13 ≤ len) :
    decodeOption (c :: (be32 o.version.toNat ++ (be32 o.action.toNat ++ be32 o.step.toNat)) ++ x)
      len = .ok o := by
  unfold decodeOption
  rw [checkAtLeast_bind _ _ (by omega), if_pos (by omega)]
  have h1 := o.version.toNat_lt
  have h2 := o.action.toNat_lt
  have h3 := o.step.toNat_lt
  have d1 : (c :: (be32 o.version.toNat ++ (be32 o.action.toNat ++ be32 o.step.toNat)) ++ x).drop 1
    = be32 o.version.toNat ++ (be32 o.action.toNat ++ be32 o.step.toNat ++ x) := by
      simp [be32]
  have d2 : (c :: (be32 o.version.toNat ++ (be32 o.action.toNat ++ be32 o.step.toNat)) ++ x).drop 5
    = be32 o.action.toNat ++ (be32 o.step.toNat ++ x) := by
      simp [be32]
  have d3 : (c :: (be32 o.version.toNat ++ (be32 o.action.toNat ++ be32 o.step.toNat)) ++ x).drop 9
    = be32 o.step.toNat ++ x := by
      simp [be32]
  rw [d1, d2, d3, readBE32_be32 _ h1]
  simp only [HRes.bind_ok]
  rw [checkAtLeast_bind _ _ (by omega), if_pos (by omega), readBE32_be32 _ h2]
  simp only [HRes.bind_ok]
  rw [checkAtLeast_bind _ _ (by omega), if_pos (by omega), readBE32_be32 _ h3]
  simp

theorem decodeNegotiate_rt (o : Opt) :
    decodeNegotiate (negotiateContent (some o) ++ [0]) (negotiateContent (some o)).length
      = .ok (.negotiate o) := by
  have hl : (negotiateContent (some o)).length = 13 := rfl
  unfold decodeNegotiate
  rw [hl]
  have := readOpt o 0x4f [0] 13 (Nat.le_refl _)
  unfold negotiateContent
  rw [this]
  rfl

/-! macros -/

/-- name under which `encodeMacro` writes a macro -/
def wireName (k : Bytes) : Bytes :=
  match k with
  | [] => []
  | k0 :: ks => if k0 = 0x7b ∨ ks = [] then k0 :: ks else 0x7b :: (k0 :: ks) ++ [0x7d]

theorem wireName_cons (a : UInt8) (k : Bytes) :
    wireName (a :: k) = if a = 0x7b ∨ k = [] then a :: k else 0x7b :: (a :: k) ++ [0x7d] := rfl

theorem encodeMacro_eq (k : Bytes) (v : Option Bytes) (h : k ≠ []) :
    encodeMacro (k, v) = wireName k ++ 0 :: (v.getD [] ++ [0]) := by
  cases k with
  | nil => exact absurd rfl h
  | cons a k => rfl

theorem wireName_ne (k : Bytes) (h : k ≠ []) : wireName k ≠ [] := by
  cases k with
  | nil => exact absurd rfl h
  | cons a k => rw [wireName_cons]; split <;> simp

theorem wireName_cstr (k : Bytes) (h : IsCStr k) : IsCStr (wireName k) := by
  cases k with
  | nil => exact h
  | cons a k =>
    rw [wireName_cons]
    split
    · exact h
    · unfold IsCStr at *
      intro hm
      have h1 : (0 : UInt8) ≠ 0x7b := by decide
      have h2 : (0 : UInt8) ≠ 0x7d := by decide
      rw [List.cons_append, List.mem_cons, List.mem_append, List.mem_singleton] at hm
      rcases hm with hm | hm | hm
      · exact h1 hm
      · exact h hm
      · exact h2 hm

theorem normalizeKey_wireName (k : Bytes) : normalizeKey (wireName k) = macroName k := by
  cases k with
  | nil => rfl
  | cons a k =>
    rw [wireName_cons]
    split
    · rename_i h
      unfold normalizeKey macroName
      by_cases h2 : 2 ≤ (a :: k).length
      · simp only [h2, true_and]
        split
        · simp [List.dropLast_eq_take]
        · rfl
      · have : k = [] := by
          cases k with
          | nil => rfl
          | cons b k => exact absurd (by simp) h2
        subst this
        have : ¬ (([a] : Bytes).head? = some 0x7b ∧ ([a] : Bytes).getLast? = some 0x7d) := by
          rintro ⟨h1, h2⟩
          simp only [List.head?_cons, Option.some.injEq] at h1
          subst h1
          revert h2; decide
        rw [if_neg this, if_neg (by simp)]
    · rename_i h
      have ha : a ≠ 0x7b := fun e => h (Or.inl e)
      unfold normalizeKey macroName
      have c1 : ((0x7b : UInt8) :: (a :: k) ++ [0x7d]).head? = some 0x7b := rfl
      have c2 : ((0x7b : UInt8) :: (a :: k) ++ [0x7d]).getLast? = some 0x7d := by
        rw [List.getLast?_concat]
      rw [if_pos ⟨c1, c2⟩, if_neg]
      · simp
      · rintro ⟨_, h1, _⟩
        simp at h1; exact ha h1

theorem lookup_tableInsert (t : MacroTable) (k : Bytes) (v : Option Bytes) (n : Bytes) :
    (tableInsert t k v).lookup n = if n = k then some v else t.lookup n := by
  induction t with
  | nil => simp [tableInsert, List.lookup_cons]; split <;> simp_all
  | cons e t ih =>
    obtain ⟨k', v'⟩ := e
    unfold tableInsert
    by_cases h : k' = k
    · subst h
      simp only [if_true, List.lookup_cons]
      by_cases hn : n = k'
      · simp [hn]
      · have hb : (n == k') = false := by simpa using hn
        rw [hb, if_neg hn]
    · simp only [if_neg h, List.lookup_cons, ih]
      by_cases hn : n = k'
      · subst hn; simp [h]
      · have hb : (n == k') = false := by simpa using hn
        rw [hb]

/-- what reading a list of entries builds -/
def insertAll (acc : MacroTable) (es : MacroTable) : MacroTable :=
  es.foldl (fun acc e => if e.1 = [] then acc else
    tableInsert acc (macroName e.1) (some (e.2.getD []))) acc

theorem decodeDefineMacros_rt (es : MacroTable) (acc : MacroTable) (x : Bytes)
    (h : ∀ e ∈ es, IsCStr e.1 ∧ IsCStr (e.2.getD [])) :
    decodeDefineMacros ((es.map encodeMacro).flatten ++ x) ((es.map encodeMacro).flatten).length acc
      = .ok (insertAll acc es) := by
  induction es generalizing acc with
  | nil => rw [decodeDefineMacros]; simp [insertAll]
  | cons e es ih =>
    obtain ⟨k, v⟩ := e
    have ih' := fun acc => ih acc (fun e he => h e (List.mem_cons_of_mem _ he))
    have hk : IsCStr k := (h (k, v) List.mem_cons_self).1
    have hv : IsCStr (v.getD []) := (h (k, v) List.mem_cons_self).2
    by_cases h0 : k = []
    · subst h0
      have e1 : encodeMacro ([], v) = [] := rfl
      simp only [List.map_cons, List.flatten_cons, e1, List.nil_append]
      rw [ih']; simp [insertAll]
    · simp only [List.map_cons, List.flatten_cons]
      rw [encodeMacro_eq k v h0]
      generalize hR : (es.map encodeMacro).flatten = R at ih' ⊢
      have hw := wireName_cstr k hk
      have hn := wireName_ne k h0
      rw [decodeDefineMacros]
      have hne : (wireName k ++ 0 :: (v.getD [] ++ [0]) ++ R).length ≠ 0 := by simp
      rw [if_neg hne]
      have es1 : wireName k ++ 0 :: (v.getD [] ++ [0]) ++ R ++ x =
          wireName k ++ 0 :: (v.getD [] ++ 0 :: (R ++ x)) := by simp
      rw [es1, findNull1_cstr _ _ _ hw hn (by simp)]
      simp only
      rw [drop_cstr, List.take_left]
      have hlen : (wireName k ++ 0 :: (v.getD [] ++ [0]) ++ R).length - ((wireName k).length + 1)
          = (v.getD []).length + 1 + R.length := by
        simp only [List.length_append, List.length_cons, List.length_nil]; omega
      rw [hlen, findNull_cstr _ _ _ hv (by omega)]
      simp only
      rw [drop_cstr, List.take_left]
      have hlen2 : (v.getD []).length + 1 + R.length - ((v.getD []).length + 1) = R.length := by
        omega
      rw [hlen2, ih', normalizeKey_wireName]
      simp [insertAll, h0]

theorem definitions_cons (k : Bytes) (v : Option Bytes) (es : MacroTable) :
    definitions ((k, v) :: es) =
      if k = [] then definitions es else (macroName k, some (v.getD [])) :: definitions es := by
  unfold definitions
  by_cases h : k = [] <;> simp [h]

theorem lookup_append (a b : MacroTable) (n : Bytes) :
    (a ++ b).lookup n = (a.lookup n).or (b.lookup n) := by
  induction a with
  | nil => simp
  | cons e a ih =>
    obtain ⟨k, v⟩ := e
    simp only [List.cons_append, List.lookup_cons, ih]
    cases n == k <;> simp

/-- Later definitions win. -/
theorem lookup_insertAll (acc es : MacroTable) (n : Bytes) :
    (insertAll acc es).lookup n =
      ((definitions es).reverse.lookup n).or (acc.lookup n) := by
  induction es generalizing acc with
  | nil => simp [insertAll, definitions]
  | cons e es ih =>
    obtain ⟨k, v⟩ := e
    have : insertAll acc ((k, v) :: es) = insertAll (if k = [] then acc else
      tableInsert acc (macroName k) (some (v.getD []))) es := rfl
    rw [this, ih, definitions_cons]
    by_cases hk : k = []
    · simp [hk]
    · simp only [hk, if_false, List.reverse_cons]
      rw [lookup_append, lookup_tableInsert]
      cases hl : (definitions es).reverse.lookup n with
      | some w => simp
      | none =>
        simp only [Option.none_or, List.lookup_cons]
        by_cases hn : n = macroName k
        · simp [hn]
        · have hb : (n == macroName k) = false := by simpa using hn
          simp [hb, hn]

/-- With distinct names, look-up does not depend on the order of the entries. -/
theorem lookup_iff_mem (t : MacroTable) (h : (t.map (·.1)).Nodup) (n : Bytes) (v : Option Bytes) :
    t.lookup n = some v ↔ (n, v) ∈ t := by
  induction t with
  | nil => simp
  | cons e t ih =>
    obtain ⟨k, w⟩ := e
    simp only [List.map_cons, List.nodup_cons] at h
    simp only [List.lookup_cons, List.mem_cons, Prod.mk.injEq]
    by_cases hn : n = k
    · subst hn
      simp only [beq_self_eq_true, true_and]
      constructor
      · intro h; left; simpa using h.symm
      · rintro (h' | h')
        · rw [h']
        · exact absurd (List.mem_map.2 ⟨_, h', rfl⟩) h.1
    · have hb : (n == k) = false := by simpa using hn
      simp [hb, hn, ih h.2]

theorem lookup_perm {a b : MacroTable} (hp : a.Perm b) (h : (b.map (·.1)).Nodup) (n : Bytes) :
    a.lookup n = b.lookup n := by
  have ha : (a.map (·.1)).Nodup := (hp.map _).nodup_iff.2 h
  apply Option.ext
  intro v
  rw [lookup_iff_mem a ha, lookup_iff_mem b h]
  exact hp.mem_iff

theorem definitions_perm {a b : MacroTable} (hp : a.Perm b) :
    (definitions a).Perm (definitions b) := by
  unfold definitions
  exact (hp.filter _).map _

theorem decodeDefineMacro_rt (ctx : UInt8) (es : MacroTable)
    (hc : ctx ∈ macroStages) (h : ∀ e ∈ es, IsCStr e.1 ∧ IsCStr (e.2.getD [])) :
    decodeDefineMacro (0x44 :: ctx :: (es.map encodeMacro).flatten ++ [0])
      (0x44 :: ctx :: (es.map encodeMacro).flatten).length
      = .ok (.defineMacro ctx (insertAll [] es)) := by
  have hctx : ctx ≠ 0 ∧ checkMacroContext ctx = true := by
    have hm : macroStages = [0x43, 0x48, 0x4d, 0x52, 0x54, 0x4c, 0x4e, 0x42, 0x45, 0x55] := by
      decide
    rw [hm] at hc
    simp only [List.mem_cons, List.not_mem_nil, or_false] at hc
    rcases hc with h | h | h | h | h | h | h | h | h | h <;> subst h <;> decide
  unfold decodeDefineMacro
  simp only [List.cons_append, List.length_cons]
  rw [if_pos, if_pos hctx.2]
  · have hr := decodeDefineMacros_rt es [] [0] h
    have : (es.map encodeMacro).flatten.length + 1 + 1 - 2 = (es.map encodeMacro).flatten.length := by
      omega
    rw [this, hr]
    rfl
  · have h44 : ((0x44 : UInt8) != 0) = true := by decide
    have hb : (ctx != 0) = true := by simpa using hctx.1
    rw [List.takeWhile_cons_of_pos (p := (· != 0)) h44, List.takeWhile_cons_of_pos (p := (· != 0)) hb]
    simp

/-! connect -/

theorem isPrefixOf_append (a b : Bytes) : a.isPrefixOf (a ++ b) = true := by
  induction a with
  | nil => rfl
  | cons x a ih => simp [ih]

theorem decodeFamily_text (inet : Inet) (host : Bytes) (f p q : UInt8) (text x : Bytes) (a : Addr)
    (hf : f = 0x34 ∨ f = 0x36 ∨ f = 0x4c) (ht : IsCStr text) (h0 : text ≠ [])
    (ha : decodeAddress inet f p q text = .ok a) :
    decodeFamily inet host f (p :: q :: (text ++ 0 :: x)) ((text.length + 3 : Nat) : Int)
      = .ok (.connect host a) := by
  unfold decodeFamily
  rw [if_pos hf, checkAtLeast_bind _ _ (by omega), if_pos (by omega)]
  simp only
  have : (((text.length + 3 : Nat) : Int) - 2).toNat = text.length + 1 := by omega
  rw [this, findNull1_cstr text x _ ht h0 (by omega), cstr_append text x ht]
  simp only [HRes.bind_ok, ha, HRes.pure_eq]

theorem connect_tail (inet : Inet) (hi : InetLaws inet) (host : Bytes) (addr : Addr)
    (ha : AddrOk addr) :
    ∃ f m2, encodeAddr inet addr ++ [0] = f :: m2 ∧
      decodeFamily inet host f m2 (((encodeAddr inet addr).length - 1 : Nat) : Int)
        = .ok (.connect host addr) := by
  cases addr with
  | inet p q a =>
    refine ⟨0x34, p :: q :: (inet.v4.ntop a ++ 0 :: [0]), by simp [encodeAddr], ?_⟩
    have := decodeFamily_text inet host 0x34 p q (inet.v4.ntop a) [0] (.inet p q a) (Or.inl rfl)
      (hi.v4.noNul a ha) (hi.v4.nonempty a ha) (by simp [decodeAddress, hi.v4.parse a ha])
    have hl : (encodeAddr inet (.inet p q a)).length - 1 = (inet.v4.ntop a).length + 3 := by
      simp [encodeAddr]
    rw [hl]; exact this
  | inet6 p q a =>
    refine ⟨0x36, p :: q :: ((ascii "IPv6:" ++ inet.v6.ntop a) ++ 0 :: [0]), by simp [encodeAddr], ?_⟩
    have hv6 : IsCStr (ascii "IPv6:" ++ inet.v6.ntop a) := by
      have h1 : (0 : UInt8) ∉ ascii "IPv6:" := by decide
      have h2 := hi.v6.noNul a ha
      unfold IsCStr at *
      simp only [List.mem_append]
      rintro (h | h)
      · exact h1 h
      · exact h2 h
    have hd : decodeAddress inet 0x36 p q (ascii "IPv6:" ++ inet.v6.ntop a) = .ok (.inet6 p q a) := by
      unfold decodeAddress
      rw [if_neg (by decide), if_pos rfl, isPrefixOf_append, if_pos rfl]
      have : (ascii "IPv6:" ++ inet.v6.ntop a).drop 5 = inet.v6.ntop a := by
        have : (ascii "IPv6:").length = 5 := by decide
        rw [← this, List.drop_left]
      simp only [this, hi.v6.parse a ha]
    have := decodeFamily_text inet host 0x36 p q _ [0] (.inet6 p q a) (Or.inr (Or.inl rfl))
      hv6 (by simp [hi.v6.nonempty a ha]) hd
    have hl : (encodeAddr inet (.inet6 p q a)).length - 1 =
        (ascii "IPv6:" ++ inet.v6.ntop a).length + 3 := by
      simp only [encodeAddr, List.length_cons, List.length_append, List.length_nil]; omega
    rw [hl]; exact this
  | unix path =>
    obtain ⟨h1, h2, h3⟩ := ha
    refine ⟨0x4c, 0 :: 0 :: (path ++ 0 :: [0]), by simp [encodeAddr], ?_⟩
    have := decodeFamily_text inet host 0x4c 0 0 path [0] (.unix path) (Or.inr (Or.inr rfl))
      h1 h2 (by
        unfold decodeAddress
        rw [if_neg (by decide), if_neg (by decide), if_pos (by unfold sunPathSize; exact h3)])
    have hl : (encodeAddr inet (.unix path)).length - 1 = path.length + 3 := by
      simp [encodeAddr]
    rw [hl]; exact this
  | unspec =>
    refine ⟨0x55, [0], rfl, ?_⟩
    unfold decodeFamily
    rw [if_neg (by decide), if_pos rfl]
    rfl

theorem decodeConnect_rt (inet : Inet) (hi : InetLaws inet) (host : Bytes) (addr : Addr)
    (hh : IsCStr host) (h0 : host ≠ []) (ha : AddrOk addr) :
    decodeConnectContent inet (host ++ 0 :: encodeAddr inet addr ++ [0])
      (host ++ 0 :: encodeAddr inet addr).length = .ok (.connect host addr) := by
  obtain ⟨f, m2, he, hd⟩ := connect_tail inet hi host addr ha
  unfold decodeConnectContent
  have e1 : host ++ 0 :: encodeAddr inet addr ++ [0] = host ++ 0 :: (f :: m2) := by
    rw [← he]; simp
  rw [e1, findNull1_cstr host _ _ hh h0 (by simp), cstr_append host _ hh]
  simp only [HRes.bind_ok]
  rw [drop_cstr]
  simp only
  have hpos : 1 ≤ (encodeAddr inet addr).length := by cases addr <;> simp [encodeAddr]
  have : ((host ++ 0 :: encodeAddr inet addr).length : Int) - ((host.length + 2 : Nat) : Int) =
      (((encodeAddr inet addr).length - 1 : Nat) : Int) := by
    simp only [List.length_append, List.length_cons]; omega
  rw [this]; exact hd

/-- Decoding the content an encoder builds gives the command back. -/
theorem decode_content (inet : Inet) (hi : InetLaws inet) (sort : MacroTable → MacroTable)
    (hsort : ∀ t, (sort t).Perm t) (c : Cmd) (hc : CmdOk c) :
    ∃ c', decode inet (commandContent inet sort c ++ [0]) (commandContent inet sort c).length = .ok c'
      ∧ SameCmd c c' := by
  cases c with
  | negotiate o => exact ⟨_, decodeNegotiate_rt o, rfl⟩
  | defineMacro ctx t =>
    obtain ⟨h1, h2, h3⟩ := hc
    have h2' : ∀ e ∈ sort t, IsCStr e.1 ∧ IsCStr (e.2.getD []) :=
      fun e he => h2 e ((hsort t).mem_iff.1 he)
    refine ⟨_, decodeDefineMacro_rt ctx (sort t) h1 h2', rfl, fun n => ?_⟩
    rw [lookup_insertAll]
    simp only [List.lookup_nil, Option.or_none]
    exact lookup_perm ((List.reverse_perm _).trans (definitions_perm (hsort t))) h3 n
  | connect host addr =>
    exact ⟨_, decodeConnect_rt inet hi host addr hc.1 hc.2.1 hc.2.2, rfl⟩
  | helo s => exact ⟨_, decodeString_rt 0x48 s hc.1 hc.2 .helo, rfl⟩
  | envelopeFrom s => exact ⟨_, decodeString_rt 0x4d s hc.1 hc.2 .envelopeFrom, rfl⟩
  | envelopeRecipient s => exact ⟨_, decodeString_rt 0x52 s hc.1 hc.2 .envelopeRecipient, rfl⟩
  | unknown s => exact ⟨_, decodeString_rt 0x55 s hc.1 hc.2 .unknown, rfl⟩
  | data => exact ⟨_, rfl, rfl⟩
  | endOfHeader => exact ⟨_, rfl, rfl⟩
  | abort => exact ⟨_, rfl, rfl⟩
  | quit => exact ⟨_, rfl, rfl⟩
  | header n v =>
    refine ⟨.header n v, ?_, rfl⟩
    show (decodeHeaderContent ((n ++ 0 :: (v ++ [0])) ++ [0]) (n ++ 0 :: (v ++ [0])).length >>=
      fun nv => pure (Cmd.header nv.1 nv.2)) = _
    rw [decodeHeader_rt n v hc.1 hc.2.1 hc.2.2]
    rfl
  | body chunk =>
    refine ⟨.body chunk, ?_, rfl⟩
    have ht : chunk.take chunkSize = chunk :=
      List.take_of_length_le (by rw [chunkSize_eq]; exact hc)
    show decodeBody (0x42 :: chunk.take chunkSize ++ [0]) (0x42 :: chunk.take chunkSize).length = _
    rw [ht]
    simp [decodeBody]
  | endOfMessage chunk =>
    refine ⟨.endOfMessage chunk, ?_, rfl⟩
    show decodeEndOfMessage (0x45 :: chunk ++ [0]) (0x45 :: chunk).length = _
    unfold decodeEndOfMessage
    cases chunk with
    | nil => simp
    | cons a chunk => simp

theorem content_selfContained (inet : Inet) (sort : MacroTable → MacroTable) (c : Cmd) (hc : CmdOk c) :
    SelfContained (commandContent inet sort c) := by
  refine ⟨?_, ?_, ?_⟩
  · cases c <;> simp [commandContent, negotiateContent]
  · cases c <;> simp [commandContent, negotiateContent]
  · intro host h1 h2 e
    cases c with
    | connect h a =>
      simp only [commandContent, List.cons.injEq, true_and] at e
      have t1 := takeWhile_cstr h (encodeAddr inet a) hc.1
      have t2 := takeWhile_cstr host [] h1
      rw [e, t2] at t1
      subst t1
      have := List.append_cancel_left e
      cases a <;> simp [encodeAddr] at this
    | _ => simp [commandContent, negotiateContent] at e

end Verif.CmdDec
