import Verif.Core.ReplyLemmas
namespace Verif.RepDec
open Verif Verif.Spec Verif.Decoder Verif.Enc
open Verif.CmdDec (findNull1_cstr drop_cstr checkAtLeast_bind readOpt decodeHeader_rt)

theorem cstr_append_nul (a b : Bytes) (ha : IsCStr a) (hb : IsCStr b) : IsCStr (a ++ b) := by
  unfold IsCStr at *
  simp [ha, hb]

theorem cstr_cons {c : UInt8} {b : Bytes} (ha : c ≠ 0) (hb : IsCStr b) : IsCStr (c :: b) := by
  unfold IsCStr at *
  simp [Ne.symm ha, hb]

/-! custom replies -/

theorem format_oneLine (code : Nat) (ext m : Bytes) (hm : OneLine m) (hc : code ≠ 0) :
    ReplyCode.format code (some ext) (some m) =
      some (decimal3 code ++ 0x20 :: ext ++ 0x20 :: m) := by
  obtain ⟨_, h0, hnl, hcr⟩ := hm
  unfold ReplyCode.format
  rw [if_neg hc]
  simp only [Option.getD_some, strsplit, if_neg h0, splitOn_noSep _ _ hnl, List.map_cons,
    List.map_nil, joinWith, ReplyCode.formatLine, ReplyCode.stripCR, if_neg hcr]

theorem findSpace_hit (a x : Bytes) (n : Nat) (ha : (0x20 : UInt8) ∉ a) (hn : a.length < n) :
    findSpace (a ++ 0x20 :: x) n = .ok (some a.length) := by
  induction a generalizing n with
  | nil =>
    cases n with
    | zero => simp at hn
    | succ n => simp [findSpace]
  | cons c a ih =>
    cases n with
    | zero => simp at hn
    | succ n =>
      simp only [List.mem_cons, not_or] at ha
      simp only [List.cons_append, findSpace, List.length_cons]
      rw [if_neg (fun e => ha.1 e.symm), ih n ha.2 (by simpa using hn)]
      rfl

theorem takeWhile_all (a : Bytes) (ha : IsCStr a) : a.takeWhile (· != 0) = a := by
  have := takeWhile_cstr a [] ha
  induction a with
  | nil => rfl
  | cons c a ih =>
    unfold IsCStr at ha
    simp only [List.mem_cons, not_or] at ha
    have hc : (c != 0) = true := by simpa using Ne.symm ha.1
    rw [List.takeWhile_cons_of_pos (p := (· != 0)) hc, ih ha.2 (takeWhile_cstr a [] ha.2)]

theorem splitText_rt (code : Nat) (ext m x : Bytes) (n : Nat) (he : IsCStr ext)
    (hs : (0x20 : UInt8) ∉ ext) (hm : IsCStr m) (hn : ext.length < n) :
    splitText code (ext ++ 0x20 :: (m ++ 0 :: x)) n = .ok (.replyCode code ext (some m)) := by
  unfold splitText
  rw [findSpace_hit ext _ n hs hn]
  simp only
  have : (ext ++ 0x20 :: (m ++ 0 :: x)).drop (ext.length + 1) = m ++ 0 :: x := by
    rw [← List.drop_drop, List.drop_left]; rfl
  rw [this, cstr_append m x hm, List.take_left, takeWhile_all ext he]
  rfl

theorem digits_value (n : Nat) (h1 : 400 ≤ n) (h2 : n < 600) :
    let a := UInt8.ofNat (48 + n / 100)
    let b := UInt8.ofNat (48 + n / 10 % 10)
    let c := UInt8.ofNat (48 + n % 10)
    (a = 0x34 ∨ a = 0x35) ∧ isDigit b = true ∧ isDigit c = true ∧
      (a.toNat - 48) * 100 + (b.toNat - 48) * 10 + (c.toNat - 48) = n := by
  have dig : ∀ d, d < 10 → isDigit (UInt8.ofNat (48 + d)) = true := by decide
  refine ⟨?_, dig _ (by omega), dig _ (by omega), ?_⟩
  · have : n / 100 = 4 ∨ n / 100 = 5 := by omega
    rcases this with h | h <;> rw [h]
    · left; rfl
    · right; rfl
  · simp only [UInt8.toNat_ofNat']
    omega

theorem decodeReplyCode_rt (code : Nat) (ext m : Bytes) (h1 : 400 ≤ code) (h2 : code < 600)
    (he : IsCStr ext) (hs : (0x20 : UInt8) ∉ ext) (hm : OneLine m) :
    let t := decimal3 code ++ 0x20 :: ext ++ 0x20 :: m
    decodeReplyCode (0x79 :: (t ++ [0]) ++ [0]) (0x79 :: (t ++ [0])).length
      = .ok (.replyCode code ext (some m)) := by
  intro t
  obtain ⟨da, db, dc, dv⟩ := digits_value code h1 h2
  have ht : t = UInt8.ofNat (48 + code / 100) :: UInt8.ofNat (48 + code / 10 % 10) ::
      UInt8.ofNat (48 + code % 10) :: (0x20 :: (ext ++ 0x20 :: m)) := by
    show decimal3 code ++ 0x20 :: ext ++ 0x20 :: m = _
    rw [decimal3_three code (by omega) (by omega), decimal_three code (by omega) (by omega)]
    simp
  rw [ht]
  revert da db dc dv
  generalize UInt8.ofNat (48 + code / 100) = a
  generalize UInt8.ofNat (48 + code / 10 % 10) = b
  generalize UInt8.ofNat (48 + code % 10) = c
  intro da db dc dv
  have na : a ≠ 0 := by rcases da with h | h <;> subst h <;> decide
  have nb : b ≠ 0 := by intro e; subst e; exact absurd db (by decide)
  have nc : c ≠ 0 := by intro e; subst e; exact absurd dc (by decide)
  have hcs : IsCStr (a :: b :: c :: (0x20 :: (ext ++ 0x20 :: m))) :=
    cstr_cons na (cstr_cons nb (cstr_cons nc (cstr_cons (by decide)
      (cstr_append_nul _ _ he (cstr_cons (by decide) hm.1)))))
  unfold decodeReplyCode
  rw [checkAtLeast_bind _ _ (by simp only [List.length_cons]; omega),
    if_pos (by simp only [List.length_cons, List.cons_append, List.length_append]; omega)]
  have hf := findNull1_cstr (a :: b :: c :: (0x20 :: (ext ++ 0x20 :: m))) [0]
    ((0x79 :: (a :: b :: c :: (0x20 :: (ext ++ 0x20 :: m)) ++ [0])).length - 1) hcs (by simp)
    (by simp only [List.length_cons, List.length_append, List.length_nil]; omega)
  have hdrop : (0x79 :: (a :: b :: c :: (0x20 :: (ext ++ 0x20 :: m)) ++ [0]) ++ [0]).drop 1 =
      a :: b :: c :: (0x20 :: (ext ++ 0x20 :: m)) ++ 0 :: [0] := by simp
  rw [hdrop, hf]
  simp only [List.cons_append, HRes.bind_ok]
  rw [if_pos ⟨da, db, dc⟩, dv]
  unfold decodeCodeText
  simp only [List.head?_cons, if_true, List.drop_succ_cons, List.drop_zero, List.append_assoc,
    List.cons_append]
  exact splitText_rt code ext m [0] _ he hs hm.1
    (by simp only [List.length_cons, List.length_append, List.length_nil]; omega)

/-! strings -/

theorem decodeReplyString_rt (c : UInt8) (s : Bytes) (hs : IsCStr s) (h0 : s ≠ [])
    (mk : Bytes → Reply) :
    decodeReplyString (c :: (s ++ [0]) ++ [0]) (c :: (s ++ [0])).length mk = .ok (mk s) := by
  unfold decodeReplyString
  simp only [List.cons_append, List.drop_succ_cons, List.drop_zero, List.length_cons,
    List.length_append, List.append_assoc, List.nil_append]
  rw [findNull1_cstr s [0] _ hs h0 (by simp), cstr_append s [0] hs]
  rfl

theorem decodeTwo_rt (s : Bytes) (p : Option Bytes) (hs : IsCStr s) (h0 : s ≠ []) (hp : ParamOk p) :
    decodeTwo (s ++ 0 :: paramPart p ++ [0]) (s ++ 0 :: paramPart p).length = .ok (s, p) := by
  unfold decodeTwo
  simp only [List.append_assoc, List.cons_append]
  rw [findNull1_cstr s _ _ hs h0 (by simp), cstr_append s _ hs]
  simp only [HRes.bind_ok]
  have hl : (s ++ 0 :: paramPart p).length - (s.length + 1) = (paramPart p).length := by
    simp only [List.length_append, List.length_cons]; omega
  rw [hl, drop_cstr]
  cases p with
  | none => rfl
  | some p =>
    have hp2 : p ≠ [] := hp.2
    have e : paramPart (some p) = p ++ [0] := by
      show (if p = [] then [] else p ++ [0]) = _
      rw [if_neg hp2]
    rw [e, if_neg (by simp)]
    simp only [List.append_assoc, List.cons_append, List.nil_append]
    rw [findNull1_cstr p _ _ hp.1 hp2 (by simp), cstr_append p _ hp.1]
    rfl

/-! macro requests -/

theorem lookup_requestsInsert (t : Requests) (k : UInt8) (v : List Bytes) (n : UInt8) :
    (requestsInsert t k v).lookup n = if n = k then some v else t.lookup n := by
  induction t with
  | nil => simp [requestsInsert, List.lookup_cons]; split <;> simp_all
  | cons e t ih =>
    obtain ⟨k', v'⟩ := e
    unfold requestsInsert
    by_cases h : k' = k
    · subst h
      simp only [if_true, List.lookup_cons]
      by_cases hn : n = k'
      · simp [hn]
      · have hb : (n == k') = false := by simpa using hn
        rw [hb, if_neg hn]
    · simp only [if_neg h, List.lookup_cons, ih]
      by_cases hn : n = k'
      · subst hn; simp [h]
      · have hb : (n == k') = false := by simpa using hn
        rw [hb]

/-- what reading the requests builds -/
def insertRequests (acc rs : Requests) : Requests :=
  rs.foldl (fun acc e => requestsInsert acc e.1 e.2) acc

/-- one request as the protocol transports it -/
def RequestOk (e : UInt8 × List Bytes) : Prop :=
  e.1 ∈ requestStages ∧ e.2 ≠ [] ∧ e.2 ≠ [[]] ∧ ∀ s ∈ e.2, IsCStr s ∧ (0x20 : UInt8) ∉ s

theorem stage_rt (c : UInt8) (h : c ∈ requestStages) :
    ∃ s, s < 7 ∧ commandToStage c = some s ∧ stageToCommand s = some c := by
  have hm : requestStages = [0x43, 0x48, 0x4d, 0x52, 0x54, 0x45, 0x4e] := by decide
  rw [hm] at h
  simp only [List.mem_cons, List.not_mem_nil, or_false] at h
  rcases h with h | h | h | h | h | h | h <;> subst h
  · exact ⟨0, by decide, by decide, by decide⟩
  · exact ⟨1, by decide, by decide, by decide⟩
  · exact ⟨2, by decide, by decide, by decide⟩
  · exact ⟨3, by decide, by decide, by decide⟩
  · exact ⟨4, by decide, by decide, by decide⟩
  · exact ⟨5, by decide, by decide, by decide⟩
  · exact ⟨6, by decide, by decide, by decide⟩

theorem join_ne_nil (l : List Bytes) (h1 : l ≠ []) (h2 : l ≠ [[]]) : joinWith [0x20] l ≠ [] := by
  match l with
  | [] => exact absurd rfl h1
  | [a] =>
    intro e
    have : a = [] := e
    exact h2 (by rw [this])
  | a :: b :: l => simp [joinWith]

theorem decodeRequests_rt (rs acc : Requests) (x : Bytes) (h : ∀ e ∈ rs, RequestOk e) :
    decodeRequests ((rs.map macrosRequest).flatten ++ x) (rs.map macrosRequest).flatten.length acc
      = .ok (insertRequests acc rs) := by
  induction rs generalizing acc with
  | nil => rw [decodeRequests]; simp [insertRequests]
  | cons e rs ih =>
    obtain ⟨c, l⟩ := e
    have ih' := fun acc => ih acc (fun e he => h e (List.mem_cons_of_mem _ he))
    obtain ⟨hst, hl1, hl2, hl3⟩ := h (c, l) List.mem_cons_self
    obtain ⟨st, hlt, hc1, hc2⟩ := stage_rt c hst
    have hj := join_ne_nil l hl1 hl2
    have hjc : IsCStr (joinWith [0x20] l) := by
      intro hm
      rcases mem_joinWith _ _ _ hm with h | ⟨a, ha, h⟩
      · exact absurd h (by decide)
      · exact (hl3 a ha).1 h
    have hsplit := strsplit_join 0x20 l hj (fun a ha => (hl3 a ha).2)
    have em : macrosRequest (c, l) = be32 st ++ (joinWith [0x20] l ++ [0]) := by
      unfold macrosRequest
      simp only [hc1]
    simp only [List.map_cons, List.flatten_cons]
    rw [em]
    generalize hR : (rs.map macrosRequest).flatten = R at ih' ⊢
    generalize hJ : joinWith [0x20] l = J at hj hjc hsplit ⊢
    rw [decodeRequests]
    have hlen : (be32 st ++ (J ++ [0]) ++ R).length = 4 + (J.length + 1) + R.length := by
      simp only [List.length_append, length_be32, List.length_cons, List.length_nil]
    rw [hlen, if_neg (by omega), if_neg (by omega)]
    have e1 : be32 st ++ (J ++ [0]) ++ R ++ x = be32 st ++ (J ++ 0 :: (R ++ x)) := by simp
    rw [e1, readBE32_be32 st (by omega)]
    have e2 : (be32 st ++ (J ++ 0 :: (R ++ x))).drop 4 = J ++ 0 :: (R ++ x) := by simp [be32]
    simp only
    rw [e2, findNull1_cstr J _ _ hjc hj (by omega)]
    simp only
    rw [hc2]
    simp only
    rw [drop_cstr, List.take_left, hsplit]
    have hl : 4 + (J.length + 1) + R.length - 4 - (J.length + 1) = R.length := by omega
    rw [hl, ih']
    rfl

theorem lookup_insertRequests (rs acc : Requests) (n : UInt8) (h : (rs.map (·.1)).Nodup) :
    (insertRequests acc rs).lookup n = (rs.lookup n).or (acc.lookup n) := by
  induction rs generalizing acc with
  | nil => simp [insertRequests]
  | cons e rs ih =>
    obtain ⟨k, v⟩ := e
    simp only [List.map_cons, List.nodup_cons] at h
    have : insertRequests acc ((k, v) :: rs) = insertRequests (requestsInsert acc k v) rs := rfl
    rw [this, ih _ h.2, lookup_requestsInsert, List.lookup_cons]
    by_cases hn : n = k
    · subst hn
      have hnone : rs.lookup n = none := by
        rw [List.lookup_eq_none_iff]
        intro p hp
        have : p.1 ≠ n := fun e => h.1 (List.mem_map.2 ⟨p, hp, e⟩)
        simpa using Ne.symm this
      simp [hnone]
    · have hb : (n == k) = false := by simpa using hn
      simp [hb, hn]

theorem requests_lookup_iff_mem (t : Requests) (h : (t.map (·.1)).Nodup) (n : UInt8)
    (v : List Bytes) : t.lookup n = some v ↔ (n, v) ∈ t := by
  induction t with
  | nil => simp
  | cons e t ih =>
    obtain ⟨k, w⟩ := e
    simp only [List.map_cons, List.nodup_cons] at h
    simp only [List.lookup_cons, List.mem_cons, Prod.mk.injEq]
    by_cases hn : n = k
    · subst hn
      simp only [beq_self_eq_true, true_and]
      constructor
      · intro h; left; simpa using h.symm
      · rintro (h' | h')
        · rw [h']
        · exact absurd (List.mem_map.2 ⟨_, h', rfl⟩) h.1
    · have hb : (n == k) = false := by simpa using hn
      simp [hb, hn, ih h.2]

theorem requests_lookup_perm {a b : Requests} (hp : a.Perm b) (h : (b.map (·.1)).Nodup) (n : UInt8) :
    a.lookup n = b.lookup n := by
  have ha : (a.map (·.1)).Nodup := (hp.map _).nodup_iff.2 h
  apply Option.ext
  intro v
  rw [requests_lookup_iff_mem a ha, requests_lookup_iff_mem b h]
  exact hp.mem_iff

theorem macrosRequest_length (e : UInt8 × List Bytes) (h : RequestOk e) :
    5 ≤ (macrosRequest e).length := by
  obtain ⟨c, l⟩ := e
  obtain ⟨st, _, hc1, _⟩ := stage_rt c h.1
  unfold macrosRequest
  simp only [hc1, List.length_append, length_be32, List.length_cons]
  omega

theorem decodeNegotiate_rt (o : Opt) (r : Option Requests) (order : Requests → Requests)
    (ho : ∀ t, (order t).Perm t) (h : ReplyOk (.negotiate o r)) :
    ∃ r', decodeNegotiate
      (negotiateContent (some o) ++ (match r with | none => [] | some r => macrosRequests order r) ++ [0])
      (negotiateContent (some o) ++ (match r with | none => [] | some r => macrosRequests order r)).length
      = .ok r' ∧ SameReply (.negotiate o r) r' := by
  have hl : (negotiateContent (some o)).length = 13 := rfl
  unfold decodeNegotiate
  cases r with
  | none =>
    refine ⟨.negotiate o none, ?_, rfl⟩
    simp only [List.append_nil]
    have := readOpt o 0x4f [0] 13 (Nat.le_refl _)
    rw [hl]
    unfold negotiateContent
    rw [this]
    rfl
  | some r =>
    obtain ⟨hne, hnd, hall⟩ := h
    have hall' : ∀ e ∈ order r, RequestOk e := fun e he => hall e ((ho r).mem_iff.1 he)
    refine ⟨.negotiate o (some (insertRequests [] (order r))), ?_, rfl, fun n => ?_⟩
    · have hlen : (negotiateContent (some o) ++ macrosRequests order r).length =
          13 + (macrosRequests order r).length := by rw [List.length_append, hl]
      simp only
      have hpos : 0 < (macrosRequests order r).length := by
        unfold macrosRequests
        cases hr : order r with
        | nil => exact absurd ((hr ▸ ho r).symm.eq_nil) hne
        | cons e es =>
          have := macrosRequest_length e (hall' e (by rw [hr]; simp))
          simp only [List.map_cons, List.flatten_cons, List.length_append]
          omega
      have := readOpt o 0x4f (macrosRequests order r ++ [0]) (13 + (macrosRequests order r).length)
        (by omega)
      have e1 : negotiateContent (some o) ++ macrosRequests order r ++ [0] =
        0x4f :: (be32 o.version.toNat ++ (be32 o.action.toNat ++ be32 o.step.toNat)) ++
          (macrosRequests order r ++ [0]) := by
        rw [List.append_assoc]; rfl
      rw [hlen, e1, this]
      simp only [HRes.bind_ok]
      rw [if_neg (by omega)]
      have e2 : (0x4f :: (be32 o.version.toNat ++ (be32 o.action.toNat ++ be32 o.step.toNat)) ++
          (macrosRequests order r ++ [0])).drop 13 = macrosRequests order r ++ [0] := by
        simp [be32]
      have e3 : 13 + (macrosRequests order r).length - 13 = (macrosRequests order r).length := by
        omega
      rw [e2, e3]
      unfold macrosRequests
      rw [decodeRequests_rt (order r) [] [0] hall']
      rfl
    · have hnd' : ((order r).map (·.1)).Nodup := ((ho r).map _).nodup_iff.2 hnd
      rw [lookup_insertRequests _ _ _ hnd']
      simp only [List.lookup_nil, Option.or_none]
      exact requests_lookup_perm (ho r) hnd n

/-! headers -/

theorem decodeIndexed_rt (i : Nat) (name : Bytes) (value : Option Bytes) (hi : i < 4294967296)
    (hn : IsCStr name) (h0 : name ≠ []) (hv : ParamOk value) :
    decodeIndexed (be32 i ++ (name ++ 0 :: (value.getD [] ++ [0])) ++ [0])
      ((be32 i ++ (name ++ 0 :: (value.getD [] ++ [0]))).length + 1 + 1) = .ok (i, name, value) := by
  have hvc : IsCStr (value.getD []) := by
    cases value with
    | none => simp [IsCStr]
    | some v => exact hv.1
  have e : be32 i ++ (name ++ 0 :: (value.getD [] ++ [0])) ++ [0] =
      be32 i ++ (name ++ 0 :: (value.getD [] ++ 0 :: [0])) := by simp
  rw [e, decodeIndexed_ok (be32 i) name (value.getD []) [0] _ (length_be32 i) hn hvc (by omega),
    if_neg h0]
  have := readBE32_be32 i hi []
  rw [List.append_nil] at this
  rw [this]
  cases value with
  | none => rfl
  | some v =>
    have : v ≠ [] := hv.2
    simp [this]

theorem content_length_indexed (c : UInt8) (q : Bytes) :
    (c :: q).length + 1 = q.length + 1 + 1 := by simp

/-- Decoding the content a reply encoder builds gives the reply back. -/
theorem decode_content (order : Requests → Requests) (ho : ∀ t, (order t).Perm t) (r : Reply)
    (hr : ReplyOk r) :
    ∃ c r', replyContent order r = some c ∧ decode (c ++ [0]) c.length = .ok r' ∧ SameReply r r' := by
  cases r with
  | negotiate o rq =>
    obtain ⟨r', h1, h2⟩ := decodeNegotiate_rt o rq order ho hr
    exact ⟨_, r', rfl, h1, h2⟩
  | cont => exact ⟨_, _, rfl, rfl, rfl⟩
  | temporaryFailure => exact ⟨_, _, rfl, rfl, rfl⟩
  | reject => exact ⟨_, _, rfl, rfl, rfl⟩
  | accept => exact ⟨_, _, rfl, rfl, rfl⟩
  | discard => exact ⟨_, _, rfl, rfl, rfl⟩
  | progress => exact ⟨_, _, rfl, rfl, rfl⟩
  | connectionFailure => exact ⟨_, _, rfl, rfl, rfl⟩
  | shutdown => exact ⟨_, _, rfl, rfl, rfl⟩
  | skip => exact ⟨_, _, rfl, rfl, rfl⟩
  | replyCode code ext msg =>
    obtain ⟨h1, h2, h3, h4, m, rfl, h5⟩ := hr
    refine ⟨0x79 :: (decimal3 code ++ 0x20 :: ext ++ 0x20 :: m ++ [0]), _, ?_,
      decodeReplyCode_rt code ext m h1 h2 h3 h4 h5, rfl⟩
    simp only [replyContent, format_oneLine code ext m h5 (by omega), Option.map_some]
  | addHeader n v =>
    obtain ⟨h1, h2, h3⟩ := hr
    refine ⟨0x68 :: (n ++ 0 :: (v ++ [0])), .addHeader n v, ?_, ?_, rfl⟩
    · simp [replyContent, replyHeader, h2]
    · show (CmdDec.decodeHeaderContent ((n ++ 0 :: (v ++ [0])) ++ [0]) (n ++ 0 :: (v ++ [0])).length >>=
        fun nv => pure (Reply.addHeader nv.1 nv.2)) = _
      rw [decodeHeader_rt n v h1 h2 h3]; rfl
  | insertHeader i n v =>
    obtain ⟨h1, h2, h3, h4⟩ := hr
    refine ⟨0x69 :: (be32 i ++ (n ++ 0 :: (v.getD [] ++ [0]))), .insertHeader i n v, ?_, ?_, rfl⟩
    · simp [replyContent, replyHeader, h3]
    · show (decodeIndexed ((be32 i ++ (n ++ 0 :: (v.getD [] ++ [0]))) ++ [0])
        ((be32 i ++ (n ++ 0 :: (v.getD [] ++ [0]))).length + 1 + 1) >>=
        fun t => pure (Reply.insertHeader t.1 t.2.1 t.2.2)) = _
      rw [decodeIndexed_rt i n v h1 h2 h3 h4]; rfl
  | changeHeader n i v =>
    obtain ⟨h1, h2, h3, h4, h5⟩ := hr
    refine ⟨0x6d :: (be32 i ++ (n ++ 0 :: (v ++ [0]))), .changeHeader n i v, ?_, ?_, rfl⟩
    · simp [replyContent, replyHeader, h3]
    · have := decodeIndexed_rt i n (some v) h1 h2 h3 ⟨h4, h5⟩
      show decodeChangeHeader (0x6d :: (be32 i ++ (n ++ 0 :: (v ++ [0]))) ++ [0])
        (0x6d :: (be32 i ++ (n ++ 0 :: (v ++ [0])))).length = _
      unfold decodeChangeHeader
      rw [content_length_indexed]
      simp only [Option.getD_some] at this
      simp only [List.cons_append, List.drop_succ_cons, List.drop_zero]
      rw [this]; rfl
  | deleteHeader n i =>
    obtain ⟨h1, h2, h3⟩ := hr
    refine ⟨0x6d :: (be32 i ++ (n ++ 0 :: ([] ++ [0]))), .deleteHeader n i, ?_, ?_, rfl⟩
    · simp [replyContent, replyHeader, h3]
    · have := decodeIndexed_rt i n none h1 h2 h3 trivial
      show decodeChangeHeader (0x6d :: (be32 i ++ (n ++ 0 :: ([] ++ [0]))) ++ [0])
        (0x6d :: (be32 i ++ (n ++ 0 :: ([] ++ [0])))).length = _
      unfold decodeChangeHeader
      rw [content_length_indexed]
      simp only [Option.getD_none] at this
      simp only [List.cons_append, List.drop_succ_cons, List.drop_zero]
      rw [this]; rfl
  | changeFrom s p =>
    obtain ⟨h1, h2, h3⟩ := hr
    refine ⟨0x65 :: (s ++ 0 :: paramPart p), .changeFrom s p, ?_, ?_, rfl⟩
    · simp [replyContent, h2]
    · show (decodeTwo ((s ++ 0 :: paramPart p) ++ [0]) (s ++ 0 :: paramPart p).length >>=
        fun t => pure (Reply.changeFrom t.1 t.2)) = _
      rw [decodeTwo_rt s p h1 h2 h3]; rfl
  | addRecipient s p =>
    obtain ⟨h1, h2, h3⟩ := hr
    cases p with
    | none =>
      refine ⟨0x2b :: (s ++ 0 :: []), .addRecipient s none, ?_, ?_, rfl⟩
      · simp [replyContent, h2, paramPart]
      · show (cstr ((s ++ 0 :: []) ++ [0]) >>= fun a => pure (Reply.addRecipient a none)) = _
        have e : (s ++ 0 :: []) ++ [0] = s ++ 0 :: [0] := by simp
        rw [e, cstr_append s [0] h1]; rfl
    | some p =>
      have hp2 : p ≠ [] := h3.2
      have hne : paramPart (some p) ≠ [] := by simp [paramPart, hp2]
      refine ⟨0x32 :: (s ++ 0 :: paramPart (some p)), .addRecipient s (some p), ?_, ?_, rfl⟩
      · simp only [replyContent, if_neg h2, if_neg hne]
      · show (decodeTwo ((s ++ 0 :: paramPart (some p)) ++ [0]) (s ++ 0 :: paramPart (some p)).length >>=
          fun t => pure (Reply.addRecipient t.1 t.2)) = _
        rw [decodeTwo_rt s (some p) h1 h2 h3]; rfl
  | deleteRecipient s =>
    refine ⟨0x2d :: (s ++ [0]), .deleteRecipient s, ?_,
      decodeReplyString_rt 0x2d s hr.1 hr.2 .deleteRecipient, rfl⟩
    simp [replyContent, replyString, hr.2]
  | quarantine s =>
    refine ⟨0x71 :: (s ++ [0]), .quarantine s, ?_,
      decodeReplyString_rt 0x71 s hr.1 hr.2 .quarantine, rfl⟩
    simp [replyContent, replyString, hr.2]
  | replaceBody chunk =>
    have ht : chunk.take chunkSize = chunk :=
      List.take_of_length_le (by rw [chunkSize_eq]; exact hr.2)
    refine ⟨0x62 :: chunk, .replaceBody chunk, ?_, ?_, rfl⟩
    · simp only [replyContent, if_neg hr.1, ht]
    · show decodeReplaceBody (0x62 :: chunk ++ [0]) (0x62 :: chunk).length = _
      simp [decodeReplaceBody]

theorem split_unique {a b a' b' : Bytes} (h : a ++ 0 :: b = a' ++ 0 :: b') (ha : IsCStr a)
    (ha' : IsCStr a') : b = b' := by
  induction a generalizing a' with
  | nil =>
    cases a' with
    | nil => simpa using h
    | cons c a' =>
      simp only [List.nil_append, List.cons_append, List.cons.injEq] at h
      exact absurd (h.1 ▸ List.mem_cons_self) ha'
  | cons c a ih =>
    cases a' with
    | nil =>
      simp only [List.nil_append, List.cons_append, List.cons.injEq] at h
      exact absurd (h.1 ▸ List.mem_cons_self) ha
    | cons c' a' =>
      simp only [List.cons_append, List.cons.injEq] at h
      exact ih h.2 (fun hm => ha (List.mem_cons_of_mem _ hm)) (fun hm => ha' (List.mem_cons_of_mem _ hm))

theorem selfContained_other (c : UInt8) (q : Bytes) (h1 : c ≠ 0x79) (h2 : c ≠ 0x69) (h3 : c ≠ 0x6d)
    (h4 : c = 0x2b → (0 : UInt8) ∈ q) : SelfContainedReply (c :: q) := by
  refine ⟨by simp, ?_, ?_, ?_⟩
  · intro a b e; simp only [List.cons.injEq] at e; exact absurd e.1 h1
  · intro h; simp [h2, h3] at h
  · intro h
    simp only [List.head?_cons, Option.some.injEq] at h
    exact List.mem_cons_of_mem _ (h4 h)

theorem selfContained_indexed (c : UInt8) (h1 : c ≠ 0x79) (h2 : c ≠ 0x2b) (i : Nat) (n v : Bytes)
    (hn : IsCStr n) (hv : IsCStr v) :
    SelfContainedReply (c :: (be32 i ++ (n ++ 0 :: (v ++ [0])))) := by
  refine ⟨by simp, ?_, ?_, ?_⟩
  · intro a b e; simp only [List.cons.injEq] at e; exact absurd e.1 h1
  · intro _
    exact .inr (.inr ⟨be32 i, n, v, [], rfl, length_be32 i, hn, hv⟩)
  · intro h; simp [h2] at h

/-- Everything a reply encoder writes for representable arguments is self-contained. -/
theorem content_selfContained (order : Requests → Requests) (r : Reply) (hr : ReplyOk r) (c : Bytes)
    (hc : replyContent order r = some c) : SelfContainedReply c := by
  cases r with
  | negotiate o rq =>
    simp only [replyContent, Option.some.injEq] at hc
    subst hc
    exact selfContained_other _ _ (by decide) (by decide) (by decide)
      (fun h => absurd h (by decide))
  | replyCode code ext msg =>
    obtain ⟨h1, h2, h3, h4, m, rfl, h5⟩ := hr
    simp only [replyContent, format_oneLine code ext m h5 (by omega), Option.map_some,
      Option.some.injEq] at hc
    subst hc
    refine ⟨by simp, ?_, ?_, ?_⟩
    · intro a b e ha
      simp only [List.cons.injEq, true_and] at e
      have ht : IsCStr (decimal3 code ++ 0x20 :: ext ++ 0x20 :: m) := by
        refine cstr_append_nul _ _ (cstr_append_nul _ _ ?_ (cstr_cons (by decide) h3))
          (cstr_cons (by decide) h5.1)
        rw [decimal3_three code (by omega) (by omega)]
        intro hm
        exact absurd (decimal_digits code _ hm) (by decide)
      have := split_unique (a := decimal3 code ++ 0x20 :: ext ++ 0x20 :: m) (b := []) e ht ha
      subst this
      simp
    · intro h; simp at h
    · intro h; simp at h
  | insertHeader i n v =>
    obtain ⟨h1, h2, h3, h4⟩ := hr
    simp only [replyContent, replyHeader, if_neg h3, Option.some.injEq] at hc
    subst hc
    refine selfContained_indexed _ (by decide) (by decide) i n (v.getD []) h2 ?_
    cases v with
    | none => simp [IsCStr]
    | some v => exact h4.1
  | changeHeader n i v =>
    obtain ⟨h1, h2, h3, h4, h5⟩ := hr
    simp only [replyContent, replyHeader, if_neg h3, Option.some.injEq] at hc
    subst hc
    exact selfContained_indexed _ (by decide) (by decide) i n v h2 h4
  | deleteHeader n i =>
    obtain ⟨h1, h2, h3⟩ := hr
    simp only [replyContent, replyHeader, if_neg h3, Option.some.injEq] at hc
    subst hc
    exact selfContained_indexed _ (by decide) (by decide) i n [] h2 (by simp [IsCStr])
  | addRecipient s p =>
    obtain ⟨h1, h2, h3⟩ := hr
    simp only [replyContent, if_neg h2, Option.some.injEq] at hc
    subst hc
    refine selfContained_other _ _ ?_ ?_ ?_ (fun _ => by simp) <;> split <;> decide
  | addHeader n v =>
    obtain ⟨h1, h2, h3⟩ := hr
    simp only [replyContent, replyHeader, if_neg h2, Option.some.injEq] at hc
    subst hc
    exact selfContained_other _ _ (by decide) (by decide) (by decide)
      (fun h => absurd h (by decide))
  | changeFrom s p =>
    obtain ⟨h1, h2, h3⟩ := hr
    simp only [replyContent, if_neg h2, Option.some.injEq] at hc
    subst hc
    exact selfContained_other _ _ (by decide) (by decide) (by decide)
      (fun h => absurd h (by decide))
  | deleteRecipient s =>
    simp only [replyContent, replyString, if_neg hr.2, Option.some.injEq] at hc
    subst hc
    exact selfContained_other _ _ (by decide) (by decide) (by decide)
      (fun h => absurd h (by decide))
  | quarantine s =>
    simp only [replyContent, replyString, if_neg hr.2, Option.some.injEq] at hc
    subst hc
    exact selfContained_other _ _ (by decide) (by decide) (by decide)
      (fun h => absurd h (by decide))
  | replaceBody chunk =>
    simp only [replyContent, if_neg hr.1, Option.some.injEq] at hc
    subst hc
    exact selfContained_other _ _ (by decide) (by decide) (by decide)
      (fun h => absurd h (by decide))
  | cont | temporaryFailure | reject | accept | discard | progress | connectionFailure | shutdown
  | skip =>
    simp only [replyContent, Option.some.injEq] at hc
    subst hc
    exact selfContained_other _ _ (by decide) (by decide) (by decide)
      (fun h => absurd h (by decide))

end Verif.RepDec
