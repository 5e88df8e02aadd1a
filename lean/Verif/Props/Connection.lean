import Verif.Core.Connection
import Verif.Spec.Connection
/-
C20: connection specs.
-/
namespace Verif.Props
open Verif Verif.Connection Verif.Spec.Connection

theorem isDigit_bounds (c : UInt8) : isDigit c = true ↔ 0x30 ≤ c ∧ c ≤ 0x39 := by
  simp [isDigit]

theorem digitsValue_concat (s : Bytes) (c : UInt8) :
    digitsValue (s ++ [c]) = 10 * digitsValue s + (c.toNat - 48) := by
  simp [digitsValue, List.foldl_append]

theorem digitsValue_decimal (n : Nat) : digitsValue (decimal n) = n := by
  have h10 : ∀ n < 10, (UInt8.ofNat (48 + n)).toNat - 48 = n := by decide
  fun_induction decimal n with
  | case1 n h =>
    have := h10 n h
    simp only [digitsValue, List.foldl_cons, List.foldl_nil]
    omega
  | case2 n h ih =>
    rw [digitsValue_concat, ih, h10 _ (by omega)]
    omega

theorem decimal_ne_nil (n : Nat) : decimal n ≠ [] := by
  rw [decimal]
  split <;> simp

theorem takeWhile_digits (d rest : Bytes) (hd : ∀ c ∈ d, isDigit c = true)
    (hr : ∀ c r, rest = c :: r → isDigit c = false) : (d ++ rest).takeWhile isDigit = d := by
  induction d with
  | nil =>
    cases rest with
    | nil => rfl
    | cons c r => simp [hr c r rfl]
  | cons c d ih =>
    rw [List.cons_append, List.takeWhile_cons, if_pos (hd c List.mem_cons_self),
      ih (fun x hx => hd x (List.mem_cons_of_mem _ hx))]

theorem atoi_small (d rest : Bytes) (hd : ∀ c ∈ d, isDigit c = true)
    (hr : ∀ c r, rest = c :: r → isDigit c = false) (h : value d < 2 ^ 31) :
    atoi (d ++ rest) = (value d : Int) := by
  unfold atoi
  rw [takeWhile_digits d rest hd hr]
  have : digitsValue d = value d := rfl
  rw [this, Nat.min_eq_left (by unfold longMax; omega)]
  simp only [Int.ofNat_eq_natCast]
  rw [Int.bmod_eq_of_le] <;> omega

/-- the port loop accepts digits, then an optional host -/
theorem portLoop_iff (any : Bytes) (host : Bytes → Option Bytes) (s a : Bytes) :
    portLoop any host s = some a ↔ ∃ d, (∀ c ∈ d, isDigit c = true) ∧
      ((s = d ∧ a = any) ∨ ∃ h, s = d ++ 0x40 :: h ∧ host h = some a) := by
  induction s with
  | nil =>
    simp only [portLoop, Option.some.injEq]
    constructor
    · rintro rfl; exact ⟨[], by simp, .inl ⟨rfl, rfl⟩⟩
    · rintro ⟨d, -, ⟨-, h⟩ | ⟨h, e, -⟩⟩
      · exact h.symm
      · simp at e
  | cons c s ih =>
    rw [portLoop]
    by_cases hc : c = 0x40
    · subst hc
      rw [if_pos rfl]
      constructor
      · intro h; exact ⟨[], by simp, .inr ⟨s, rfl, h⟩⟩
      · rintro ⟨d, hd, ⟨e, -⟩ | ⟨h, e, hh⟩⟩
        · have := hd 0x40 (by rw [← e]; exact List.mem_cons_self)
          exact absurd this (by decide)
        · cases d with
          | nil => simp at e; rw [e]; exact hh
          | cons x d =>
            simp at e
            have := hd x List.mem_cons_self
            rw [← e.1] at this
            exact absurd this (by decide)
    · rw [if_neg hc]
      by_cases hd : isDigit c = true
      · rw [if_pos hd, ih]
        constructor
        · rintro ⟨d, h1, h2⟩
          refine ⟨c :: d, ?_, ?_⟩
          · simp only [List.mem_cons, forall_eq_or_imp]; exact ⟨hd, h1⟩
          · rcases h2 with ⟨e, h⟩ | ⟨h, e, hh⟩
            · exact .inl ⟨by rw [e], h⟩
            · exact .inr ⟨h, by rw [e]; rfl, hh⟩
        · rintro ⟨d, h1, h2⟩
          cases d with
          | nil =>
            rcases h2 with ⟨e, h⟩ | ⟨h, e, hh⟩
            · cases e
            · simp at e; exact absurd e.1 hc
          | cons x d =>
            refine ⟨d, fun y hy => h1 y (List.mem_cons_of_mem _ hy), ?_⟩
            rcases h2 with ⟨e, h⟩ | ⟨h, e, hh⟩
            · simp at e; exact .inl ⟨e.2, h⟩
            · simp at e; exact .inr ⟨h, e.2, hh⟩
      · rw [if_neg hd]
        constructor
        · intro h; cases h
        · rintro ⟨d, h1, h2⟩
          cases d with
          | nil =>
            rcases h2 with ⟨e, h⟩ | ⟨h, e, hh⟩
            · cases e
            · simp at e; exact absurd e.1 hc
          | cons x d =>
            have := h1 x List.mem_cons_self
            rcases h2 with ⟨e, h⟩ | ⟨h, e, hh⟩
            · simp at e; rw [← e.1] at this; exact absurd this hd
            · simp at e; rw [← e.1] at this; exact absurd this hd

/-- the host grammar -/
theorem parseHost_iff (any : Bytes) (pton resolve : Bytes → Option Bytes) (h a : Bytes) :
    parseHost pton resolve h = some a ↔ Host any pton resolve (0x40 :: h) a := by
  have e1 : text "@[" = [0x40, 0x5b] := by decide
  have e2 : text "]" = [0x5d] := by decide
  have e3 : text "@" = [0x40] := by decide
  constructor
  · intro hp
    cases h with
    | nil => exact .name [] a (by simp) hp
    | cons c h =>
      rw [parseHost] at hp
      split at hp
      · rename_i hc
        subst hc
        split at hp
        · rename_i hl
          rcases List.eq_nil_or_concat h with rfl | ⟨t, x, rfl⟩
          · simp at hl
          · rw [List.concat_eq_append, List.getLast?_concat] at hl
            simp only [Option.getD_some] at hl
            subst hl
            have := Host.numeric (any := any) (resolve := resolve) t a
              (by simpa using hp)
            rw [e1, e2] at this
            simpa using this
        · cases hp
      · rename_i hc
        exact .name (c :: h) a (by simpa using hc) hp
  · intro hh
    generalize hx : (0x40 :: h : Bytes) = x at hh
    cases hh with
    | none => cases hx
    | numeric t _ hp =>
      rw [e1, e2] at hx
      simp at hx
      subst hx
      rw [parseHost, if_pos rfl, List.getLast?_concat]
      simp [hp]
    | name t _ ht hr =>
      rw [e3] at hx
      simp at hx
      subst hx
      cases h with
      | nil => exact hr
      | cons c h =>
        rw [parseHost, if_neg (by simpa using ht)]
        exact hr

theorem host_shape (any : Bytes) (pton resolve : Bytes → Option Bytes) (h a : Bytes)
    (hh : Host any pton resolve h a) : (h = [] ∧ a = any) ∨ ∃ t, h = 0x40 :: t := by
  have e1 : text "@[" = [0x40, 0x5b] := by decide
  have e3 : text "@" = [0x40] := by decide
  cases hh with
  | none => exact .inl ⟨rfl, rfl⟩
  | numeric t _ _ => right; exact ⟨0x5b :: t ++ text "]", by rw [e1]; rfl⟩
  | name t _ _ _ => right; exact ⟨t, by rw [e3]; rfl⟩

theorem portAndHost_iff (any : Bytes) (pton resolve : Bytes → Option Bytes) (s a : Bytes) (p : UInt16) :
    portAndHost any (parseHost pton resolve) s = some (p, a) ↔
      ∃ d h, s = d ++ h ∧ Digits d ∧ Host any pton resolve h a ∧ ¬ atoi s > 65535 ∧
        p = UInt16.ofNat (atoi s % 65536).toNat := by
  have hdig : ∀ d : Bytes, (∀ c ∈ d, isDigit c = true) ↔ Digits d := by
    intro d
    simp [isDigit_bounds, Digits]
  unfold portAndHost
  constructor
  · intro h
    split at h
    · cases h
    · rename_i b hb
      split at h
      · cases h
      · rename_i ha
        simp only [Option.some.injEq, Prod.mk.injEq] at h
        obtain ⟨h1, rfl⟩ := h
        obtain ⟨d, hd, ⟨e, e'⟩ | ⟨t, e, e'⟩⟩ := (portLoop_iff _ _ _ _).1 hb
        · exact ⟨d, [], by simp [e], (hdig d).1 hd, by rw [e']; exact .none, ha, h1.symm⟩
        · exact ⟨d, 0x40 :: t, e, (hdig d).1 hd, (parseHost_iff any _ _ _ _).1 e', ha, h1.symm⟩
  · rintro ⟨d, h, e, hd, hh, ha, hp⟩
    have : portLoop any (parseHost pton resolve) s = some a := by
      rw [portLoop_iff]
      refine ⟨d, (hdig d).2 hd, ?_⟩
      rcases host_shape _ _ _ _ _ hh with ⟨rfl, rfl⟩ | ⟨t, rfl⟩
      · exact .inl ⟨by simpa using e, rfl⟩
      · exact .inr ⟨t, e, (parseHost_iff any _ _ _ _).2 hh⟩
    rw [this]
    simp only
    rw [if_neg ha, hp]

theorem afterColon_append (a s : Bytes) (h : 0x3a ∉ a) : afterColon (a ++ 0x3a :: s) = some s := by
  induction a with
  | nil => simp [afterColon]
  | cons c a ih =>
    simp only [List.mem_cons, not_or] at h
    rw [List.cons_append, afterColon, if_neg (fun e => h.1 e.symm), ih h.2]

theorem afterColon_none (s : Bytes) : afterColon s = none ↔ 0x3a ∉ s := by
  induction s with
  | nil => simp [afterColon]
  | cons c s ih =>
    rw [afterColon]
    by_cases hc : c = 0x3a
    · simp [hc]
    · have : ¬ (0x3a : UInt8) = c := fun e => hc e.symm
      simp [hc, this, ih]

theorem prefix_append (a s : Bytes) : a.isPrefixOf (a ++ s) = true := by simp

/-- parsing by scheme -/
theorem parse_inet (net : Net) (s : Bytes) (hs : s ≠ []) :
    parseSpec net (text "inet:" ++ s) =
      match portAndHost [0, 0, 0, 0] (parseHost net.inet.v4.pton net.resolve4) s with
      | none => .fail
      | some (p, a) => .ok (.inet p a) := by
  have e : text "inet:" = [0x69, 0x6e, 0x65, 0x74, 0x3a] := by decide
  obtain ⟨c, s, rfl⟩ := List.exists_cons_of_ne_nil hs
  rw [e]
  unfold parseSpec
  have := afterColon_append [0x69, 0x6e, 0x65, 0x74] (c :: s) (by decide)
  simp only [List.cons_append, List.nil_append] at this ⊢
  rw [this]
  simp [sUnix, sLocal, sInet, List.isPrefixOf]
  rfl

theorem parse_inet6 (net : Net) (s : Bytes) (hs : s ≠ []) :
    parseSpec net (text "inet6:" ++ s) =
      match portAndHost (List.replicate 16 0) (parseHost net.inet.v6.pton net.resolve6) s with
      | none => .fail
      | some (p, a) => .ok (.inet6 p a) := by
  have e : text "inet6:" = [0x69, 0x6e, 0x65, 0x74, 0x36, 0x3a] := by decide
  obtain ⟨c, s, rfl⟩ := List.exists_cons_of_ne_nil hs
  rw [e]
  unfold parseSpec
  have := afterColon_append [0x69, 0x6e, 0x65, 0x74, 0x36] (c :: s) (by decide)
  simp only [List.cons_append, List.nil_append] at this ⊢
  rw [this]
  simp [sUnix, sLocal, sInet, sInet6, List.isPrefixOf]
  rfl

theorem parse_unix (net : Net) (s : Bytes) (hs : s ≠ []) (scheme : String)
    (h : scheme = "unix:" ∨ scheme = "local:") :
    parseSpec net (text scheme ++ s) = if s.length ≤ 107 then .ok (.unix s) else .ub := by
  obtain ⟨c, s, rfl⟩ := List.exists_cons_of_ne_nil hs
  rcases h with rfl | rfl
  · have e : text "unix:" = [0x75, 0x6e, 0x69, 0x78, 0x3a] := by decide
    rw [e]
    unfold parseSpec
    have := afterColon_append [0x75, 0x6e, 0x69, 0x78] (c :: s) (by decide)
    simp only [List.cons_append, List.nil_append] at this ⊢
    rw [this]
    simp [sUnix, List.isPrefixOf, unixPathMax]
  · have e : text "local:" = [0x6c, 0x6f, 0x63, 0x61, 0x6c, 0x3a] := by decide
    rw [e]
    unfold parseSpec
    have := afterColon_append [0x6c, 0x6f, 0x63, 0x61, 0x6c] (c :: s) (by decide)
    simp only [List.cons_append, List.nil_append] at this ⊢
    rw [this]
    simp [sUnix, sLocal, List.isPrefixOf, unixPathMax]

/-- addresses a spec can carry: a non-empty path that fits `sun_path`, or a raw address the
libc pair prints and reads back -/
def Printable (net : Net) : SockAddr → Prop
  | .unix path => path ≠ [] ∧ path.length ≤ 107
  | .inet _ a => net.inet.v4.pton (net.inet.v4.ntop a) = some a
  | .inet6 _ a => net.inet.v6.pton (net.inet.v6.ntop a) = some a

theorem atoi_port (p : UInt16) (rest : Bytes) (hr : ∀ c r, rest = c :: r → isDigit c = false) :
    atoi (decimal p.toNat ++ rest) = (p.toNat : Int) := by
  have hp := p.toNat_lt
  have hv : value (decimal p.toNat) = p.toNat := digitsValue_decimal _
  rw [atoi_small _ _ (decimal_digits _) hr (by rw [hv]; omega), hv]

/-- **C20**: a printed address parses back to itself. -/
theorem C20_round_trip (net : Net) (a : SockAddr) (h : Printable net a) :
    parseSpec net (toSpec net a) = .ok a := by
  have e1 : text "@[" = [0x40, 0x5b] := by decide
  have e2 : text "]" = [0x5d] := by decide
  cases a with
  | unix path =>
    have e : toSpec net (.unix path) = text "unix:" ++ path := by
      rw [show text "unix:" = sUnix by decide]; rfl
    rw [e, parse_unix net path h.1 "unix:" (.inl rfl), if_pos h.2]
  | inet p a =>
    have e : toSpec net (.inet p a) =
        text "inet:" ++ (decimal p.toNat ++ (0x40 :: 0x5b :: (net.inet.v4.ntop a ++ [0x5d]))) := by
      rw [show text "inet:" = sInet by decide]
      simp [toSpec]
    have hp := p.toNat_lt
    rw [e, parse_inet net _ (by simp)]
    have : portAndHost [0, 0, 0, 0] (parseHost net.inet.v4.pton net.resolve4)
        (decimal p.toNat ++ (0x40 :: 0x5b :: (net.inet.v4.ntop a ++ [0x5d]))) = some (p, a) := by
      rw [portAndHost_iff]
      have ha := atoi_port p (0x40 :: 0x5b :: (net.inet.v4.ntop a ++ [0x5d]))
        (by rintro c r h; simp at h; rw [← h.1]; decide)
      refine ⟨decimal p.toNat, _, rfl, fun c hc => (isDigit_bounds c).1 (decimal_digits _ c hc), ?_, ?_, ?_⟩
      · have := Host.numeric (any := [0, 0, 0, 0]) (resolve := net.resolve4) (net.inet.v4.ntop a) a h
        rw [e1, e2] at this
        simpa using this
      · rw [ha]; omega
      · rw [ha]
        apply UInt16.toNat_inj.1
        rw [UInt16.toNat_ofNat']
        omega
    rw [this]
  | inet6 p a =>
    have e : toSpec net (.inet6 p a) =
        text "inet6:" ++ (decimal p.toNat ++ (0x40 :: 0x5b :: (net.inet.v6.ntop a ++ [0x5d]))) := by
      rw [show text "inet6:" = sInet6 by decide]
      simp [toSpec]
    have hp := p.toNat_lt
    rw [e, parse_inet6 net _ (by simp)]
    have : portAndHost (List.replicate 16 0) (parseHost net.inet.v6.pton net.resolve6)
        (decimal p.toNat ++ (0x40 :: 0x5b :: (net.inet.v6.ntop a ++ [0x5d]))) = some (p, a) := by
      rw [portAndHost_iff]
      have ha := atoi_port p (0x40 :: 0x5b :: (net.inet.v6.ntop a ++ [0x5d]))
        (by rintro c r h; simp at h; rw [← h.1]; decide)
      refine ⟨decimal p.toNat, _, rfl, fun c hc => (isDigit_bounds c).1 (decimal_digits _ c hc), ?_, ?_, ?_⟩
      · have := Host.numeric (any := List.replicate 16 0) (resolve := net.resolve6) (net.inet.v6.ntop a) a h
        rw [e1, e2] at this
        simpa using this
      · rw [ha]; omega
      · rw [ha]
        apply UInt16.toNat_inj.1
        rw [UInt16.toNat_ofNat']
        omega
    rw [this]

theorem host_nondigit {any : Bytes} {pton resolve : Bytes → Option Bytes} {h a : Bytes}
    (hh : Host any pton resolve h a) : ∀ c r, h = c :: r → isDigit c = false := by
  intro c r e
  rcases host_shape _ _ _ _ _ hh with ⟨rfl, -⟩ | ⟨t, rfl⟩
  · cases e
  · simp at e; rw [← e.1]; decide

/-- **C20** for ports below 2^31: an `inet:` spec is accepted exactly if it is a run of
digits with value at most 65535 followed by an acceptable host part, and then the address
has that port and host. -/
theorem C20_inet_partial (net : Net) (d h : Bytes) (hd : Digits d) (hne : d ++ h ≠ [])
    (hh : h = [] ∨ h.head? = some 0x40) (hv : value d < 2 ^ 31) (p : UInt16) (a : Bytes) :
    parseSpec net (text "inet:" ++ (d ++ h)) = .ok (.inet p a) ↔
      value d ≤ 65535 ∧ p.toNat = value d ∧
        Host [0, 0, 0, 0] net.inet.v4.pton net.resolve4 h a := by
  have hnd : ∀ c r, h = c :: r → isDigit c = false := by
    rintro c r e
    subst e
    simp at hh
    rw [hh]; decide
  have hdd : ∀ c ∈ d, isDigit c = true := fun c hc => (isDigit_bounds c).2 (hd c hc)
  have hat := atoi_small d h hdd hnd hv
  rw [parse_inet net _ hne]
  have key : portAndHost [0, 0, 0, 0] (parseHost net.inet.v4.pton net.resolve4) (d ++ h) = some (p, a) ↔
      value d ≤ 65535 ∧ p.toNat = value d ∧ Host [0, 0, 0, 0] net.inet.v4.pton net.resolve4 h a := by
    rw [portAndHost_iff, hat]
    constructor
    · rintro ⟨d', h', e, hd', hh', h1, h2⟩
      have hdd' : ∀ c ∈ d', isDigit c = true := fun c hc => (isDigit_bounds c).2 (hd' c hc)
      have e1 : d = d' := by
        rw [← takeWhile_digits d h hdd hnd, ← takeWhile_digits d' h' hdd' (host_nondigit hh'), e]
      subst e1
      have e2 : h = h' := List.append_cancel_left e
      subst e2
      refine ⟨by omega, ?_, hh'⟩
      rw [h2, UInt16.toNat_ofNat']
      omega
    · rintro ⟨h1, h2, h3⟩
      refine ⟨d, h, rfl, hd, h3, by omega, ?_⟩
      apply UInt16.toNat_inj.1
      rw [UInt16.toNat_ofNat']
      omega
  cases hx : portAndHost [0, 0, 0, 0] (parseHost net.inet.v4.pton net.resolve4) (d ++ h) with
  | none =>
    rw [hx] at key
    simp only [reduceCtorEq, false_iff] at key ⊢
    exact key
  | some x =>
    obtain ⟨p', a'⟩ := x
    rw [hx] at key
    simp only [Option.some.injEq, Prod.mk.injEq, HRes.ok.injEq, SockAddr.inet.injEq] at key ⊢
    exact key

/-- **C20**: a port with a byte that is neither a digit nor part of a host is refused,
whatever follows (both families). -/
theorem C20_bad_port (net : Net) (d rest : Bytes) (c : UInt8) (hd : Digits d)
    (hc : ¬ (0x30 ≤ c ∧ c ≤ 0x39)) (hat : c ≠ 0x40) :
    parseSpec net (text "inet:" ++ (d ++ c :: rest)) = .fail ∧
    parseSpec net (text "inet6:" ++ (d ++ c :: rest)) = .fail := by
  have key : ∀ any host, portLoop any host (d ++ c :: rest) = none := by
    intro any host
    induction d with
    | nil =>
      have : isDigit c = false := by
        rw [Bool.eq_false_iff]; intro h; exact hc ((isDigit_bounds c).1 h)
      simp [portLoop, hat, this]
    | cons x d ih =>
      have hx := hd x List.mem_cons_self
      have h1 : x ≠ 0x40 := by rintro rfl; exact absurd hx (by decide)
      have h2 := (isDigit_bounds x).2 hx
      rw [List.cons_append, portLoop, if_neg h1, if_pos h2,
        ih (fun y hy => hd y (List.mem_cons_of_mem _ hy))]
  constructor
  · rw [parse_inet net _ (by simp)]
    simp [portAndHost, key]
  · rw [parse_inet6 net _ (by simp)]
    simp [portAndHost, key]

theorem prefix_has_colon (p spec : Bytes) (hp : 0x3a ∈ p) (h : p.isPrefixOf spec = true) : 0x3a ∈ spec := by
  rw [List.isPrefixOf_iff_prefix] at h
  exact h.subset hp

/-- **C20**: without a colon, or with a scheme other than unix, local, inet and inet6, a
spec is refused. -/
theorem C20_scheme (net : Net) (spec : Bytes)
    (h : 0x3a ∉ spec ∨ ∃ scheme rest, spec = scheme ++ text ":" ++ rest ∧ 0x3a ∉ scheme ∧
      scheme ∉ [text "unix", text "local", text "inet", text "inet6"]) :
    parseSpec net spec = .fail := by
  have ec : text ":" = [0x3a] := by decide
  rcases h with h | ⟨scheme, rest, rfl, hs, hn⟩
  · unfold parseSpec
    rw [(afterColon_none spec).2 h]
  · rw [ec]
    have hno : ∀ p : Bytes, 0x3a ∉ p → p ∈ [text "unix", text "local", text "inet", text "inet6"] →
        (p ++ [0x3a]).isPrefixOf (scheme ++ [0x3a] ++ rest) = false := by
      intro p hp hm
      rw [Bool.eq_false_iff]
      intro h
      rw [List.isPrefixOf_iff_prefix] at h
      obtain ⟨t, ht⟩ := h
      have : afterColon (p ++ 0x3a :: t) = afterColon (scheme ++ 0x3a :: rest) := by
        congr 1
        simpa using ht
      rw [afterColon_append p t hp, afterColon_append scheme rest hs] at this
      simp only [Option.some.injEq] at this
      subst this
      have e := List.append_cancel_right (as := p ++ [0x3a]) (bs := t) (cs := scheme ++ [0x3a]) (by simpa using ht)
      have e := List.append_cancel_right e
      exact hn (e ▸ hm)
    have h1 := hno (text "unix") (by decide) (by decide)
    have h2 := hno (text "local") (by decide) (by decide)
    have h3 := hno (text "inet") (by decide) (by decide)
    have h4 := hno (text "inet6") (by decide) (by decide)
    rw [show text "unix" ++ [0x3a] = sUnix by decide] at h1
    rw [show text "local" ++ [0x3a] = sLocal by decide] at h2
    rw [show text "inet" ++ [0x3a] = sInet by decide] at h3
    rw [show text "inet6" ++ [0x3a] = sInet6 by decide] at h4
    unfold parseSpec
    split
    · rfl
    · rfl
    · simp only [h1, h2, h3, h4, Bool.or_self, Bool.false_eq_true, if_false]

/-- **C20** is violated for huge ports: 4294967376 (2^32 + 80) is accepted as port 80. -/
theorem C20_port_violated (net : Net) :
    parseSpec net (text "inet:4294967376") = .ok (.inet 80 [0, 0, 0, 0]) ∧
    value (text "4294967376") > 65535 := by
  constructor
  · have : text "inet:4294967376" = text "inet:" ++ text "4294967376" := by decide
    rw [this, parse_inet net _ (by decide)]
    have : portAndHost [0, 0, 0, 0] (parseHost net.inet.v4.pton net.resolve4) (text "4294967376") =
        some (80, [0, 0, 0, 0]) := by
      rw [portAndHost_iff]
      have : atoi (text "4294967376") = 80 := by decide
      refine ⟨text "4294967376", [], by simp, by unfold Digits; decide, .none, ?_, ?_⟩ <;> rw [this]
      · decide
      · decide
    rw [this]
  · decide

/-- A path of 108 bytes or more is written past the end of the address structure. -/
theorem C20_long_path_violated (net : Net) (path : Bytes) (h : 107 < path.length) :
    parseSpec net (text "unix:" ++ path) = .ub := by
  rw [parse_unix net path (by rintro rfl; simp at h) "unix:" (.inl rfl), if_neg (by omega)]

/-- "inet:25@[*]" with a libc pair that prints every address as "*" -/
example : let net : Net := ⟨⟨⟨fun _ => [0x2a], fun _ => some [127, 0, 0, 1]⟩,
      ⟨fun _ => [0x2a], fun _ => none⟩⟩, fun _ => none, fun _ => none⟩
    Printable net (.inet 25 [127, 0, 0, 1]) ∧ Printable net (.unix [0x2f, 0x61]) := by
  exact ⟨rfl, by simp, by simp⟩

example : Digits (text "10025") ∧ value (text "10025") = 10025 := by
  unfold Digits; decide

end Verif.Props
