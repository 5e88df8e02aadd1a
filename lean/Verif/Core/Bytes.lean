/-
Bytes, big-endian words and C strings.

A buffer of the C code is a `List UInt8`.  A `GString` keeps a NUL byte after
its contents, so the memory that may be read through `buffer->str` is
`contents ++ [0]`; functions below that read memory take that list and return
`HRes.ub` when they would read past its end.
-/
namespace Verif

abbrev Bytes := List UInt8

/-- Outcome of a C function that reads memory: a value, a reported failure
(`return FALSE` / `return -1`), or undefined behaviour (a read or write outside
the object). -/
inductive HRes (α : Type) where
  | ok (a : α)
  | fail
  | ub
deriving DecidableEq, Repr

namespace HRes
variable {α β : Type}

protected def bind (x : HRes α) (f : α → HRes β) : HRes β :=
  match x with
  | ok a => f a
  | fail => fail
  | ub => ub

instance : Monad HRes where
  pure := HRes.ok
  bind := HRes.bind

@[simp] theorem bind_ok (a : α) (f : α → HRes β) : (HRes.ok a >>= f) = f a := rfl
@[simp] theorem bind_fail (f : α → HRes β) : ((HRes.fail : HRes α) >>= f) = HRes.fail := rfl
@[simp] theorem bind_ub (f : α → HRes β) : ((HRes.ub : HRes α) >>= f) = HRes.ub := rfl
@[simp] theorem pure_eq (a : α) : (pure a : HRes α) = HRes.ok a := rfl

/-- `pure` on a success that may fail (an ordinary C `gboolean` result). -/
def ofOption : Option α → HRes α
  | some a => ok a
  | none => fail

@[simp] theorem ofOption_some (a : α) : ofOption (some a) = ok a := rfl
@[simp] theorem ofOption_none : ofOption (none : Option α) = fail := rfl
end HRes

/-- ASCII text as bytes, for literals that appear in the C source. -/
def ascii (s : String) : Bytes := s.toList.map (fun c => UInt8.ofNat c.toNat)

/-- A byte list usable as a C string argument: it has no NUL inside. -/
def IsCStr (s : Bytes) : Prop := (0 : UInt8) ∉ s

instance (s : Bytes) : Decidable (IsCStr s) := inferInstanceAs (Decidable (_ ∉ _))

/-- 2^31: a `gint32` read from the wire is negative from here on.  Kept irreducible so
that nothing tries to evaluate it in unary. -/
@[irreducible] def intLimit : Nat := 2147483648

theorem intLimit_eq : intLimit = 2147483648 := by unfold intLimit; rfl

/-- `g_htonl` followed by `memcpy` of four bytes: big-endian encoding of
`(guint32)n` (core/milter-encoder.c:168-171). -/
def be32 (n : Nat) : Bytes :=
  [UInt8.ofNat (n / 2^24), UInt8.ofNat (n / 2^16), UInt8.ofNat (n / 2^8), UInt8.ofNat n]

/-- `memcpy` of four bytes followed by `g_ntohl` (core/milter-decoder.c:397-400). -/
@[irreducible] def rd32 (a b c d : UInt8) : Nat :=
  a.toNat * 2^24 + b.toNat * 2^16 + c.toNat * 2^8 + d.toNat

/-- Read a big-endian 32-bit word at the start of memory; reading fewer than
four available bytes is undefined behaviour. -/
def readBE32 : Bytes → HRes Nat
  | a :: b :: c :: d :: _ => .ok (rd32 a b c d)
  | _ => .ub

/-- `find_null_character` (core/milter-decoder.c:188-199) on the memory `m` and
`length`: `ok k` is the index of the first NUL, `fail` is `-1`. -/
def findNull : Bytes → Nat → HRes Nat
  | _, 0 => .fail
  | [], _ + 1 => .ub
  | c :: m, n + 1 => if c = 0 then .ok 0 else do
      let k ← findNull m n
      return k + 1

/-- The idiom `null_character_point = ...; if (null_character_point <= 0) return
FALSE;`: an empty string counts as a failure. -/
def findNull1 (m : Bytes) (n : Nat) : HRes Nat := do
  let k ← findNull m n
  if k = 0 then .fail else return k

/-- The C string stored at the start of memory `m`: what `g_strdup`, `%s` or a
signal handler taking `const gchar *` sees. -/
def cstr (m : Bytes) : HRes Bytes :=
  if (0 : UInt8) ∈ m then .ok (m.takeWhile (· != 0)) else .ub

/-- `milter_decoder_check_command_length` (core/milter-decoder.c:275-317) with
MILTER_DECODER_COMPARE_AT_LEAST.  A negative `length` is converted to a huge `gsize` when
the error message is built (lines 305-308, 244-256) and `append_inspected_bytes` reads that
many bytes.  (The error text itself is not modelled.) -/
def checkAtLeast (length expected : Int) : HRes Unit :=
  if length ≥ expected then .ok () else if length < 0 then .ub else .fail

/-- the same with MILTER_DECODER_COMPARE_EXACT -/
def checkExact (length expected : Int) : HRes Unit :=
  if length = expected then .ok ()
  else if length > expected then .fail
  else if length < 0 then .ub else .fail

/-! ### Lemmas -/

theorem length_be32 (n : Nat) : (be32 n).length = 4 := rfl

theorem rd32_be32 (n : Nat) (h : n < 2^32) :
    rd32 (UInt8.ofNat (n / 2^24)) (UInt8.ofNat (n / 2^16)) (UInt8.ofNat (n / 2^8))
      (UInt8.ofNat n) = n := by
  unfold rd32; simp only [UInt8.toNat_ofNat']
  omega

theorem readBE32_be32 (n : Nat) (h : n < 2^32) (r : Bytes) :
    readBE32 (be32 n ++ r) = .ok n := by
  simp only [be32, List.cons_append, readBE32, rd32_be32 n h]

theorem rd32_lt (a b c d : UInt8) : rd32 a b c d < 2^32 := by
  have := a.toNat_lt; have := b.toNat_lt; have := c.toNat_lt; have := d.toNat_lt
  unfold rd32; omega

theorem be32_rd32 (a b c d : UInt8) : be32 (rd32 a b c d) = [a, b, c, d] := by
  have ha := a.toNat_lt; have hb := b.toNat_lt; have hc := c.toNat_lt; have hd := d.toNat_lt
  unfold rd32; simp only [be32, List.cons.injEq, and_true]
  refine ⟨?_, ?_, ?_, ?_⟩ <;> apply UInt8.toNat.inj <;> simp only [UInt8.toNat_ofNat'] <;> omega

/-- Scanning exactly a region `q` for NUL never leaves it. -/
theorem findNull_append (q x : Bytes) :
    findNull (q ++ x) q.length = HRes.ofOption (q.findIdx? (· == 0)) := by
  induction q with
  | nil => simp [findNull]
  | cons c q ih =>
    simp only [List.cons_append, List.length_cons, findNull, List.findIdx?_cons]
    by_cases hc : c = 0
    · simp [hc]
    · simp only [hc, if_false, ih, beq_iff_eq]
      cases q.findIdx? (· == 0) <;> rfl

theorem findNull_append_le (q x : Bytes) (n : Nat) (h : n ≤ q.length) :
    findNull (q ++ x) n = HRes.ofOption ((q.take n).findIdx? (· == 0)) := by
  have := findNull_append (q.take n) (q.drop n ++ x)
  rw [List.length_take, Nat.min_eq_left h, ← List.append_assoc, List.take_append_drop] at this
  exact this

theorem findNull_cstr (s x : Bytes) (n : Nat) (hs : IsCStr s) (hn : s.length < n) :
    findNull (s ++ 0 :: x) n = .ok s.length := by
  induction s generalizing n with
  | nil => cases n with
    | zero => simp at hn
    | succ n => simp [findNull]
  | cons c s ih =>
    cases n with
    | zero => simp at hn
    | succ n =>
      simp only [IsCStr, List.mem_cons, not_or] at hs
      simp only [List.cons_append, findNull, List.length_cons]
      rw [if_neg (fun h => hs.1 h.symm), ih n hs.2 (by simpa using hn)]
      rfl

theorem takeWhile_cstr (s x : Bytes) (hs : IsCStr s) :
    (s ++ 0 :: x).takeWhile (· != 0) = s := by
  induction s with
  | nil => simp
  | cons c s ih =>
    simp only [IsCStr, List.mem_cons, not_or] at hs
    have hc : c ≠ 0 := fun h => hs.1 h.symm
    simp only [List.cons_append, List.takeWhile_cons]
    simp [hc, ih hs.2]

theorem cstr_append (s x : Bytes) (hs : IsCStr s) : cstr (s ++ 0 :: x) = .ok s := by
  have h0 : (0 : UInt8) ∈ s ++ 0 :: x := by simp
  simp only [cstr, h0, if_true, takeWhile_cstr s x hs]

theorem cstr_local (q x : Bytes) (h : (0 : UInt8) ∈ q) : cstr (q ++ x) = cstr q := by
  have h0 : (0 : UInt8) ∈ q ++ x := by simp [h]
  simp only [cstr, h0, h, if_true]
  congr 1
  induction q with
  | nil => simp at h
  | cons c q ih =>
    simp only [List.cons_append, List.takeWhile_cons]
    by_cases hc : c = 0
    · simp [hc]
    · have : (0 : UInt8) ∈ q := by
        rcases List.mem_cons.1 h with h | h
        · exact absurd h.symm hc
        · exact h
      simp [hc, ih this (by simp [this])]

end Verif
