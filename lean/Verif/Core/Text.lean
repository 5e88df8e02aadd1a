import Verif.Core.Bytes
/-
Small text functions of libc and GLib used in several places.
-/
namespace Verif

/-- `g_strsplit (s, sep, -1)` for a one-byte separator and non-empty `s`. -/
def splitOn (sep : UInt8) : Bytes → List Bytes
  | [] => [[]]
  | c :: s =>
    if c = sep then [] :: splitOn sep s
    else match splitOn sep s with
      | [] => [[c]]
      | h :: t => (c :: h) :: t

/-- `g_strsplit`: splitting the empty string gives the empty vector (GLib documents
this as a special case). -/
def strsplit (sep : UInt8) (s : Bytes) : List Bytes :=
  if s = [] then [] else splitOn sep s

/-- Pieces joined with a separator string. -/
def joinWith (sep : Bytes) : List Bytes → Bytes
  | [] => []
  | [a] => a
  | a :: b :: l => a ++ sep ++ joinWith sep (b :: l)

/-- Decimal digits of a number, as `%u` prints them. -/
def decimal (n : Nat) : Bytes :=
  if n < 10 then [UInt8.ofNat (48 + n)] else decimal (n / 10) ++ [UInt8.ofNat (48 + n % 10)]
termination_by n
decreasing_by omega

/-- `%3u`: padded with blanks on the left to three columns. -/
def decimal3 (n : Nat) : Bytes :=
  List.replicate (3 - (decimal n).length) 0x20 ++ decimal n

/-- `g_ascii_isdigit` -/
def isDigit (c : UInt8) : Bool := 0x30 ≤ c && c ≤ 0x39

theorem splitOn_ne_nil (sep : UInt8) (s : Bytes) : splitOn sep s ≠ [] := by
  cases s with
  | nil => simp [splitOn]
  | cons c s =>
    rw [splitOn]
    split
    · simp
    · split <;> simp

theorem splitOn_noSep (sep : UInt8) (a : Bytes) (h : sep ∉ a) : splitOn sep a = [a] := by
  induction a with
  | nil => rfl
  | cons c a ih =>
    simp only [List.mem_cons, not_or] at h
    rw [splitOn, if_neg (fun e => h.1 e.symm), ih h.2]

theorem splitOn_append (sep : UInt8) (a s : Bytes) (h : sep ∉ a) :
    splitOn sep (a ++ sep :: s) = a :: splitOn sep s := by
  induction a with
  | nil => simp [splitOn]
  | cons c a ih =>
    simp only [List.mem_cons, not_or] at h
    rw [List.cons_append, splitOn, if_neg (fun e => h.1 e.symm), ih h.2]

theorem splitOn_join (sep : UInt8) (l : List Bytes) (hl : l ≠ []) (h : ∀ a ∈ l, sep ∉ a) :
    splitOn sep (joinWith [sep] l) = l := by
  match l with
  | [] => exact absurd rfl hl
  | [a] => exact splitOn_noSep sep a (h a (by simp))
  | a :: b :: l =>
    rw [joinWith, List.append_assoc, List.singleton_append, splitOn_append sep a _ (h a (by simp)),
      splitOn_join sep (b :: l) (by simp) (fun c hc => h c (by simp [List.mem_cons.1 hc]))]

theorem strsplit_join (sep : UInt8) (l : List Bytes) (h0 : joinWith [sep] l ≠ [])
    (h : ∀ a ∈ l, sep ∉ a) : strsplit sep (joinWith [sep] l) = l := by
  have hl : l ≠ [] := by rintro rfl; exact h0 rfl
  rw [strsplit, if_neg h0, splitOn_join sep l hl h]

theorem mem_joinWith (sep : Bytes) (l : List Bytes) (c : UInt8) (h : c ∈ joinWith sep l) :
    c ∈ sep ∨ ∃ a ∈ l, c ∈ a := by
  match l with
  | [] => simp [joinWith] at h
  | [a] => right; exact ⟨a, by simp, h⟩
  | a :: b :: l =>
    rw [joinWith, List.mem_append, List.mem_append] at h
    rcases h with (h | h) | h
    · right; exact ⟨a, by simp, h⟩
    · left; exact h
    · rcases mem_joinWith sep (b :: l) c h with h | ⟨d, hd, hc⟩
      · left; exact h
      · right; exact ⟨d, List.mem_cons_of_mem _ hd, hc⟩

theorem decimal_three (n : Nat) (h1 : 100 ≤ n) (h2 : n < 1000) :
    decimal n = [UInt8.ofNat (48 + n / 100), UInt8.ofNat (48 + n / 10 % 10), UInt8.ofNat (48 + n % 10)] := by
  rw [decimal, if_neg (by omega), decimal, if_neg (by omega), decimal, if_pos (by omega)]
  simp only [List.cons_append, List.nil_append]
  rw [show n / 10 / 10 = n / 100 by omega]

theorem decimal3_three (n : Nat) (h1 : 100 ≤ n) (h2 : n < 1000) : decimal3 n = decimal n := by
  unfold decimal3
  rw [decimal_three n h1 h2]; rfl

theorem decimal_digits (n : Nat) : ∀ c ∈ decimal n, isDigit c = true := by
  fun_induction decimal n with
  | case1 n h =>
    intro c hc
    simp only [List.mem_singleton] at hc
    subst hc
    have : ∀ n < 10, isDigit (UInt8.ofNat (48 + n)) = true := by decide
    exact this n h
  | case2 n h ih =>
    intro c hc
    rw [List.mem_append, List.mem_singleton] at hc
    rcases hc with hc | hc
    · exact ih c hc
    · subst hc
      have : ∀ n < 10, isDigit (UInt8.ofNat (48 + n)) = true := by decide
      exact this _ (by omega)

end Verif
