/-
The language of MAIL FROM / RCPT TO arguments the library accepts, as a grammar.  It is that
of RFC 2821 except that it is more liberal in these places: a domain or a local part may
have empty labels ("a..b", "a."), a label may end in a hyphen, a source route may end in a
comma, the local part after a source route may be empty, and a domain literal may hold any
text.
-/
namespace Verif.Spec.Esmtp

def Alnum (c : UInt8) : Prop :=
  (0x30 ≤ c ∧ c ≤ 0x39) ∨ (0x41 ≤ c ∧ c ≤ 0x5a) ∨ (0x61 ≤ c ∧ c ≤ 0x7a)

/-- atext of RFC 2822 3.2.4 -/
def AtomText (c : UInt8) : Prop :=
  Alnum c ∨ c ∈ "!#$%&'*+-/=?^_`{|}~".toList.map (fun x => x.toNat.toUInt8)

/-- what may follow a backslash: 1-9, 11, 12, 14-126 -/
def Text (c : UInt8) : Prop := (1 ≤ c ∧ c ≤ 9) ∨ c = 11 ∨ c = 12 ∨ (14 ≤ c ∧ c ≤ 126)

/-- a character inside quotes or brackets that needs no backslash: a 7-bit character other
than tab, line feed, form feed, carriage return, space, backslash and the delimiters -/
def Plain (delim : List UInt8) (c : UInt8) : Prop :=
  c < 0x80 ∧ c ∉ [9, 10, 12, 13, 32, 0x5c] ∧ c ∉ delim

/-- the text inside quotes or brackets -/
inductive Inside (delim : List UInt8) : List UInt8 → Prop
  | nil : Inside delim []
  | plain (c s) : Plain delim c → Inside delim s → Inside delim (c :: s)
  | escaped (c s) : Text c → Inside delim s → Inside delim (0x5c :: c :: s)

inductive Domain : List UInt8 → Prop
  | literal (s) : Inside [0x5b, 0x5d] s → Domain ([0x5b] ++ s ++ [0x5d])
  | name (c s) : Alnum c → (∀ x ∈ s, Alnum x ∨ x = 0x2d ∨ x = 0x2e) → Domain (c :: s)

inductive LocalPart : List UInt8 → Prop
  | quoted (s) : Inside [0x22] s → LocalPart ([0x22] ++ s ++ [0x22])
  | dotted (s) : (∀ x ∈ s, AtomText x ∨ x = 0x2e) → LocalPart s

inductive Mailbox : List UInt8 → Prop
  | mk (l d) : LocalPart l → Domain d → Mailbox (l ++ [0x40] ++ d)

/-- "@domain,@domain,...", possibly with a comma at the end -/
inductive Route : List UInt8 → Prop
  | one (d) : Domain d → Route ([0x40] ++ d)
  | comma (d) : Domain d → Route ([0x40] ++ d ++ [0x2c])
  | cons (d r) : Domain d → Route r → Route ([0x40] ++ d ++ [0x2c] ++ r)

/-- the text of a path and the path reported for it -/
inductive Path (postmaster : Bool) : List UInt8 → Option (List UInt8) → Prop
  | null : Path postmaster [0x3c, 0x3e] none
  | postmaster : postmaster = true →
      Path postmaster ("<Postmaster>".toList.map (fun x => x.toNat.toUInt8))
        (some ("<Postmaster>".toList.map (fun x => x.toNat.toUInt8)))
  | plain (m) : Mailbox m → m.head? ≠ some 0x40 →
      Path postmaster ([0x3c] ++ m ++ [0x3e]) (some ([0x3c] ++ m ++ [0x3e]))
  | routed (r m) : Route r → Mailbox m →
      Path postmaster ([0x3c] ++ r ++ [0x3a] ++ m ++ [0x3e])
        (some ([0x3c] ++ r ++ [0x3a] ++ m ++ [0x3e]))

def Keyword (k : List UInt8) : Prop :=
  ∃ c s, k = c :: s ∧ Alnum c ∧ ∀ x ∈ s, Alnum x ∨ x = 0x2d

def Value (v : List UInt8) : Prop := ∀ c ∈ v, 0x21 ≤ c ∧ c ≤ 0x7e ∧ c ≠ 0x3d

/-- the text of a parameter list -/
def paramText : List (List UInt8 × Option (List UInt8)) → List UInt8
  | [] => []
  | (k, none) :: l => [0x20] ++ k ++ paramText l
  | (k, some v) :: l => [0x20] ++ k ++ [0x3d] ++ v ++ paramText l

def Params (l : List (List UInt8 × Option (List UInt8))) : Prop :=
  ∀ p ∈ l, Keyword p.1 ∧ ∀ v, p.2 = some v → Value v

/-- an argument with its path and parameters -/
def Argument (postmaster : Bool) (arg : List UInt8) (path : Option (List UInt8))
    (params : List (List UInt8 × Option (List UInt8))) : Prop :=
  ∃ p, Path postmaster p path ∧ Params params ∧ arg = p ++ paramText params

/-- the argument opens a bracket or a quote whose text runs on to the end of the argument -/
def Unterminated (arg : List UInt8) : Prop :=
  ∃ pre q post, arg = pre ++ q :: post ∧
    ((q = 0x5b ∧ Inside [0x5b, 0x5d] post) ∨ (q = 0x22 ∧ Inside [0x22] post))

end Verif.Spec.Esmtp
