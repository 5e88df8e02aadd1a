import Mathlib.Data.List.Basic
import Mathlib.Data.List.TakeWhile
import Verif.Tool.PerformanceEnvelope
/-!
C161: milter-performance-check sends a mail with the envelope that its headers and the options say.
-/
namespace Verif.Props.PerformanceEnvelope

open Verif Verif.Tool.PerformanceEnvelope
open Verif.Testing (space)

/-- An address as it stands in a header. -/
inductive Mailbox
  /-- the address -/
  | bare (a : Bytes)
  /-- the address in angle brackets, after a name -/
  | named (display a : Bytes)
deriving DecidableEq

def Mailbox.text : Mailbox → Bytes
  | .bare a => a
  | .named d a => d ++ 0x3c :: a ++ [0x3e]

def Mailbox.addr : Mailbox → Bytes
  | .bare a => a
  | .named _ a => a

/-- An address: no white space, commas, brackets, NULs. -/
def Plain (a : Bytes) : Prop :=
  a ≠ [] ∧ ∀ b ∈ a, space b = false ∧ b ≠ 0 ∧ b ≠ 0x2c ∧ b ≠ 0x3c ∧ b ≠ 0x3e ∧ b ≠ 0x28

/-- Names have no angle brackets. -/
def Mailbox.Proper : Mailbox → Prop
  | .bare a => Plain a
  | .named d a => Plain a ∧ 0x3c ∉ d

/-- A list of addresses in a header. -/
def listed : List Bytes → Bytes
  | [] => []
  | [a] => a
  | a :: b :: as => a ++ [0x2c, 0x20] ++ listed (b :: as)

/-- The mail has this header with this value, or none, and not twice. -/
def Has (hs : Headers) (name : Bytes) (v : Option Bytes) : Prop := ∀ x, (name, x) ∈ hs ↔ v = some x

theorem header_has {hs : Headers} {name : Bytes} {v : Option Bytes} (h : Has hs name v) : header hs name = v := by
  unfold header
  cases e : hs.reverse.lookup name with
  | none =>
    cases v with
    | none => rfl
    | some x =>
      have hx := (h x).2 rfl
      rw [List.lookup_eq_none_iff] at e
      have := e (name, x) (List.mem_reverse.2 hx)
      simp at this
  | some y =>
    have : (name, y) ∈ hs.reverse := by
      rw [List.lookup_eq_some_iff] at e
      obtain ⟨l1, l2, e, _⟩ := e
      rw [e]; simp
    exact ((h y).1 (List.mem_reverse.1 this)).symm

theorem dropWhile_none {p : UInt8 → Bool} (a : Bytes) (h : ∀ b ∈ a, p b = false) : a.dropWhile p = a := by
  cases a with
  | nil => rfl
  | cons b l => rw [List.dropWhile_cons, h b List.mem_cons_self]; rfl

theorem rdropWhile_none {p : UInt8 → Bool} (a : Bytes) (h : ∀ b ∈ a, p b = false) :
    (a.reverse.dropWhile p).reverse = a := by
  rw [dropWhile_none _ (fun b hb => h b (List.mem_reverse.1 hb)), List.reverse_reverse]

theorem angle_skip (b : UInt8) (bs : Bytes) (h : b ≠ 0x3c) : angle (b :: bs) = angle bs := by
  cases bs <;> simp [angle, h]

theorem angle_none (a : Bytes) (h : 0x3c ∉ a) : angle a = none := by
  induction a with
  | nil => rfl
  | cons b l ih =>
    rw [angle_skip b l (fun e => h (e ▸ List.mem_cons_self))]
    exact ih (fun e => h (List.mem_cons_of_mem _ e))

theorem angle_named (d a : Bytes) (hd : 0x3c ∉ d) (ha : a ≠ []) (h : 0x3e ∉ a) :
    angle (d ++ 0x3c :: a ++ [0x3e]) = some a := by
  induction d with
  | nil =>
    cases a with
    | nil => exact absurd rfl ha
    | cons c cs =>
      show (if (0x3c : UInt8) = 0x3c then (if 0x3e ∈ cs ++ [0x3e] then
        some (c :: (cs ++ [0x3e]).takeWhile (· ≠ 0x3e)) else _) else _) = _
      rw [if_pos rfl, if_pos (by simp)]
      have hc : ∀ l : Bytes, 0x3e ∉ l → (l ++ [0x3e]).takeWhile (· ≠ 0x3e) = l := by
        intro l hl
        induction l with
        | nil => rfl
        | cons x l ih =>
          have hx : x ≠ 0x3e := fun e => hl (e ▸ List.mem_cons_self)
          simp only [List.cons_append, List.takeWhile_cons, decide_eq_true hx, if_true]
          rw [ih (fun e => hl (List.mem_cons_of_mem _ e))]
      rw [hc cs (fun e => h (List.mem_cons_of_mem _ e))]
  | cons x d ih =>
    rw [List.cons_append, List.cons_append, angle_skip _ _ (fun e => hd (e ▸ List.mem_cons_self))]
    exact ih (fun e => hd (List.mem_cons_of_mem _ e))

theorem uncomment_none (a : Bytes) (h : 0x28 ∉ a) : uncomment false a = a := by
  induction a with
  | nil => rfl
  | cons b l ih =>
    have hb : ¬ (b = 0x28 ∧ 0x29 ∈ l) := fun e => h (e.1 ▸ List.mem_cons_self)
    rw [uncomment, if_neg hb, ih (fun e => h (List.mem_cons_of_mem _ e))]

/-- The address of a header is read. -/
theorem address_text (m : Mailbox) (h : m.Proper) : address m.text = m.addr := by
  cases m with
  | bare a =>
    have h := h.2
    unfold address
    show (match angle a with | some a => a | none => strip (uncomment false a)) = a
    rw [angle_none a (fun e => (h _ e).2.2.2.1 rfl)]
    show strip (uncomment false a) = a
    rw [uncomment_none a (fun e => (h _ e).2.2.2.2.2 rfl)]
    unfold strip
    rw [rdropWhile_none a (fun b hb => by
      have := h b hb
      simp [this.1, this.2.1])]
    exact dropWhile_none a (fun b hb => (h b hb).1)
  | named d a =>
    unfold address
    show (match angle (d ++ 0x3c :: a ++ [0x3e]) with | some a => a | none => _) = a
    rw [angle_named d a h.2 h.1.1 (fun e => (h.1.2 _ e).2.2.2.2.1 rfl)]

theorem pieces_none (a : Bytes) (h : 0x2c ∉ a) : pieces a = [a] := by
  induction a with
  | nil => rfl
  | cons b l ih =>
    have hb : b ≠ 0x2c := fun e => h (e ▸ List.mem_cons_self)
    rw [pieces, if_neg hb, ih (fun e => h (List.mem_cons_of_mem _ e))]

theorem pieces_comma (a rest : Bytes) (h : 0x2c ∉ a) : pieces (a ++ 0x2c :: rest) = a :: pieces rest := by
  induction a with
  | nil => show (if (0x2c : UInt8) = 0x2c then _ else _) = _; rw [if_pos rfl]
  | cons b l ih =>
    have hb : b ≠ 0x2c := fun e => h (e ▸ List.mem_cons_self)
    rw [List.cons_append, pieces, if_neg hb,
      ih (fun e => h (List.mem_cons_of_mem _ e))]

theorem pieces_space (s : Bytes) (p : Bytes) (ps : List Bytes) (h : pieces s = p :: ps) :
    pieces (0x20 :: s) = (0x20 :: p) :: ps := by
  rw [pieces, if_neg (by decide), h]

theorem Plain.comma {a : Bytes} (h : Plain a) : 0x2c ∉ a := fun e => (h.2 _ e).2.2.1 rfl

theorem pieces_listed (a : Bytes) (as : List Bytes) (h : ∀ x ∈ a :: as, Plain x) :
    pieces (listed (a :: as)) = a :: as.map (0x20 :: ·) := by
  induction as generalizing a with
  | nil => exact pieces_none a (h a List.mem_cons_self).comma
  | cons b bs ih =>
    show pieces (a ++ [0x2c, 0x20] ++ listed (b :: bs)) = _
    rw [List.append_assoc]
    show pieces (a ++ 0x2c :: (0x20 :: listed (b :: bs))) = _
    rw [pieces_comma a _ (h a List.mem_cons_self).comma]
    rw [pieces_space _ _ _ (ih b (fun x hx => h x (List.mem_cons_of_mem _ hx)))]
    rfl

theorem trimmed_rest (as : List Bytes) (h : ∀ x ∈ as, Plain x) : trimmed false (as.map (0x20 :: ·)) = as := by
  induction as with
  | nil => rfl
  | cons a as ih =>
    have ha := (h a List.mem_cons_self).2
    have hd : (0x20 :: a).dropWhile space = a := by
      rw [List.dropWhile_cons, if_pos (by decide)]
      exact dropWhile_none a (fun b hb => (ha b hb).1)
    show (if as.map (0x20 :: ·) = [] then (0x20 :: a).dropWhile space
      else (((0x20 :: a).dropWhile space).reverse.dropWhile space).reverse) :: trimmed false (as.map (0x20 :: ·)) = _
    rw [hd, ih (fun x hx => h x (List.mem_cons_of_mem _ hx)), rdropWhile_none a (fun b hb => (ha b hb).1), ite_self]

theorem recipients_listed (rs : List Bytes) (hne : rs ≠ []) (h : ∀ x ∈ rs, Plain x) :
    recipientsOf (some (listed rs)) = rs := by
  cases rs with
  | nil => exact absurd rfl hne
  | cons a as =>
    have ha := (h a List.mem_cons_self).2
    unfold recipientsOf
    have ht : trimmed true (pieces (listed (a :: as))) = a :: as := by
      rw [pieces_listed a as h]
      show (if as.map (0x20 :: ·) = [] then a else (a.reverse.dropWhile space).reverse) ::
        trimmed false (as.map (0x20 :: ·)) = _
      rw [trimmed_rest as (fun x hx => h x (List.mem_cons_of_mem _ hx)), rdropWhile_none a (fun b hb => (ha b hb).1),
        ite_self]
    dsimp only
    rw [ht]
    cases e : (a :: as).reverse with
    | nil => simp at e
    | cons x l =>
      have hx : x ∈ a :: as := by rw [← List.mem_reverse, e]; exact List.mem_cons_self
      rw [List.dropWhile_cons, decide_eq_false (h x hx).1]
      show (x :: l).reverse = _
      rw [← e, List.reverse_reverse]

/-- Recipients in a header: none of it, or some addresses. -/
def value (rs : List Bytes) : Option Bytes := if rs = [] then none else some (listed rs)

theorem recipients_value (rs : List Bytes) (h : ∀ x ∈ rs, Plain x) : recipientsOf (value rs) = rs := by
  unfold value
  by_cases e : rs = []
  · rw [if_pos e, e]; rfl
  · rw [if_neg e]; exact recipients_listed rs e h

/-- C161.  A mail whose header From has a mailbox or is missing, and whose headers To and Cc list addresses `tos` and
`ccs` (without names): it is sent from the forced sender, or else from the address in From, or else from the next of the
senders given; and to the forced recipients, or else to those in To and Cc, or else to those given.  The senders given
are used in turn, from the first on, by the mails without From.  Missing: recipients with names (below), the greeting, the
splitting into headers. -/
theorem C161_partial (o : Options) :
    (∀ (i : Nat) (hs : Headers) (sender : Option Mailbox) (tos ccs : List Bytes),
      Has hs fromName (sender.map Mailbox.text) → (∀ m ∈ sender, m.Proper) →
      Has hs toName (value tos) → Has hs ccName (value ccs) → (∀ x ∈ tos ++ ccs, Plain x) →
      (prepare o i hs).1 = o.forceFrom.getD (match sender with | some m => m.addr | none => (nextFrom o i).1) ∧
      (prepare o i hs).2.1 = o.forceRecipients.getD (if tos ++ ccs = [] then o.recipients else tos ++ ccs) ∧
      (prepare o i hs).2.2 = (match sender with | some _ => i | none => (nextFrom o i).2)) ∧
    (o.forceFrom = none → ∀ mails : List Headers, (∀ hs ∈ mails, Has hs fromName none) → ∀ (k : Nat) (hk : k < mails.length),
      ((envelopes o 0 mails)[k]?).map (·.1)
        = if h : o.froms = [] then some o.defaultFrom else o.froms[k % o.froms.length]?) := by
  constructor
  · intro i hs sender tos ccs hf hm ht hc hp
    have e1 : parse hs = (sender.map Mailbox.addr, if tos ++ ccs = [] then none else some (tos ++ ccs)) := by
      unfold parse
      rw [header_has hf, header_has ht, header_has hc,
        recipients_value tos (fun x hx => hp x (List.mem_append_left _ hx)),
        recipients_value ccs (fun x hx => hp x (List.mem_append_right _ hx))]
      cases sender with
      | none => rfl
      | some m =>
        show (some (address m.text), _) = (some m.addr, _)
        rw [address_text m (hm m rfl)]
    have e2 : (if tos ++ ccs = [] then none else some (tos ++ ccs) : Option (List Bytes)).getD o.recipients
        = if tos ++ ccs = [] then o.recipients else tos ++ ccs := by
      by_cases e : tos ++ ccs = []
      · rw [if_pos e, if_pos e]; rfl
      · rw [if_neg e, if_neg e]; rfl
    unfold prepare
    rw [e1]
    cases sender with
    | none => exact ⟨rfl, congrArg o.forceRecipients.getD e2, rfl⟩
    | some m => exact ⟨rfl, congrArg o.forceRecipients.getD e2, rfl⟩
  · intro h0 mails hm k hk
    have one : ∀ i hs, Has hs fromName none → (prepare o i hs).1 = (nextFrom o i).1 ∧
        (prepare o i hs).2.2 = (nextFrom o i).2 := by
      intro i hs h
      unfold prepare parse
      rw [header_has h, h0]
      exact ⟨rfl, rfl⟩
    have key : ∀ (mails : List Headers) (i k : Nat), (∀ hs ∈ mails, Has hs fromName none) → k < mails.length →
        (o.froms ≠ [] → i < o.froms.length) →
        ((envelopes o i mails)[k]?).map (·.1)
          = if h : o.froms = [] then some o.defaultFrom else o.froms[(i + k) % o.froms.length]? := by
      intro mails
      induction mails with
      | nil => intro i k _ hk; exact absurd hk (Nat.not_lt_zero _)
      | cons hs rest ih =>
        intro i k hm hk hi
        obtain ⟨p1, p2⟩ := one i hs (hm hs List.mem_cons_self)
        by_cases e : o.froms = []
        · have hn : nextFrom o i = (o.defaultFrom, i) := by unfold nextFrom; rw [if_pos e]
          rw [dif_pos e]
          cases k with
          | zero =>
            show some (prepare o i hs).1 = _
            rw [p1, hn]
          | succ k =>
            show ((envelopes o (prepare o i hs).2.2 rest)[k]?).map (·.1) = _
            rw [p2, hn, ih i k (fun x hx => hm x (List.mem_cons_of_mem _ hx)) (by simpa using hk)
              (fun h => absurd e h), dif_pos e]
        · have hn : nextFrom o i = ((o.froms[i]?).getD [], (i + 1) % o.froms.length) := by
            unfold nextFrom; rw [if_neg e]
          have hi := hi e
          rw [dif_neg e]
          cases k with
          | zero =>
            show some (prepare o i hs).1 = _
            have hz : (i + 0) % o.froms.length = i := Nat.mod_eq_of_lt hi
            rw [p1, hn, hz]
            show some ((o.froms[i]?).getD []) = _
            rw [List.getElem?_eq_getElem hi]
            rfl
          | succ k =>
            show ((envelopes o (prepare o i hs).2.2 rest)[k]?).map (·.1) = _
            rw [p2, hn, ih _ k (fun x hx => hm x (List.mem_cons_of_mem _ hx)) (by simpa using hk)
              (fun _ => Nat.mod_lt _ (by omega)), dif_neg e]
            show o.froms[((i + 1) % o.froms.length + k) % o.froms.length]? = _
            rw [Nat.mod_add_mod]
            congr 2
            omega
    have := key mails 0 k hm hk (fun h => List.length_pos_iff.2 h)
    rw [Nat.zero_add] at this
    exact this

/-- C161 is violated: a recipient with a name is used with its name, not its address. -/
theorem C161_name_violated :
    let hs : Headers := [(fromName, [0x78, 0x20, 0x3c, 0x79, 0x3e]), (toName, [0x41, 0x20, 0x3c, 0x61, 0x3e])]
    let o : Options := ⟨[0x64], [], [[0x72]], none, none⟩
    Mailbox.text (.named [0x41, 0x20] [0x61]) = [0x41, 0x20, 0x3c, 0x61, 0x3e] ∧
    prepare o 0 hs = ([0x79], [[0x41, 0x20, 0x3c, 0x61, 0x3e]], 0) := by
  exact ⟨by decide, by decide +kernel⟩

/-- A mail with a sender with a name and three recipients; one without headers; and senders in turn. -/
example :
    let o : Options := ⟨[0x64], [[0x65], [0x66]], [[0x72]], none, none⟩
    let hs : Headers := [(fromName, Mailbox.text (.named [0x78, 0x20] [0x79])), (toName, listed [[0x61], [0x62]]),
      (ccName, listed [[0x63]])]
    Mailbox.Proper (.named [0x78, 0x20] [0x79]) ∧
    envelopes o 0 [[], hs, [], []] = [([0x65], [[0x72]]), ([0x79], [[0x61], [0x62], [0x63]]), ([0x66], [[0x72]]),
      ([0x65], [[0x72]])] := by
  refine ⟨⟨⟨by decide, by decide⟩, by decide⟩, by decide +kernel⟩

end Verif.Props.PerformanceEnvelope
