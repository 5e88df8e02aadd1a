import Verif.Spec.Shipped
import Verif.Props.Conditions
import Verif.Props.Connection
/-
C111-C114: conditions that come with milter-manager.
-/
namespace Verif.Props.Shipped
open Verif Verif.Conditions Verif.Macros Verif.Spec Verif.Spec.Shipped

/-! ## Text -/

theorem lower_small (c : UInt8) : ¬ (0x41 ≤ Headers.lower c ∧ Headers.lower c ≤ 0x5a) := by
  unfold Headers.lower
  split
  · rename_i h
    rw [UInt8.le_iff_toNat_le, UInt8.le_iff_toNat_le] at *
    rw [UInt8.toNat_add]
    simp at *
    omega
  · assumption

theorem lower_of_small {c : UInt8} (h : ¬ (0x41 ≤ c ∧ c ≤ 0x5a)) : Headers.lower c = c := if_neg h

theorem sameLetter_iff (a b : UInt8) : SameLetter a b ↔ Headers.lower a = Headers.lower b := by
  have h32 : (0x20 : UInt8).toNat = 32 := rfl
  have ha := a.toNat_lt
  have hb := b.toNat_lt
  unfold SameLetter Headers.lower
  simp only [UInt8.le_iff_toNat_le, ← UInt8.toNat_inj]
  have e1 : (0x41 : UInt8).toNat = 65 := rfl
  have e2 : (0x5a : UInt8).toNat = 90 := rfl
  split <;> split <;> simp only [UInt8.toNat_add, h32, e1, e2] at * <;> omega

theorem sameText_iff (a b : Bytes) : SameText a b ↔ downcase a = downcase b := by
  constructor
  · intro h
    induction h with
    | nil => rfl
    | cons h _ ih =>
      unfold downcase at ih ⊢
      rw [List.map_cons, List.map_cons, (sameLetter_iff _ _).1 h, ih]
  · intro h
    induction a generalizing b with
    | nil =>
      cases b with
      | nil => exact .nil
      | cons => cases h
    | cons x a ih =>
      cases b with
      | nil => cases h
      | cons y b =>
        simp only [downcase, List.map_cons, List.cons.injEq] at h
        exact .cons ((sameLetter_iff _ _).2 h.1) (ih b h.2)

theorem downcase_small (s : Bytes) : Small (downcase s) := by
  intro c hc
  obtain ⟨x, _, rfl⟩ := List.mem_map.mp hc
  exact lower_small x

theorem downcase_of_small {s : Bytes} (h : Small s) : downcase s = s := by
  unfold downcase
  rw [List.map_congr_left (f := Headers.lower) (g := fun c => c) (fun c hc => lower_of_small (h c hc))]
  simp

/-! ## C111: Trust -/

theorem afterAt_first (user domain : Bytes) (hu : user ≠ []) (h : 0x40 ∉ user.tail) : afterAt (user ++ 0x40 :: domain) = some domain := by
  induction user with
  | nil => exact absurd rfl hu
  | cons c user ih =>
    cases user with
    | nil => rfl
    | cons d user =>
      have hd : d ≠ 0x40 := fun e => h (by simp [e])
      show afterAt (c :: d :: (user ++ 0x40 :: domain)) = _
      rw [afterAt]
      · exact ih (fun e => nomatch e) (fun e => h (List.mem_cons_of_mem _ e))
      · exact hd

theorem senderDomain_cons (rest : Bytes) (hl : rest.getLast? = some 0x3e) (hn : (0x0a : UInt8) ∉ rest) {d : Bytes} (hd : d ≠ [])
    (h : afterAt rest.dropLast = some d) : senderDomain (0x3c :: rest) = some d := by
  show (if rest.getLast? = some 0x3e ∧ (0x0a : UInt8) ∉ rest then
      match afterAt rest.dropLast with
      | some d => if d = [] then none else some d
      | none => none
    else none) = _
  rw [if_pos ⟨hl, hn⟩, h]
  exact if_neg hd

theorem senderDomain_of {sender user domain : Bytes} (h : Mailbox sender user domain) (hu : 0x40 ∉ user.tail) :
    senderDomain sender = some domain := by
  rw [h.form]
  have e : [0x3c] ++ user ++ [0x40] ++ domain ++ [0x3e] = 0x3c :: (user ++ 0x40 :: domain ++ [0x3e]) := by simp
  rw [e]
  refine senderDomain_cons _ (by rw [List.getLast?_append]; rfl) (by simp [h.line.1, h.line.2]) h.hasDomain ?_
  rw [List.dropLast_concat]
  exact afterAt_first user domain h.hasUser hu

/-- the entries that are strings are written without capitals, as those from a file are -/
def Normal (domains : List Matcher) : Prop := ∀ d, Matcher.literal d ∈ domains → Small d

/-- **C111**: a sender `<user@domain>` whose user has no "@" is trusted if and only if the domain is, in whatever case it is written.  Missing: users with an "@" in quotes
(`C111_quoted_violated`), and domains configured with capitals (`C111_capital_violated`). -/
theorem C111_trusted_partial (domains : List Matcher) (hd : Normal domains) (sender user domain : Bytes) (h : Mailbox sender user domain)
    (hu : 0x40 ∉ user) : trustedSender domains sender = true ↔ Trusted domains domain := by
  unfold trustedSender
  rw [senderDomain_of h (fun e => hu (List.mem_of_mem_tail e))]
  show (domains.any fun m => m.accepts (downcase domain)) = true ↔ _
  rw [List.any_eq_true]
  constructor
  · rintro ⟨m, hm, hacc⟩
    cases m with
    | literal d =>
      refine .inl ⟨d, hm, (sameText_iff _ _).2 ?_⟩
      have : d = downcase domain := of_decide_eq_true hacc
      rw [downcase_of_small (hd d hm)]
      exact this
    | test f => exact .inr ⟨f, downcase domain, hm, (sameText_iff _ _).2 (downcase_of_small (downcase_small _)), downcase_small _, hacc⟩
  · rintro (⟨d, hm, hs⟩ | ⟨f, s, hm, hs, hsm, hf⟩)
    · refine ⟨_, hm, ?_⟩
      rw [sameText_iff, downcase_of_small (hd d hm)] at hs
      exact decide_eq_true hs
    · refine ⟨_, hm, ?_⟩
      rw [sameText_iff, downcase_of_small hsm] at hs
      show f (downcase domain) = true
      rw [← hs]
      exact hf

theorem tell_trust (domains : List Matcher) (macros : Option Table) (sender : Bytes) (a : Agent) :
    tell [trustCondition domains] ⟨macros, .envelopeFrom sender, false⟩ a =
      (false, sent (.envelopeFrom sender) (if trustedSender domains sender then
        write (enter (.envelopeFrom sender) (defineMacro macros (.envelopeFrom sender) a)) trustedDomain (ascii "yes")
        else enter (.envelopeFrom sender) (defineMacro macros (.envelopeFrom sender) a))) := by
  unfold tell
  simp only [stop, trustCondition, Condition.blocks, List.map_cons, List.map_nil, any]
  rfl

theorem trusted_name : normalizeName trustedDomain = trustedDomain := Conditions.normalizeName_plain _ (by decide)

/-- **C111** (what the milter is told): the milter is never stopped; it is given the macros the MTA gave for MAIL, and `trusted_domain` is "yes" among them if and only if the sender is
trusted, whatever happened before.  Missing: an MTA that gives no macros for MAIL (`C111_stale_violated`). -/
theorem C111_told_partial (domains : List Matcher) (macros : Table) (hm : macros trustedDomain = none) (sender : Bytes) (a : Agent) :
    let r := tell [trustCondition domains] ⟨some macros, .envelopeFrom sender, false⟩ a
    r.1 = false ∧ ∃ t, r.2.macros 0x4d = some t ∧ (∀ n, n ≠ trustedDomain → t n = macros n) ∧
      t trustedDomain = if trustedSender domains sender then some (ascii "yes") else none := by
  intro r
  have hr : r = _ := tell_trust domains (some macros) sender a
  rw [hr]
  refine ⟨rfl, ?_⟩
  have hmerge : ∀ n, (Table.empty.merge macros) n = macros n := by
    intro n
    unfold Table.merge
    cases macros n <;> rfl
  cases trustedSender domains sender with
  | false =>
    refine ⟨Table.empty.merge macros, rfl, fun n _ => hmerge n, ?_⟩
    rw [hmerge]
    exact hm
  | true =>
    refine ⟨(Table.empty.merge macros).update trustedDomain (some (ascii "yes")), ?_, ?_, ?_⟩
    · rw [← trusted_name]
      rfl
    · intro n hn
      unfold Table.update
      rw [if_neg hn]
      exact hmerge n
    · exact if_pos rfl

/-- mail from gmail.com, in whatever case, is trusted -/
example : trustedSender [.literal (ascii "gmail.com")] (ascii "<kou@GMail.com>") = true ∧ trustedSender [.literal (ascii "gmail.com")] (ascii "<kou@gmail.com.example>") = false ∧
    trustedSender [.literal (ascii "gmail.com")] (ascii "<>") = false ∧ trustedSender [.literal (ascii "gmail.com")] (ascii "<@gmail.com>") = false := by decide +kernel
example : Mailbox (ascii "<kou@GMail.com>") (ascii "kou") (ascii "GMail.com") ∧ Normal [.literal (ascii "gmail.com")] ∧ 0x40 ∉ ascii "kou" ∧
    Trusted [.literal (ascii "gmail.com")] (ascii "GMail.com") := by
  refine ⟨⟨by decide, by decide, by decide, by decide, by decide⟩, ?_, by decide, .inl ⟨_, List.mem_singleton.mpr rfl, (sameText_iff _ _).2 (by decide)⟩⟩
  intro d hd
  injection List.mem_singleton.mp hd with e
  rw [e]
  unfold Small
  decide

/-- **C111**, where the code departs from it: an MTA that gives no macros for MAIL.  The macro of an earlier message of the session stays: the next sender, trusted or not, is passed on as
trusted. -/
theorem C111_stale_violated :
    let cs := [trustCondition [.literal (ascii "gmail.com")]]
    let first : Told := ⟨none, .envelopeFrom (ascii "<kou@gmail.com>"), false⟩
    let second : Told := ⟨none, .envelopeFrom (ascii "<spam@example.com>"), false⟩
    let a := (tellAll cs [first, ⟨none, .envelopeRecipient (ascii "<a@b>"), false⟩, ⟨none, .data, false⟩, ⟨none, .endOfHeader, false⟩,
      ⟨none, .endOfMessage, false⟩, second] Agent.init).2
    trustedSender [.literal (ascii "gmail.com")] (ascii "<spam@example.com>") = false ∧
      ((a.macros 0x4d).bind fun t => t trustedDomain) = some (ascii "yes") := by
  decide +kernel

/-- **C111**, where the code departs from it: a user with an "@" in quotes.  What follows the first "@" is taken for the domain, so that the sender is not trusted. -/
theorem C111_quoted_violated :
    ∃ domains sender user domain, Normal domains ∧ Mailbox sender user domain ∧ Trusted domains domain ∧ trustedSender domains sender = false := by
  refine ⟨[.literal (ascii "gmail.com")], ascii "<\"a@b\"@gmail.com>", ascii "\"a@b\"", ascii "gmail.com", ?_, ⟨by decide, by decide, by decide, by decide, by decide⟩,
    .inl ⟨_, List.mem_singleton.mpr rfl, (sameText_iff _ _).2 rfl⟩, by decide +kernel⟩
  intro d hd
  injection List.mem_singleton.mp hd with e
  rw [e]
  unfold Small
  decide

/-- **C111**, where the code departs from it: a domain added with a capital letter matches no sender, not even one written in the same way -/
theorem C111_capital_violated (d : Bytes) (hd : ¬ Small d) (sender : Bytes) : trustedSender [.literal d] sender = false := by
  unfold trustedSender
  cases senderDomain sender with
  | none => rfl
  | some x =>
    have : d ≠ downcase x := fun e => hd (by rw [e]; exact downcase_small x)
    simp [Matcher.accepts, this]

example : ¬ Small (ascii "Example.com") := by unfold Small; decide

theorem lstrip_blanks (b s : Bytes) (hb : Blanks b) : lstrip (b ++ s) = lstrip s := by
  induction b with
  | nil => rfl
  | cons c b ih =>
    have hc : isBlank c = true := by
      have := hb c List.mem_cons_self
      unfold isBlank
      simpa using this
    show lstrip (c :: (b ++ s)) = _
    unfold lstrip
    rw [List.dropWhile_cons, if_pos hc]
    exact ih fun x hx => hb x (List.mem_cons_of_mem _ hx)

theorem blank_iff (c : UInt8) : isBlank c = true ↔ (c = 0x20 ∨ 0x09 ≤ c ∧ c ≤ 0x0d) := by
  unfold isBlank
  simp

theorem lstrip_solid (c : UInt8) (s : Bytes) (hc : ¬ (c = 0x20 ∨ 0x09 ≤ c ∧ c ≤ 0x0d)) : lstrip (c :: s) = c :: s := by
  unfold lstrip
  rw [List.dropWhile_cons, if_neg]
  rwa [blank_iff]

theorem strip_of (b s b' : Bytes) (hb : Blanks b) (hb' : Blanks b') (h : Solid s) : strip (b ++ s ++ b') = s := by
  obtain ⟨hne, hs⟩ := h
  unfold strip
  rw [List.append_assoc, lstrip_blanks b _ hb]
  cases s with
  | nil => exact absurd rfl hne
  | cons c s =>
    rw [List.cons_append, lstrip_solid c _ (hs c List.mem_cons_self), ← List.cons_append, List.reverse_append,
      lstrip_blanks b'.reverse _ (fun x hx => hb' x (List.mem_reverse.mp hx))]
    rcases List.eq_nil_or_concat (c :: s) with h | ⟨l, x, h⟩
    · cases h
    · rw [h]
      have hx : x ∈ c :: s := by rw [h]; simp
      simp only [List.concat_eq_append, List.reverse_append, List.reverse_cons, List.reverse_nil, List.nil_append, List.singleton_append]
      rw [lstrip_solid x _ (hs x hx)]
      simp

/-- **C111** (the list of a file): a line with a domain, blanks before and after it being of no account, makes that domain trusted in whatever case, and no other -/
theorem C111_file (regexp : Bytes → Bytes → Bool) (b d b' : Bytes) (hb : Blanks b) (hb' : Blanks b') (hd : Solid d)
    (hc : d.head? ≠ some 0x23) (hr : d.head? ≠ some 0x2f) :
    ∃ m, trustLine regexp (b ++ d ++ b') = some m ∧ Normal [m] ∧ ∀ domain, Trusted [m] domain ↔ SameText d domain := by
  refine ⟨.literal (downcase d), ?_, ?_, ?_⟩
  · unfold trustLine
    rw [strip_of b d b' hb hb' hd]
    cases d with
    | nil => exact absurd rfl hd.1
    | cons c s =>
      have h1 : c ≠ 0x23 := fun e => hc (by rw [e]; rfl)
      have h2 : c ≠ 0x2f := fun e => hr (by rw [e]; rfl)
      dsimp only
      split
      · rename_i h; cases h
      · rename_i h; cases h; exact absurd rfl h1
      · rename_i h; cases h; exact absurd rfl h2
      · rfl
  · intro x hx
    injection List.mem_singleton.mp hx with e
    rw [e]
    exact downcase_small d
  · intro domain
    constructor
    · rintro (⟨x, hx, hs⟩ | ⟨f, s, hx, -⟩)
      · injection List.mem_singleton.mp hx with e
        rw [e, sameText_iff, downcase_of_small (downcase_small d)] at hs
        exact (sameText_iff _ _).2 hs
      · cases List.mem_singleton.mp hx
    · intro h
      exact .inl ⟨_, List.mem_singleton.mpr rfl, (sameText_iff _ _).2 (by rw [downcase_of_small (downcase_small d)]; exact (sameText_iff _ _).1 h)⟩

/-- **C111** (the list of a file): comments and empty lines add nothing; a line `/expression/` adds the expression -/
theorem C111_file_other (regexp : Bytes → Bytes → Bool) (b s b' : Bytes) (hb : Blanks b) (hb' : Blanks b') :
    trustLine regexp b = none ∧ trustLine regexp (b ++ 0x23 :: s) = none ∧
    (s ≠ [] → trustLine regexp (b ++ (0x2f :: s ++ [0x2f]) ++ b') = some (.test (regexp s))) := by
  have hstrip : ∀ (c : UInt8) (s : Bytes), ¬ (c = 0x20 ∨ 0x09 ≤ c ∧ c ≤ 0x0d) → ∃ s', strip (b ++ c :: s) = c :: s' := by
    intro c s hc
    unfold strip
    rw [lstrip_blanks b _ hb, lstrip_solid c s hc, List.reverse_cons]
    have : ∀ l : Bytes, ∃ l', lstrip (l ++ [c]) = l' ++ [c] := by
      intro l
      induction l with
      | nil => exact ⟨[], lstrip_solid c [] hc⟩
      | cons x l ih =>
        by_cases hx : isBlank x = true
        · obtain ⟨l', h⟩ := ih
          refine ⟨l', ?_⟩
          rw [← h]
          unfold lstrip
          rw [List.cons_append, List.dropWhile_cons, if_pos hx]
        · refine ⟨x :: l, ?_⟩
          unfold lstrip
          rw [List.cons_append, List.dropWhile_cons, if_neg hx]
    obtain ⟨l', h⟩ := this s.reverse
    rw [h]
    exact ⟨l'.reverse, by simp⟩
  refine ⟨?_, ?_, fun hs => ?_⟩
  · have : strip b = [] := by
      have h := lstrip_blanks b [] hb
      rw [List.append_nil] at h
      unfold strip
      rw [h]
      rfl
    unfold trustLine
    rw [this]
  · obtain ⟨s', h⟩ := hstrip 0x23 s (by decide)
    unfold trustLine
    rw [h]
    rfl
  · have h : strip (b ++ (0x2f :: s ++ [0x2f]) ++ b') = 0x2f :: (s ++ [0x2f]) := by
      unfold strip
      rw [List.append_assoc, lstrip_blanks b _ hb]
      have e : 0x2f :: s ++ [0x2f] ++ b' = 0x2f :: (s ++ [0x2f] ++ b') := rfl
      rw [e, lstrip_solid _ _ (by decide), ← e, List.reverse_append, lstrip_blanks _ _ (fun x hx => hb' x (List.mem_reverse.mp hx))]
      simp only [List.reverse_append, List.reverse_cons, List.reverse_nil, List.nil_append, List.singleton_append]
      rw [lstrip_solid _ _ (by decide)]
      simp
    unfold trustLine
    rw [h]
    have hl : 2 ≤ (s ++ [(0x2f : UInt8)]).length := by
      have := List.length_pos_iff.mpr hs
      simp
      omega
    show (if _ ∧ _ then _ else _) = _
    rw [if_pos ⟨by simp, hl⟩, List.dropLast_concat]

example : Blanks (ascii "  ") ∧ Solid (ascii "Example.COM") ∧ (ascii "Example.COM").head? ≠ some 0x23 := by
  refine ⟨?_, ⟨by decide, ?_⟩, by decide⟩ <;> (first | unfold Blanks | skip) <;> decide

/-! ## C112: Stress -/

/-- **C112**: "No Stress" stops the milter at the connection if and only if the MTA is under stress - as many sessions as the threshold that was set or else detected, and the threshold is not 0 -
and leaves macros alone; "Stress Notify" never stops it, and gives it `stress` = "yes" with the other macros of the connection under the same condition. -/
theorem C112_stress (b : Breaker) (detected sessions : Nat) (host : Bytes) (x : Address) (a : Agent) (macros : Table) (hm : macros (ascii "stress") = none) :
    let t := b.threshold.getD detected
    let r := tell [stressNotify b detected sessions] ⟨some macros, .connect host x, false⟩ a
    ((stop [noStress b detected sessions] (.connect host x) a).1 = true ↔ Stress t sessions) ∧
    (stop [noStress b detected sessions] (.connect host x) a).2 = a ∧
    r.1 = false ∧ ∃ table, r.2.macros 0x43 = some table ∧ (∀ n, n ≠ ascii "stress" → table n = macros n) ∧
      (table (ascii "stress") = some (ascii "yes") ↔ Stress t sessions) ∧ (table (ascii "stress") = none ↔ ¬ Stress t sessions) := by
  intro t r
  have hs : (b.stressing detected sessions).1 = true ↔ Stress t sessions := by
    unfold Breaker.stressing Breaker.get Stress
    show _ ↔ 0 < b.threshold.getD detected ∧ b.threshold.getD detected ≤ sessions
    cases b.threshold with
    | none =>
      simp only [Option.getD_none]
      by_cases h : detected = 0
      · simp [h]
      · simp only [h, if_false, decide_eq_true_eq]; omega
    | some n =>
      simp only [Option.getD_some]
      by_cases h : n = 0
      · simp [h]
      · simp only [h, if_false, decide_eq_true_eq]; omega
  refine ⟨?_, ?_, ?_⟩
  · rw [← hs]
    simp only [stop, noStress, Condition.blocks, List.map_cons, List.map_nil, any]
    cases (b.stressing detected sessions).1 <;> simp
  · simp only [stop, noStress, Condition.blocks, List.map_cons, List.map_nil, any]
    cases (b.stressing detected sessions).1 <;> rfl
  · have hr : r = (false, sent (.connect host x) (if (b.stressing detected sessions).1 then
        write (enter (.connect host x) (defineMacro (some macros) (.connect host x) a)) (ascii "stress") (ascii "yes")
        else enter (.connect host x) (defineMacro (some macros) (.connect host x) a))) := by
      show tell _ _ _ = _
      unfold tell
      simp only [stop, stressNotify, Condition.blocks, List.map_cons, List.map_nil, any]
      rfl
    have hmerge : ∀ n, (Table.empty.merge macros) n = macros n := by
      intro n
      unfold Table.merge
      cases macros n <;> rfl
    have hname : normalizeName (ascii "stress") = ascii "stress" := Conditions.normalizeName_plain _ (by decide)
    rw [hr]
    refine ⟨rfl, ?_⟩
    cases hv : (b.stressing detected sessions).1 with
    | false =>
      have hns : ¬ Stress t sessions := fun h => by rw [hs.2 h] at hv; cases hv
      refine ⟨Table.empty.merge macros, rfl, fun n _ => hmerge n, ?_, ?_⟩ <;> rw [hmerge, hm] <;> simp [hns]
    | true =>
      have hst := hs.1 hv
      refine ⟨(Table.empty.merge macros).update (ascii "stress") (some (ascii "yes")), ?_, ?_, ?_, ?_⟩
      · conv => rhs; rw [← hname]
        rfl
      · intro n hn
        unfold Table.update
        rw [if_neg hn]
        exact hmerge n
      · simp [Table.update, hst]
      · simp [Table.update, hst]

/-- several sessions ask, each with what would be detected at the time -/
def asking (sessions : Nat) : List Nat → Breaker → Breaker
  | [], b => b
  | d :: ds, b => asking sessions ds (b.stressing d sessions).2

/-- **C112** (the threshold stays): once it is set or the first session has asked, the threshold is what it was then, whatever would be detected later, until another one is set -/
theorem C112_stays (b : Breaker) (sessions d : Nat) (ds : List Nat) :
    (asking sessions (d :: ds) b).threshold = some (b.threshold.getD d) ∧ ∀ n, ((asking sessions (d :: ds) b).set n).threshold = n := by
  refine ⟨?_, fun _ => rfl⟩
  have h : ∀ ds (b : Breaker) n, b.threshold = some n → (asking sessions ds b).threshold = some n := by
    intro ds
    induction ds with
    | nil => exact fun _ _ h => h
    | cons d ds ih =>
      intro b n hb
      refine ih _ n ?_
      unfold Breaker.stressing Breaker.get
      rw [hb]
      exact hb
  refine h ds _ _ ?_
  unfold Breaker.stressing Breaker.get
  cases hb : b.threshold with
  | none => rfl
  | some n => exact hb

theorem fields_solid (f : Bytes) (hf : ∀ c ∈ f, ¬ (c = 0x20 ∨ 0x09 ≤ c ∧ c ≤ 0x0d)) (s h : Bytes) (t : List Bytes) (hs : fields s = h :: t) :
    fields (f ++ s) = (f ++ h) :: t := by
  induction f with
  | nil => exact hs
  | cons c f ih =>
    have hc : ¬ isBlank c = true := by rw [blank_iff]; exact hf c List.mem_cons_self
    show fields (c :: (f ++ s)) = _
    conv => lhs; unfold fields
    rw [if_neg hc, ih fun x hx => hf x (List.mem_cons_of_mem _ hx)]
    rfl

theorem fields_blanks (b : Bytes) (hne : b ≠ []) (hb : Blanks b) (c : UInt8) (s : Bytes) (hc : ¬ (c = 0x20 ∨ 0x09 ≤ c ∧ c ≤ 0x0d)) :
    fields (b ++ c :: s) = [] :: fields (c :: s) := by
  induction b with
  | nil => exact absurd rfl hne
  | cons x b ih =>
    have hx : isBlank x = true := by rw [blank_iff]; exact hb x List.mem_cons_self
    have hc' : ¬ isBlank c = true := by rw [blank_iff]; exact hc
    cases b with
    | nil =>
      show fields (x :: c :: s) = _
      conv => lhs; rw [fields]
      simp only [hx, if_true, hc', if_false]
      rfl
    | cons y b =>
      have hy : isBlank y = true := by rw [blank_iff]; exact hb y (by simp)
      show fields (x :: y :: (b ++ c :: s)) = _
      conv => lhs; rw [fields]
      simp only [hx, hy, if_true]
      exact ih (fun h => nomatch h) fun z hz => hb z (List.mem_cons_of_mem _ hz)

/-- a field, blanks, and then something that is not a blank -/
theorem fields_next (f b : Bytes) (hf : Solid f) (hne : b ≠ []) (hb : Blanks b) (rest : Bytes) (hr : ∃ c s, rest = c :: s ∧ Solid [c]) :
    fields (f ++ (b ++ rest)) = f :: fields rest := by
  obtain ⟨c, s, rfl, -, hc⟩ := hr
  rw [fields_solid f hf.2 _ [] (fields (c :: s)) (fields_blanks b hne hb c s (hc c (by simp)))]
  simp

theorem solid_head {f : Bytes} (hf : Solid f) (rest : Bytes) : ∃ c s, f ++ rest = c :: s ∧ Solid [c] := by
  cases f with
  | nil => exact absurd rfl hf.1
  | cons c f =>
    refine ⟨c, f ++ rest, rfl, (fun h => nomatch h), fun x hx => ?_⟩
    rw [List.mem_singleton.mp hx]
    exact hf.2 c List.mem_cons_self

theorem fields_line {e : Entry} {line : Bytes} (h : e.Line line) : line.head? ≠ some 0x23 ∧
    ∃ rest, fields line = [e.service, e.type, e.priv, e.unpriv, e.chroot, e.wakeup, e.maxproc] ++ rest := by
  obtain ⟨b1, b2, b3, b4, b5, b6, b7, hb, hf, hc, hcomment, rfl⟩ := h
  simp only [List.mem_cons, List.not_mem_nil, or_false, forall_eq_or_imp, forall_eq] at hb hf
  obtain ⟨⟨n1, q1⟩, ⟨n2, q2⟩, ⟨n3, q3⟩, ⟨n4, q4⟩, ⟨n5, q5⟩, ⟨n6, q6⟩, ⟨n7, q7⟩⟩ := hb
  obtain ⟨f1, f2, f3, f4, f5, f6, f7⟩ := hf
  constructor
  · cases he : e.service with
    | nil => exact absurd he f1.1
    | cons c s =>
      rw [he] at hcomment
      simpa using hcomment
  · refine ⟨fields e.command, ?_⟩
    simp only [List.append_assoc]
    rw [fields_next _ _ f1 n1 q1 _ (solid_head f2 _), fields_next _ _ f2 n2 q2 _ (solid_head f3 _), fields_next _ _ f3 n3 q3 _ (solid_head f4 _),
      fields_next _ _ f4 n4 q4 _ (solid_head f5 _), fields_next _ _ f5 n5 q5 _ (solid_head f6 _), fields_next _ _ f6 n6 q6 _ (solid_head f7 _),
      fields_next _ _ f7 n7 q7 _ hc]
    rfl

/-- a line that is of no account: a comment, one that goes on with the entry before it, or an entry for another service -/
def OtherLine (line : Bytes) : Prop :=
  line.head? = some 0x23 ∨ (∃ b c s, b ≠ [] ∧ Blanks b ∧ Solid [c] ∧ line = b ++ c :: s) ∨ (∃ e : Entry, e.Line line ∧ e.service ≠ ascii "smtp")

theorem masterLimit_skips (before later : List Bytes) (h : ∀ l ∈ before, OtherLine l) : masterLimit (before ++ later) = masterLimit later := by
  induction before with
  | nil => rfl
  | cons l before ih =>
    rw [← ih fun x hx => h x (List.mem_cons_of_mem _ hx)]
    show masterLimit (l :: (before ++ later)) = _
    conv => lhs; rw [masterLimit]
    rcases h l List.mem_cons_self with hl | ⟨b, c, s, hne, hb, hc, rfl⟩ | ⟨e, he, hs⟩
    · rw [if_pos hl]
    · split
      · rfl
      · rw [fields_blanks b hne hb c s (hc.2 c (by simp))]
        exact if_pos (by decide)
    · obtain ⟨hl, rest, hf⟩ := fields_line he
      rw [if_neg hl, hf]
      exact if_pos hs

theorem toI_decimal (n : Nat) : toI (decimal n) = n := by
  unfold toI
  have h := takeWhile_digits (decimal n) [] (decimal_digits n) (fun _ _ h => nomatch h)
  rw [List.append_nil] at h
  rw [h]
  have := digitsValue_decimal n
  unfold Connection.digitsValue at this
  conv => rhs; rw [← this]
  congr 1
  funext a c
  rw [Nat.mul_comm]

/-- **C112** (the limit of Postfix): the limit is the number of processes given in master.cf for the first entry of the service "smtp"; that of postconf if master.cf
gives "-", has no such entry or does not exist; and the threshold is three quarters of it, rounded down.  Missing: an entry "smtp unix" that comes before "smtp inet"
(`C112_client_violated`). -/
theorem C112_limit_partial (before later : List Bytes) (h : ∀ l ∈ before, OtherLine l) (e : Entry) (line : Bytes) (he : e.Line line)
    (hs : e.service = ascii "smtp") (default : Option Nat) :
    (∀ n, e.maxproc = decimal n → processLimit default (some (before ++ line :: later)) = n) ∧
    (e.maxproc = ascii "-" → processLimit default (some (before ++ line :: later)) = default.getD 0) ∧
    processLimit default (some before) = default.getD 0 ∧ processLimit default none = default.getD 0 := by
  have hm : masterLimit (before ++ line :: later) = if e.maxproc = ascii "-" then none else some (toI e.maxproc) := by
    rw [masterLimit_skips before _ h, masterLimit]
    obtain ⟨hl, rest, hf⟩ := fields_line he
    rw [if_neg hl, hf, hs]
    rfl
  refine ⟨fun n hn => ?_, fun hn => ?_, ?_, ?_⟩
  · unfold processLimit
    rw [Option.bind_some, hm, hn, if_neg, toI_decimal]
    · rfl
    · intro hc
      have := decimal_digits n 0x2d (by rw [hc]; decide)
      cases this
  · unfold processLimit
    rw [Option.bind_some, hm, if_pos hn]
    rfl
  · have : masterLimit before = none := by
      have := masterLimit_skips before [] h
      rw [List.append_nil] at this
      rw [this]
      rfl
    unfold processLimit
    rw [Option.bind_some, this]
    rfl
  · rfl

/-- **C112** (the threshold): three quarters of the limit, rounded down.  So an MTA with a limit of at least 2 is under stress before it takes no more clients. -/
theorem C112_threshold (limit : Nat) : 4 * postfixThreshold limit ≤ 3 * limit ∧ 3 * limit < 4 * (postfixThreshold limit + 1) ∧
    (2 ≤ limit → Stress (postfixThreshold limit) (limit - 1)) := by
  unfold postfixThreshold Stress
  omega

/-- a master.cf as Postfix installs it, with a limit of 20 processes -/
example : let lines := [ascii "# service type  private unpriv  chroot  wakeup  maxproc command + args\n", ascii "smtp      inet  n       -       y       -       20      smtpd\n",
      ascii "smtp      unix  -       -       y       -       -       smtp\n"]
    processLimit (some 100) (some lines) = 20 ∧ postfixThreshold 20 = 15 ∧ processLimit (some 100) (some (lines.drop 2)) = 100 := by decide +kernel
example : OtherLine (ascii "# service\n") ∧ OtherLine (ascii "  -o x=y\n") ∧
    Entry.Line ⟨ascii "smtp", ascii "inet", ascii "n", ascii "-", ascii "y", ascii "-", decimal 20, ascii "smtpd\n"⟩ (ascii "smtp  inet n - y - 20 smtpd\n") := by
  refine ⟨.inl (by decide), .inr (.inl ⟨ascii "  ", 0x2d, ascii "o x=y\n", by decide, ?_, ⟨by decide, by decide⟩, by decide⟩), ?_⟩
  · unfold Blanks; decide
  · refine ⟨ascii "  ", ascii " ", ascii " ", ascii " ", ascii " ", ascii " ", ascii " ", ?_, ?_, ⟨0x73, ascii "mtpd\n", by decide, ⟨by decide, by decide⟩⟩, by decide, by decide +kernel⟩
    · unfold Blanks; decide
    · unfold Solid; decide +kernel

/-- **C112**, where the code departs from it: the type of a service is not looked at.  If the entry for Postfix's own client ("smtp unix") comes first, its limit is taken for that of the
server. -/
theorem C112_client_violated :
    let lines := [ascii "smtp unix - - y - 8 smtp\n", ascii "smtp inet n - y - 200 smtpd\n"]
    processLimit (some 100) (some lines) = 8 := by decide +kernel

/-! ## C113: DNSBL -/

theorem dot_decimal (n : Nat) : (0x2e : UInt8) ∉ decimal n := fun h => by
  have := decimal_digits n _ h
  cases this

theorem split_dotted (l : List Nat) (hl : l ≠ []) : strsplit 0x2e (joinWith [0x2e] (l.map decimal)) = l.map decimal := by
  refine strsplit_join _ _ ?_ ?_
  · match l, hl with
    | [a], _ => exact decimal_ne_nil a
    | a :: b :: l, _ =>
      intro h
      simp only [List.map_cons, joinWith] at h
      have := congrArg List.length h
      simp at this
  · intro a ha
    obtain ⟨n, _, rfl⟩ := List.mem_map.mp ha
    exact dot_decimal n

theorem query_dotted (n : Nat) (domain : Bytes) :
    query (dotted n) domain = questionFor (n / 2 ^ 24 % 256) (n / 2 ^ 16 % 256) (n / 2 ^ 8 % 256) (n % 256) domain := by
  unfold query dotted
  have := split_dotted [n / 2 ^ 24 % 256, n / 2 ^ 16 % 256, n / 2 ^ 8 % 256, n % 256] (fun h => nomatch h)
  simp only [List.map_cons, List.map_nil] at this
  rw [this]
  simp [joinWith, questionFor]

theorem answer_iff (resolve : Bytes → Option Address) (s : Service) (n : Nat) :
    s.answer resolve (dotted n) = true ↔ OnList resolve s (questionFor (n / 2 ^ 24 % 256) (n / 2 ^ 16 % 256) (n / 2 ^ 8 % 256) (n % 256) s.domain) := by
  unfold Service.answer OnList
  rw [query_dotted]
  cases resolve _ with
  | none => simp
  | some x =>
    cases s.expected with
    | none => simp
    | some m => simp

theorem listedBy_iff (l : List Bool) : listedBy l = true ↔ true ∈ l := by
  induction l with
  | nil => simp [listedBy]
  | cons a l ih => cases a <;> simp [listedBy, ih]

/-- **C113**: with "DNSBL Listed" a milter is stopped at the connection if and only if the client is on none of the lists; with "Not DNSBL Listed" if and only if it is on one of
them.  Each list is asked about the client's address with its numbers backwards; it counts what they answer, and not in which order.  A client without an IPv4 address is
on no list. -/
theorem C113_dnsbl (resolve : Bytes → Option Address) (services arrival : List Service) (h : arrival.Perm services) (host : Bytes) (x : Address) (a : Agent) :
    let on := ∃ n, x = .ipv4 n ∧ ∃ s ∈ services, OnList resolve s (questionFor (n / 2 ^ 24 % 256) (n / 2 ^ 16 % 256) (n / 2 ^ 8 % 256) (n % 256) s.domain)
    ((stop [dnsblListed resolve arrival] (.connect host x) a).1 = true ↔ ¬ on) ∧
    ((stop [notDnsblListed resolve arrival] (.connect host x) a).1 = true ↔ on) ∧
    (stop [dnsblListed resolve arrival] (.connect host x) a).2 = a ∧ (stop [notDnsblListed resolve arrival] (.connect host x) a).2 = a := by
  intro on
  have hl : listed resolve arrival x = true ↔ on := by
    cases x with
    | ipv4 n =>
      show listedBy _ = true ↔ _
      rw [listedBy_iff, List.mem_map]
      constructor
      · rintro ⟨s, hs, ha⟩
        exact ⟨n, rfl, s, h.mem_iff.mp hs, (answer_iff _ _ _).1 ha⟩
      · rintro ⟨m, hm, s, hs, ho⟩
        cases hm
        exact ⟨s, h.mem_iff.mpr hs, (answer_iff _ _ _).2 ho⟩
    | _ => exact ⟨(fun h => nomatch h), fun h => by obtain ⟨n, hn, -⟩ := h; cases hn⟩
  rw [← hl]
  simp only [stop, dnsblListed, notDnsblListed, Condition.blocks, List.map_cons, List.map_nil, any]
  cases listed resolve arrival x <;> simp

/-- **C113** (no mix-up): lists are asked different questions about different addresses -/
theorem C113_distinct (m n : Nat) (hm : m < 2 ^ 32) (hn : n < 2 ^ 32) (domain : Bytes) (h : query (dotted m) domain = query (dotted n) domain) : m = n := by
  unfold query at h
  have h := List.append_cancel_right (List.append_cancel_right h)
  have e : ∀ n, strsplit 0x2e (dotted n) = [n / 2 ^ 24 % 256, n / 2 ^ 16 % 256, n / 2 ^ 8 % 256, n % 256].map decimal := fun n =>
    split_dotted [n / 2 ^ 24 % 256, n / 2 ^ 16 % 256, n / 2 ^ 8 % 256, n % 256] (fun h => nomatch h)
  rw [e, e, ← List.map_reverse, ← List.map_reverse] at h
  have h := congrArg (strsplit 0x2e) h
  rw [split_dotted _ (by simp), split_dotted _ (by simp)] at h
  simp only [List.reverse_cons, List.reverse_nil, List.nil_append, List.cons_append, List.map_cons, List.map_nil, List.cons.injEq, and_true] at h
  obtain ⟨h1, h2, h3, h4⟩ := h
  have inj : ∀ a b, decimal a = decimal b → a = b := fun a b h => by rw [← digitsValue_decimal a, h, digitsValue_decimal]
  have := inj _ _ h1
  have := inj _ _ h2
  have := inj _ _ h3
  have := inj _ _ h4
  omega

/-- 192.0.2.1 is on one of two lists -/
example : let spamhaus : Service := ⟨ascii "zen.spamhaus.org", some ⟨false, 0x7f00000a, 31⟩⟩
    let spamcop : Service := ⟨ascii "bl.spamcop.net", some ⟨false, 0x7f000002, 32⟩⟩
    let resolve : Bytes → Option Address := fun q => if q = ascii "1.2.0.192.zen.spamhaus.org" then some (.ipv4 0x7f00000b) else
      if q = ascii "1.2.0.192.bl.spamcop.net" then some (.ipv4 0x7f000003) else none
    listed resolve [spamhaus, spamcop] (.ipv4 0xc0000201) = true ∧ listed resolve [spamcop, spamhaus] (.ipv4 0xc0000201) = true ∧ listed resolve [spamcop] (.ipv4 0xc0000201) = false ∧
      listed resolve [spamcop, spamhaus] (.ipv4 0xc0000202) = false := by decide +kernel

/-! ## C114: Sendmail Compatible -/

theorem collect_put (f : Context → Option Table) (c : Context) (name : Bytes) (value : Option Bytes) (l : List Context) (hc : c ∈ l) (acc : Table)
    (h : collect f c l acc name = none) :
    collect (fun d => if d = c then some (((f c).getD Table.empty).update name value) else f d) c l acc = (collect f c l acc).update name value := by
  induction l generalizing acc with
  | nil => cases hc
  | cons d l ih =>
    by_cases hd : d = c
    · subst hd
      simp only [collect, if_true] at h ⊢
      funext m
      simp only [addContext, Table.merge, Table.update]
      have hacc : acc name = none := by
        cases hf : f d with
        | none => rw [hf] at h; exact h
        | some t =>
          rw [hf] at h
          simp only [addContext, Table.merge] at h
          cases ht : t name with
          | none => rw [ht] at h; exact h
          | some v => rw [ht] at h; cases h
      by_cases hm : m = name
      · subst hm
        simp only [if_true]
        cases value with
        | none => exact hacc
        | some v => rfl
      · simp only [hm, if_false]
        cases f d with
        | none => rfl
        | some t => rfl
    · simp only [collect, hd, if_false] at h ⊢
      exact ih (by simpa [Ne.symm hd] using hc) _ h

/-- the macros that can be seen now -/
def visible (a : Agent) : Table := collect a.macros a.context searchOrder Table.empty

/-- what has been looked up before is right -/
def Consistent (a : Agent) : Prop := a.available = none ∨ a.available = some (visible a)

theorem read_visible {a : Agent} (h : Consistent a) (n : Bytes) (hn : n.head? ≠ some 0x7b) :
    (read a n).1 = visible a n ∧ Consistent (read a n).2 ∧ visible (read a n).2 = visible a ∧ (read a n).2.context = a.context := by
  unfold Conditions.read Agent.getAvailable
  rw [Conditions.normalizeName_plain n hn]
  rcases h with h | h
  · rw [h]
    exact ⟨rfl, .inr rfl, rfl, rfl⟩
  · rw [h]
    exact ⟨rfl, .inr h, rfl, rfl⟩

theorem orSet_visible {a : Agent} (h : Consistent a) (hc : a.context ∈ searchOrder) (n : Bytes) (hn : n.head? ≠ some 0x7b) (v : Option Bytes) :
    visible (orSet a n v) = (if (visible a n).isSome then visible a else (visible a).update n v) ∧ Consistent (orSet a n v) ∧ (orSet a n v).context = a.context := by
  obtain ⟨h1, h2, h3, h4⟩ := read_visible h n hn
  unfold orSet
  rw [Conditions.normalizeName_plain n hn]
  dsimp only
  rw [h1]
  cases hv : visible a n with
  | some x => exact ⟨h3, h2, h4⟩
  | none =>
    refine ⟨?_, .inl rfl, h4⟩
    show collect (fun d => if d = (read a n).2.context then some ((((read a n).2.macros (read a n).2.context).getD Table.empty).update n v)
      else (read a n).2.macros d) (read a n).2.context searchOrder Table.empty = _
    have hs : collect (read a n).2.macros (read a n).2.context searchOrder Table.empty = visible a := h3
    rw [collect_put _ _ _ _ _ (by rw [h4]; exact hc) _ (by rw [hs]; exact hv), hs]
    rfl

theorem isPostfix_visible {a : Agent} (h : Consistent a) :
    (isPostfix a).1 = postfixIn none ((visible a (ascii "v")).getD []) ∧ Consistent (isPostfix a).2 ∧ visible (isPostfix a).2 = visible a ∧ (isPostfix a).2.context = a.context := by
  obtain ⟨h1, h2, h3, h4⟩ := read_visible h (ascii "v") (by decide)
  unfold isPostfix
  dsimp only
  rw [h1]
  exact ⟨rfl, h2, h3, h4⟩

theorem postfixIn_iff (text : Bytes) (last : Option UInt8) : postfixIn last text = true ↔
    ∃ before word after, text = before ++ word ++ after ∧ SameText word (ascii "postfix") ∧
      (∀ c, (before.getLast?.or last) = some c → isWordByte c = false) ∧ (∀ c, after.head? = some c → isWordByte c = false) := by
  induction text generalizing last with
  | nil =>
    constructor
    · intro h; cases h
    · rintro ⟨b, w, x, h, hw, -⟩
      have : w = [] := by
        have := congrArg List.length h
        simp only [List.length_nil, List.length_append] at this
        exact List.length_eq_zero_iff.mp (by omega)
      rw [this] at hw
      have hw : SameText [] (0x70 :: ascii "ostfix") := hw
      cases hw
  | cons c s ih =>
    rw [postfixIn, Bool.or_eq_true, ih]
    constructor
    · rintro (h | ⟨b, w, x, rfl, hw, hb, hx⟩)
      · simp only [Bool.and_eq_true, Bool.not_eq_true', decide_eq_true_eq] at h
        obtain ⟨⟨h1, h2⟩, h3⟩ := h
        refine ⟨[], (c :: s).take 7, (c :: s).drop 7, by simp, (sameText_iff _ _).2 (h2.trans (by decide)), ?_, ?_⟩
        · intro d hd
          simp only [List.getLast?_nil, Option.none_or] at hd
          rw [hd] at h1
          exact h1
        · intro d hd
          rw [List.head?_drop] at hd
          rw [hd] at h3
          exact h3
      · refine ⟨c :: b, w, x, rfl, hw, ?_, hx⟩
        intro d hd
        refine hb d ?_
        cases b with
        | nil => simpa using hd
        | cons e b =>
          rw [List.getLast?_cons_cons] at hd
          cases hl : (e :: b).getLast? with
          | none => simp at hl
          | some z => rw [hl] at hd; simpa using hd
    · rintro ⟨b, w, x, h, hw, hb, hx⟩
      cases b with
      | nil =>
        left
        have hlen : w.length = 7 := by
          rw [sameText_iff] at hw
          have := congrArg List.length hw
          unfold downcase at this
          rw [List.length_map, List.length_map] at this
          rw [this]
          decide
        have htake : (c :: s).take 7 = w := by rw [h, List.nil_append, ← hlen]; simp
        have hget : (c :: s)[7]? = x.head? := by
          rw [h, List.nil_append, List.getElem?_append_right (by omega), hlen]
          exact List.head?_eq_getElem?.symm
        rw [htake, hget]
        simp only [Bool.and_eq_true, Bool.not_eq_true', decide_eq_true_eq]
        refine ⟨⟨?_, ?_⟩, ?_⟩
        · cases last with
          | none => rfl
          | some d => exact hb d rfl
        · rw [(sameText_iff _ _).1 hw]
          decide
        · cases hh : x.head? with
          | none => rfl
          | some d => exact hx d hh
      | cons d b =>
        right
        simp only [List.cons_append, List.cons.injEq] at h
        obtain ⟨rfl, rfl⟩ := h
        refine ⟨b, w, x, rfl, hw, ?_, hx⟩
        intro e he
        refine hb e ?_
        cases b with
        | nil => simpa using he
        | cons y b =>
          rw [List.getLast?_cons_cons]
          cases hl : (y :: b).getLast? with
          | none => simp at hl
          | some z => rw [hl] at he; simpa using he

theorem saysPostfix_iff (text : Bytes) : postfixIn none text = true ↔ SaysPostfix text := by
  rw [postfixIn_iff]
  unfold SaysPostfix
  simp only [Option.or_none]

/-- a macro that is missing is set, if there is a value; nothing else changes -/
def filled (t : Table) (name : Bytes) (value : Option Bytes) : Table := fun n => if n = name ∧ t name = none then value else t n

theorem filled_eq (t : Table) (n : Bytes) (v : Option Bytes) : (if (t n).isSome then t else t.update n v) = filled t n v := by
  funext m
  unfold filled Table.update
  cases h : t n with
  | none => simp
  | some x => simp

/-- **C114** (MAIL): the milter is not stopped.  If the MTA calls itself Postfix, then the milter's conditions and stages see "dummy-id" for `i` if the MTA gave none; everything the MTA
gave stays as it is, and for another MTA nothing changes at all. -/
theorem C114_from (ip port : Address → Option Bytes) (resolve : Bytes → Option Bytes) (cache : Cache) (sender : Bytes) (a : Agent) :
    let r := stop [sendmailCompatible ip port resolve cache] (.envelopeFrom sender) (a.setContext 0x4d)
    let before := seen a 0x4d
    r.1 = false ∧
    (SaysPostfix ((before (ascii "v")).getD []) → r.2.getAvailable.1 = filled before (ascii "i") (some (ascii "dummy-id"))) ∧
    (¬ SaysPostfix ((before (ascii "v")).getD []) → r.2.getAvailable.1 = before) := by
  intro r before
  have hr : r = (false, sendmailFrom (a.setContext 0x4d)) := by
    show stop _ _ _ = _
    simp only [stop, sendmailCompatible, Condition.blocks, List.map_cons, List.map_nil, any]
  have hcon : Consistent (a.setContext 0x4d) := .inl rfl
  have hb : visible (a.setContext 0x4d) = before := rfl
  obtain ⟨h1, h2, h3, h4⟩ := isPostfix_visible hcon
  have hav : ∀ b : Agent, Consistent b → b.getAvailable.1 = visible b := by
    intro b hb
    unfold Agent.getAvailable
    rcases hb with hb | hb <;> rw [hb] <;> rfl
  rw [hb] at h1 h3
  rw [← saysPostfix_iff, ← h1, hr]
  refine ⟨rfl, fun hp => ?_, fun hp => ?_⟩
  · have : sendmailFrom (a.setContext 0x4d) = orSet (isPostfix (a.setContext 0x4d)).2 (ascii "i") (some (ascii "dummy-id")) := if_pos hp
    rw [this]
    obtain ⟨o1, o2, _⟩ := orSet_visible h2 (by rw [h4]; show (0x4d : UInt8) ∈ searchOrder; decide) (ascii "i") (by decide) (some (ascii "dummy-id"))
    rw [hav _ o2, o1, h3, filled_eq]
  · have : sendmailFrom (a.setContext 0x4d) = (isPostfix (a.setContext 0x4d)).2 := if_neg hp
    rw [this, hav _ h2, h3]

/-- **C114** (the connection): the milter is not stopped.  If the MTA calls itself Postfix, then the address and the port of the interface are set to what netstat says, and its name to that
of the address, each only if the MTA did not give it; for another MTA nothing changes. -/
theorem C114_connect (ip port : Address → Option Bytes) (resolve : Bytes → Option Bytes) (cache : Cache) (host : Bytes) (x : Address) (a : Agent) :
    let r := stop [sendmailCompatible ip port resolve cache] (.connect host x) (a.setContext 0x43)
    let before := seen a 0x43
    r.1 = false ∧
    (SaysPostfix ((before (ascii "v")).getD []) → r.2.getAvailable.1 =
      filled (filled (filled before (ascii "if_addr") (ip x)) (ascii "if_name")
        (resolveName resolve cache ((before (ascii "if_addr")).or (ip x))).1) (ascii "daemon_port") (port x)) ∧
    (¬ SaysPostfix ((before (ascii "v")).getD []) → r.2.getAvailable.1 = before) := by
  intro r before
  have hr : r = (false, (sendmailConnect (ip x) (port x) resolve cache (a.setContext 0x43)).1) := by
    show stop _ _ _ = _
    simp only [stop, sendmailCompatible, Condition.blocks, List.map_cons, List.map_nil, any]
  have hcon : Consistent (a.setContext 0x43) := .inl rfl
  have hb : visible (a.setContext 0x43) = before := rfl
  obtain ⟨h1, h2, h3, h4⟩ := isPostfix_visible hcon
  have h4 : (isPostfix (a.setContext 0x43)).2.context = 0x43 := h4
  have hav : ∀ b : Agent, Consistent b → b.getAvailable.1 = visible b := by
    intro b hb
    unfold Agent.getAvailable
    rcases hb with hb | hb <;> rw [hb] <;> rfl
  have hin : (0x43 : UInt8) ∈ searchOrder := by decide
  rw [hb] at h1 h3
  rw [← saysPostfix_iff, ← h1, hr]
  refine ⟨rfl, fun hp => ?_, fun hp => ?_⟩
  · obtain ⟨a1, ha1⟩ : ∃ a1, a1 = orSet (isPostfix (a.setContext 0x43)).2 (ascii "if_addr") (ip x) := ⟨_, rfl⟩
    obtain ⟨o1, o2, o3⟩ := orSet_visible h2 (by rw [h4]; exact hin) (ascii "if_addr") (by decide) (ip x)
    rw [← ha1] at o1 o2 o3
    rw [h3, filled_eq] at o1
    obtain ⟨q1, q2, q3, q4⟩ := read_visible o2 (ascii "if_name") (by decide)
    obtain ⟨w1, -, -, -⟩ := read_visible q2 (ascii "if_addr") (by decide)
    obtain ⟨v, hv⟩ : ∃ v, v = if (read a1 (ascii "if_name")).1.isSome then (none, cache)
      else resolveName resolve cache (read (read a1 (ascii "if_name")).2 (ascii "if_addr")).1 := ⟨_, rfl⟩
    obtain ⟨a2, ha2⟩ : ∃ a2, a2 = orSet (read a1 (ascii "if_name")).2 (ascii "if_name") v.1 := ⟨_, rfl⟩
    obtain ⟨p1, p2, p3⟩ := orSet_visible q2 (by rw [q4, o3, h4]; exact hin) (ascii "if_name") (by decide) v.1
    rw [← ha2] at p1 p2 p3
    obtain ⟨s1, s2, -⟩ := orSet_visible p2 (by rw [p3, q4, o3, h4]; exact hin) (ascii "daemon_port") (by decide) (port x)
    have hform : (sendmailConnect (ip x) (port x) resolve cache (a.setContext 0x43)).1 = orSet a2 (ascii "daemon_port") (port x) := by
      unfold sendmailConnect
      rw [ha2, hv, ha1]
      simp only [hp, if_true]
    rw [hform, hav _ s2, s1, p1, q3, o1, filled_eq, filled_eq]
    congr 1
    have haddr : visible (read a1 (ascii "if_name")).2 (ascii "if_addr") = (before (ascii "if_addr")).or (ip x) := by
      rw [q3, o1]
      unfold filled
      cases before (ascii "if_addr") <;> simp
    rw [q1, w1, haddr] at hv
    cases hi : visible a1 (ascii "if_name") with
    | none =>
      rw [hi] at hv
      rw [hv]
      rfl
    | some y =>
      rw [o1] at hi
      funext n
      unfold filled at hi ⊢
      rw [hi]
      simp
  · have : (sendmailConnect (ip x) (port x) resolve cache (a.setContext 0x43)).1 = (isPostfix (a.setContext 0x43)).2 := by
      unfold sendmailConnect
      simp only [hp, Bool.false_eq_true, if_false]
    rw [this, hav _ h2, h3]

/-- the cache after a series of questions, each with what DNS would say at the time -/
def asked : List ((Bytes → Option Bytes) × Option Bytes) → Cache
  | [] => []
  | q :: qs => (resolveName q.1 (asked qs) q.2).2

/-- **C114** (names): the cache never holds a hundred names; the name of an address is one that DNS gave for that very address, now or earlier; and no address has no name. -/
theorem C114_names (qs : List ((Bytes → Option Bytes) × Option Bytes)) :
    (asked qs).length < 100 ∧
    (∀ x name, (x, name) ∈ asked qs → ∃ q ∈ qs, q.1 x = some name) ∧
    (∀ resolve x name, (resolveName resolve (asked qs) (some x)).1 = some name → resolve x = some name ∨ ∃ q ∈ qs, q.1 x = some name) ∧
    (∀ resolve, (resolveName resolve (asked qs) none).1 = none) := by
  have hinv : (asked qs).length < 100 ∧ ∀ x name, (x, name) ∈ asked qs → ∃ q ∈ qs, q.1 x = some name := by
    induction qs with
    | nil => exact ⟨by decide, fun _ _ h => nomatch h⟩
    | cons q qs ih =>
      obtain ⟨ih1, ih2⟩ := ih
      have ih2' : ∀ x name, (x, name) ∈ asked qs → ∃ p ∈ q :: qs, p.1 x = some name := fun x name h => by
        obtain ⟨p, hp, h⟩ := ih2 x name h
        exact ⟨p, List.mem_cons_of_mem _ hp, h⟩
      show (resolveName q.1 (asked qs) q.2).2.length < 100 ∧ ∀ x name, (x, name) ∈ (resolveName q.1 (asked qs) q.2).2 → _
      unfold resolveName
      cases q2 : q.2 with
      | none => exact ⟨ih1, ih2'⟩
      | some y =>
        dsimp only
        cases hl : (asked qs).lookup y with
        | some n =>
          dsimp only
          split
          · exact ⟨by decide, fun _ _ h => nomatch h⟩
          · exact ⟨ih1, ih2'⟩
        | none =>
          dsimp only
          cases hr : q.1 y with
          | none => exact ⟨ih1, ih2'⟩
          | some n =>
            dsimp only
            split
            · exact ⟨by decide, fun _ _ h => nomatch h⟩
            · rename_i hlen
              unfold cacheLimit at hlen
              refine ⟨by rw [List.length_cons]; omega, ?_⟩
              intro x name h
              rcases List.mem_cons.mp h with h | h
              · cases h
                exact ⟨q, List.mem_cons_self, hr⟩
              · exact ih2' x name h
  refine ⟨hinv.1, hinv.2, ?_, fun _ => rfl⟩
  intro resolve x name h
  unfold resolveName at h
  dsimp only at h
  cases hl : (asked qs).lookup x with
  | some n =>
    rw [hl] at h
    injection h with h
    subst h
    have : (x, n) ∈ asked qs := by
      have : ∀ l : Cache, l.lookup x = some n → (x, n) ∈ l := by
        intro l
        induction l with
        | nil => intro h; cases h
        | cons p l ih =>
          obtain ⟨y, m⟩ := p
          rw [List.lookup_cons]
          by_cases hy : x = y
          · subst hy
            simp only [BEq.rfl]
            intro h
            injection h with h
            subst h
            exact List.mem_cons_self
          · have : (x == y) = false := by simpa using hy
            rw [this]
            exact fun h => List.mem_cons_of_mem _ (ih h)
      exact this _ hl
    exact .inr (hinv.2 x n this)
  | none =>
    rw [hl] at h
    cases hr : resolve x with
    | none => rw [hr] at h; cases h
    | some n =>
      rw [hr] at h
      injection h with h
      subst h
      exact .inl rfl

/-- Postfix gives no `i` for MAIL; Sendmail does not get one -/
example : SaysPostfix (ascii "Postfix 3.4.13") ∧ ¬ SaysPostfix (ascii "8.15.2/8.15.2") ∧ ¬ SaysPostfix (ascii "postfixer") := by
  refine ⟨(saysPostfix_iff _).1 (by decide +kernel), fun h => ?_, fun h => ?_⟩
  · have := (saysPostfix_iff _).2 h
    revert this
    decide +kernel
  · have := (saysPostfix_iff _).2 h
    revert this
    decide +kernel
example : ((stop [sendmailCompatible (fun _ => none) (fun _ => none) (fun _ => none) []] (.envelopeFrom (ascii "<a@b>"))
    ((Agent.init.setTable 0x43 (fun n => if n = ascii "v" then some (ascii "Postfix 3.4.13") else none)).setContext 0x4d)).2.getAvailable.1 (ascii "i")) =
    some (ascii "dummy-id") := by decide +kernel

end Verif.Props.Shipped
