import Verif.Props.TestServer
/-
C117: the conversation milter-test-server has with a milter.
-/
namespace Verif.Props.TestServer
open Verif Verif.TestServer Verif.Spec.TestServer
open Verif.Spec (Pointwise)
open Verif.Server (St)

/-- what is still to be said -/
def left (c : Config) (d : Data) : St → List Cmd
  | .negotiate => stage c 0x1 [.connect c.host c.address] ++ stage c 0x2 [.helo c.helo] ++ stage c 0x4 [.envelopeFrom c.from_] ++
      fromRecipient c (c.recipients.drop d.current) d.headers d.chunks
  | .connect => stage c 0x2 [.helo c.helo] ++ stage c 0x4 [.envelopeFrom c.from_] ++ fromRecipient c (c.recipients.drop d.current) d.headers d.chunks
  | .helo => stage c 0x4 [.envelopeFrom c.from_] ++ fromRecipient c (c.recipients.drop d.current) d.headers d.chunks
  | .envelopeFrom | .envelopeRecipient => fromRecipient c (c.recipients.drop d.current) d.headers d.chunks
  | .unknown => datas c ++ fromHeader c d.headers d.chunks
  | .data | .header => fromHeader c d.headers d.chunks
  | .endOfHeader | .body => fromBody c d.chunks
  | .endOfMessage => [.quit]
  | _ => []

theorem without_stage (c : Config) (bit : UInt32) (cs : List Cmd) : stage c bit cs = if c.without bit then [] else cs := by
  unfold stage Config.without
  by_cases h : c.option.step &&& bit = 0 <;> simp [h]

/-- a command that has been sent, `d'` being what is left -/
structure Says (c : Config) (d : Data) (x : Cmd) (d' : Data) : Prop where
  same : d' = { d with headers := d'.headers, current := d'.current, chunks := d'.chunks }
  current : (∀ r, x ≠ .envelopeRecipient r) → d'.current = d.current
  recipient : ∀ r, x = .envelopeRecipient r → c.recipients[d.current]? = some r ∧ d'.current = d.current + 1
  headers : (∀ n v, x ≠ .header n v) → d'.headers = d.headers
  chunks : (∀ b, x ≠ .body b) → d'.chunks = d.chunks

/-- what is sent is the first thing still to be said -/
def Next (c : Config) (d : Data) (l : List Cmd) (s : Sent) : Prop :=
  ∃ x d', s = some (x, d') ∧ l = x :: left c d' (stateOf x) ∧ Says c d x d'

theorem says_same (c : Config) (d : Data) {x : Cmd} (h : ∀ r, x ≠ .envelopeRecipient r) : Says c d x d :=
  ⟨rfl, fun _ => rfl, fun r hr => absurd hr (h r), fun _ => rfl, fun _ => rfl⟩

/-- one stage, and what comes after it -/
theorem stage_next {c : Config} {d : Data} {bit : UInt32} {x : Cmd} {l : List Cmd} {s : Sent} (hx : ∀ r, x ≠ .envelopeRecipient r)
    (hl : left c d (stateOf x) = l) (hn : c.without bit = true → Next c d l s) :
    Next c d (stage c bit [x] ++ l) ((if c.without bit then none else some (x, d)) <|> s) := by
  rw [without_stage]
  cases h : c.without bit with
  | true => exact hn h
  | false => exact ⟨x, d, rfl, by rw [hl]; rfl, says_same c d hx⟩

theorem body_next (c : Config) (d : Data) : Next c d (fromBody c d.chunks) (sendBody c d <|> sendEnd d) := by
  unfold fromBody sendBody
  rw [without_stage]
  cases h : c.without 0x10 with
  | true => exact ⟨_, d, rfl, rfl, says_same c d (by simp)⟩
  | false =>
    cases hc : d.chunks with
    | nil => exact ⟨_, d, rfl, rfl, says_same c d (by simp)⟩
    | cons b bs =>
      refine ⟨.body b, { d with chunks := bs }, rfl, ?_, rfl, fun _ => rfl, fun r hr => (nomatch hr), fun _ => rfl, fun hx => absurd rfl (hx b)⟩
      show _ = _ :: fromBody c bs
      unfold fromBody
      rw [without_stage, h]
      rfl

/-- a piece of the body, if there is one, else something else -/
theorem body_next' {c : Config} {d : Data} {s : Sent} (hs : c.without 0x10 = true ∨ d.chunks = [] → Next c d (fromBody c d.chunks) s) :
    Next c d (fromBody c d.chunks) (sendBody c d <|> s) := by
  unfold sendBody
  cases h : c.without 0x10 with
  | true => exact hs (.inl h)
  | false =>
    cases hc : d.chunks with
    | nil => have := hs (.inr hc); rw [hc] at this; exact this
    | cons b bs =>
      refine ⟨.body b, { d with chunks := bs }, rfl, ?_, rfl, fun _ => rfl, fun r hr => (nomatch hr), fun _ => rfl, fun hx => absurd rfl (hx b)⟩
      show _ = _ :: fromBody c bs
      unfold fromBody
      rw [without_stage, without_stage, h]
      rfl

theorem remove_head (h : Header) (l : List Header) : (Headers.remove (h :: l) h).2 = l := by
  simp [Headers.remove, Headers.find]

/-- a header, if there is one, else something else -/
theorem header_next {c : Config} {d : Data} {s : Sent}
    (hs : c.without 0x20 = true ∨ d.headers = [] → Next c d (stage c 0x40 [.endOfHeader] ++ fromBody c d.chunks) s) :
    Next c d (fromHeader c d.headers d.chunks) (sendHeader c d <|> s) := by
  unfold sendHeader fromHeader
  rw [without_stage c 0x20]
  cases h : c.without 0x20 with
  | true => exact hs (.inl h)
  | false =>
    cases hh : d.headers with
    | nil => exact hs (.inr hh)
    | cons x xs =>
      refine ⟨.header x.name (x.value.getD []), { d with headers := (Headers.remove (x :: xs) x).2 }, ?_, ?_, rfl, fun _ => rfl,
        fun r hr => (nomatch hr), fun hx => absurd rfl (hx _ _), fun _ => rfl⟩
      · simp [Headers.getNth]
      · show _ = _ :: fromHeader c (Headers.remove (x :: xs) x).2 d.chunks
        rw [remove_head]
        unfold fromHeader
        rw [without_stage c 0x20, h]
        rfl

theorem unknowns_eq (c : Config) (d : Data) : (sendUnknown c d = none ∧ unknowns c = []) ∨
    ∃ u, sendUnknown c d = some (.unknown u, d) ∧ unknowns c = [.unknown u] := by
  unfold sendUnknown unknowns
  cases hu : c.unknown with
  | none => left; simp
  | some u =>
    cases h : c.without 0x100 with
    | true => left; simp [without_stage, h]
    | false =>
      by_cases hv : c.option.version < 3
      · left
        have : ¬ 3 ≤ c.option.version := by
          rw [UInt32.not_le]; exact hv
        simp [hv, this]
      · right
        have : 3 ≤ c.option.version := UInt32.not_lt.mp hv
        exact ⟨u, by simp [hv], by simp [this, without_stage, h]⟩

theorem datas_eq (c : Config) (d : Data) : (sendData c d = none ∧ datas c = []) ∨ (sendData c d = some (.data, d) ∧ datas c = [.data]) := by
  unfold sendData datas
  cases h : c.without 0x200 with
  | true => left; simp [without_stage, h]
  | false =>
    by_cases hv : c.option.version < 4
    · left
      have : ¬ 4 ≤ c.option.version := by
        rw [UInt32.not_le]; exact hv
      simp [hv, this]
    · right
      have : 4 ≤ c.option.version := UInt32.not_lt.mp hv
      exact ⟨by simp [hv], by simp [this, without_stage, h]⟩

theorem data_next {c : Config} {d : Data} {s : Sent} (hs : datas c = [] → Next c d (fromHeader c d.headers d.chunks) s) :
    Next c d (datas c ++ fromHeader c d.headers d.chunks) (sendData c d <|> s) := by
  rcases datas_eq c d with ⟨h1, h2⟩ | ⟨h1, h2⟩
  · rw [h1, h2]; exact hs h2
  · rw [h1, h2]; exact ⟨_, d, rfl, rfl, says_same c d (by simp)⟩

/-- a recipient, if there is one, else something else -/
theorem recipient_next {c : Config} {d : Data} {s : Sent}
    (hs : c.without 0x8 = true ∨ c.recipients.drop d.current = [] → Next c d (unknowns c ++ datas c ++ fromHeader c d.headers d.chunks) s) :
    Next c d (fromRecipient c (c.recipients.drop d.current) d.headers d.chunks) (sendRecipient c d <|> s) := by
  unfold sendRecipient fromRecipient
  rw [without_stage c 0x8]
  cases hr : c.recipients[d.current]? with
  | none =>
    have : c.recipients.drop d.current = [] := by
      rw [List.drop_eq_nil_iff]
      exact List.getElem?_eq_none_iff.mp hr
    rw [this]
    have := hs (.inr this)
    cases c.without 0x8 <;> exact this
  | some r =>
    cases h : c.without 0x8 with
    | true => exact hs (.inl h)
    | false =>
      refine ⟨.envelopeRecipient r, { d with current := d.current + 1 }, rfl, ?_, rfl, fun hx => absurd rfl (hx r), fun r' hr' => ?_,
        fun _ => rfl, fun _ => rfl⟩
      · have hlt : d.current < c.recipients.length := (List.getElem?_eq_some_iff.mp hr).1
        have hg : c.recipients[d.current] = r := (List.getElem?_eq_some_iff.mp hr).2
        show _ = _ :: fromRecipient c (c.recipients.drop (d.current + 1)) d.headers d.chunks
        rw [List.drop_eq_getElem_cons hlt, hg]
        unfold fromRecipient
        rw [without_stage c 0x8, h]
        rfl
      · cases hr'
        exact ⟨hr, rfl⟩

theorem unknown_next {c : Config} {d : Data} {s : Sent} (hs : unknowns c = [] → Next c d (datas c ++ fromHeader c d.headers d.chunks) s) :
    Next c d (unknowns c ++ datas c ++ fromHeader c d.headers d.chunks) (sendUnknown c d <|> s) := by
  rw [List.append_assoc]
  rcases unknowns_eq c d with ⟨h1, h2⟩ | ⟨u, h1, h2⟩
  · rw [h1, h2]; exact hs h2
  · rw [h1, h2]; exact ⟨_, d, rfl, rfl, says_same c d (by simp)⟩

/-- the states in which the milter's "continue" is waited for -/
def active : St → Bool
  | .negotiate | .connect | .helo | .envelopeFrom | .envelopeRecipient | .unknown | .data | .header | .endOfHeader | .body => true
  | _ => false

theorem orElse_assoc' (a b : Sent) (f : Sent) : ((a <|> b) <|> f) = (a <|> (b <|> f)) := by
  cases a <;> rfl

/-- after "continue" comes what is due -/
theorem continue_next (c : Config) (d : Data) (st : St) (h : active st = true) : Next c d (left c d st) (continueFrom c d st) := by
  have hbody : Next c d (left c d .body) (continueFrom c d .body) := by
    rw [continueFrom]; exact body_next c d
  have heoh : Next c d (left c d .endOfHeader) (continueFrom c d .endOfHeader) := by
    rw [continueFrom]; exact body_next' fun _ => hbody
  have heoh' : Next c d (stage c 0x40 [.endOfHeader] ++ fromBody c d.chunks) (sendEndOfHeader c d <|> continueFrom c d .endOfHeader) :=
    stage_next (by simp) rfl fun _ => heoh
  have hheader : Next c d (left c d .header) (continueFrom c d .header) := by
    rw [continueFrom]; exact header_next fun _ => heoh'
  have hdata : Next c d (left c d .data) (continueFrom c d .data) := by
    rw [continueFrom]
    show Next c d (fromHeader c d.headers d.chunks) _
    by_cases hh : c.without 0x20 = true ∨ d.headers = []
    · have : sendHeader c d = none := by
        unfold sendHeader
        rcases hh with h | h
        · simp [h]
        · simp [h, Headers.getNth]
      rw [this]; exact hheader
    · exact header_next fun h => absurd h hh
  have hunknown : Next c d (left c d .unknown) (continueFrom c d .unknown) := by
    rw [continueFrom]; exact data_next fun _ => hdata
  have hrecipient : Next c d (left c d .envelopeRecipient) (continueFrom c d .envelopeRecipient) := by
    rw [continueFrom]
    exact recipient_next fun _ => unknown_next fun _ => hunknown
  have hfrom : Next c d (left c d .envelopeFrom) (continueFrom c d .envelopeFrom) := by
    rw [continueFrom]
    show Next c d (fromRecipient c (c.recipients.drop d.current) d.headers d.chunks) _
    cases hs : sendRecipient c d with
    | none => exact hrecipient
    | some x =>
      have := recipient_next (c := c) (d := d) (s := none) ?_
      · rw [hs] at this; exact this
      · intro hh
        exfalso
        unfold sendRecipient at hs
        rcases hh with h | h
        · simp [h] at hs; split at hs <;> cases hs
        · rw [List.drop_eq_nil_iff] at h
          rw [List.getElem?_eq_none_iff.mpr h] at hs
          cases hs
  have hhelo : Next c d (left c d .helo) (continueFrom c d .helo) := by
    rw [continueFrom]; exact stage_next (by simp) rfl fun _ => hfrom
  have hconnect : Next c d (left c d .connect) (continueFrom c d .connect) := by
    rw [continueFrom]
    show Next c d (_ ++ _ ++ _) _
    rw [List.append_assoc]
    exact stage_next (by simp) rfl fun _ => hhelo
  cases st <;> first | (cases h; done) | assumption | skip
  · rw [continueFrom]
    show Next c d (_ ++ _ ++ _ ++ _) _
    rw [List.append_assoc, List.append_assoc]
    refine stage_next (by simp) ?_ fun _ => ?_
    · show left c d .connect = _
      show _ ++ _ ++ _ = _
      rw [List.append_assoc]
    · have := hconnect
      show Next c d (_ ++ (_ ++ _)) _
      rw [← List.append_assoc]
      exact hconnect

theorem without_of {c : Config} {bit : UInt32} (h : c.option.step &&& bit ≠ 0) : c.without bit = true := by
  simpa [Config.without] using h

theorem of_without {c : Config} {bit : UInt32} (h : c.without bit = true) : c.option.step &&& bit ≠ 0 := by
  simpa [Config.without] using h

/-- the bit of a state that says that the milter does not answer -/
def silent : St → UInt32
  | .connect => 0x1000 | .helo => 0x2000 | .envelopeFrom => 0x4000 | .envelopeRecipient => 0x8000 | .unknown => 0x20000
  | .data => 0x10000 | .header => 0x80 | .endOfHeader => 0x40000 | .body => 0x80000 | _ => 0

/-- how far the message is -/
def rank : St → Nat
  | .negotiate => 0 | .connect => 1 | .helo => 2 | .envelopeFrom => 3 | .envelopeRecipient => 4 | .unknown => 5 | .data => 6
  | .header => 7 | .endOfHeader => 8 | .body => 9 | .endOfMessage => 10 | _ => 11

theorem transited_none {c : Config} (d : Data) {st : St} (h : c.without (silent st) = false) : transited c d st = none := by
  cases st <;> unfold transited <;> simp only [silent] at h <;> first | rfl | simp [h]

/-- where the milter does not answer, comes what is due as well -/
theorem transited_next {c : Config} {d : Data} {st : St} {hs : List Header} {bs : List Bytes} (hf : Flows c hs bs)
    (h : active st = true) (hn : st ≠ .negotiate) (hc : rank st < 4 → d.current = 0) (hh : rank st < 7 → d.headers = hs) (hb : rank st < 9 → d.chunks = bs)
    (hw : c.without (silent st) = true) : Next c d (left c d st) (transited c d st) := by
  have hbody : c.without 0x80000 = true → Next c d (left c d .body) (transited c d .body) := by
    intro h; unfold transited; rw [h]; exact body_next c d
  have heoh : d.chunks = bs → c.without 0x40000 = true → Next c d (left c d .endOfHeader) (transited c d .endOfHeader) := by
    intro hb h; unfold transited; rw [h]
    exact body_next' fun hx => hbody (without_of (hf.body (hx.imp of_without (fun e => hb ▸ e))))
  have heoh' : d.chunks = bs → Next c d (stage c 0x40 [.endOfHeader] ++ fromBody c d.chunks) (sendEndOfHeader c d <|> transited c d .endOfHeader) :=
    fun hb => stage_next (by simp) rfl fun hx => heoh hb (without_of (hf.endOfHeader (of_without hx)))
  have hheader : d.chunks = bs → c.without 0x80 = true → Next c d (left c d .header) (transited c d .header) := by
    intro hb h; unfold transited; rw [h]
    exact header_next fun _ => heoh' hb
  have hdata : d.headers = hs → d.chunks = bs → c.without 0x10000 = true → Next c d (left c d .data) (transited c d .data) := by
    intro hh hb h; unfold transited; rw [h]
    show Next c d (fromHeader c d.headers d.chunks) (sendHeader c d <|> transited c d .header)
    by_cases hx : c.without 0x20 = true ∨ d.headers = []
    · have : sendHeader c d = none := by
        unfold sendHeader
        rcases hx with h | h
        · simp [h]
        · simp [h, Headers.getNth]
      rw [this]
      exact hheader hb (without_of (hf.header (hx.imp of_without (fun e => hh ▸ e))))
    · exact header_next fun h => absurd h hx
  have hunknown : d.headers = hs → d.chunks = bs → c.without 0x20000 = true → Next c d (left c d .unknown) (transited c d .unknown) := by
    intro hh hb h; unfold transited; rw [h]
    exact data_next fun hx => hdata hh hb (without_of (hf.data hx))
  have hrecipient : d.headers = hs → d.chunks = bs → c.without 0x8000 = true →
      Next c d (left c d .envelopeRecipient) (transited c d .envelopeRecipient) := by
    intro hh hb h; unfold transited; rw [h]
    refine recipient_next fun _ => unknown_next fun hu => ?_
    by_cases hd : datas c = []
    · have : sendData c d = none := by
        rcases datas_eq c d with ⟨h1, _⟩ | ⟨_, h2⟩
        · exact h1
        · rw [hd] at h2; cases h2
      rw [this]
      exact hunknown hh hb (without_of (hf.unknown hu hd))
    · exact data_next fun h => absurd h hd
  have hfrom : d.current = 0 → d.headers = hs → d.chunks = bs → c.without 0x4000 = true →
      Next c d (left c d .envelopeFrom) (transited c d .envelopeFrom) := by
    intro hc hh hb h; unfold transited; rw [h]
    show Next c d (fromRecipient c (c.recipients.drop d.current) d.headers d.chunks) (sendRecipient c d <|> transited c d .envelopeRecipient)
    by_cases hx : c.without 0x8 = true ∨ c.recipients.drop d.current = []
    · have : sendRecipient c d = none := by
        unfold sendRecipient
        rcases hx with h | h
        · simp [h]; split <;> rfl
        · rw [List.drop_eq_nil_iff] at h
          rw [List.getElem?_eq_none_iff.mpr h]
      rw [this]
      refine hrecipient hh hb (without_of (hf.recipient (hx.imp of_without (fun e => ?_))))
      rw [hc] at e
      exact e
    · exact recipient_next fun h => absurd h hx
  have hhelo : d.current = 0 → d.headers = hs → d.chunks = bs → c.without 0x2000 = true → Next c d (left c d .helo) (transited c d .helo) := by
    intro hc hh hb h; unfold transited; rw [h]
    exact stage_next (by simp) rfl fun hx => hfrom hc hh hb (without_of (hf.from_ (of_without hx)))
  have hconnect : d.current = 0 → d.headers = hs → d.chunks = bs → c.without 0x1000 = true →
      Next c d (left c d .connect) (transited c d .connect) := by
    intro hc hh hb h; unfold transited; rw [h]
    show Next c d (_ ++ _ ++ _) _
    rw [List.append_assoc]
    exact stage_next (by simp) rfl fun hx => hhelo hc hh hb (without_of (hf.helo (of_without hx)))
  cases st <;> first | (cases h; done) | (exact absurd rfl hn) | skip
  · exact hconnect (hc (by decide)) (hh (by decide)) (hb (by decide)) hw
  · exact hhelo (hc (by decide)) (hh (by decide)) (hb (by decide)) hw
  · exact hfrom (hc (by decide)) (hh (by decide)) (hb (by decide)) hw
  · exact hrecipient (hh (by decide)) (hb (by decide)) hw
  · exact hdata (hh (by decide)) (hb (by decide)) hw
  · exact hunknown (hh (by decide)) (hb (by decide)) hw
  · exact hheader (hb (by decide)) hw
  · exact heoh (hb (by decide)) hw
  · exact hbody hw

/-! ### What is still to be said gets later and later -/

theorem rank_stage {c : Config} {bit : UInt32} {cs : List Cmd} {k : Nat} (h : ∀ x ∈ cs, k ≤ rank (stateOf x)) :
    ∀ x ∈ stage c bit cs, k ≤ rank (stateOf x) := by
  intro x hx
  rw [without_stage] at hx
  split at hx
  · cases hx
  · exact h x hx

theorem rank_append {a b : List Cmd} {k : Nat} (ha : ∀ x ∈ a, k ≤ rank (stateOf x)) (hb : ∀ x ∈ b, k ≤ rank (stateOf x)) :
    ∀ x ∈ a ++ b, k ≤ rank (stateOf x) := by
  intro x hx
  rcases List.mem_append.mp hx with h | h
  · exact ha x h
  · exact hb x h

theorem rank_weaken {a : List Cmd} {k l : Nat} (h : l ≤ k) (ha : ∀ x ∈ a, k ≤ rank (stateOf x)) : ∀ x ∈ a, l ≤ rank (stateOf x) :=
  fun x hx => Nat.le_trans h (ha x hx)

theorem rank_body (c : Config) (bs : List Bytes) : ∀ x ∈ fromBody c bs, 9 ≤ rank (stateOf x) := by
  unfold fromBody
  refine rank_append (rank_stage ?_) ?_
  · simp [stateOf, rank]
  · simp [stateOf, rank]

theorem rank_header (c : Config) (hs : List Header) (bs : List Bytes) : ∀ x ∈ fromHeader c hs bs, 7 ≤ rank (stateOf x) := by
  unfold fromHeader
  refine rank_append (rank_append (rank_stage ?_) (rank_stage ?_)) (rank_weaken (by decide) (rank_body c bs))
  · simp [stateOf, rank]
  · simp [stateOf, rank]

theorem rank_datas (c : Config) : ∀ x ∈ datas c, 6 ≤ rank (stateOf x) := by
  rcases datas_eq c { headers := [] , chunks := [], kept := [], sender := [], edited := [] } with ⟨_, h⟩ | ⟨_, h⟩ <;> rw [h] <;> simp [stateOf, rank]

theorem rank_recipient (c : Config) (rs : List Bytes) (hs : List Header) (bs : List Bytes) :
    ∀ x ∈ fromRecipient c rs hs bs, 4 ≤ rank (stateOf x) := by
  unfold fromRecipient
  refine rank_append (rank_append (rank_append (rank_stage ?_) ?_) (rank_weaken (by decide) (rank_datas c)))
    (rank_weaken (by decide) (rank_header c hs bs))
  · simp [stateOf, rank]
  · rcases unknowns_eq c { headers := [] , chunks := [], kept := [], sender := [], edited := [] } with ⟨_, h⟩ | ⟨u, _, h⟩ <;> rw [h] <;>
      simp [stateOf, rank]

theorem left_rank (c : Config) (d : Data) (st : St) : ∀ x ∈ left c d st, rank st ≤ rank (stateOf x) := by
  have hr := rank_recipient c (c.recipients.drop d.current) d.headers d.chunks
  have hf : ∀ x ∈ stage c 0x4 [.envelopeFrom c.from_], 3 ≤ rank (stateOf x) := rank_stage (by simp [stateOf, rank])
  have hh : ∀ x ∈ stage c 0x2 [.helo c.helo], 2 ≤ rank (stateOf x) := rank_stage (by simp [stateOf, rank])
  cases st
  case negotiate => intro x _; exact Nat.zero_le _
  case connect => exact rank_append (rank_append (rank_weaken (by decide) hh) (rank_weaken (by decide) hf)) (rank_weaken (by decide) hr)
  case helo => exact rank_append (rank_weaken (by decide) hf) (rank_weaken (by decide) hr)
  case envelopeFrom => exact rank_weaken (by decide) hr
  case envelopeRecipient => exact hr
  case unknown => exact rank_append (rank_weaken (by decide) (rank_datas c)) (rank_weaken (by decide) (rank_header c _ _))
  case data => exact rank_weaken (by decide) (rank_header c _ _)
  case header => exact rank_header c _ _
  case endOfHeader => exact rank_weaken (by decide) (rank_body c _)
  case body => exact rank_body c _
  case endOfMessage => intro x hx; cases List.mem_singleton.mp hx; decide
  all_goals intro x hx; cases hx


/-! ### The conversation -/

def pending (x : Cmd) : List Bytes := (addressee x).toList

/-- the milter is being asked something: `acc` are the recipients it has accepted, `gone` those it has refused -/
structure Good (c : Config) (hs : List Header) (bs : List Bytes) (last : Cmd) (d : Data) (gone acc : List Bytes) : Prop where
  kept : d.kept.Perm (acc ++ pending last ++ c.recipients.drop d.current)
  all : (acc ++ pending last ++ c.recipients.drop d.current ++ gone).Perm c.recipients
  asked : ∀ r, last = .envelopeRecipient r → 0 < d.current ∧ c.recipients[d.current - 1]? = some r
  started : 0 < rank (stateOf last)
  current : rank (stateOf last) < 4 → d.current = 0
  headers : rank (stateOf last) < 7 → d.headers = hs
  chunks : rank (stateOf last) < 9 → d.chunks = bs

/-- the milter has answered -/
structure Settled (c : Config) (hs : List Header) (bs : List Bytes) (st : St) (d : Data) (gone acc : List Bytes) : Prop where
  kept : d.kept.Perm (acc ++ c.recipients.drop d.current)
  all : (acc ++ c.recipients.drop d.current ++ gone).Perm c.recipients
  current : rank st < 4 → d.current = 0
  headers : rank st < 7 → d.headers = hs
  chunks : rank st < 9 → d.chunks = bs

theorem settled_next {c : Config} {hs : List Header} {bs : List Bytes} {st : St} {d d' : Data} {gone acc : List Bytes} {x : Cmd}
    (h : Settled c hs bs st d gone acc) (hx : Says c d x d') (hr : rank st ≤ rank (stateOf x)) (h0 : 0 < rank (stateOf x)) :
    Good c hs bs x d' gone acc := by
  have hkept : d'.kept = d.kept := by rw [hx.same]
  have hsame : acc ++ pending x ++ c.recipients.drop d'.current = acc ++ c.recipients.drop d.current := by
    by_cases hc : ∃ r, x = .envelopeRecipient r
    · obtain ⟨r, rfl⟩ := hc
      obtain ⟨h1, h2⟩ := hx.recipient r rfl
      have hlt : d.current < c.recipients.length := (List.getElem?_eq_some_iff.mp h1).1
      have hg : c.recipients[d.current] = r := (List.getElem?_eq_some_iff.mp h1).2
      rw [h2, List.drop_eq_getElem_cons hlt, hg]
      simp [pending, addressee]
    · have hn : ∀ r, x ≠ .envelopeRecipient r := fun r e => hc ⟨r, e⟩
      rw [hx.current hn]
      have : pending x = [] := by
        cases x <;> first | rfl | exact absurd rfl (hn _)
      rw [this, List.append_nil]
  refine ⟨?_, ?_, ?_, h0, ?_, ?_, ?_⟩
  · rw [hkept, hsame]; exact h.kept
  · rw [hsame]; exact h.all
  · intro r hr
    obtain ⟨h1, h2⟩ := hx.recipient r hr
    rw [h2]
    exact ⟨Nat.succ_pos _, h1⟩
  · intro hlt
    rw [hx.current fun r e => ?_]
    · exact h.current (by omega)
    · subst e; simp [stateOf, rank] at hlt
  · intro hlt
    rw [hx.headers fun n v e => ?_]
    · exact h.headers (by omega)
    · subst e; simp [stateOf, rank] at hlt
  · intro hlt
    rw [hx.chunks fun b e => ?_]
    · exact h.chunks (by omega)
    · subst e; simp [stateOf, rank] at hlt

theorem good_on {c : Config} {hs : List Header} {bs : List Bytes} {last : Cmd} {d : Data} {gone acc : List Bytes} (h : Good c hs bs last d gone acc) :
    Settled c hs bs (stateOf last) d gone (acc ++ pending last) :=
  ⟨h.kept, h.all, h.current, h.headers, h.chunks⟩

theorem good_refused {c : Config} {hs : List Header} {bs : List Bytes} {r : Bytes} {d : Data} {gone acc : List Bytes}
    (h : Good c hs bs (.envelopeRecipient r) d gone acc) (code : Option (Nat × Bytes × Option Bytes)) :
    Settled c hs bs .envelopeRecipient { d with kept := removeRecipient d.kept (c.recipients.getD (d.current - 1) []), code := code } (gone ++ [r]) acc := by
  obtain ⟨h1, h2⟩ := h.asked r rfl
  have hg : c.recipients.getD (d.current - 1) [] = r := by rw [List.getD_eq_getElem?_getD, h2]; rfl
  have hp : (acc ++ [r] ++ c.recipients.drop d.current).Perm (r :: (acc ++ c.recipients.drop d.current)) := by
    rw [List.append_assoc]
    exact List.perm_middle
  refine ⟨?_, ?_, h.current, h.headers, h.chunks⟩
  · show (removeRecipient d.kept _).Perm _
    rw [hg]
    unfold removeRecipient
    refine ((h.kept.trans hp).erase r).trans ?_
    rw [List.erase_cons_head]
  · refine List.Perm.trans ?_ h.all
    show (acc ++ c.recipients.drop d.current ++ (gone ++ [r])).Perm (acc ++ [r] ++ c.recipients.drop d.current ++ gone)
    rw [← List.append_assoc]
    refine List.perm_append_comm.trans ?_
    exact (List.Perm.append_right gone hp.symm)

/-- either the milter answers everything, or it can be told that nothing comes next -/
def Fits (c : Config) (hs : List Header) (bs : List Bytes) : Prop :=
  (∀ st, c.without (silent st) = false) ∨ Flows c hs bs

theorem decide_twice (p : Prop) [Decidable p] [Decidable ¬ p] : decide p = !decide (¬ p) := by
  by_cases h : p <;> simp [h]

theorem answers_silent {c : Config} {x : Cmd} (h : active (stateOf x) = true) (hn : 0 < rank (stateOf x)) : answered c x = !c.without (silent (stateOf x)) := by
  cases x <;> first | (cases h; done) | (simp [stateOf, rank] at hn; done) | exact decide_twice _

theorem talk_on {c : Config} {d d' : Data} {last x : Cmd} (h : transited c d (stateOf last) = some (x, d')) (n : Nat) (rs : List Reply) :
    talk c (n + 1) last d rs = (x :: (talk c n x d' rs).1, (talk c n x d' rs).2) := by
  conv => lhs; unfold talk
  rw [h]

theorem talk_reply {c : Config} {d : Data} {last : Cmd} (h : transited c d (stateOf last) = none) (ha : answered c last = true) (n : Nat) (r : Reply)
    (rs : List Reply) : talk c (n + 1) last d (r :: rs) = match replied c d (stateOf last) r with
          | .nothing d' => talk c n last d' rs
          | .gives d' => ([.abort, .quit], d')
          | .sends next d' => (next :: (talk c n next d' rs).1, (talk c n next d' rs).2) := by
  conv => lhs; unfold talk
  rw [h]
  have : c.answers last = true := by rw [← ha]; cases last <;> simp [answered, Config.answers, Config.without]
  simp only [this, if_true]
  cases replied c d (stateOf last) r <;> rfl

theorem answers_eq (c : Config) (x : Cmd) : c.answers x = answered c x := by
  cases x <;> simp [answered, Config.answers, Config.without]

theorem left_kept (c : Config) (d : Data) (k : List Bytes) (code : Option (Nat × Bytes × Option Bytes)) (st : St) :
    left c { d with kept := k, code := code } st = left c d st := by
  cases st <;> rfl

theorem ofSent_some {d d' : Data} {x : Cmd} {s : Sent} (h : s = some (x, d')) : Does.ofSent d s = .sends x d' := by rw [h]; rfl

/-- one turn -/
theorem turn {c : Config} {hs : List Header} {bs : List Bytes} (fits : Fits c hs bs) {last : Cmd} {d : Data} {gone acc : List Bytes}
    (good : Good c hs bs last d gone acc) (ha : active (stateOf last) = true) {rs0 : List Reply}
    (hrs : Pointwise goesOn ([last].filter (answered c)) rs0)
    (hg : gone.length + (turnedAway (([last].filter (answered c)).zip rs0)).length < c.recipients.length) :
    ∃ x d' acc', (∀ n rs, talk c (n + 1) last d (rs0 ++ rs) = (x :: (talk c n x d' rs).1, (talk c n x d' rs).2)) ∧
      left c d (stateOf last) = x :: left c d' (stateOf x) ∧
      Good c hs bs x d' (gone ++ turnedAway (([last].filter (answered c)).zip rs0)) acc' := by
  have hx0 : ∀ {x : Cmd} {d d' : Data}, left c d (stateOf last) = x :: left c d' (stateOf x) → rank (stateOf last) ≤ rank (stateOf x) :=
    fun {x d d'} e => left_rank c d (stateOf last) x (by rw [e]; exact List.mem_cons_self)
  cases hans : answered c last with
  | false =>
    have hw : c.without (silent (stateOf last)) = true := by
      rw [answers_silent ha good.started] at hans
      simpa using hans
    have hf : Flows c hs bs := by
      rcases fits with h | h
      · rw [h] at hw; cases hw
      · exact h
    have e0 : [last].filter (answered c) = [] := by simp [hans]
    rw [e0] at hrs ⊢
    cases hrs
    obtain ⟨x, d', h1, h2, h3⟩ := transited_next hf ha (fun e => by have := good.started; rw [e] at this; cases this) good.current good.headers good.chunks hw
    have hr := hx0 h2
    refine ⟨x, d', acc ++ pending last, ?_, h2, ?_⟩
    · intro n rs
      show talk c (n + 1) last d rs = _
      exact talk_on h1 n rs
    · simpa [turnedAway] using settled_next (good_on good) h3 hr (Nat.lt_of_lt_of_le good.started hr)
  | true =>
    have hw : c.without (silent (stateOf last)) = false := by
      rw [answers_silent ha good.started] at hans
      simpa using hans
    have hnone := transited_none d hw
    have e0 : [last].filter (answered c) = [last] := by simp [hans]
    rw [e0] at hrs hg ⊢
    cases hrs with
    | cons hr hnil =>
      cases hnil
      rename_i r
      have htalk : ∀ {x d'}, replied c d (stateOf last) r = .sends x d' →
          ∀ n rs, talk c (n + 1) last d ([r] ++ rs) = (x :: (talk c n x d' rs).1, (talk c n x d' rs).2) := by
        intro x d' hx n rs
        show talk c (n + 1) last d (r :: rs) = _
        rw [talk_reply hnone hans, hx]
      by_cases hcont : r = .cont
      · subst hcont
        obtain ⟨x, d', h1, h2, h3⟩ := continue_next c d _ ha
        have hr := hx0 h2
        refine ⟨x, d', acc ++ pending last, htalk (ofSent_some h1), h2, ?_⟩
        simpa [turnedAway, isRefusal] using settled_next (good_on good) h3 hr (Nat.lt_of_lt_of_le good.started hr)
      · obtain ⟨a, rfl, href⟩ : ∃ a, last = .envelopeRecipient a ∧ isRefusal r = true := by
          cases last <;> first | exact absurd hr hcont | exact ⟨_, rfl, hr.resolve_left hcont⟩
        have hta : turnedAway ([Cmd.envelopeRecipient a].zip [r]) = [a] := by simp [turnedAway, href, addressee]
        rw [hta] at hg ⊢
        have main : ∀ code, ∃ x d' acc', Does.ofSent { d with kept := removeRecipient d.kept (c.recipients.getD (d.current - 1) []), code := code }
              (continueFrom c { d with kept := removeRecipient d.kept (c.recipients.getD (d.current - 1) []), code := code } .envelopeRecipient) = .sends x d' ∧
            left c d .envelopeRecipient = x :: left c d' (stateOf x) ∧ Good c hs bs x d' (gone ++ [a]) acc' ∧
            removeRecipient d.kept (c.recipients.getD (d.current - 1) []) ≠ [] := by
          intro code
          have hset := good_refused good code
          obtain ⟨x, d', h1, h2, h3⟩ := continue_next c { d with kept := removeRecipient d.kept (c.recipients.getD (d.current - 1) []), code := code } .envelopeRecipient rfl
          have hr : rank .envelopeRecipient ≤ rank (stateOf x) := hx0 h2
          refine ⟨x, d', acc, ofSent_some h1, ?_, settled_next hset h3 hr (Nat.lt_of_lt_of_le good.started hr), ?_⟩
          · rw [← left_kept c d _ code]; exact h2
          · intro e
            have h4 := hset.kept.length_eq
            have h5 := hset.all.length_eq
            simp only [List.length_append, e, List.length_nil, List.length_singleton] at h4 h5 hg
            omega
        have fin : ∀ code, replied c d .envelopeRecipient r = refused c { d with code := code } .envelopeRecipient →
            ∃ x d' acc', (∀ n rs, talk c (n + 1) (.envelopeRecipient a) d ([r] ++ rs) = (x :: (talk c n x d' rs).1, (talk c n x d' rs).2)) ∧
              left c d .envelopeRecipient = x :: left c d' (stateOf x) ∧ Good c hs bs x d' (gone ++ [a]) acc' := by
          intro code hrep
          obtain ⟨x, d', acc', h1, h2, h3, h4⟩ := main code
          refine ⟨x, d', acc', htalk ?_, h2, h3⟩
          show replied c d .envelopeRecipient r = _
          rw [hrep]
          unfold refused
          rw [if_pos rfl]
          show (if removeRecipient d.kept _ ≠ [] then _ else _) = _
          rw [if_pos h4]
          exact h1
        cases r <;> first | (cases href; done) | exact fin d.code rfl | exact fin _ rfl

theorem pointwise_split {α β : Type} {R : α → β → Prop} (a b : List α) {rs : List β} (h : Pointwise R (a ++ b) rs) :
    ∃ r0 r1, rs = r0 ++ r1 ∧ Pointwise R a r0 ∧ Pointwise R b r1 ∧ a.length = r0.length := by
  induction a generalizing rs with
  | nil => exact ⟨[], rs, rfl, .nil, h, rfl⟩
  | cons x a ih =>
    cases h with
    | cons h1 h2 =>
      obtain ⟨r0, r1, rfl, h3, h4, h5⟩ := ih h2
      exact ⟨_ :: r0, r1, rfl, .cons h1 h3, h4, by simp [h5]⟩

theorem turnedAway_append (a b : List Cmd) (r0 r1 : List Reply) (h : a.length = r0.length) :
    turnedAway ((a ++ b).zip (r0 ++ r1)) = turnedAway (a.zip r0) ++ turnedAway (b.zip r1) := by
  unfold turnedAway
  rw [List.zip_append h, List.filter_append, List.filterMap_append]

theorem left_active (c : Config) (d : Data) (st : St) (h : 2 ≤ (left c d st).length) : active st = true := by
  cases st <;> first | rfl | (simp [left] at h)

/-- a part of the conversation -/
theorem reach {c : Config} {hs : List Header} {bs : List Bytes} (fits : Fits c hs bs) (cs : List Cmd) :
    ∀ {last : Cmd} {d : Data} {gone acc : List Bytes} {rest : List Cmd} {rs : List Reply}, left c d (stateOf last) = cs ++ rest → rest ≠ [] →
    Good c hs bs last d gone acc → Pointwise goesOn ((last :: cs).dropLast.filter (answered c)) rs →
    gone.length + (turnedAway (((last :: cs).dropLast.filter (answered c)).zip rs)).length < c.recipients.length →
    ∃ y d' acc', (last :: cs).getLast? = some y ∧
      (∀ n more, talk c (n + cs.length) last d (rs ++ more) = (cs ++ (talk c n y d' more).1, (talk c n y d' more).2)) ∧
      left c d' (stateOf y) = rest ∧ Good c hs bs y d' (gone ++ turnedAway (((last :: cs).dropLast.filter (answered c)).zip rs)) acc' := by
  induction cs with
  | nil =>
    intro last d gone acc rest rs hl hne good hrs hg
    cases hrs
    exact ⟨last, d, acc, rfl, fun n more => rfl, hl, by simpa [turnedAway] using good⟩
  | cons x cs ih =>
    intro last d gone acc rest rs hl hne good hrs hg
    have hact : active (stateOf last) = true := left_active c d _ (by
      rw [hl]
      have := List.length_pos_iff.mpr hne
      simp
      omega)
    have hdrop : (last :: x :: cs).dropLast.filter (answered c) = [last].filter (answered c) ++ (x :: cs).dropLast.filter (answered c) := by
      rw [List.dropLast_cons_cons, ← List.singleton_append, List.filter_append]
    rw [hdrop] at hrs hg
    obtain ⟨r0, r1, rfl, h0, h1, hlen⟩ := pointwise_split _ _ hrs
    rw [turnedAway_append _ _ _ _ hlen, List.length_append] at hg
    obtain ⟨x', d1, acc1, t1, t2, t3⟩ := turn fits good hact h0 (by omega)
    have e : x' = x ∧ left c d1 (stateOf x') = cs ++ rest := by
      rw [hl] at t2
      have := List.cons.inj t2
      exact ⟨this.1.symm, this.2.symm⟩
    obtain ⟨rfl, hl1⟩ := e
    obtain ⟨y, d', acc', u0, u1, u2, u3⟩ := ih hl1 hne t3 h1 (by rw [List.length_append]; omega)
    refine ⟨y, d', acc', ?_, ?_, u2, ?_⟩
    · rw [List.getLast?_cons_cons]; exact u0
    · intro n more
      rw [List.append_assoc]
      show talk c ((n + cs.length) + 1) _ _ _ = _
      rw [t1, u1]
      rfl
    · rw [hdrop, turnedAway_append _ _ _ _ hlen, ← List.append_assoc]
      exact u3

theorem script_ends (c : Config) (hs : List Header) (bs : List Bytes) : ∃ pre, script c hs bs = pre ++ [.endOfMessage [], .quit] := by
  unfold script fromRecipient fromHeader fromBody
  exact ⟨_, by simp only [← List.append_assoc]; rfl⟩

theorem fits_of {c : Config} {hs : List Header} {bs : List Bytes} (h : c.option.step &&& 0xff080 = 0 ∨ Flows c hs bs) : Fits c hs bs := by
  rcases h with h | h
  · left
    have bit : ∀ b : UInt32, 0xff080 &&& b = b → c.without b = false := by
      intro b hb
      have : c.option.step &&& b = 0 := by rw [← hb, ← UInt32.and_assoc, h, UInt32.zero_and]
      simp [Config.without, this]
    intro st
    cases st <;> exact bit _ (by decide)
  · exact .inr h

/-- the conversation up to the question `y` -/
theorem reach_start {c : Config} {m : Mail} (hm : c.recipients = m.recipients) (fits : c.option.step &&& 0xff080 = 0 ∨ Flows c m.headers m.body)
    {before rest : List Cmd} {y : Cmd} (hs : script c m.headers m.body = before ++ y :: rest) (hy : answered c y = true) {front : List Reply}
    (hf : Pointwise goesOn (before.filter (answered c)) front)
    (hg : (turnedAway ((before.filter (answered c)).zip front)).length < c.recipients.length) :
    ∃ d' acc', (∀ n more, converse c (n + before.length) (Data.start m) (front ++ more) =
        (before ++ y :: (talk c n y d' more).1, (talk c n y d' more).2)) ∧
      left c d' (stateOf y) = rest ∧ rest ≠ [] ∧
      Good c m.headers m.body y d' (turnedAway ((before.filter (answered c)).zip front)) acc' := by
  have hrest : rest ≠ [] := by
    intro e
    obtain ⟨pre, hp⟩ := script_ends c m.headers m.body
    rw [hs, e] at hp
    have h1 := congrArg List.getLast? hp
    rw [List.getLast?_concat] at h1
    have h2 : (pre ++ [Cmd.endOfMessage [], Cmd.quit]).getLast? = some .quit := by
      rw [show pre ++ [Cmd.endOfMessage [], Cmd.quit] = (pre ++ [.endOfMessage []]) ++ [.quit] by simp, List.getLast?_concat]
    rw [h2] at h1
    injection h1 with h1
    rw [h1] at hy
    cases hy
  have hset : Settled c m.headers m.body .negotiate (Data.start m) [] [] := by
    refine ⟨?_, ?_, fun _ => rfl, fun _ => rfl, fun _ => rfl⟩
    · show m.recipients.Perm ([] ++ c.recipients.drop 0)
      rw [hm]; exact List.Perm.refl _
    · show ([] ++ c.recipients.drop 0 ++ []).Perm c.recipients
      simp
  obtain ⟨x, d1, h1, h2, h3⟩ := continue_next c (Data.start m) .negotiate rfl
  have hleft : left c (Data.start m) .negotiate = script c m.headers m.body := rfl
  rw [hleft] at h2
  have hx0 : 0 < rank (stateOf x) := by
    apply Classical.byContradiction
    intro h
    have hx : stateOf x = .negotiate := by
      cases hst : stateOf x <;> rw [hst] at h <;> first | rfl | (simp [rank] at h)
    have hmem : x ∈ script c m.headers m.body := by rw [h2]; exact List.mem_cons_self
    unfold script at hmem
    have hr := rank_recipient c c.recipients m.headers m.body
    have : ∀ z ∈ stage c 0x1 [.connect c.host c.address] ++ stage c 0x2 [.helo c.helo] ++ stage c 0x4 [.envelopeFrom c.from_] ++
        fromRecipient c c.recipients m.headers m.body, 1 ≤ rank (stateOf z) :=
      rank_append (rank_append (rank_append (rank_stage (by simp [stateOf, rank])) (rank_stage (by simp [stateOf, rank]))) (rank_stage (by simp [stateOf, rank])))
        (rank_weaken (by decide) hr)
    have := this _ hmem
    rw [hx] at this
    cases this
  have hgood := settled_next hset h3 (Nat.zero_le _) hx0
  -- the first command and those after it
  obtain ⟨cs', hcs⟩ : ∃ cs', before ++ [y] = x :: cs' := by
    rw [hs] at h2
    cases before with
    | nil => exact ⟨[], by rw [List.nil_append] at h2 ⊢; rw [(List.cons.inj h2).1]⟩
    | cons b bs => exact ⟨bs ++ [y], by rw [List.cons_append] at h2 ⊢; rw [(List.cons.inj h2).1]⟩
  have hd : (x :: cs').dropLast = before := by rw [← hcs, List.dropLast_concat]
  have hll : cs'.length = before.length := by
    have := congrArg List.length hcs
    simp at this
    omega
  have hl : left c d1 (stateOf x) = cs' ++ rest := by
    rw [hs, show before ++ y :: rest = before ++ [y] ++ rest by simp, hcs] at h2
    exact (List.cons.inj h2).2.symm
  obtain ⟨y', d', acc', u0, u1, u2, u3⟩ := reach (fits_of fits) cs' hl hrest hgood (by rw [hd]; exact hf) (by rw [hd]; simpa using hg)
  rw [← hcs, List.getLast?_concat] at u0
  injection u0 with u0
  subst u0
  refine ⟨d', acc', ?_, u2, hrest, by rw [hd] at u3; simpa using u3⟩
  intro n more
  unfold converse
  rw [h1]
  dsimp only
  rw [← hll, u1]
  rw [show before ++ y :: (talk c n y d' more).1 = before ++ [y] ++ (talk c n y d' more).1 by simp, hcs]
  rfl

/-- changes, and then something else -/
theorem talk_changes (c : Config) (mods : List Reply) (h : ∀ r ∈ mods, isChange r = true) : ∀ (d : Data) (n : Nat) (more : List Reply),
    ∃ d', talk c (n + mods.length) (.endOfMessage []) d (mods ++ more) = talk c n (.endOfMessage []) d' more ∧ (mods = [] → d' = d) := by
  induction mods with
  | nil => exact fun d n more => ⟨d, rfl, fun _ => rfl⟩
  | cons r mods ih =>
    intro d n more
    have hr := h r List.mem_cons_self
    obtain ⟨d1, hd1⟩ : ∃ d1, replied c d (stateOf (.endOfMessage [])) r = .nothing d1 := by
      cases r <;> first | (cases hr; done) | exact ⟨_, rfl⟩
    obtain ⟨d', h1, _⟩ := ih (fun r hr => h r (List.mem_cons_of_mem _ hr)) d1 n more
    refine ⟨d', ?_, fun e => by cases e⟩
    rw [← h1]
    show talk c ((n + mods.length) + 1) _ _ (r :: (mods ++ more)) = _
    rw [talk_reply (by unfold transited; rfl) rfl, hd1]

theorem talk_end (c : Config) (mods : List Reply) (h : ∀ r ∈ mods, isChange r = true) (d : Data) (n : Nat) :
    (talk c (n + 1 + mods.length) (.endOfMessage []) d (mods ++ [.cont])).1 = [.quit] ∧
      (mods = [] → (talk c (n + 1 + mods.length) (.endOfMessage []) d (mods ++ [.cont])).2 = d) := by
  obtain ⟨d', h1, h2⟩ := talk_changes c mods h d (n + 1) [.cont]
  have hq : ∀ k d'', talk c k .quit d'' [] = ([], d'') := by
    intro k d''
    cases k with
    | zero => rfl
    | succ k =>
      unfold talk
      have : transited c d'' (stateOf .quit) = none := by unfold transited; rfl
      rw [this]
      rfl
  have hc : talk c (n + 1) (.endOfMessage []) d' [.cont] = ([.quit], d') := by
    rw [talk_reply (by unfold transited; rfl) rfl]
    have : replied c d' (stateOf (.endOfMessage [])) .cont = .sends .quit d' := by
      show Does.ofSent d' (continueFrom c d' .endOfMessage) = _
      unfold continueFrom
      rfl
    rw [this]
    dsimp only
    rw [hq]
  rw [h1, hc]
  exact ⟨rfl, h2⟩

/-- **C117**: a milter that lets the message pass, possibly refusing some of the recipients and changing the message at its end, is told exactly the whole mail in the order of the protocol, less
what it has asked to leave out, and the recipients it has refused are those that are not kept.  Missing: milters that do not answer some commands and ask to leave out those
that follow (`C117_silent_violated`). -/
theorem C117_partial (c : Config) (m : Mail) (hm : c.recipients = m.recipients) (fits : c.option.step &&& 0xff080 = 0 ∨ Flows c m.headers m.body)
    (before : List Cmd) (hs : script c m.headers m.body = before ++ [.endOfMessage [], .quit]) (front mods : List Reply)
    (hf : Pointwise goesOn (before.filter (answered c)) front) (hmods : ∀ r ∈ mods, isChange r = true)
    (hg : (turnedAway ((before.filter (answered c)).zip front)).length < c.recipients.length) (n : Nat) (hn : before.length + mods.length < n) :
    let end_ := converse c n (Data.start m) (front ++ mods ++ [.cont])
    end_.1 = script c m.headers m.body ∧
      (mods = [] → (end_.2.kept ++ turnedAway ((before.filter (answered c)).zip front)).Perm c.recipients) := by
  intro end_
  obtain ⟨d', acc', h1, h2, h3, h4⟩ := reach_start hm fits hs rfl hf hg
  obtain ⟨k, rfl⟩ : ∃ k, n = k + 1 + mods.length + before.length := ⟨n - 1 - mods.length - before.length, by omega⟩
  have he : end_ = (before ++ .endOfMessage [] :: (talk c (k + 1 + mods.length) (.endOfMessage []) d' (mods ++ [.cont])).1,
      (talk c (k + 1 + mods.length) (.endOfMessage []) d' (mods ++ [.cont])).2) := by
    show converse c _ _ (front ++ mods ++ [.cont]) = _
    rw [List.append_assoc, h1]
  obtain ⟨t1, t2⟩ := talk_end c mods hmods d' k
  rw [he]
  refine ⟨?_, ?_⟩
  · show before ++ _ :: _ = _
    rw [t1, hs]
  · intro e
    show ((talk c _ _ _ _).2.kept ++ _).Perm _
    rw [t2 e]
    refine (List.Perm.append_right _ h4.kept).trans h4.all

/-- **C117** (the milter stops the session): after accept or discard, or a refusal of anything but a recipient, nothing more of the mail is told: only that it is given up. -/
theorem C117_stops_partial (c : Config) (m : Mail) (hm : c.recipients = m.recipients) (fits : c.option.step &&& 0xff080 = 0 ∨ Flows c m.headers m.body)
    (before rest : List Cmd) (y : Cmd) (hs : script c m.headers m.body = before ++ y :: rest) (hy : answered c y = true) (front mods : List Reply) (r : Reply)
    (hf : Pointwise goesOn (before.filter (answered c)) front) (hmods : ∀ r ∈ mods, isChange r = true) (he : mods = [] ∨ y = .endOfMessage [])
    (hr : stops y r) (hg : (turnedAway ((before.filter (answered c)).zip front)).length < c.recipients.length) (more : List Reply) (n : Nat)
    (hn : before.length + mods.length < n) :
    (converse c n (Data.start m) (front ++ mods ++ r :: more)).1 = before ++ [y, .abort, .quit] := by
  obtain ⟨d', acc', h1, h2, h3, h4⟩ := reach_start hm fits hs hy hf hg
  have hstop : ∀ d, ∃ d'', replied c d (stateOf y) r = .gives d'' := by
    intro d
    have hne : r = .accept ∨ r = .discard ∨ (isRefusal r = true ∧ stateOf y ≠ .envelopeRecipient) := by
      cases y <;> first
        | (rcases hr with h | h
           · exact .inl h
           · exact .inr (.inl h))
        | (rcases hr with h | h | h
           · exact .inl h
           · exact .inr (.inl h)
           · exact .inr (.inr ⟨h, fun e => nomatch e⟩))
    rcases hne with rfl | rfl | ⟨h, hst⟩
    · exact ⟨_, rfl⟩
    · exact ⟨_, rfl⟩
    · cases r <;> first | (cases h; done) | exact ⟨_, if_neg hst⟩
  have hnone : ∀ d, transited c d (stateOf y) = none := by
    intro d
    by_cases hact : active (stateOf y) = true
    · apply transited_none
      rw [answers_silent hact h4.started] at hy
      simpa using hy
    · cases y <;> first | (unfold transited; rfl) | exact absurd rfl hact
  have hone : ∀ d k, (talk c (k + 1) y d (r :: more)).1 = [.abort, .quit] := by
    intro d k
    obtain ⟨d'', hd⟩ := hstop d
    rw [talk_reply (hnone d) hy, hd]
  obtain ⟨k, rfl⟩ : ∃ k, n = k + 1 + mods.length + before.length := ⟨n - 1 - mods.length - before.length, by omega⟩
  rw [List.append_assoc, h1]
  show before ++ y :: _ = _
  congr 2
  rcases he with rfl | rfl
  · exact hone d' k
  · obtain ⟨d'', e1, _⟩ := talk_changes c mods hmods d' (k + 1) (r :: more)
    rw [e1]
    exact hone d'' k

/-- **C117** (no recipient is left): when the last recipient that is left is refused, the message is given up. -/
theorem C117_everybody_partial (c : Config) (m : Mail) (hm : c.recipients = m.recipients) (fits : c.option.step &&& 0xff080 = 0 ∨ Flows c m.headers m.body)
    (before rest : List Cmd) (to : Bytes) (hs : script c m.headers m.body = before ++ .envelopeRecipient to :: rest)
    (hy : answered c (.envelopeRecipient to) = true) (front : List Reply) (r : Reply)
    (hf : Pointwise goesOn (before.filter (answered c)) front) (hr : isRefusal r = true)
    (hg : (turnedAway ((before.filter (answered c)).zip front)).length + 1 = c.recipients.length) (more : List Reply) (n : Nat)
    (hn : before.length < n) :
    (converse c n (Data.start m) (front ++ r :: more)).1 = before ++ [.envelopeRecipient to, .abort, .quit] := by
  obtain ⟨d', acc', h1, h2, h3, h4⟩ := reach_start hm fits hs hy hf (by omega)
  have hempty : ∀ code, ({ d' with kept := removeRecipient d'.kept (c.recipients.getD (d'.current - 1) []), code := code } : Data).kept = [] := by
    intro code
    have hset := good_refused h4 code
    have hl := hset.all.length_eq
    simp only [List.length_append, List.length_singleton] at hl
    have : (acc' ++ c.recipients.drop d'.current).length = 0 := by
      rw [List.length_append]
      omega
    have hk := hset.kept.length_eq
    exact List.length_eq_zero_iff.mp (hk.trans this)
  have hgive : ∃ d'', replied c d' .envelopeRecipient r = .gives d'' := by
    have : ∀ code, ∃ d'', refused c { d' with code := code } .envelopeRecipient = .gives d'' := by
      intro code
      unfold refused
      rw [if_pos rfl]
      have h := hempty code
      exact ⟨_, if_neg (fun hx => hx h)⟩
    cases r <;> first | (cases hr; done) | exact this d'.code | exact this _
  obtain ⟨d'', hd⟩ := hgive
  obtain ⟨k, rfl⟩ : ∃ k, n = k + 1 + before.length := ⟨n - 1 - before.length, by omega⟩
  have hnone : transited c d' (stateOf (.envelopeRecipient to)) = none := by
    apply transited_none
    rw [answers_silent rfl h4.started] at hy
    simpa using hy
  rw [h1]
  show before ++ _ :: (talk c (k + 1) _ _ _).1 = _
  rw [talk_reply hnone hy]
  show before ++ _ :: (match replied c d' .envelopeRecipient r with
          | .nothing d' => talk c k (.envelopeRecipient to) d' more
          | .gives d' => ([.abort, .quit], d')
          | .sends next d' => (next :: (talk c k next d' more).1, (talk c k next d' more).2)).1 = _
  rw [hd]

/-- **C117** (skip): a milter that has seen enough of the body is told no more of it, but that the message has ended. -/
theorem C117_skip_partial (c : Config) (m : Mail) (hm : c.recipients = m.recipients) (fits : c.option.step &&& 0xff080 = 0 ∨ Flows c m.headers m.body)
    (before rest : List Cmd) (b : Bytes) (hs : script c m.headers m.body = before ++ .body b :: rest)
    (hy : answered c (.body b) = true) (front mods : List Reply) (hf : Pointwise goesOn (before.filter (answered c)) front)
    (hmods : ∀ r ∈ mods, isChange r = true)
    (hg : (turnedAway ((before.filter (answered c)).zip front)).length < c.recipients.length) (n : Nat) (hn : before.length + mods.length + 1 < n) :
    (converse c n (Data.start m) (front ++ .skip :: mods ++ [.cont])).1 = before ++ [.body b, .endOfMessage [], .quit] := by
  obtain ⟨d', acc', h1, h2, h3, h4⟩ := reach_start hm fits hs hy hf hg
  obtain ⟨k, rfl⟩ : ∃ k, n = k + 1 + mods.length + 1 + before.length := ⟨n - 2 - mods.length - before.length, by omega⟩
  have hnone : transited c d' (stateOf (.body b)) = none := by
    apply transited_none
    rw [answers_silent rfl h4.started] at hy
    simpa using hy
  have hskip : replied c d' (stateOf (.body b)) .skip = .sends (.endOfMessage []) { d' with chunks := [] } := by
    show Does.ofSent _ (continueFrom c { d' with chunks := [] } .body) = _
    have : continueFrom c { d' with chunks := [] } .body = some (.endOfMessage [], { d' with chunks := [] }) := by
      unfold continueFrom sendBody
      cases c.without 0x10 <;> rfl
    rw [this]
    rfl
  rw [List.append_assoc, h1]
  show before ++ _ :: (talk c (k + 1 + mods.length + 1) _ _ (.skip :: (mods ++ [.cont]))).1 = _
  rw [talk_reply hnone hy, hskip]
  dsimp only
  rw [(talk_end c mods hmods _ k).1]

/-- a milter that does not answer RCPT, and a mail with a body in two pieces -/
def someMilter : Config :=
  { host := ascii "mail", address := .unspec, helo := ascii "example.com", from_ := ascii "<a>", recipients := [ascii "<b>", ascii "<c>"],
    unknown := none, option := ⟨6, 0, 0x1 ||| 0x8000⟩ }

def someMail : Mail :=
  { headers := [⟨ascii "Subject", some (ascii "hi")⟩], from_ := ascii "<a>", recipients := [ascii "<b>", ascii "<c>"], body := [ascii "x", ascii "y"] }

def choosyMilter : Config := { someMilter with option := ⟨6, 0, 0x1⟩ }

example : (converse choosyMilter 100 (Data.start someMail) [.cont, .cont, .reject, .cont, .cont, .cont, .cont, .skip, .addHeader [88] [89], .cont]).1 =
    [.helo (ascii "example.com"), .envelopeFrom (ascii "<a>"), .envelopeRecipient (ascii "<b>"), .envelopeRecipient (ascii "<c>"), .data,
     .header (ascii "Subject") (ascii "hi"), .endOfHeader, .body (ascii "x"), .endOfMessage [], .quit] := by decide +kernel

/-- the hypotheses of `C117_partial` are met: the first of two recipients is refused, and a header is added -/
example : ∃ before front, choosyMilter.recipients = someMail.recipients ∧ choosyMilter.option.step &&& 0xff080 = 0 ∧
    script choosyMilter someMail.headers someMail.body = before ++ [.endOfMessage [], .quit] ∧
    Pointwise goesOn (before.filter (answered choosyMilter)) front ∧ (turnedAway ((before.filter (answered choosyMilter)).zip front)).length = 1 := by
  refine ⟨[.helo (ascii "example.com"), .envelopeFrom (ascii "<a>"), .envelopeRecipient (ascii "<b>"), .envelopeRecipient (ascii "<c>"), .data,
     .header (ascii "Subject") (ascii "hi"), .endOfHeader, .body (ascii "x"), .body (ascii "y")],
     [.cont, .cont, .replyCode 550 [53] none, .cont, .cont, .cont, .cont, .cont, .cont], rfl, by decide, by decide +kernel, ?_, by decide +kernel⟩
  exact .cons rfl (.cons rfl (.cons (.inr rfl) (.cons (.inl rfl) (.cons rfl (.cons rfl (.cons rfl (.cons rfl (.cons rfl .nil))))))))

/-- and by a milter that does not answer RCPT -/
example : Flows someMilter someMail.headers someMail.body :=
  ⟨by decide, by decide, by decide, by decide, by decide, by decide, by decide, by decide⟩

/-- **C117 fails** for a milter that does not answer the connection and wants no HELO: after the connection it is told nothing more, whatever it does. -/
theorem C117_silent_violated (c : Config) (h1 : c.option.step &&& 0x1 = 0) (h2 : c.option.step &&& 0x1000 ≠ 0) (h3 : c.option.step &&& 0x2 ≠ 0)
    (h4 : c.option.step &&& 0x2000 = 0) (d : Data) (n : Nat) (rs : List Reply) : (converse c n d rs).1 = [.connect c.host c.address] := by
  have w : ∀ b, c.option.step &&& b = 0 → c.without b = false := fun b h => by simp [Config.without, h]
  have hc : continueFrom c d .negotiate = some (.connect c.host c.address, d) := by
    unfold continueFrom sendConnect
    rw [w _ h1]
    rfl
  have ht : transited c d .connect = none := by
    have h5 : transited c d .helo = none := transited_none d (w _ h4)
    unfold transited sendHelo
    rw [without_of h2, without_of h3, h5]
    rfl
  have : (talk c n (.connect c.host c.address) d rs).1 = [] := by
    cases n with
    | zero => rfl
    | succ n =>
      unfold talk
      rw [show transited c d (stateOf (.connect c.host c.address)) = none from ht]
      simp only [Config.answers, without_of h2]
      rfl
  unfold converse
  rw [hc]
  show _ :: _ = _
  rw [this]

/-- **C117 fails** for a milter that does not answer RCPT and wants neither DATA nor unknown commands: after the last recipient it is told nothing more. -/
theorem C117_recipient_violated (c : Config) (h1 : c.option.step &&& 0x8000 ≠ 0) (h2 : c.option.step &&& 0x200 ≠ 0) (h3 : c.option.step &&& 0x100 ≠ 0)
    (h4 : c.option.step &&& 0x20000 = 0) (d : Data) (hd : c.recipients.length ≤ d.current) (r : Bytes) (n : Nat) (rs : List Reply) :
    talk c n (.envelopeRecipient r) d rs = ([], d) := by
  have w : ∀ b, c.option.step &&& b = 0 → c.without b = false := fun b h => by simp [Config.without, h]
  have ht : transited c d .envelopeRecipient = none := by
    have h5 : transited c d .unknown = none := transited_none d (w _ h4)
    have h6 : sendUnknown c d = none := by
      unfold sendUnknown
      cases c.unknown <;> simp [without_of h3]
    have h7 : sendData c d = none := by
      unfold sendData
      simp [without_of h2]
    have h8 : sendRecipient c d = none := by
      unfold sendRecipient
      rw [List.getElem?_eq_none_iff.mpr hd]
    unfold transited
    rw [without_of h1, h5, h6, h7, h8]
    rfl
  cases n with
  | zero => rfl
  | succ n =>
    unfold talk
    rw [show transited c d (stateOf (.envelopeRecipient r)) = none from ht]
    simp only [Config.answers, without_of h1]
    rfl

/-! ## C118: what is printed -/

theorem normalize_brackets (a : Bytes) : Brackets a (normalize a) := by
  unfold normalize
  by_cases h : Bracketed a
  · refine .inl ⟨h, if_pos ?_⟩
    obtain ⟨inner, rfl⟩ := h
    exact ⟨rfl, by rw [List.getLast?_concat]⟩
  · refine .inr ⟨h, ?_⟩
    split
    · rename_i hb
      exfalso
      -- "<" alone has no end
      cases a with
      | nil => cases hb.1
      | cons x a =>
        have hx : x = 0x3c := by simpa using hb.1
        subst hx
        rcases List.eq_nil_or_concat a with rfl | ⟨b, y, rfl⟩
        · cases hb.2
        · have hy : y = 0x3e := by
            have h2 := hb.2
            rw [List.concat_eq_append, ← List.cons_append, List.getLast?_concat] at h2
            exact Option.some.inj h2
          subst hy
          exact h ⟨b, by simp⟩
    · rfl

/-- **C118** (the changes): the message that is shown is the one that was sent, with the changes the milter has asked for in their order: headers, recipients, the last sender asked for, the pieces of
the new body together. -/
theorem C118_changes (c : Config) (mods : List Reply) (h : ∀ r ∈ mods, isChange r = true) : ∀ (d : Data) (n : Nat) (more : List Reply),
    ∃ d', talk c (n + mods.length) (.endOfMessage []) d (mods ++ more) = talk c n (.endOfMessage []) d' more ∧
      d'.edited = mods.foldl headersAfter d.edited ∧ d'.replaced = d.replaced ++ (bodies mods).flatten ∧
      Recipients mods d.kept d'.kept ∧ (∀ f, (senders mods).getLast? = some f → Brackets f d'.sender) ∧ (senders mods = [] → d'.sender = d.sender) ∧
      d'.reason = (reasons mods).getLast?.or d.reason ∧ d'.success = d.success ∧ d'.code = d.code := by
  induction mods with
  | nil => exact fun d n more => ⟨d, rfl, rfl, by simp [bodies], .done, fun f hf => by simp [senders] at hf, fun _ => rfl, by simp [reasons], rfl, rfl⟩
  | cons r mods ih =>
    intro d n more
    have hr := h r List.mem_cons_self
    have ih := ih fun r hr => h r (List.mem_cons_of_mem _ hr)
    have ht : ∀ d1, replied c d (stateOf (.endOfMessage [])) r = .nothing d1 →
        talk c (n + (r :: mods).length) (.endOfMessage []) d (r :: mods ++ more) = talk c (n + mods.length) (.endOfMessage []) d1 (mods ++ more) := by
      intro d1 hd1
      show talk c ((n + mods.length) + 1) _ _ (r :: (mods ++ more)) = _
      rw [talk_reply (by unfold transited; rfl) rfl, hd1]
    have senders_from : ∀ f q mods, senders (.changeFrom f q :: mods) = f :: senders mods := fun _ _ _ => rfl
    have erased : ∀ {a : Bytes} {rs' : List Bytes}, Recipients mods (removeRecipient d.kept (normalize a)) rs' →
        Recipients (.deleteRecipient a :: mods) d.kept rs' := by
      intro a rs' e
      unfold removeRecipient at e
      by_cases hm : normalize a ∈ d.kept
      · obtain ⟨l, l', h1, h2, h3⟩ := List.exists_erase_eq hm
        rw [h3] at e
        rw [h2]
        exact .delete (normalize_brackets a) h1 e
      · rw [List.erase_of_not_mem hm] at e
        exact .deleteNobody (normalize_brackets a) hm e
    cases r <;> first | (cases hr; done) | skip
    case addHeader n' v =>
      obtain ⟨d', t, e1, e2, e3, e4, e5, e6, e7, e8⟩ := ih { d with edited := Headers.add d.edited n' (some v) } n more
      exact ⟨d', (ht _ rfl).trans t, e1, e2, .other (fun _ _ h => nomatch h) (fun _ h => nomatch h) e3, e4, e5, e6, e7, e8⟩
    case insertHeader i n' v =>
      obtain ⟨d', t, e1, e2, e3, e4, e5, e6, e7, e8⟩ := ih { d with edited := Headers.insert d.edited i n' v } n more
      exact ⟨d', (ht _ rfl).trans t, e1, e2, .other (fun _ _ h => nomatch h) (fun _ h => nomatch h) e3, e4, e5, e6, e7, e8⟩
    case changeHeader n' i v =>
      obtain ⟨d', t, e1, e2, e3, e4, e5, e6, e7, e8⟩ := ih { d with edited := (Headers.change d.edited n' i (some v)).2 } n more
      exact ⟨d', (ht _ rfl).trans t, e1, e2, .other (fun _ _ h => nomatch h) (fun _ h => nomatch h) e3, e4, e5, e6, e7, e8⟩
    case deleteHeader n' i =>
      obtain ⟨d', t, e1, e2, e3, e4, e5, e6, e7, e8⟩ := ih { d with edited := (Headers.delete d.edited n' i).2 } n more
      exact ⟨d', (ht _ rfl).trans t, e1, e2, .other (fun _ _ h => nomatch h) (fun _ h => nomatch h) e3, e4, e5, e6, e7, e8⟩
    case changeFrom f q =>
      obtain ⟨d', t, e1, e2, e3, e4, e5, e6, e7, e8⟩ := ih { d with sender := normalize f } n more
      exact ⟨d', (ht _ rfl).trans t, e1, e2, .other (fun _ _ h => nomatch h) (fun _ h => nomatch h) e3, by
        intro f' hf
        by_cases hn : senders mods = []
        · have hf : f = f' := by simpa [senders_from, hn] using hf
          rw [← hf, e5 hn]
          exact normalize_brackets f
        · refine e4 f' ?_
          rw [senders_from, List.getLast?_cons] at hf
          rw [← hf]
          cases hl : (senders mods).getLast? with
          | none => exact absurd (List.getLast?_eq_none_iff.mp hl) hn
          | some z => simp, fun hn => by simp [senders_from] at hn, e6, e7, e8⟩
    case addRecipient a q =>
      obtain ⟨d', t, e1, e2, e3, e4, e5, e6, e7, e8⟩ := ih { d with kept := d.kept ++ [normalize a] } n more
      exact ⟨d', (ht _ rfl).trans t, e1, e2, .add (normalize_brackets a) e3, e4, e5, e6, e7, e8⟩
    case deleteRecipient a =>
      obtain ⟨d', t, e1, e2, e3, e4, e5, e6, e7, e8⟩ := ih { d with kept := removeRecipient d.kept (normalize a) } n more
      exact ⟨d', (ht _ rfl).trans t, e1, e2, erased e3, e4, e5, e6, e7, e8⟩
    case replaceBody b =>
      obtain ⟨d', t, e1, e2, e3, e4, e5, e6, e7, e8⟩ := ih { d with replaced := d.replaced ++ b } n more
      exact ⟨d', (ht _ rfl).trans t, e1, by rw [e2, List.append_assoc]; rfl, .other (fun _ _ h => nomatch h) (fun _ h => nomatch h) e3, e4, e5, e6, e7, e8⟩
    case progress =>
      obtain ⟨d', t, e1, e2, e3, e4, e5, e6, e7, e8⟩ := ih d n more
      exact ⟨d', (ht _ rfl).trans t, e1, e2, .other (fun _ _ h => nomatch h) (fun _ h => nomatch h) e3, e4, e5, e6, e7, e8⟩
    case quarantine a =>
      obtain ⟨d', t, e1, e2, e3, e4, e5, e6, e7, e8⟩ := ih { d with reason := some a } n more
      exact ⟨d', (ht _ rfl).trans t, e1, e2, .other (fun _ _ h => nomatch h) (fun _ h => nomatch h) e3, e4, e5, by
        rw [e6, show reasons (.quarantine a :: mods) = a :: reasons mods from rfl, List.getLast?_cons]
        cases (reasons mods).getLast? <;> rfl, e7, e8⟩


theorem original_map_plus {α : Type} (l : List α) : original (l.map fun x => (Mark.plus, x)) = [] := by
  unfold original
  induction l with
  | nil => rfl
  | cons x l ih => simpa using ih

theorem original_map_minus {α : Type} (l : List α) : original (l.map fun x => (Mark.minus, x)) = l := by
  unfold original
  induction l with
  | nil => rfl
  | cons x l ih => simpa using ih

theorem result_map_plus {α : Type} (l : List α) : result (l.map fun x => (Mark.plus, x)) = l := by
  unfold result
  induction l with
  | nil => rfl
  | cons x l ih => simpa using ih

theorem result_map_minus {α : Type} (l : List α) : result (l.map fun x => (Mark.minus, x)) = [] := by
  unfold result
  induction l with
  | nil => rfl
  | cons x l ih => simpa using ih

theorem original_cons {α : Type} (p : Mark × α) (l : List (Mark × α)) : original (p :: l) = (if p.1 = .plus then [] else [p.2]) ++ original l := by
  unfold original
  rcases p with ⟨m, x⟩
  cases m <;> simp

theorem result_cons {α : Type} (p : Mark × α) (l : List (Mark × α)) : result (p :: l) = (if p.1 = .minus then [] else [p.2]) ++ result l := by
  unfold result
  rcases p with ⟨m, x⟩
  cases m <;> simp

/-- **C118**: the lines printed without "+" are the headers that were sent, and those without "-" are the headers the message ends up with, each in their order; likewise for the recipients and
the sender.  So the differences shown are right, whatever the milter did. -/
theorem C118_printed : (∀ os rs, original (diffHeaders os rs) = os ∧ result (diffHeaders os rs) = rs) ∧
    (∀ os rs, original (diffRecipients os rs) = os ∧ result (diffRecipients os rs) = rs) ∧
    (∀ o r, original (diffFrom o r) = [o] ∧ result (diffFrom o r) = [r]) := by
  refine ⟨?_, ?_, ?_⟩
  · intro os rs
    induction os, rs using diffHeaders.induct <;> unfold diffHeaders <;> (repeat' split) <;>
      simp_all [original_cons, result_cons, original_map_plus, original_map_minus, result_map_plus, result_map_minus]
  · intro os rs
    induction os, rs using diffRecipients.induct <;> unfold diffRecipients <;> (repeat' split) <;>
      simp_all [original_cons, result_cons, original_map_plus, original_map_minus, result_map_plus, result_map_minus]
  · intro o r
    unfold diffFrom
    split <;> simp_all [original, result]

/-- a header is inserted and another one changed -/
example : (diffHeaders [⟨[65], some [97]⟩, ⟨[66], some [98]⟩] [⟨[67], some [99]⟩, ⟨[65], some [97]⟩, ⟨[66], some [100]⟩]).map (·.1) =
    [.plus, .same, .plus, .minus] := by decide +kernel

/-- **C118 fails** for the body: one that has been replaced by nothing is shown as it was. -/
theorem C118_empty_violated (body : Bytes) : shownBody body [] = body := rfl

/-! ## C116: the envelope and the headers that are sent in the end -/

/-- **C116** (what is sent if something was not said): the sender and the recipients are those that were given, else the default ones, in angle brackets; the headers that were given come first
and are unchanged, and there are always "From" and "To" among the headers; the body is the one that was given, even if it is empty. -/
theorem C116_defaults (sender receiver text : Bytes) (o : Options) :
    let m := finish sender receiver text o
    Brackets (o.from_.getD sender) m.from_ ∧ Pointwise Brackets (o.recipients.getD [receiver]) m.recipients ∧ m.body = o.body.getD [text] ∧
    (∃ added, m.headers = o.headers ++ added ∧
      ∀ h ∈ added, (h.name = from_ ∧ h.value = some m.from_ ∧ ∀ x ∈ o.headers, x.name ≠ from_) ∨
        (h.name = to ∧ h.value = m.recipients.head? ∧ ∀ x ∈ o.headers, x.name ≠ to)) ∧
    (∃ h ∈ m.headers, h.name = from_) ∧ ∃ h ∈ m.headers, h.name = to := by
  intro m
  have hp : ∀ l : List Bytes, Pointwise Brackets l (l.map normalize) := by
    intro l
    induction l with
    | nil => exact .nil
    | cons a l ih => exact .cons (normalize_brackets a) ih
  have hnone : ∀ (l : List Header) (n : Bytes), (Headers.lookupByName l n).isSome = false → ∀ x ∈ l, x.name ≠ n := by
    intro l n h x hx e
    unfold Headers.lookupByName at h
    have h2 : l.find? (fun h => h.name == n) = none := by
      cases hf : l.find? (fun h => h.name == n) with
      | none => rfl
      | some y => rw [hf] at h; cases h
    have := List.find?_eq_none.mp h2 x hx
    simp [e] at this
  have hsome : ∀ (l : List Header) (n : Bytes), (Headers.lookupByName l n).isSome = true → ∃ x ∈ l, x.name = n := by
    intro l n h
    obtain ⟨x, hx⟩ := Option.isSome_iff_exists.mp h
    unfold Headers.lookupByName at hx
    exact ⟨x, List.mem_of_find?_eq_some hx, by simpa using List.find?_some hx⟩
  have hdiff : from_ ≠ to := by decide
  have hm : m.headers = _ := rfl
  refine ⟨normalize_brackets _, hp _, rfl, ?_⟩
  show (∃ added, m.headers = _ ∧ _) ∧ _
  have hh : m.headers = (fun hs : List Header => if (Headers.lookupByName hs to).isSome then hs else Headers.append hs to m.recipients.head?)
      (if (Headers.lookupByName o.headers from_).isSome then o.headers else Headers.append o.headers from_ (some m.from_)) := rfl
  rw [hh]
  dsimp only
  cases h1 : (Headers.lookupByName o.headers from_).isSome with
  | true =>
    simp only [if_true]
    cases h2 : (Headers.lookupByName o.headers to).isSome with
    | true => exact ⟨⟨[], by simp, fun _ h => nomatch h⟩, hsome _ _ h1, hsome _ _ h2⟩
    | false =>
      obtain ⟨x, hx, hn⟩ := hsome _ _ h1
      refine ⟨⟨[⟨to, m.recipients.head?⟩], rfl, ?_⟩, ⟨x, List.mem_append_left _ hx, hn⟩, ⟨_, List.mem_append_right _ (List.mem_singleton.mpr rfl), rfl⟩⟩
      intro h hm
      cases List.mem_singleton.mp hm
      exact .inr ⟨rfl, rfl, hnone _ _ h2⟩
  | false =>
    have hl : (Headers.lookupByName (Headers.append o.headers from_ (some m.from_)) to) = Headers.lookupByName o.headers to := by
      unfold Headers.lookupByName Headers.append
      rw [List.find?_append]
      simp [hdiff]
    simp only [Bool.false_eq_true, if_false, hl]
    cases h2 : (Headers.lookupByName o.headers to).isSome with
    | true =>
      obtain ⟨x, hx, hn⟩ := hsome _ _ h2
      refine ⟨⟨[⟨from_, some m.from_⟩], rfl, ?_⟩, ⟨_, List.mem_append_right _ (List.mem_singleton.mpr rfl), rfl⟩, ⟨x, List.mem_append_left _ hx, hn⟩⟩
      intro h hm
      cases List.mem_singleton.mp hm
      exact .inl ⟨rfl, rfl, hnone _ _ h1⟩
    | false =>
      refine ⟨⟨[⟨from_, some m.from_⟩, ⟨to, m.recipients.head?⟩], by simp [Headers.append], ?_⟩,
        ⟨⟨from_, some m.from_⟩, by simp [Headers.append], rfl⟩, ⟨⟨to, m.recipients.head?⟩, by simp [Headers.append], rfl⟩⟩
      intro h hm
      rcases List.mem_cons.mp hm with rfl | hm
      · exact .inl ⟨rfl, rfl, hnone _ _ h1⟩
      · cases List.mem_singleton.mp hm
        exact .inr ⟨rfl, rfl, hnone _ _ h2⟩

/-- nothing was said but a recipient -/
example : (finish (ascii "a") (ascii "b") (ascii "hi") { recipients := some [ascii "c", ascii "<d>"] }).headers.map (·.value) =
    [some (ascii "<a>"), some (ascii "<c>")] := by decide +kernel

/-! ## C119: the macros a milter asks for -/

/-- **C119**: if the milter asks for at most one macro at a stage, the tool goes on. -/
theorem C119_partial (symbols : List Bytes) (h : symbols.length ≤ 1) : setMacro symbols 1 = none := by
  match symbols, h with
  | [], _ => rfl
  | [s], _ => rfl

/-- **C119 fails** for every milter that asks for two macros or more at a stage: the tool never gets on. -/
theorem C119_loop_violated (symbols : List Bytes) (h : 2 ≤ symbols.length) (n : Nat) : setMacro symbols n ≠ none := by
  match symbols, h with
  | a :: b :: l, _ =>
    induction n with
    | zero => simp [setMacro]
    | succ n ih =>
      unfold setMacro
      cases hs : setMacro (a :: b :: l) n with
      | none => exact absurd hs ih
      | some x => simp

end Verif.Props.TestServer
