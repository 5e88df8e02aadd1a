import Verif.Props.SessionMessage
import Verif.Props.HeaderDiff
import Verif.Spec.Copy
/-
C57: what becomes of the MTA's copy of a message.
-/
namespace Verif.Props
open Verif Verif.Session Verif.Spec.Children Verif.Spec.Client
open Verif.Client (Call)
open Verif.Children (Sys Emit Opening converts)
open Verif.Spec (Pointwise)
open Verif.Spec.Session (whole)
open Verif.Spec.Mta (Copy)

/-- what a request does to the copy -/
def Copy.ask (c : Copy) : Call → Copy
  | .addHeader (some n) (some v) => c.read (.addHeader n v)
  | .insertHeader i (some n) (some v) => c.read (.insertHeader i n (some v))
  | .changeHeader (some n) i (some v) => c.read (.changeHeader n i v)
  | .changeHeader (some n) i none => c.read (.deleteHeader n i)
  | .deleteHeader (some n) i => c.read (.deleteHeader n i)
  | .changeFrom (some a) p => c.read (.changeFrom a p)
  | .addRecipient (some a) p => c.read (.addRecipient a p)
  | .deleteRecipient (some a) => c.read (.deleteRecipient a)
  | .replaceBody b => if b = [] then c else c.read (.replaceBody b)
  | _ => c

theorem read_pieces (chunks : List Bytes) (h : ∀ x ∈ chunks, x ≠ []) : ∀ c : Copy,
    (chunks.map Reply.replaceBody).foldl Copy.read c = if chunks.flatten = [] then c else c.read (.replaceBody chunks.flatten) := by
  induction chunks with
  | nil => exact fun c => rfl
  | cons x chunks ih =>
    intro c
    have hx := h x List.mem_cons_self
    rw [List.map_cons, List.foldl_cons, ih fun y hy => h y (List.mem_cons_of_mem _ hy)]
    have : (x :: chunks).flatten ≠ [] := by simp [hx]
    rw [if_neg this]
    split
    · next h0 => simp [List.flatten_cons, h0]
    · simp [Copy.read, List.flatten_cons]

theorem shows_read {c : Call} {p : List Reply} (h : Shows c p) (x : Copy) : p.foldl Copy.read x = Copy.ask x c := by
  cases c with
  | addHeader n v => obtain ⟨n', v', rfl, rfl, rfl⟩ := h; rfl
  | insertHeader i n v => obtain ⟨n', v', rfl, rfl, rfl⟩ := h; rfl
  | changeHeader n i v =>
    cases v with
    | none => obtain ⟨n', rfl, rfl⟩ := h; rfl
    | some v => obtain ⟨n', rfl, rfl⟩ := h; rfl
  | deleteHeader n i => obtain ⟨n', rfl, rfl⟩ := h; rfl
  | changeFrom f p => obtain ⟨n', rfl, rfl⟩ := h; rfl
  | addRecipient f p => obtain ⟨n', rfl, rfl⟩ := h; rfl
  | deleteRecipient f => obtain ⟨n', rfl, rfl⟩ := h; rfl
  | replaceBody b =>
    obtain ⟨chunks, rfl, rfl, hc⟩ := h
    exact read_pieces chunks (fun y hy => (hc y hy).1) x
  | _ => cases (show p = [] from h); rfl

theorem shows_reads {cs : List Call} {parts : List (List Reply)} (h : Pointwise Shows cs parts) : ∀ x : Copy,
    parts.flatten.foldl Copy.read x = cs.foldl Copy.ask x := by
  induction h with
  | nil => exact fun _ => rfl
  | cons h _ ih =>
    intro x
    rw [List.flatten_cons, List.foldl_append, shows_read h, ih]
    rfl

theorem read_progress (rs : List Reply) : ∀ x : Copy, (rs.filter (· ≠ .progress)).foldl Copy.read x = rs.foldl Copy.read x := by
  induction rs with
  | nil => exact fun _ => rfl
  | cons r rs ih =>
    intro x
    by_cases hr : r = .progress
    · subst hr
      rw [List.filter_cons_of_neg (by decide)]
      exact ih x
    · simpa [hr] using ih (x.read r)

/-- the request can be sent: it has its address, value or reason -/
def complete : Reply → Bool
  | .insertHeader _ _ v => v.isSome
  | .addRecipient a _ | .deleteRecipient a | .changeFrom a _ | .quarantine a => !a.isEmpty
  | _ => true

theorem valued_after (convert : Bool) {hs : List Header} (h : ∀ x ∈ hs, x.value ≠ none) {r : Reply} (hr : complete r = true) :
    ∀ x ∈ headersAfter convert hs r, x.value ≠ none := by
  have hadd : ∀ (l : List Header) n v, (∀ x ∈ l, x.value ≠ none) → ∀ x ∈ Headers.add l n (some v), x.value ≠ none := by
    intro l n v
    induction l with
    | nil => intro _ x hx; cases List.mem_singleton.mp hx; exact fun h => nomatch h
    | cons y l ih =>
      intro hl x hx
      unfold Headers.add at hx
      split at hx
      · rcases List.mem_cons.mp hx with rfl | hx
        · exact fun h => nomatch h
        · exact hl x hx
      · rcases List.mem_cons.mp hx with rfl | hx
        · exact hl _ List.mem_cons_self
        · exact ih (fun z hz => hl z (List.mem_cons_of_mem _ hz)) x hx
  intro x hx
  cases r with
  | addHeader n v => exact hadd hs n _ h x hx
  | insertHeader i n v =>
    obtain ⟨v, rfl⟩ := Option.isSome_iff_exists.mp hr
    change x ∈ Headers.insert hs i n _ at hx
    have := (insert_perm hs i n _).mem_iff.mp hx
    rcases List.mem_cons.mp this with rfl | this
    · exact fun h => nomatch h
    · exact h x this
  | changeHeader n i v =>
    simp only [headersAfter, Headers.change] at hx
    split at hx
    · rcases List.mem_or_eq_of_mem_set hx with hx | rfl
      · exact h x hx
      · exact fun h => nomatch h
    · exact hadd hs n _ h x hx
  | deleteHeader n i =>
    simp only [headersAfter, Headers.delete] at hx
    split at hx
    · exact h x hx
    · exact h x (List.mem_of_mem_eraseIdx hx)
  | _ => exact h x hx

/-- all headers of a draft have a value, and there is a sender's address and a reason where they are named -/
structure Whole (d : Draft) : Prop where
  headers : ∀ x ∈ d.headers, x.value ≠ none
  sender : ∀ x, d.sender = some x → x.1 ≠ []
  quarantine : ∀ r, d.quarantine = some r → r ≠ []

theorem Whole.after {d : Draft} (h : Whole d) (convert : Bool) {rs : List Reply} (hr : ∀ r ∈ rs, complete r = true) :
    Whole (d.after convert rs) := by
  refine ⟨?_, ?_, ?_⟩
  · show ∀ x ∈ rs.foldl (headersAfter convert) d.headers, _
    have := h.headers
    generalize d.headers = hs at this
    induction rs generalizing hs with
    | nil => exact this
    | cons r rs ih => exact ih (fun x hx => hr x (List.mem_cons_of_mem _ hx)) _ (valued_after convert this (hr r List.mem_cons_self))
  · intro x hx
    change ((rs.filterMap newSender).getLast?).or d.sender = some x at hx
    rcases Option.or_eq_some_iff.mp hx with hx | ⟨_, hx⟩
    · obtain ⟨r, hm, he⟩ := List.mem_filterMap.mp (List.mem_of_getLast? hx)
      have := hr r hm
      cases r <;> first | (cases he; done) | skip
      cases he
      simpa [complete] using this
    · exact h.sender x hx
  · intro x hx
    change ((rs.filterMap newQuarantine).getLast?).or d.quarantine = some x at hx
    rcases Option.or_eq_some_iff.mp hx with hx | ⟨_, hx⟩
    · obtain ⟨r, hm, he⟩ := List.mem_filterMap.mp (List.mem_of_getLast? hx)
      have := hr r hm
      cases r <;> first | (cases he; done) | skip
      cases he
      simpa [complete] using this
    · exact h.quarantine x hx

theorem Whole.outcome {role : Nat → Role} (order : List Nat) (hr : ∀ j ∈ order, ∀ r ∈ (role j).effective, complete r = true) :
    ∀ {d : Draft}, Whole d → Whole (outcome role d order) := by
  induction order with
  | nil => exact fun h => h
  | cons j order ih =>
    intro d h
    exact ih (fun k hk => hr k (List.mem_cons_of_mem _ hk)) (h.after _ (hr j List.mem_cons_self))

/-! ### The requests one after the other -/

/-- header edits with all their parts -/
theorem ask_edits (es : List HeaderDiff.Edit) (hes : ∀ e ∈ es, ∃ c, asksFor (.edit e) = some c)
    (hv : ∀ e ∈ es, ∀ c, asksFor (.edit e) = some c → argumentsGiven c = true) : ∀ c : Copy,
    (es.filterMap fun e => asksFor (.edit e)).foldl Copy.ask c = { c with headers := Spec.mta c.headers es } := by
  induction es with
  | nil => exact fun _ => rfl
  | cons e es ih =>
    intro c
    have ih := ih (fun x hx => hes x (List.mem_cons_of_mem _ hx)) (fun x hx => hv x (List.mem_cons_of_mem _ hx))
    obtain ⟨k, hk⟩ := hes e List.mem_cons_self
    have ha := hv e List.mem_cons_self k hk
    rw [List.filterMap_cons, hk]
    show (es.filterMap fun e => asksFor (.edit e)).foldl Copy.ask (Copy.ask c k) = _
    rw [ih]
    have : Copy.ask c k = { c with headers := Spec.mtaStep c.headers e } := by
      cases e with
      | insert i n v =>
        cases hk
        cases v with
        | none => cases ha
        | some v => rfl
      | add n v =>
        cases hk
        cases v with
        | none => cases ha
        | some v => rfl
      | change n i v => cases hk; cases v <;> rfl
      | delete n i =>
        cases i with
        | none => cases hk
        | some i => cases hk; rfl
    rw [this]
    rfl

theorem ask_recipients (es : List Reply) (hes : ∀ r ∈ es, isRecipientEdit r = true) : ∀ c : Copy,
    ((es.map Emit.reply).filterMap asksFor).foldl Copy.ask c = es.foldl Copy.read c := by
  induction es with
  | nil => exact fun _ => rfl
  | cons r es ih =>
    intro c
    have hr := hes r List.mem_cons_self
    have ih := ih fun x hx => hes x (List.mem_cons_of_mem _ hx)
    cases r <;> first | (cases hr; done) | exact ih _

theorem recipients_only (es : List Reply) (hes : ∀ r ∈ es, isRecipientEdit r = true) : ∀ c : Copy,
    es.foldl Copy.read c = { c with recipients := (es.foldl Copy.read c).recipients } := by
  induction es with
  | nil => exact fun _ => rfl
  | cons r es ih =>
    intro c
    have hr := hes r List.mem_cons_self
    have ih := ih (fun x hx => hes x (List.mem_cons_of_mem _ hx)) (c.read r)
    rw [List.foldl_cons, ih]
    cases r <;> first | (cases hr; done) | rfl

theorem ask_pieces (chunks : List Bytes) (h : ∀ x ∈ chunks, x ≠ []) (c : Copy) :
    ((chunks.map fun b => Emit.reply (.replaceBody b)).filterMap asksFor).foldl Copy.ask c =
      if chunks.flatten = [] then c else c.read (.replaceBody chunks.flatten) := by
  rw [← read_pieces chunks h]
  induction chunks generalizing c with
  | nil => rfl
  | cons x chunks ih =>
    have hx := h x List.mem_cons_self
    have : Copy.ask c (.replaceBody x) = c.read (.replaceBody x) := if_neg hx
    show ((chunks.map fun b => Emit.reply (.replaceBody b)).filterMap asksFor).foldl Copy.ask (Copy.ask c (.replaceBody x)) = _
    rw [this, ih fun y hy => h y (List.mem_cons_of_mem _ hy)]
    rfl

theorem recipients_edits (es : List Reply) : ∀ c c' : Copy, c.recipients = c'.recipients →
    (es.foldl Copy.read c).recipients = ((es.filter isRecipientEdit).foldl Copy.read c').recipients := by
  induction es with
  | nil => exact fun _ _ h => h
  | cons r es ih =>
    intro c c' h
    rw [List.foldl_cons, List.filter_cons]
    cases r <;> exact ih _ _ (by simp [Copy.read, h])

/-- the calls other than quarantine, which is kept until the end -/
def isChange : Call → Bool
  | .quarantine _ => false
  | _ => true

theorem walk_given (original final : List Header) (hv : ∀ h ∈ final, h.value ≠ none) : ∀ (i : Nat) (processing : List Header),
    ∀ e ∈ (HeaderDiff.walk original i processing final).1, ∀ c, asksFor (.edit e) = some c → argumentsGiven c = true := by
  induction final with
  | nil => exact fun i p e hm => nomatch hm
  | cons x final ih =>
    intro i p e hm
    have hx : x.value.isSome = true := by
      have := hv x List.mem_cons_self
      cases h : x.value with
      | none => exact absurd h this
      | some v => rfl
    have ih := ih fun h hh => hv h (List.mem_cons_of_mem _ hh)
    unfold HeaderDiff.walk at hm
    split at hm
    · exact ih _ _ e hm
    · split at hm
      · rcases List.mem_cons.mp hm with rfl | hm
        · intro c hc; cases hc; exact hx
        · exact ih _ _ e hm
      · split at hm
        · rcases List.mem_cons.mp hm with rfl | hm
          · intro c hc; cases hc; exact hx
          · exact ih _ _ e hm
        · rcases List.mem_cons.mp hm with rfl | hm
          · intro c hc; cases hc; rfl
          · exact ih _ _ e hm

theorem emit_given (original final : List Header) (hv : ∀ h ∈ final, h.value ≠ none) :
    ∀ e ∈ HeaderDiff.emit original final, ∀ c, asksFor (.edit e) = some c → argumentsGiven c = true := by
  intro e he
  unfold HeaderDiff.emit at he
  rcases List.mem_append.mp he with he | he
  · exact walk_given _ _ hv _ _ e he
  · unfold HeaderDiff.deletions at he
    obtain ⟨h, hm, rfl⟩ := List.mem_map.mp he
    intro c hc
    cases hi : Headers.indexInSameName original h with
    | none => rw [hi] at hc; cases hc
    | some k => rw [hi] at hc; cases hc; rfl

/-- what is asked for has all its parts -/
theorem changes_given (original : List Header) (chunks : List Bytes) {d : Draft} (hd : Whole d) :
    ∀ e ∈ changes original chunks d, ∀ c, asksFor e = some c → argumentsGiven c = true ∧ (isChange c = false ∨ flagOf c ≠ none) := by
  intro e he
  unfold Spec.Children.changes at he
  rcases List.mem_append.mp he with he | he
  · rcases List.mem_append.mp he with he | he
    · rcases List.mem_append.mp he with he | he
      · split at he
        · obtain ⟨b, _, rfl⟩ := List.mem_map.mp he
          intro c hc; cases hc; exact ⟨rfl, .inr (fun h => nomatch h)⟩
        · cases he
      · obtain ⟨x, hx, rfl⟩ := List.mem_map.mp he
        intro c hc
        refine ⟨emit_given _ _ hd.headers x hx c hc, .inr ?_⟩
        cases x with
        | delete n i => cases i <;> first | (cases hc; done) | (cases hc; exact fun h => nomatch h)
        | _ => cases hc; exact fun h => nomatch h
    · obtain ⟨x, hx, rfl⟩ := List.mem_map.mp he
      intro c hc; cases hc
      refine ⟨?_, .inr (fun h => nomatch h)⟩
      have := hd.sender x (by simpa using hx)
      cases hx : x.1 with
      | nil => exact absurd hx this
      | cons _ _ => rfl
  · obtain ⟨x, _, rfl⟩ := List.mem_map.mp he
    intro c hc; cases hc; exact ⟨rfl, .inl rfl⟩

theorem filter_changes (es : List Emit) (h : ∀ e ∈ es, ∀ r, e ≠ .reply (.quarantine r)) :
    (es.filterMap asksFor).filter isChange = es.filterMap asksFor := by
  rw [List.filter_eq_self]
  intro c hc
  obtain ⟨e, he, hc⟩ := List.mem_filterMap.mp hc
  have hn := h e he
  cases e with
  | reply r => cases r <;> first | (cases hc; done) | exact absurd rfl (hn _) | (cases hc; rfl)
  | edit e =>
    cases e with
    | delete n i => cases i <;> first | (cases hc; done) | (cases hc; rfl)
    | _ => cases hc; rfl
  | _ => cases hc

theorem ask_changes (original : List Header) (chunks : List Bytes) (d : Draft) (hc : ∀ x ∈ chunks, x ≠ []) (hd : Whole d)
    (he : d.replaced = true → chunks.flatten ≠ []) (c : Copy) (hr : c.replacing = false) :
    (((changes original chunks d).filterMap asksFor).filter isChange).foldl Copy.ask c =
      { c with
        headers := Spec.mta c.headers (HeaderDiff.emit original d.headers)
        body := if d.replaced then chunks.flatten else c.body
        replacing := d.replaced
        sender := d.sender.getD c.sender } := by
  unfold Spec.Children.changes
  rw [List.filterMap_append, List.filterMap_append, List.filterMap_append, List.filter_append, List.filter_append, List.filter_append,
    List.foldl_append, List.foldl_append, List.foldl_append]
  have h1 : ∀ c : Copy, c.replacing = false →
      (((if d.replaced then chunks.map fun b => Emit.reply (.replaceBody b) else []).filterMap asksFor).filter isChange).foldl Copy.ask c =
      { c with body := if d.replaced then chunks.flatten else c.body, replacing := d.replaced } := by
    intro c hr
    cases hrep : d.replaced with
    | false => cases c; cases hr; rfl
    | true =>
      rw [filter_changes _ (by
        intro e he r
        obtain ⟨b, _, rfl⟩ := List.mem_map.mp he
        exact fun h => nomatch h), if_pos rfl, ask_pieces chunks hc, if_neg (he hrep)]
      simp [Copy.read, hr]
  have h2 : ∀ c : Copy, ((((HeaderDiff.emit original d.headers).map Emit.edit).filterMap asksFor).filter isChange).foldl Copy.ask c =
      { c with headers := Spec.mta c.headers (HeaderDiff.emit original d.headers) } := by
    intro c
    rw [filter_changes _ (by
      intro e he r
      obtain ⟨b, _, rfl⟩ := List.mem_map.mp he
      exact fun h => nomatch h), List.filterMap_map]
    exact ask_edits _ (emit_asks _ _) (emit_given _ _ hd.headers) c
  rw [h1 c hr, h2]
  cases d.sender <;> cases d.quarantine <;> rfl

theorem accepted_all {o : Option Opt} (hflags : ∀ flag ∈ [0x01, 0x02, 0x04, 0x08, 0x10, 0x40, 0x80], hasFlag o flag = true) (k : Call)
    (ha : argumentsGiven k = true) (hf : isChange k = false ∨ flagOf k ≠ none) : accepted o k = isChange k := by
  have hflag : ∀ f, flagOf k = some f → isChange k = true → hasFlag o f = true := by
    intro f hf hk
    refine hflags f ?_
    unfold flagOf at hf
    split at hf <;> first | (cases hf; simp; done) | (cases hk; done) | (cases hf; done)
  cases hk : isChange k with
  | false => cases k <;> first | (cases hk; done) | rfl
  | true =>
    have hf : flagOf k ≠ none := hf.resolve_left (by rw [hk]; simp)
    cases hfk : flagOf k with
    | none => exact absurd hfk hf
    | some f =>
      have := hflag f hfk hk
      cases k <;> first | (cases hk; done) | (unfold accepted; simp only [hfk, this, ha, Bool.and_self])

theorem recipient_given {r : Reply} (h1 : isRecipientEdit r = true) (h2 : complete r = true) {k : Call} (hk : asksFor (.reply r) = some k) :
    argumentsGiven k = true ∧ isChange k = true ∧ flagOf k ≠ none := by
  cases r <;> first | (cases h1; done) | skip
  · next a p =>
    cases hk
    refine ⟨?_, rfl, ?_⟩
    · cases a with
      | nil => cases h2
      | cons => rfl
    · cases p with
      | none => exact fun h => nomatch h
      | some p => cases p <;> exact fun h => nomatch h
  · next a =>
    cases hk
    refine ⟨?_, rfl, fun h => nomatch h⟩
    cases a with
    | nil => cases h2
    | cons => rfl

/-- **C57**: as C56, with the MTA granting every kind of change, different names of the headers, and milters that
give an address, value or reason where one is needed.  `c` is the MTA's copy of the message.  When the MTA has read the replies,
its copy is what the milters' requests amount to, one after the other: the headers (in the same order if nothing is deleted or
moved: C15), the body, the sender, the recipients, and the reason for a quarantine.  Missing: what is missing in C56; repeated header names and a body
replaced by an empty one, where C15 and C29 fail. -/
theorem C57_partial (order : Requests → Requests) (fallback atDisconnect : Status) (size : Nat) (kids : List Children.Kid) (chunk : Nat)
    (depth : Nat) (history : List Session.Event) (s : Session.Session)
    (hs : Session.run order depth (Session.new fallback atDisconnect size kids chunk) history = some s)
    (hat : s.front.attached = true) (hl : s.front.client.link = .ready)
    (hneg : ∃ o, Client.Event.got (.negotiate o) ∈ s.front.client.log)
    (hi : Spec.Client.interrupted s.front.client.log = false) (he : Spec.Client.atEnd s.front.client.log = false)
    (hsent : s.front.leader.sentEnd = false)
    (hflags : ∀ flag ∈ [0x01, 0x02, 0x04, 0x08, 0x10, 0x40, 0x80], hasFlag (negotiated s.front.client.log) flag = true)
    (n : Nat) (role : Nat → Role) (i : Nat) (rest : List Nat) (m : Message)
    (h : Opening s.milters i rest) (hst : Passing (s.milters.statuses .endOfMessage))
    (hlen : ∀ c ∈ m.chunks, c.length ≤ 65535)
    (hrole : ∀ j ∈ i :: rest, (role j).convert = converts s.milters j ∧ (role j).counts = !(s.milters.kids j).evaluation ∧
      ∀ r ∈ (role j).requests, isModification r = true)
    (hne : ∀ x ∈ relay role (m.draft.after (role i).convert (role i).effective) rest,
      (m.headers ≠ [] → x.2.headers ≠ []) ∧ (m.chunks ≠ [] → x.2.body ≠ []))
    (hnob : m.chunks = [] → ∀ j ∈ i :: rest, ∀ r ∈ (role j).requests, replacement r = none)
    (hnames : (m.headers.map Prod.fst).Nodup)
    (hcomplete : ∀ j ∈ i :: rest, ∀ r ∈ (role j).effective, complete r = true)
    (hbody : (outcome role m.draft (i :: rest)).replaced = true → (outcome role m.draft (i :: rest)).body ≠ [])
    (c : Copy) (hc1 : c.headers = m.draft.headers) (hc2 : c.replacing = false) (hc3 : c.quarantine = none) :
    ∃ cut : Bytes → List Bytes, (∀ b, IsCut s.milters.chunkSize b (cut b)) ∧
    let to := (i, m.first (role i).convert) ::
      deliveries cut (decide (m.headers ≠ [])) (decide (m.chunks ≠ [])) m.last role
        (m.draft.after (role i).convert (role i).effective) rest
    let result := outcome role m.draft (i :: rest)
    ∃ s' rs, Session.run order (n + 2) s ((m.arrives i ++ chatter role i to).map whole) = some s' ∧
      written s'.front.client.log = written s.front.client.log ++
        ((Children.beforeEnd m).map fun _ => (Enc.encodeReplies order [] [.cont]).flatten).flatten ++
        (Enc.encodeReplies order [] rs).flatten ∧
      let after := rs.foldl Copy.read c
      after.headers.Perm result.headers ∧
      (Edited m.draft.headers result.headers → m.headers.length + result.headers.length < intLimit → after.headers = result.headers) ∧
      after.body = (if result.replaced then result.body else c.body) ∧
      after.sender = result.sender.getD c.sender ∧
      after.recipients = (((i :: rest).flatMap fun j => (role j).effective).foldl Copy.read c).recipients ∧
      after.quarantine = result.quarantine := by
  have hnd : (names m.draft.headers).Nodup := by
    have : names m.draft.headers = m.headers.map Prod.fst := by
      simp [names, Message.draft, Function.comp_def]
    rw [this]; exact hnames
  have hwhole : Whole (outcome role m.draft (i :: rest)) := by
    refine Whole.outcome _ hcomplete ⟨?_, ?_, ?_⟩
    · intro x hx
      obtain ⟨y, _, rfl⟩ := List.mem_map.mp hx
      exact fun h => nomatch h
    · exact fun x hx => nomatch hx
    · exact fun x hx => nomatch hx
  obtain ⟨cut, hcut, s', parts, rs, h1, h2, h3, h4⟩ := C56_partial order fallback atDisconnect size kids chunk depth history s hs hat hl hneg hi he hsent
    (by rw [hflags 0x04 (by simp), hflags 0x80 (by simp)]) n role i rest m h hst hlen hrole hne hnob
  refine ⟨cut, hcut, s', rs, h1, h4, ?_⟩
  obtain ⟨result, hres⟩ : ∃ d, d = outcome role m.draft (i :: rest) := ⟨_, rfl⟩
  rw [← hres] at h2 h3 hwhole hbody ⊢
  obtain ⟨edits, hed⟩ : ∃ es, es = (i :: rest).flatMap (fun j => (role j).effective.filter isRecipientEdit) := ⟨_, rfl⟩
  have hed' : (i :: rest).flatMap (fun j => ((role j).effective.filter isRecipientEdit).map Emit.reply) = edits.map Emit.reply := by
    rw [hed, List.map_flatMap]
  have hedm : ∀ r ∈ edits, isRecipientEdit r = true ∧ complete r = true := by
    intro r hr
    rw [hed] at hr
    obtain ⟨j, hj, hr⟩ := List.mem_flatMap.mp hr
    exact ⟨(List.mem_filter.mp hr).2, hcomplete j hj r (List.mem_filter.mp hr).1⟩
  rw [hed'] at h2
  have hfilter : ((edits.map Emit.reply ++ changes m.draft.headers (cut result.body) result).filterMap asksFor).filter
        (accepted (negotiated s.front.client.log)) =
      (edits.map Emit.reply).filterMap asksFor ++ ((changes m.draft.headers (cut result.body) result).filterMap asksFor).filter isChange := by
    rw [List.filterMap_append, List.filter_append]
    have hacc := accepted_all hflags
    congr 1
    · rw [List.filter_eq_self]
      intro k hk
      obtain ⟨e, he, hk⟩ := List.mem_filterMap.mp hk
      obtain ⟨r, hr, rfl⟩ := List.mem_map.mp he
      obtain ⟨g1, g2, g3⟩ := recipient_given (hedm r hr).1 (hedm r hr).2 hk
      rw [hacc k g1 (.inr g3), g2]
    · refine List.filter_congr ?_
      intro k hk
      obtain ⟨e, he, hk⟩ := List.mem_filterMap.mp hk
      obtain ⟨g1, g2⟩ := changes_given _ _ hwhole e he k hk
      exact hacc k g1 g2
  rw [hfilter] at h2
  obtain ⟨c1, hc1'⟩ : ∃ c1, c1 = edits.foldl Copy.read c := ⟨_, rfl⟩
  have honly := recipients_only edits (fun r hr => (hedm r hr).1) c
  have hafter : rs.foldl Copy.read c =
      { c1 with
        headers := Spec.mta c1.headers (HeaderDiff.emit m.draft.headers result.headers)
        body := if result.replaced then result.body else c1.body
        replacing := result.replaced
        sender := result.sender.getD c1.sender
        quarantine := result.quarantine } := by
    rw [← read_progress, h3, List.foldl_append, List.foldl_append, shows_reads h2, List.foldl_append,
      ask_recipients edits (fun r hr => (hedm r hr).1), ← hc1', ask_changes _ _ _ (fun x hx => ((hcut _).sizes x hx).1) hwhole (by
        rw [(hcut _).whole]; exact hbody) c1 (by rw [hc1', honly]; exact hc2), (hcut _).whole]
    have hq : c1.quarantine = none := by rw [hc1', honly]; exact hc3
    have hv : ∀ c, [verdict (s.milters.statuses .endOfMessage) role (i :: rest)].foldl Copy.read c = c := by
      intro c
      have : ∀ b, [lastReply b].foldl Copy.read c = c := by intro b; cases b <;> rfl
      exact this _
    rw [hv]
    cases hqr : result.quarantine with
    | none => cases c1; cases hq; rfl
    | some r =>
      cases r with
      | nil => exact absurd rfl (hwhole.quarantine [] hqr)
      | cons a r => rfl
  have hh : c1.headers = m.draft.headers := by rw [hc1', honly]; exact hc1
  intro after
  have hafter : after = _ := hafter
  refine ⟨?_, ?_, ?_, ?_, ?_, ?_⟩
  · rw [hafter]
    show (Spec.mta c1.headers _).Perm _
    rw [hh]
    exact C15_content_partial _ _ hnd hwhole.headers
  · intro hE hL
    rw [hafter]
    show Spec.mta c1.headers _ = _
    rw [hh]
    exact C15_edited_partial _ _ hnd hE (by simpa [Message.draft] using hL)
  · rw [hafter, hc1', honly]
  · rw [hafter, hc1', honly]
  · rw [hafter]
    show c1.recipients = _
    rw [recipients_edits _ c c rfl, List.filter_flatMap, ← hed, hc1']
  · rw [hafter]

open Cases

/-- the other hypotheses are met -/
example : (letter.headers.map Prod.fst).Nodup ∧ (∀ j ∈ [0, 1, 2], ∀ r ∈ (editing j).effective, complete r = true) ∧
    ((outcome editing letter.draft [0, 1, 2]).replaced = true → (outcome editing letter.draft [0, 1, 2]).body ≠ []) := by
  decide +kernel

/-- the message has changed -/
example : outcome editing letter.draft [0, 1, 2] =
    ⟨[⟨[3], some [0x20, 7]⟩, ⟨[4], some [5]⟩, ⟨[5], some [0x20, 6]⟩], [1, 2, 3, 4, 5], true, some ([9], none), some [1]⟩ ∧
    Edited letter.draft.headers (outcome editing letter.draft [0, 1, 2]).headers := by
  have h : outcome editing letter.draft [0, 1, 2] =
      ⟨[⟨[3], some [0x20, 7]⟩, ⟨[4], some [5]⟩, ⟨[5], some [0x20, 6]⟩], [1, 2, 3, 4, 5], true, some ([9], none), some [1]⟩ := by decide +kernel
  refine ⟨h, ?_⟩
  rw [h]
  exact .keep _ _ _ _ _ (.same _ _ _ (.new _ _ _ _ (by decide) .nil))

/-- **C57 fails**: a milter replaces the body by an empty one; the MTA is told nothing and keeps the old one. -/
theorem C57_empty_body_violated :
    SessionCases.writesAfter [{}] (upToData 1) (letter.arrives 0 ++ [.reply 0 (.replaceBody []), .reply 0 .cont]) =
      some ((List.replicate 6 (SessionCases.one 99)).flatten) := by decide +kernel

end Verif.Props
