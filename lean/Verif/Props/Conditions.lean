import Verif.Spec.Conditions
import Verif.Props.Macros
/-
C90-C93: applicable conditions.
-/
namespace Verif.Props.Conditions
open Verif Verif.Conditions Verif.Macros Verif.Spec.Conditions

/-! ## C90 -/

theorem any_iff (bs : List Block) (a : Agent) : (any bs a).1 = true ↔ SaysStop bs a := by
  induction bs generalizing a with
  | nil =>
    constructor
    · intro h; cases h
    · rintro ⟨p, b, q, h, _⟩; cases p <;> cases h
  | cons b bs ih =>
    rcases hb : b a with ⟨r, a'⟩
    by_cases hr : r = some true
    · subst hr
      simp only [any, hb, true_iff]
      exact ⟨[], b, bs, rfl, by rw [after, hb]⟩
    · have e : any (b :: bs) a = any bs a' := by
        simp only [any, hb]
      rw [e, ih]
      constructor
      · rintro ⟨p, c, q, rfl, h⟩
        exact ⟨b :: p, c, q, rfl, by rw [after, hb]; exact h⟩
      · rintro ⟨p, c, q, h, hc⟩
        cases p with
        | nil =>
          simp only [List.nil_append, List.cons.injEq] at h
          obtain ⟨rfl, rfl⟩ := h
          rw [after, hb] at hc
          exact absurd hc hr
        | cons d p =>
          simp only [List.cons_append, List.cons.injEq] at h
          obtain ⟨rfl, rfl⟩ := h
          rw [after, hb] at hc
          exact ⟨p, c, q, rfl, hc⟩

theorem any_append (bs cs : List Block) (a : Agent) :
    any (bs ++ cs) a = if (any bs a).1 then any bs a else any cs (any bs a).2 := by
  induction bs generalizing a with
  | nil => rfl
  | cons b bs ih =>
    rcases hb : b a with ⟨r, a'⟩
    simp only [List.cons_append, any, hb]
    cases r with
    | none => exact ih a'
    | some v =>
      cases v
      · exact ih a'
      · rfl

theorem stop_eq (cs : List Condition) (e : Event) (a : Agent) : stop cs e a = any (cs.flatMap fun c => c.blocks e) a := by
  induction cs generalizing a with
  | nil => rfl
  | cons c cs ih =>
    rw [List.flatMap_cons, any_append, stop]
    rcases hb : any (c.blocks e) a with ⟨r, a'⟩
    cases r
    · simpa using ih a'
    · rfl

theorem blocks_eq (c : Condition) (e : Event) (h : notBody e = true) : c.blocks e = asked c e := by
  cases e <;> first | rfl | cases h

/-- **C90**: for every event but a chunk of the body, a milter is stopped if and only if some block for the event, of some condition attached to the milter, says so; blocks are asked in the
order of the conditions and of their definition, with the arguments of the event, and a block that raises an exception does not count. -/
theorem C90_stop_partial (cs : List Condition) (e : Event) (he : notBody e = true) (a : Agent) :
    (stop cs e a).1 = true ↔ SaysStop (cs.flatMap fun c => asked c e) a := by
  rw [stop_eq, any_iff]
  have : (fun c : Condition => c.blocks e) = fun c => asked c e := funext fun c => blocks_eq c e he
  rw [this]

/-- **C90** (nobody has a say): a milter without conditions, or whose conditions have no blocks for the event, is not stopped and its macros stay -/
theorem C90_not_asked (cs : List Condition) (e : Event) (a : Agent) (h : ∀ c ∈ cs, asked c e = []) : stop cs e a = (false, a) := by
  rw [stop_eq]
  have : (cs.flatMap fun c => c.blocks e) = [] := by
    rw [List.flatMap_eq_nil_iff]
    intro c hc
    have := h c hc
    cases e <;> simp_all [asked, Condition.blocks]
  rw [this]; rfl

/-- **C90** (blocks that only look): if no block changes macros, order does not matter: the milter is stopped if and only if some block says so of the macros at the event -/
theorem C90_pure (cs : List Condition) (e : Event) (he : notBody e = true) (a : Agent)
    (hp : ∀ c ∈ cs, ∀ b ∈ asked c e, (b a).2 = a) : (stop cs e a).1 = true ↔ ∃ c ∈ cs, ∃ b ∈ asked c e, (b a).1 = some true := by
  rw [C90_stop_partial cs e he]
  have hp' : ∀ b ∈ (cs.flatMap fun c => asked c e), (b a).2 = a := by
    intro b hb
    rw [List.mem_flatMap] at hb
    obtain ⟨c, hc, hb⟩ := hb
    exact hp c hc b hb
  have hafter : ∀ bs : List Block, (∀ b ∈ bs, (b a).2 = a) → after bs a = a := by
    intro bs
    induction bs with
    | nil => intro _; rfl
    | cons b bs ih =>
      intro h
      rw [after, h b List.mem_cons_self]
      exact ih fun c hc => h c (List.mem_cons_of_mem _ hc)
  constructor
  · rintro ⟨p, b, q, h, hb⟩
    rw [hafter p (fun c hc => hp' c (by rw [h]; exact List.mem_append_left _ hc))] at hb
    have : b ∈ (cs.flatMap fun c => asked c e) := by rw [h]; simp
    rw [List.mem_flatMap] at this
    obtain ⟨c, hc, hbc⟩ := this
    exact ⟨c, hc, b, hbc, hb⟩
  · rintro ⟨c, hc, b, hb, hs⟩
    have : b ∈ (cs.flatMap fun c => asked c e) := List.mem_flatMap.mpr ⟨c, hc, hb⟩
    obtain ⟨p, q, h⟩ := List.append_of_mem this
    refine ⟨p, b, q, h, ?_⟩
    rw [hafter p (fun d hd => hp' d (by rw [h]; exact List.mem_append_left _ hd))]
    exact hs

/-- a condition that raises an exception, then one that says stop for one host -/
def twoConditions : List Condition :=
  [{ name := ascii "broken", connect := [fun _ _ a => (none, a)] },
   { name := ascii "host", connect := [fun h _ a => (some (decide (h = ascii "here")), a)] }]

example : (stop twoConditions (.connect (ascii "here") .unix) Agent.init).1 = true := by decide
example : (stop twoConditions (.connect (ascii "there") .unix) Agent.init).1 = false := by decide

/-- **C90**, where the code departs from it: a block for chunks of the body is given the name of its condition in place of the chunk, so that it cannot tell one chunk from
another: a condition that is to stop the milter at a chunk "spam" never does -/
theorem C90_body_violated :
    ∃ c : Condition, ∃ chunk : Bytes, SaysStop (asked c (.body chunk)) Agent.init ∧ ∀ a, ∀ chunk : Bytes, (stop [c] (.body chunk) a).1 = false := by
  refine ⟨{ name := ascii "No spam", body := [fun chunk a => (some (decide (chunk = ascii "spam")), a)] }, ascii "spam", ⟨[], _, [], rfl, by decide⟩, ?_⟩
  intro a chunk
  have : ¬ (ascii "No spam" = ascii "spam") := by decide
  simp [stop, Condition.blocks, any, this]

/-- ... and whatever the chunks are, the decision is the same -/
theorem C90_body_blind_violated (cs : List Condition) (a : Agent) (x y : Bytes) : stop cs (.body x) a = stop cs (.body y) a := by
  rw [stop_eq, stop_eq]; rfl

/-! ## C91: Remote Network -/

theorem div_iff (n base k : Nat) (hk : 0 < k) : n / k = base / k ↔ ∃ first low low', low < k ∧ low' < k ∧ n = first * k + low ∧ base = first * k + low' := by
  constructor
  · intro h
    refine ⟨n / k, n % k, base % k, Nat.mod_lt _ hk, Nat.mod_lt _ hk, ?_, ?_⟩
    · rw [Nat.mul_comm]; exact (Nat.div_add_mod n k).symm
    · rw [h, Nat.mul_comm]; exact (Nat.div_add_mod base k).symm
  · rintro ⟨f, l, l', hl, hl', rfl, rfl⟩
    rw [Nat.mul_comm, Nat.mul_add_div hk, Nat.mul_add_div hk, Nat.div_eq_of_lt hl, Nat.div_eq_of_lt hl']

theorem includes_iff (n : Network) (x : Address) : n.includes x = true ↔ InNetwork n.v6 n.base n.length x := by
  cases x with
  | ipv4 m =>
    simp only [Network.includes, InNetwork, Bool.and_eq_true, Bool.not_eq_true', decide_eq_true_eq, div_iff _ _ _ (Nat.two_pow_pos _)]
  | ipv6 m =>
    simp only [Network.includes, InNetwork, Bool.and_eq_true, decide_eq_true_eq, div_iff _ _ _ (Nat.two_pow_pos _)]
  | unix => simp [Network.includes, InNetwork]
  | unknown => simp [Network.includes, InNetwork]

theorem isLocal_iff (x : Address) : x.isLocal = true ↔ LocalByNature x := by
  cases x with
  | ipv4 n =>
    simp only [Address.isLocal, LocalByNature, Bool.or_eq_true, decide_eq_true_eq]
    omega
  | ipv6 n =>
    simp only [Address.isLocal, LocalByNature, Bool.or_eq_true, decide_eq_true_eq]
    omega
  | unix => simp [Address.isLocal, LocalByNature]
  | unknown => simp [Address.isLocal, LocalByNature]

/-- the networks of a matcher, as plain data -/
def networks (l : List Network) : List (Bool × Nat × Nat) := l.map fun n => (n.v6, n.base, n.length)

theorem any_networks (l : List Network) (x : Address) :
    (x.hasIp && l.any (fun n => n.includes x)) = true ↔ ∃ n ∈ networks l, InNetwork n.1 n.2.1 n.2.2 x := by
  rw [Bool.and_eq_true, List.any_eq_true]
  constructor
  · rintro ⟨_, n, hn, h⟩
    exact ⟨_, List.mem_map.mpr ⟨n, hn, rfl⟩, (includes_iff n x).1 h⟩
  · rintro ⟨_, hm, h⟩
    obtain ⟨n, hn, rfl⟩ := List.mem_map.mp hm
    refine ⟨?_, n, hn, (includes_iff n x).2 h⟩
    cases x <;> first | rfl | exact h.elim

theorem remoteAddress_iff (m : AddressMatcher) (x : Address) : m.remoteAddress x = true ↔ Remote (networks m.locals) (networks m.remotes) x := by
  unfold AddressMatcher.remoteAddress Remote
  by_cases hu : x = .unknown
  · simp [hu]
  rw [if_neg hu]
  simp only [hu, ne_eq, not_false_eq_true, true_and, Bool.not_eq_true', AddressMatcher.localAddress, if_false]
  rw [← any_networks, ← isLocal_iff]
  by_cases hr : (x.hasIp && m.remotes.any fun n => n.includes x) = true
  · simp [hr]
  · rw [if_neg hr]
    by_cases hl : x.isLocal = true
    · simp [hl, hr]
    · rw [if_neg hl]
      simp only [hr, hl, false_or, not_false_eq_true, true_and, Bool.false_eq_true]
      have := any_networks m.locals x
      constructor
      · intro h n hn hi
        rw [this.2 ⟨n, hn, hi⟩] at h
        cases h
      · intro h
        apply Bool.eq_false_iff.mpr
        intro hc
        obtain ⟨n, hn, hi⟩ := this.1 hc
        exact h n hn hi

/-- **C91**: with the condition "Remote Network" a milter is stopped at the connection if and only if the client is not remote: not known, or local by nature or declaration and not in a
network declared remote.  A declared remote network wins over everything local.  Macros are neither read nor changed. -/
theorem C91_remote_network (m : AddressMatcher) (host : Bytes) (x : Address) (a : Agent) :
    ((stop [remoteNetwork m] (.connect host x) a).1 = true ↔ ¬ Remote (networks m.locals) (networks m.remotes) x) ∧
    (stop [remoteNetwork m] (.connect host x) a).2 = a := by
  rw [← remoteAddress_iff]
  simp only [stop, remoteNetwork, Condition.blocks, List.map_cons, List.map_nil, any]
  cases m.remoteAddress x <;> simp

/-- **C91** (three kinds): every known client is either local or remote, never both; an unknown one is neither -/
theorem C91_local_or_remote (m : AddressMatcher) (x : Address) :
    (x ≠ .unknown → (m.localAddress x = true ↔ ¬ m.remoteAddress x = true)) ∧
    (m.localAddress .unknown = false ∧ m.remoteAddress .unknown = false) := by
  refine ⟨fun h => ?_, rfl, rfl⟩
  unfold AddressMatcher.remoteAddress
  rw [if_neg h]
  cases m.localAddress x <;> simp

/-- 192.168.5.0/24 is remote, 203.0.113.0/24 is local -/
def office : AddressMatcher := ⟨[⟨false, 0xcb007100, 24⟩], [⟨false, 0xc0a80500, 24⟩]⟩
example : office.remoteAddress (.ipv4 0xc0a80507) = true ∧ office.remoteAddress (.ipv4 0xc0a80607) = false ∧ office.remoteAddress (.ipv4 0xcb007101) = false ∧
    office.remoteAddress (.ipv4 0x08080808) = true := by decide

/-! ## C93: Authenticated and Unauthenticated -/

/-- **C93** (names in braces): `context["{name}"]` is `context["name"]`, for reading and for writing, be the name as short as one letter -/
theorem C93_braces (a : Agent) (name : Bytes) (h : name ≠ []) (hn : 0x0a ∉ name) (hb : name.head? ≠ some 0x7b) :
    read a (0x7b :: name ++ [0x7d]) = read a name ∧ ∀ value, write a (0x7b :: name ++ [0x7d]) value = write a name value := by
  have h1 : normalizeName (0x7b :: name ++ [0x7d]) = name := by
    unfold normalizeName
    have hl : 0 < name.length := List.length_pos_iff.mpr h
    have ht : ((0x7b :: name ++ [0x7d]).drop 1).take ((0x7b :: name ++ [0x7d]).length - 2) = name := by
      simp
    rw [ht, if_pos]
    refine ⟨by simp; omega, ?_, hn⟩
    unfold bracketed
    rw [List.getLast?_append]
    rfl
  have h2 : normalizeName name = name := by
    unfold normalizeName
    rw [if_neg]
    rintro ⟨-, hbr, -⟩
    unfold bracketed at hbr
    simp at hbr
    exact hb hbr.1
  unfold Conditions.read Conditions.write
  rw [h1, h2]
  exact ⟨rfl, fun _ => rfl⟩

example : (Conditions.read { context := 0x43, available := none, macros := fun c => if c = 0x43 then some (fun n => if n = ascii "i" then some (ascii "Q1") else none) else none } (ascii "{i}")).1 = some (ascii "Q1") := by decide +kernel

theorem normalizeName_plain (n : Bytes) (h : n.head? ≠ some 0x7b) : normalizeName n = n := by
  unfold normalizeName
  rw [if_neg]
  rintro ⟨_, hb, _⟩
  simp only [bracketed, Bool.and_eq_true, beq_iff_eq] at hb
  exact h hb.1

theorem getAvailable_twice (a : Agent) : a.getAvailable.2.getAvailable.1 = a.getAvailable.1 := by
  unfold Agent.getAvailable
  cases h : a.available with
  | none => rfl
  | some t => simp [h]

theorem authenticated_iff (a : Agent) :
    (authenticated a).1 = true ↔ a.getAvailable.1 (ascii "auth_type") ≠ none ∨ a.getAvailable.1 (ascii "auth_authen") ≠ none := by
  have h1 : normalizeName (ascii "auth_type") = ascii "auth_type" := normalizeName_plain _ (by decide)
  have h2 : normalizeName (ascii "auth_authen") = ascii "auth_authen" := normalizeName_plain _ (by decide)
  simp only [authenticated, Conditions.read, h1, h2]
  rw [getAvailable_twice]
  cases hx : a.getAvailable.1 (ascii "auth_type") with
  | some v => simp
  | none => cases hy : a.getAvailable.1 (ascii "auth_authen") <;> simp

/-- **C93**: at MAIL, whatever was done with the milter's macros before, the condition "Authenticated" stops the milter exactly when neither `auth_type` nor `auth_authen` is visible
in that stage, and "Unauthenticated" exactly when one of them is; so exactly one of two milters with these conditions gets the message. -/
theorem C93_authenticated (h : List Spec.Macros.Call) (sender : Bytes) :
    let a := (agentAfter h).setContext 0x4d
    let known := Spec.Macros.visible (.setContext 0x4d :: h) (ascii "auth_type") ≠ none ∨ Spec.Macros.visible (.setContext 0x4d :: h) (ascii "auth_authen") ≠ none
    ((stop [authenticatedCondition] (.envelopeFrom sender) a).1 = true ↔ ¬ known) ∧
    ((stop [unauthenticatedCondition] (.envelopeFrom sender) a).1 = true ↔ known) := by
  intro a known
  have hk : (authenticated a).1 = true ↔ known := by
    rw [authenticated_iff]
    have e : a = agentAfter (.setContext 0x4d :: h) := rfl
    have hf : Spec.Macros.Fresh (.setContext 0x4d :: h) := trivial
    rw [e, getAvailable_visible _ hf, getAvailable_visible _ hf]
  rw [← hk]
  simp only [stop, authenticatedCondition, unauthenticatedCondition, Condition.blocks, List.map_cons, List.map_nil, any]
  cases (authenticated a).1 <;> simp

/-- the MTA gives `auth_type` with MAIL: only "Unauthenticated" stops; without, only "Authenticated" does -/
example : (stop [unauthenticatedCondition] (.envelopeFrom (ascii "<a@b>"))
    ((agentAfter [.setTable 0x4d (fun n => if n = ascii "auth_type" then some (ascii "PLAIN") else none)]).setContext 0x4d)).1 = true := by decide
example : (stop [authenticatedCondition] (.envelopeFrom (ascii "<a@b>")) ((agentAfter []).setContext 0x4d)).1 = true := by decide

/-- **C93** (in a session): as the milter is told of MAIL, with the macros the MTA gave for it, the macros of the connection and of HELO count, too, and those of later stages of an
earlier message do not -/
theorem C93_told (h : List Spec.Macros.Call) (macros : Table) (sender : Bytes) :
    let t : Told := ⟨some macros, .envelopeFrom sender, false⟩
    let g : Bytes → Prop := fun n => macros n ≠ none ∨ Spec.Macros.defined 0x48 n h ≠ none ∨ Spec.Macros.defined 0x43 n h ≠ none
    ((tell [authenticatedCondition] t (agentAfter h)).1 = true ↔ ¬ (g (ascii "auth_type") ∨ g (ascii "auth_authen"))) ∧
    ((tell [unauthenticatedCondition] t (agentAfter h)).1 = true ↔ g (ascii "auth_type") ∨ g (ascii "auth_authen")) := by
  intro t g
  let h' : List Spec.Macros.Call := .setContext 0x4d :: .setTable 0x4d macros :: h
  have ea : enter t.event (defineMacro t.macros t.event (agentAfter h)) = agentAfter h' := rfl
  have hv : ∀ n, (Spec.Macros.visible h' n ≠ none ↔ g n) := by
    intro n
    have : Spec.Macros.visible h' n = Spec.Macros.latest h' n [0x43, 0x48, 0x4d] := rfl
    rw [this]
    simp only [Spec.Macros.latest, h', Spec.Macros.defined, if_true, g]
    have e1 : ¬ ((0x4d : UInt8) = 0x43) := by decide
    have e2 : ¬ ((0x4d : UInt8) = 0x48) := by decide
    simp only [e1, e2, if_false]
    cases macros n <;> cases Spec.Macros.defined 0x48 n h <;> cases Spec.Macros.defined 0x43 n h <;> simp
  have hk : (authenticated (agentAfter h')).1 = true ↔ g (ascii "auth_type") ∨ g (ascii "auth_authen") := by
    have hf : Spec.Macros.Fresh h' := trivial
    rw [authenticated_iff, getAvailable_visible _ hf, getAvailable_visible _ hf, hv, hv]
  have et : ∀ c : Condition, (tell [c] t (agentAfter h)).1 = (stop [c] t.event (agentAfter h')).1 := by
    intro c
    unfold tell
    rw [ea]
    rcases stop [c] t.event (agentAfter h') with ⟨r, a⟩
    cases r <;> rfl
  rw [et, et, ← hk]
  show ((stop [authenticatedCondition] (.envelopeFrom sender) (agentAfter h')).1 = true ↔ _) ∧ ((stop [unauthenticatedCondition] (.envelopeFrom sender) (agentAfter h')).1 = true ↔ _)
  simp only [stop, authenticatedCondition, unauthenticatedCondition, Condition.blocks, List.map_cons, List.map_nil, any]
  cases (authenticated (agentAfter h')).1 <;> simp

/-! ## C92: Restrict Accounts -/

/-- the flag in the macros of a stage -/
def flagAt (a : Agent) (c : Context) : Option Bytes := (a.macros c).bind fun t => t flag

/-- the recipients of a message with the macros the MTA gave for each, then the next event, as told to a milter -/
def recipients (rs : List (Option Table × Bytes)) : List Told := rs.map fun p => ⟨p.1, .envelopeRecipient p.2, false⟩

/-- the MTA does not use the name of the flag -/
def Plain (m : Option Table) : Prop := ∀ t, m = some t → t flag = none

theorem flag_name : normalizeName flag = flag := normalizeName_plain _ (by decide)

theorem tell_recipient (restricted : Bytes → Bool) (m : Option Table) (hm : Plain m) (r : Bytes) (a : Agent) (hf : ∀ c, c ≠ 0x52 → flagAt a c = none) :
    (tell [restrictAccounts restricted] ⟨m, .envelopeRecipient r, false⟩ a).1 = !restricted r ∧
    (∀ c, c ≠ 0x52 → flagAt (tell [restrictAccounts restricted] ⟨m, .envelopeRecipient r, false⟩ a).2 c = none) ∧
    (flagAt (tell [restrictAccounts restricted] ⟨m, .envelopeRecipient r, false⟩ a).2 0x52 =
      if restricted r = false then some yes else if m.isSome then none else flagAt a 0x52) := by
  cases hres : restricted r
  · cases m with
    | none =>
      simp only [tell, defineMacro, enter, stop, restrictAccounts, Condition.blocks, List.map_cons, List.map_nil, any, hres, Bool.false_eq_true, if_false, write, flag_name]
      refine ⟨rfl, fun c hc => ?_, ?_⟩
      · have := hf c hc
        simpa [flagAt, Agent.setMacro, Agent.put, Agent.invalidate, Agent.setContext, Event.stage, hc] using this
      · simp [flagAt, Agent.setMacro, Agent.put, Agent.invalidate, Agent.setContext, Event.stage, Table.update]
    | some t =>
      simp only [tell, defineMacro, enter, stop, restrictAccounts, Condition.blocks, List.map_cons, List.map_nil, any, hres, Bool.false_eq_true, if_false, write, flag_name]
      refine ⟨rfl, fun c hc => ?_, ?_⟩
      · have := hf c hc
        simpa [flagAt, Agent.setMacro, Agent.setTable, Agent.put, Agent.invalidate, Agent.setContext, Event.stage, hc] using this
      · simp [flagAt, Agent.setMacro, Agent.put, Agent.invalidate, Agent.setContext, Event.stage, Table.update]
  · cases m with
    | none =>
      simp only [tell, defineMacro, enter, stop, restrictAccounts, Condition.blocks, List.map_cons, List.map_nil, any, hres, if_true, Bool.false_eq_true, if_false]
      refine ⟨rfl, fun c hc => ?_, ?_⟩
      · exact hf c hc
      · rfl
    | some t =>
      simp only [tell, defineMacro, enter, stop, restrictAccounts, Condition.blocks, List.map_cons, List.map_nil, any, hres, if_true, Bool.false_eq_true, if_false]
      refine ⟨rfl, fun c hc => ?_, ?_⟩
      · have := hf c hc
        simpa [flagAt, sent, Agent.setTable, Agent.put, Agent.invalidate, Agent.setContext, Event.stage, hc] using this
      · have := hm t rfl
        simp [flagAt, sent, Agent.setTable, Agent.put, Agent.invalidate, Agent.setContext, Event.stage, Table.merge, Table.empty, this]

theorem addContext_flag (acc : Table) (m : Option Table) : (addContext acc m) flag = match (m.bind fun t => t flag) with | some v => some v | none => acc flag := by
  cases m with
  | none => rfl
  | some t => cases h : t flag <;> simp [addContext, Table.merge, h]

theorem tell_data (restricted : Bytes → Bool) (m : Option Table) (hm : Plain m) (a : Agent) (hf : ∀ c, c ≠ 0x52 → flagAt a c = none) :
    (tell [restrictAccounts restricted] ⟨m, .data, false⟩ a).1 = decide (flagAt a 0x52 = some yes) := by
  have key : ∀ b : Agent, b.available = none → b.context = 0x54 → (∀ c, c ≠ 0x52 → flagAt b c = none) → b.getAvailable.1 flag = flagAt b 0x52 := by
    intro b h1 h2 h3
    simp only [Agent.getAvailable, h1, h2, searchOrder]
    have e1 : ¬ ((0x43 : UInt8) = 0x54) := by decide
    have e2 : ¬ ((0x48 : UInt8) = 0x54) := by decide
    have e3 : ¬ ((0x4d : UInt8) = 0x54) := by decide
    have e4 : ¬ ((0x52 : UInt8) = 0x54) := by decide
    simp only [collect, e1, e2, e3, e4, if_false, if_true, addContext_flag]
    have f1 := h3 0x43 (by decide)
    have f2 := h3 0x48 (by decide)
    have f3 := h3 0x4d (by decide)
    have f5 := h3 0x54 (by decide)
    simp only [flagAt] at f1 f2 f3 f5 ⊢
    simp only [f1, f2, f3, f5, Table.empty]
    cases (b.macros 0x52).bind fun t => t flag <;> rfl
  have goal : ∀ b : Agent, (stop [restrictAccounts restricted] .data b).1 = decide (b.getAvailable.1 flag = some yes) := by
    intro b
    simp only [stop, restrictAccounts, Condition.blocks, any, Conditions.read, flag_name]
    by_cases h : b.getAvailable.1 flag = some yes <;> simp [h]
  have et : (tell [restrictAccounts restricted] ⟨m, .data, false⟩ a).1 = (stop [restrictAccounts restricted] .data (enter .data (defineMacro m .data a))).1 := by
    unfold tell
    rcases stop [restrictAccounts restricted] .data (enter .data (defineMacro m .data a)) with ⟨r, b⟩
    cases r <;> rfl
  rw [et, goal]
  have hb : flagAt (enter .data (defineMacro m .data a)) 0x52 = flagAt a 0x52 ∧ ∀ c, c ≠ 0x52 → flagAt (enter .data (defineMacro m .data a)) c = none := by
    cases m with
    | none => exact ⟨rfl, hf⟩
    | some t =>
      refine ⟨rfl, fun c hc => ?_⟩
      have := hf c hc
      by_cases h54 : c = 0x54
      · subst h54
        have := hm t rfl
        simp [flagAt, enter, defineMacro, Agent.setTable, Agent.put, Agent.invalidate, Agent.setContext, Event.stage, Table.merge, Table.empty, this]
      · simpa [flagAt, enter, defineMacro, Agent.setTable, Agent.put, Agent.invalidate, Agent.setContext, Event.stage, h54] using this
  have := key (enter .data (defineMacro m .data a)) rfl rfl hb.2
  rw [this, hb.1]

/-- some recipient is none of the accounts, and the MTA gave no macros for any recipient after it -/
def Spoilt (restricted : Bytes → Bool) (rs : List (Option Table × Bytes)) : Prop :=
  ∃ before r later, rs = before ++ r :: later ∧ restricted r.2 = false ∧ ∀ p ∈ later, p.1 = none

theorem tell_all (restricted : Bytes → Bool) (m : Option Table) (hm : Plain m) (rs : List (Option Table × Bytes)) (hrs : ∀ p ∈ rs, Plain p.1) (a : Agent)
    (hf : ∀ c, c ≠ 0x52 → flagAt a c = none) (hr : flagAt a 0x52 = none ∨ flagAt a 0x52 = some yes) :
    ∃ d, (tellAll [restrictAccounts restricted] (recipients rs ++ [⟨m, .data, false⟩]) a).1 = rs.map (fun p => !restricted p.2) ++ [d] ∧
      (d = true ↔ Spoilt restricted rs ∨ (flagAt a 0x52 = some yes ∧ ∀ p ∈ rs, p.1 = none)) := by
  induction rs generalizing a with
  | nil =>
    refine ⟨decide (flagAt a 0x52 = some yes), ?_, ?_⟩
    · simp only [recipients, List.map_nil, List.nil_append, tellAll, tell_data restricted m hm a hf]
    · simp only [decide_eq_true_eq]
      constructor
      · intro h; exact .inr ⟨h, fun _ hp => nomatch hp⟩
      · rintro (⟨p, r, q, h, _⟩ | h)
        · cases p <;> cases h
        · exact h.1
  | cons p rs ih =>
    obtain ⟨m', r⟩ := p
    obtain ⟨h1, h2, h3⟩ := tell_recipient restricted m' (hrs _ List.mem_cons_self) r a hf
    have hr' : flagAt (tell [restrictAccounts restricted] ⟨m', .envelopeRecipient r, false⟩ a).2 0x52 = none ∨
        flagAt (tell [restrictAccounts restricted] ⟨m', .envelopeRecipient r, false⟩ a).2 0x52 = some yes := by
      rw [h3]; split
      · exact .inr rfl
      · split
        · exact .inl rfl
        · exact hr
    obtain ⟨d, e1, e2⟩ := ih (fun q hq => hrs q (List.mem_cons_of_mem _ hq)) _ h2 hr'
    refine ⟨d, ?_, ?_⟩
    · simp only [recipients, List.map_cons, List.cons_append, tellAll, h1]
      simp only [recipients] at e1
      rw [e1]
    · rw [e2, h3]
      constructor
      · rintro (⟨b, x, l, rfl, hx⟩ | ⟨hy, hn⟩)
        · exact .inl ⟨_ :: b, x, l, rfl, hx⟩
        · by_cases hres : restricted r = false
          · exact .inl ⟨[], (m', r), rs, rfl, hres, hn⟩
          · rw [if_neg hres] at hy
            cases m' with
            | some t => simp at hy
            | none =>
              refine .inr ⟨by simpa using hy, fun q hq => ?_⟩
              rcases List.mem_cons.mp hq with rfl | hq
              · rfl
              · exact hn q hq
      · rintro (⟨b, x, l, he, hx1, hx2⟩ | ⟨hy, hn⟩)
        · cases b with
          | nil =>
            simp only [List.nil_append, List.cons.injEq] at he
            obtain ⟨rfl, rfl⟩ := he
            exact .inr ⟨by rw [if_pos hx1], hx2⟩
          | cons y b =>
            simp only [List.cons_append, List.cons.injEq] at he
            obtain ⟨rfl, rfl⟩ := he
            exact .inl ⟨b, x, l, rfl, hx1, hx2⟩
        · have hm' : m' = none := hn _ List.mem_cons_self
          subst hm'
          refine .inr ⟨?_, fun q hq => hn q (List.mem_cons_of_mem _ hq)⟩
          split
          · rfl
          · simpa using hy

/-- no macro of the milter is called like the flag: so it is in a new session, and after an abort of a message -/
def Clear (a : Agent) : Prop := ∀ c, flagAt a c = none

/-- **C92** (what the condition does, exactly): for every list of recipients, with or without macros of the MTA for each, "Restrict Accounts" stops the milter at each recipient
that is none of the accounts, and at DATA if and only if there is such a recipient after which no recipient came with macros. -/
theorem C92_exactly (restricted : Bytes → Bool) (m : Option Table) (hm : Plain m) (rs : List (Option Table × Bytes)) (hrs : ∀ p ∈ rs, Plain p.1) (a : Agent) (ha : Clear a) :
    ∃ d, (tellAll [restrictAccounts restricted] (recipients rs ++ [⟨m, .data, false⟩]) a).1 = rs.map (fun p => !restricted p.2) ++ [d] ∧
      (d = true ↔ Spoilt restricted rs) := by
  obtain ⟨d, h1, h2⟩ := tell_all restricted m hm rs hrs a (fun c _ => ha c) (.inl (ha 0x52))
  refine ⟨d, h1, ?_⟩
  rw [h2, ha 0x52]
  simp

/-- **C92** (recipients all alike): if all recipients of a message are accounts the milter goes on at DATA, if none is and there is one, it is stopped - which is what the condition is for.
Missing: messages with recipients of both kinds, for which see below. -/
theorem C92_alike_partial (restricted : Bytes → Bool) (m : Option Table) (hm : Plain m) (rs : List (Option Table × Bytes)) (hrs : ∀ p ∈ rs, Plain p.1) (hne : rs ≠ [])
    (a : Agent) (ha : Clear a) (alike : (∀ p ∈ rs, restricted p.2 = true) ∨ (∀ p ∈ rs, restricted p.2 = false)) :
    ∃ ds d, (tellAll [restrictAccounts restricted] (recipients rs ++ [⟨m, .data, false⟩]) a).1 = ds ++ [d] ∧ (d = true ↔ ¬ Wanted restricted (rs.map (·.2))) := by
  obtain ⟨d, h1, h2⟩ := C92_exactly restricted m hm rs hrs a ha
  refine ⟨_, d, h1, ?_⟩
  rw [h2]
  rcases alike with h | h
  · constructor
    · rintro ⟨b, r, l, rfl, hr, _⟩
      rw [h r (by simp)] at hr
      cases hr
    · intro hw
      obtain ⟨p, hp⟩ := List.exists_mem_of_ne_nil rs hne
      exact absurd ⟨p.2, List.mem_map.mpr ⟨p, hp, rfl⟩, h p hp⟩ hw
  · constructor
    · rintro _ ⟨r, hr, hr'⟩
      obtain ⟨p, hp, rfl⟩ := List.mem_map.mp hr
      rw [h p hp] at hr'
      cases hr'
    · intro _
      rcases List.eq_nil_or_concat rs with rfl | ⟨b, r, rfl⟩
      · exact absurd rfl hne
      · rw [List.concat_eq_append] at h ⊢
        exact ⟨b, r, [], rfl, h r (by simp), fun _ hp => nomatch hp⟩

/-- **C92** (the MTA gives macros for the last recipient): the last recipient alone decides, whatever recipients there were before -/
theorem C92_last_decides (restricted : Bytes → Bool) (m : Option Table) (hm : Plain m) (rs : List (Option Table × Bytes)) (hrs : ∀ p ∈ rs, Plain p.1)
    (last : Option Table × Bytes) (hl : Plain last.1) (hln : last.1 ≠ none) (a : Agent) (ha : Clear a) :
    ∃ ds d, (tellAll [restrictAccounts restricted] (recipients (rs ++ [last]) ++ [⟨m, .data, false⟩]) a).1 = ds ++ [d] ∧ (d = true ↔ restricted last.2 = false) := by
  obtain ⟨d, h1, h2⟩ := C92_exactly restricted m hm (rs ++ [last]) (by
    intro p hp
    rcases List.mem_append.mp hp with hp | hp
    · exact hrs p hp
    · rcases List.mem_cons.mp hp with rfl | hp
      · exact hl
      · cases hp) a ha
  refine ⟨_, d, h1, ?_⟩
  rw [h2]
  constructor
  · rintro ⟨b, r, l, he, hr, hn⟩
    rcases List.eq_nil_or_concat l with rfl | ⟨l', x, rfl⟩
    · have := List.append_inj_right' he rfl
      simp only [List.cons.injEq, and_true] at this
      rw [this]; exact hr
    · rw [List.concat_eq_append, ← List.cons_append, ← List.append_assoc] at he
      have := List.append_inj_right' he rfl
      simp only [List.cons.injEq, and_true] at this
      have hx := hn x (by simp)
      rw [← this] at hx
      exact absurd hx hln
  · intro h
    exact ⟨rs, last, [], rfl, h, fun _ hp => nomatch hp⟩

/-- the accounts of the witness -/
def onlyAlice (r : Bytes) : Bool := decide (r = ascii "<alice@example.com>")
def alice : Bytes := ascii "<alice@example.com>"
def bob : Bytes := ascii "<bob@example.com>"
def mailer : Option Table := some fun n => if n = ascii "{rcpt_mailer}" then some (ascii "local") else none

/-- **C92**, where the code departs from it: the same message to Alice, who is an account, and Bob, who is not, is given to the milter or not depending on who comes last; and
if the MTA gives no macros for recipients, it is never given to the milter, although it is to an account -/
theorem C92_order_violated :
    (tellAll [restrictAccounts onlyAlice] (recipients [(mailer, bob), (mailer, alice)] ++ [⟨none, .data, false⟩]) Agent.init).1 = [true, false, false] ∧
    (tellAll [restrictAccounts onlyAlice] (recipients [(mailer, alice), (mailer, bob)] ++ [⟨none, .data, false⟩]) Agent.init).1 = [false, true, true] ∧
    (tellAll [restrictAccounts onlyAlice] (recipients [(none, bob), (none, alice)] ++ [⟨none, .data, false⟩]) Agent.init).1 = [true, false, true] ∧
    Wanted onlyAlice [alice, bob] := by
  refine ⟨by decide +kernel, by decide +kernel, by decide +kernel, alice, List.mem_cons_self, by decide⟩

/-- the hypotheses of the theorems above are met -/
example : Clear Agent.init ∧ Plain mailer ∧ Plain none :=
  ⟨fun _ => rfl, fun t ht => by
    have : t = fun n => if n = ascii "{rcpt_mailer}" then some (ascii "local") else none := by injection ht with h; exact h.symm
    rw [this]; decide, fun _ h => nomatch h⟩

/-! ## C90: what a block sees and writes -/

/-- **C90** (blocks see the stage's macros): when a milter is told of an event other than HELO, its blocks are asked with the macros visible in the stage of the event -/
theorem C90_macros_partial (h : List Spec.Macros.Call) (e : Event) (he : e.stage ≠ 0x48) (m : Table) (n : Bytes) :
    (enter e (defineMacro (some m) e (agentAfter h))).getAvailable.1 n = Spec.Macros.visible (.setContext e.stage :: .setTable e.stage m :: h) n := by
  have : enter e (defineMacro (some m) e (agentAfter h)) = agentAfter (.setContext e.stage :: .setTable e.stage m :: h) := by
    cases e <;> first | rfl | exact absurd rfl he
  rw [this]
  have hf : Spec.Macros.Fresh (.setContext e.stage :: .setTable e.stage m :: h) := trivial
  exact getAvailable_visible _ hf n

/-- **C90**, where the code departs from it: a block for HELO is asked in the stage the last command left.  After a connection that was sent to the milter, that is "unknown": what the
block writes can be read by no block of any stage afterwards.  After a connection that the milter had asked not to be told of, it is the connection: the macros the MTA gave for HELO
cannot be read by the block. -/
theorem C90_helo_violated :
    (∀ a : Agent, ∀ n v : Bytes, ∀ c : Context,
      (((write (enter (.helo []) (sent (.connect [] .unix) a)) n v).setContext c).getAvailable.1) = (((enter (.helo []) (sent (.connect [] .unix) a)).setContext c).getAvailable.1)) ∧
    (∀ m : Table, ∀ n : Bytes,
      (enter (.helo []) (defineMacro (some m) (.helo []) ((enter (.connect [] .unix) Agent.init)))).getAvailable.1 n = none) := by
  constructor
  · intro a n v c
    have hc : ∀ (l : List Context) (acc : Table) (x : Context), x ∉ l → ∀ (f g : Context → Option Table), (∀ d, d ≠ x → f d = g d) → collect f c l acc = collect g c l acc := by
      intro l
      induction l with
      | nil => intro _ _ _ _ _ _; rfl
      | cons d l ih =>
        intro acc x hx f g hfg
        have hd : d ≠ x := fun h => hx (by rw [h]; exact List.mem_cons_self)
        simp only [collect, hfg d hd]
        rw [ih _ x (fun h => hx (List.mem_cons_of_mem _ h)) f g hfg]
    show collect _ c searchOrder Table.empty = collect _ c searchOrder Table.empty
    apply hc searchOrder Table.empty 0x55 (by decide)
    intro d hd
    have : d ≠ (((sent (.connect [] .unix) a).context)) := hd
    simp only [write, enter, Agent.setMacro, Agent.put, Agent.invalidate, Agent.setContext]
    exact if_neg this
  · intro m n
    rfl

end Verif.Props.Conditions
