import Verif.Spec.LibMilter
import Verif.Client.Session
/-
Facts about the model of the libmilter-compatible library.
-/
namespace Verif.LibMilter
open Verif Verif.Client Verif.Spec.Client Verif.Spec.LibMilter

/-! ### The context between two commands which were answered at once -/

/-- no end of a message was left without its answer -/
def Orderly (s : State) : Prop := interrupted s.log = false

theorem Orderly.quiet {s s' : State} (h : Orderly s) (q : Quiet s s') : Orderly s' := by
  obtain ⟨es, he, hq⟩ := q.log
  unfold Orderly
  rw [he, interrupted_quiet hq]
  exact h

theorem Orderly.note {s : State} (h : Orderly s) (e : Client.Event) (he : Spec.Client.atEnd s.log = false ∨ leaves e = false) : Orderly (s.note e) := by
  unfold Orderly at *
  show interrupted (s.log ++ [e]) = false
  rw [interrupted_snoc, h]
  rcases he with he | he <;> rw [he] <;> simp

theorem Orderly.called {s : State} (order : Requests → Requests) (c : Call) (ha : answers c = false) (h : Orderly s) : Orderly (callNoted order s c) := by
  have he : callNoted order s c = (call order s c).2.note (.called c (call order s c).1) := by
    cases c <;> first | rfl | (cases ha; done)
  rw [he]
  refine Orderly.note ?_ _ (.inr (by cases c <;> first | rfl | (cases ha; done)))
  by_cases hw : writes c = true
  · exact h.quiet (call_quiet order s c hw)
  · cases c <;> first | (cases ha; done) | exact absurd rfl hw | exact h

theorem Orderly.runCalls {order : Requests → Requests} (calls : List Call) (hc : ∀ c ∈ calls, answers c = false) :
    ∀ {s : State}, Orderly s → Orderly (runCalls order s calls) := by
  induction calls with
  | nil => exact fun h => h
  | cons c calls ih => exact fun h => ih (fun x hx => hc x (List.mem_cons_of_mem _ hx)) (h.called order c (hc c List.mem_cons_self))

theorem Orderly.respond {s : State} (order : Requests → Requests) (k : Kind) (status : Status) (h : Orderly s)
    (ha : k = .endOfMessage ∨ Spec.Client.atEnd s.log = false) : Orderly (callNoted order s (.respond k status)) := by
  have h0 : Orderly (setSt { s.note (.answered k status) with status := orContinue status } (.replied k)) :=
    Orderly.note h (.answered k status) (by rcases ha with rfl | ha; exact .inr rfl; exact .inl ha)
  show Orderly (Client.respond order (s.note _) k status)
  unfold Client.respond
  dsimp only
  split
  · exact h0
  · unfold messageProcessed
    have h1 := h0.quiet (replyOnEndOfMessage_quiet order _ (orContinue status))
    split
    · exact Orderly.note h1 _ (.inr rfl)
    · exact h1
  · exact h0.quiet (reply_quiet _ _)

/-- the state of the conversation does not change in calls -/
theorem called_st (order : Requests → Requests) (s : State) (c : Call) (ha : answers c = false) : (callNoted order s c).st = s.st := by
  have he : callNoted order s c = (call order s c).2.note (.called c (call order s c).1) := by
    cases c <;> first | rfl | (cases ha; done)
  rw [he]
  show (call order s c).2.st = s.st
  by_cases hw : writes c = true
  · exact (call_quiet order s c hw).st
  · cases c <;> first | (cases ha; done) | exact absurd rfl hw | rfl

theorem runCalls_st (order : Requests → Requests) (calls : List Call) (hc : ∀ c ∈ calls, answers c = false) :
    ∀ s : State, (runCalls order s calls).st = s.st := by
  induction calls with
  | nil => exact fun _ => rfl
  | cons c calls ih =>
    intro s
    exact (ih (fun x hx => hc x (List.mem_cons_of_mem _ hx)) _).trans (called_st order s c (hc c List.mem_cons_self))

/-- a context between two commands which were answered at once -/
structure Calm (s : State) : Prop where
  settled : Settled s
  legal : Legal s
  coded : Coded s
  orderly : Orderly s
  st : s.st ≠ .doing .endOfMessage

theorem Calm.new (n : Nat) (l : Link) : Calm (new n l) :=
  ⟨.new n l, .new n l, (fun _ _ h => nomatch h), rfl, (fun h => nomatch h)⟩

theorem Calm.atEnd {s : State} (h : Calm s) : Spec.Client.atEnd s.log = false := by
  cases he : Spec.Client.atEnd s.log with
  | false => rfl
  | true => exact absurd (h.settled.agrees.atEnd.mpr he) h.st

theorem atEnd_of {s : State} (h : Agrees s) (hs : s.st ≠ .doing .endOfMessage) : Spec.Client.atEnd s.log = false := by
  cases he : Spec.Client.atEnd s.log with
  | false => rfl
  | true => exact absurd (h.atEnd.mpr he) hs

/-- the calls of handlers: no answers, replies with a code -/
def Mild (handlers : List Handler) : Prop :=
  (∀ x ∈ (ran handlers).flatMap (·.calls), answers x = false ∧ hasCode x = true) ∧ Spec.Client.decide handlers ≠ .progress

theorem receive_st (order : Requests → Requests) (s : State) (c : Cmd) (handlers : List Handler) (o : Option Opt) (r : Option Requests)
    (k : Kind) (context : Option Macros.Context) (hk : kindOf c = some (k, context)) (hn : k ≠ .negotiate) (hd : Spec.Client.decide handlers ≠ .progress) :
    (Client.receive order s c handlers o r).st = .replied k := by
  rw [receive_eq order s c handlers o r k context hk hn]
  dsimp only
  rw [if_neg hd]
  exact (respond_st order _ k _).1

theorem Calm.plainCommand {s : State} {order : Requests → Requests} (h : Calm s) (c : Cmd) (handlers : List Handler) (o : Option Opt) (r : Option Requests)
    (k : Kind) (context : Option Macros.Context) (hk : kindOf c = some (k, context)) (hn : k ≠ .negotiate) (hm : Mild handlers) :
    Calm (Client.receive order s c handlers o r) := by
  have hst := receive_st order s c handlers o r k context hk hn hm.2
  have hS := h.settled.receive (order := order) c handlers o r
  have hL := h.legal.receive (order := order) c handlers o r
  obtain ⟨f1, f2, _, _, _⟩ := enter_fields s c k context
  have hent : Agrees (enter (s.note (.got c)) k context) := h.settled.agrees.entered c k context hk
    (fun o h => by subst h; cases hk; exact hn rfl)
  have hcod0 : Coded (enter (s.note (.got c)) k context) := h.coded.same (by rw [f1, lastCustom_snoc])
  have hord0 : Orderly (enter (s.note (.got c)) k context) := by
    have := h.orderly.note (.got c) (.inl h.atEnd)
    unfold Orderly at this ⊢
    rw [f1]
    exact this
  have e := receive_eq order s c handlers o r k context hk hn
  dsimp only at e
  rw [if_neg hm.2] at e
  have hA1 := hent.runCalls (order := order) ((ran handlers).flatMap (·.calls))
  have hs1 : (runCalls order (enter (s.note (.got c)) k context) ((ran handlers).flatMap (·.calls))).st = .doing k :=
    (runCalls_st order _ (fun x hx => (hm.1 x hx).1) _).trans f2
  refine ⟨hS, hL, ?_, ?_, by rw [hst]; exact fun h => nomatch h⟩
  · rw [e]
    exact (hcod0.runCalls _ hm.1).respond order k _
  · rw [e]
    refine (hord0.runCalls _ fun x hx => (hm.1 x hx).1).respond order k _ ?_
    by_cases hke : k = .endOfMessage
    · exact .inl hke
    · exact .inr (atEnd_of hA1 (by rw [hs1]; exact fun h => hke (St.doing.inj h)))

theorem Calm.macros {s : State} {order : Requests → Requests} (h : Calm s) (x : Macros.Context) (t : MacroTable) (handlers : List Handler) (o : Option Opt)
    (r : Option Requests) : Calm (Client.receive order s (.defineMacro x t) handlers o r) :=
  ⟨h.settled.receive _ _ _ _, h.legal.receive _ _ _ _, Coded.note h.coded (.got (.defineMacro x t)) (fun _ _ h => nomatch h),
    Orderly.note h.orderly (.got (.defineMacro x t)) (.inr rfl), h.st⟩

theorem abort_eq (order : Requests → Requests) (s : State) (handlers : List Handler) (o : Option Opt) (r : Option Requests) :
    ∃ status, Client.receive order s .abort handlers o r =
      if status = Status.progress then resetMessage (runCalls order { setSt (s.note (.got .abort)) .abort with timer := false } ((ran handlers).flatMap (·.calls)))
      else callNoted order (resetMessage (runCalls order { setSt (s.note (.got .abort)) .abort with timer := false } ((ran handlers).flatMap (·.calls))))
        (.respondAbort status) := by
  refine ⟨(emitAll order { setSt (s.note (.got .abort)) .abort with timer := false } handlers .default).2, ?_⟩
  have he1 : (emitAll order { setSt (s.note (.got .abort)) .abort with timer := false } handlers .default).1 =
      runCalls order { setSt (s.note (.got .abort)) .abort with timer := false } ((ran handlers).flatMap (·.calls)) := by
    unfold emitAll
    rw [emit_eq order _ _ .default rfl (fun h => nomatch h), ran_snoc handlers _ (.inr rfl)]
  rw [← he1]
  rfl

theorem respondAbort_fields (t : State) (status : Status) : (respondAbort t status).log = t.log ∧ (respondAbort t status).st = .abortReplied := by
  unfold respondAbort
  dsimp only
  split <;> exact ⟨rfl, rfl⟩

theorem abort_st (order : Requests → Requests) (s : State) (handlers : List Handler) (o : Option Opt) (r : Option Requests)
    (hm : ∀ x ∈ (ran handlers).flatMap (·.calls), answers x = false) :
    (Client.receive order s .abort handlers o r).st = .abort ∨ (Client.receive order s .abort handlers o r).st = .abortReplied := by
  obtain ⟨status, e⟩ := abort_eq order s handlers o r
  rw [e]
  split
  · exact .inl ((runCalls_st order _ hm _).trans rfl)
  · exact .inr (respondAbort_fields (resetMessage (runCalls order { setSt (s.note (.got .abort)) .abort with timer := false } ((ran handlers).flatMap (·.calls)))) status).2

theorem Calm.abort {s : State} {order : Requests → Requests} (h : Calm s) (handlers : List Handler) (o : Option Opt)
    (r : Option Requests) (hm : ∀ x ∈ (ran handlers).flatMap (·.calls), answers x = false ∧ hasCode x = true) :
    Calm (Client.receive order s .abort handlers o r) := by
  have hst := abort_st order s handlers o r (fun x hx => (hm x hx).1)
  have hS := h.settled.receive (order := order) .abort handlers o r
  have hL := h.legal.receive (order := order) .abort handlers o r
  have hst' : (Client.receive order s .abort handlers o r).st ≠ .doing .endOfMessage := by
    rcases hst with h | h <;> rw [h] <;> exact fun h => nomatch h
  have hn := h.settled.agrees.receive (order := order) .abort handlers o r
  obtain ⟨status, e⟩ := abort_eq order s handlers o r
  have hc0 : Coded ({ setSt (s.note (.got .abort)) .abort with timer := false } : State) := Coded.note h.coded (.got .abort) (fun _ _ h => nomatch h)
  have ho0 : Orderly ({ setSt (s.note (.got .abort)) .abort with timer := false } : State) := Orderly.note h.orderly (.got .abort) (.inl h.atEnd)
  have hc1 := hc0.runCalls (order := order) _ hm
  have ho1 := ho0.runCalls (order := order) _ fun x hx => (hm x hx).1
  have hat : Spec.Client.atEnd (Client.receive order s .abort handlers o r).log = false := atEnd_of hS.agrees hst'
  refine ⟨hS, hL, ?_, ?_, hst'⟩
  · rw [e]
    split
    · exact hc1
    · exact Coded.note (hc1.same (by rw [(respondAbort_fields _ status).1]; rfl)) (.called (.respondAbort status) true) (fun _ _ h => by cases h; rfl)
  · have ha0 : Spec.Client.atEnd ({ setSt (s.note (.got .abort)) .abort with timer := false } : State).log = false := by
      show Spec.Client.atEnd (s.log ++ [.got .abort]) = false
      rw [atEnd_snoc]
    have hA0 : Agrees ({ setSt (s.note (.got .abort)) .abort with timer := false } : State) :=
      h.settled.agrees.moved (.got .abort) rfl (fun (h : St.abort = .doing .endOfMessage) => nomatch h) (by rw [atEnd_snoc])
        (by rw [negotiated_snoc]; exact h.settled.agrees.option) rfl (by rw [lastCustom_snoc]) rfl (by rw [quarantineReason_snoc]) h.settled.agrees.buffer
    rw [e]
    split
    · exact ho1
    · have hat1 : Spec.Client.atEnd (runCalls order ({ setSt (s.note (.got .abort)) .abort with timer := false } : State) ((ran handlers).flatMap (·.calls))).log = false :=
        atEnd_of (hA0.runCalls _) (by rw [runCalls_st order _ (fun x hx => (hm x hx).1)]; exact fun h => nomatch h)
      refine Orderly.note (s := respondAbort _ status) ?_ (.called (.respondAbort status) true) (.inl ?_)
      · unfold Orderly
        rw [(respondAbort_fields _ status).1]
        exact ho1
      · rw [(respondAbort_fields _ status).1]
        exact hat1

/-- the state in which the handlers of a negotiation run -/
def negotiating (s : State) (o : Opt) : State := { enter (s.note (.got (.negotiate o))) .negotiate none with option := some o }

theorem negotiate_eq (order : Requests → Requests) (s : State) (o : Opt) (handlers : List Handler) (chosen : Option Opt) (r : Option Requests)
    (hm : Spec.Client.decide handlers ≠ .progress) :
    Client.receive order s (.negotiate o) handlers chosen r =
      callNoted order (runCalls order (negotiating s o) ((ran handlers).flatMap (·.calls))) (.respondNegotiate chosen r (Spec.Client.decide handlers)) := by
  show (let (s, status) := emitAll order (negotiating s o) handlers .notChange
    if status = Status.progress then s else callNoted order s (.respondNegotiate chosen r status)) = _
  rw [emitAll_eq]
  dsimp only
  rw [if_neg hm]

theorem respondNegotiate_st (order : Requests → Requests) (s : State) (o : Option Opt) (r : Option Requests) (status : Status) :
    (callNoted order s (.respondNegotiate o r status)).st = .replied .negotiate := by
  show (Client.respondNegotiate order (s.note _) o r status).st = _
  unfold Client.respondNegotiate
  dsimp only
  generalize (if status = .default then Status.allOptions else status) = st
  obtain ⟨s1, hs1⟩ : ∃ s1 : State, s1 = (if st = .continue_ then
    ({ setSt { s.note (.answeredNegotiate o status) with status := st } (.replied .negotiate) with option := o } : State)
    else setSt { s.note (.answeredNegotiate o status) with status := st } (.replied .negotiate)) := ⟨_, rfl⟩
  have h1 : s1.st = .replied .negotiate := by
    rw [hs1]
    split <;> rfl
  rw [← hs1]
  split
  · exact (writePacket_quiet _ _).st.trans h1
  · split
    · exact (writePacket_quiet _ _).st.trans h1
    · exact h1

theorem Calm.negotiate {s : State} {order : Requests → Requests} (h : Calm s) (o : Opt) (handlers : List Handler) (chosen : Option Opt)
    (r : Option Requests) (hm : Mild handlers) : Calm (Client.receive order s (.negotiate o) handlers chosen r) := by
  have hS := h.settled.receive (order := order) (.negotiate o) handlers chosen r
  have hL := h.legal.receive (order := order) (.negotiate o) handlers chosen r
  have e := negotiate_eq order s o handlers chosen r hm.2
  have hc0 : Coded (negotiating s o) := Coded.note h.coded (.got (.negotiate o)) (fun _ _ h => nomatch h)
  have ho0 : Orderly (negotiating s o) := Orderly.note h.orderly (.got (.negotiate o)) (.inl h.atEnd)
  have hc1 := hc0.runCalls (order := order) _ hm.1
  have ho1 := ho0.runCalls (order := order) _ fun x hx => (hm.1 x hx).1
  have hA0 : Agrees (negotiating s o) := h.settled.agrees.enter (.negotiate o) .negotiate none rfl (some o) (by rw [negotiated_snoc])
  have hs1 := runCalls_st order _ (fun x hx => (hm.1 x hx).1) (negotiating s o)
  have hat := atEnd_of (hA0.runCalls (order := order) ((ran handlers).flatMap (·.calls))) (by rw [hs1]; exact fun h => nomatch h)
  have hst : (Client.receive order s (.negotiate o) handlers chosen r).st = .replied .negotiate := by
    rw [e]; exact respondNegotiate_st ..
  refine ⟨hS, hL, ?_, ?_, by rw [hst]; exact fun h => nomatch h⟩
  · rw [e]
    generalize runCalls order (negotiating s o) ((ran handlers).flatMap (·.calls)) = s1 at *
    show Coded (Client.respondNegotiate order (s1.note _) chosen r _)
    obtain ⟨s', h1, _, h3⟩ := respondNegotiate_shape order (s1.note (.answeredNegotiate chosen (Spec.Client.decide handlers))) chosen r (Spec.Client.decide handlers)
    have hc2 : Coded s' := Coded.same (Coded.note hc1 (.answeredNegotiate chosen (Spec.Client.decide handlers)) (fun _ _ h => nomatch h)) (by rw [h1])
    rcases h3 with h3 | ⟨p, h3⟩
    · rw [h3]; exact hc2
    · rw [h3]; exact hc2.quiet (writePacket_quiet s' p)
  · rw [e]
    generalize runCalls order (negotiating s o) ((ran handlers).flatMap (·.calls)) = s1 at *
    show Orderly (Client.respondNegotiate order (s1.note _) chosen r _)
    obtain ⟨s', h1, _, h3⟩ := respondNegotiate_shape order (s1.note (.answeredNegotiate chosen (Spec.Client.decide handlers))) chosen r (Spec.Client.decide handlers)
    have hc2 : Orderly s' := by
      have := Orderly.note ho1 (.answeredNegotiate chosen (Spec.Client.decide handlers)) (.inl hat)
      unfold Orderly at this ⊢
      rw [h1]
      exact this
    rcases h3 with h3 | ⟨p, h3⟩
    · rw [h3]; exact hc2
    · rw [h3]; exact hc2.quiet (writePacket_quiet s' p)

theorem Calm.received {s : State} {order : Requests → Requests} (h : Calm s) (c : Cmd) (hq : c ≠ .quit) (handlers : List Handler) (o : Option Opt)
    (r : Option Requests) (hm : Mild handlers) : Calm (Client.receive order s c handlers o r) := by
  cases hk : kindOf c with
  | some kc =>
    obtain ⟨k, context⟩ := kc
    by_cases hn : k = .negotiate
    · subst hn
      cases c <;> simp only [kindOf, Option.some.injEq, Prod.mk.injEq, reduceCtorEq, false_and] at hk
      exact h.negotiate _ handlers o r hm
    · exact h.plainCommand c handlers o r k context hk hn hm
  | none =>
    cases c with
    | defineMacro x t => exact h.macros x t handlers o r
    | abort => exact h.abort handlers o r hm.1
    | quit => exact absurd rfl hq
    | _ => cases hk

/-! ### Callbacks -/

theorem exec_context (order : Requests → Requests) (p : Prog) : ∀ (s : State) (priv : Option Nat),
    (p.exec order s priv).context = runCalls order s (p.exec order s priv).calls := by
  induction p with
  | done st => intro s priv; rfl
  | ask r k ih =>
    intro s priv
    unfold Prog.exec
    cases r.effect with
    | inl c => exact ih _ _ _
    | inr ok => exact ih _ _ _
  | symbol n k ih => intro s priv; exact ih _ _ _
  | setPriv v k ih => intro s priv; exact ih _ _
  | getPriv k ih => intro s priv; exact ih _ _ _

theorem effect_answers {r : Request} {c : Call} (h : r.effect = .inl c) : answers c = false := by
  cases r with
  | setMultiLineReply code ext lines =>
    unfold Request.effect at h
    dsimp only at h
    cases hj : joinLines lines with
    | none => rw [hj] at h; cases h
    | some text =>
      rw [hj] at h
      dsimp only at h
      split at h <;> cases h
      rfl
  | setSymbols st ms => cases h
  | _ => cases h; rfl

theorem asUnsigned_eq (n : Int) : (n % 2 ^ 32).toNat = asUnsigned n := rfl

theorem joinLines_eq (lines : List Bytes) : joinLines lines = if fit lines = true then some (text lines) else none := by
  induction lines with
  | nil => rfl
  | cons l ls ih =>
    unfold joinLines
    have hf : fit (l :: ls) = (decide (l.length ≤ 980) && !l.contains 0x0d && fit ls) := rfl
    by_cases h1 : l.length > 980
    · rw [if_pos h1, hf, decide_eq_false (by omega)]
      rfl
    · rw [if_neg h1]
      by_cases h2 : l.contains 0x0d = true
      · rw [if_pos h2, hf, h2, Bool.not_true, Bool.and_false, Bool.false_and]
        rfl
      · rw [if_neg h2, hf, decide_eq_true (by omega), Bool.eq_false_iff.mpr h2, Bool.not_false, Bool.true_and, Bool.true_and]
        cases ls with
        | nil => exact congrArg some (List.append_nil l).symm
        | cons l' ls' =>
          dsimp only
          rw [ih]
          by_cases h3 : fit (l' :: ls') = true
          · rw [if_pos h3, if_pos h3]
            show some _ = some _
            refine congrArg some ?_
            show l ++ ([0x0a] ++ text (l' :: ls')) = _
            rfl
          · rw [if_neg h3, if_neg h3]
            rfl

theorem effect_means (r : Request) : means r = match r.effect with | .inl c => [c] | .inr _ => [] := by
  cases r with
  | setMultiLineReply code ext lines =>
    unfold Request.effect means
    dsimp only
    rw [joinLines_eq]
    by_cases h : fit lines = true
    · rw [if_pos h, h]
      dsimp only
      cases ht : text lines with
      | nil => rfl
      | cons a b => rfl
    · rw [if_neg h, Bool.eq_false_iff.mpr h]
      rfl
  | _ => rfl

theorem exec_made (order : Requests → Requests) (p : Prog) : ∀ (s : State) (priv : Option Nat),
    (p.exec order s priv).made.flatMap (fun m => means m.1) = (p.exec order s priv).calls := by
  induction p with
  | done st => intro s priv; rfl
  | ask r k ih =>
    intro s priv
    unfold Prog.exec
    have := effect_means r
    cases he : r.effect with
    | inl c =>
      rw [he] at this
      dsimp only at this ⊢
      rw [List.flatMap_cons, ih]
      exact congrArg (· ++ _) this
    | inr ok =>
      rw [he] at this
      dsimp only at this ⊢
      rw [List.flatMap_cons, ih]
      exact (congrArg (· ++ _) this).trans rfl
  | symbol n k ih => intro s priv; exact ih _ _ _
  | setPriv v k ih => intro s priv; exact ih _ _
  | getPriv k ih => intro s priv; exact ih _ _ _

theorem exec_answers (order : Requests → Requests) (p : Prog) : ∀ (s : State) (priv : Option Nat),
    ∀ c ∈ (p.exec order s priv).calls, answers c = false := by
  induction p with
  | done st => intro s priv c hc; cases hc
  | ask r k ih =>
    intro s priv c hc
    unfold Prog.exec at hc
    cases he : r.effect with
    | inl c' =>
      rw [he] at hc
      rcases List.mem_cons.mp hc with hc | hc
      · rw [hc]; exact effect_answers he
      · exact ih _ _ _ c hc
    | inr ok => rw [he] at hc; exact ih _ _ _ c hc
  | symbol n k ih => intro s priv; exact ih _ _ _
  | setPriv v k ih => intro s priv; exact ih _ _
  | getPriv k ih => intro s priv; exact ih _ _ _

theorem effect_plain {r : Request} {c : Call} (hp : plain r = true) (h : r.effect = .inl c) (o : Option Opt) :
    recipientFlagsAgree o c = true ∧ hasCode c = true := by
  cases r with
  | setReply code ext message =>
    cases h
    cases ext with
    | none => cases hp
    | some e => exact ⟨rfl, rfl⟩
  | setMultiLineReply code ext lines =>
    unfold Request.effect at h
    dsimp only at h
    cases hj : joinLines lines with
    | none => rw [hj] at h; cases h
    | some text =>
      rw [hj] at h
      dsimp only at h
      split at h <;> cases h
      cases ext with
      | none => cases hp
      | some e => exact ⟨rfl, rfl⟩
  | addRecipientWith a p =>
    cases h
    cases p with
    | none => exact ⟨rfl, rfl⟩
    | some e => cases hp
  | setSymbols st ms => cases h
  | _ => cases h; exact ⟨rfl, rfl⟩

theorem exec_plain (order : Requests → Requests) (o : Option Opt) (p : Prog) (hp : Only plain p) : ∀ (s : State) (priv : Option Nat),
    ∀ c ∈ (p.exec order s priv).calls, recipientFlagsAgree o c = true ∧ hasCode c = true := by
  induction p with
  | done st => intro s priv c hc; cases hc
  | ask r k ih =>
    intro s priv c hc
    unfold Prog.exec at hc
    cases he : r.effect with
    | inl c' =>
      rw [he] at hc
      rcases List.mem_cons.mp hc with hc | hc
      · rw [hc]; exact effect_plain hp.1 he o
      · exact ih _ (hp.2 _) _ _ c hc
    | inr ok => rw [he] at hc; exact ih _ (hp.2 _) _ _ c hc
  | symbol n k ih => intro s priv; exact ih _ (hp _) _ _
  | setPriv v k ih => intro s priv; exact ih hp _ _
  | getPriv k ih => intro s priv; exact ih _ (hp _) _ _

theorem convert_ne (st : Int) : convert st ≠ .notChange ∧ convert st ≠ .progress := by
  unfold convert
  repeat' split
  all_goals exact ⟨(fun h => nomatch h), (fun h => nomatch h)⟩

theorem decide_one (h : Handler) (hn : h.returns ≠ .notChange) : Spec.Client.decide [h] = h.returns := by
  unfold Spec.Client.decide
  unfold ran
  split <;> simp [hn, ran]

theorem ran_one (h : Handler) : ran [h] = [h] := by
  unfold ran
  split <;> rfl

/-- the reply for a status is that for the decision it stands for -/
theorem convert_decision (custom : Option (Nat × Option Bytes × Option Bytes)) (x : Said) (l : List Said)
    (hl : l.getLast? = some x) : finalReply custom (convert x.returned) = finalReply custom (decision l) ∧
      (hasReply (decision l) = true → hasReply (convert x.returned) = true) := by
  unfold decision
  rw [hl]
  dsimp only
  generalize x.returned = st
  by_cases h0 : st = 0; · subst h0; exact ⟨rfl, fun h => h⟩
  by_cases h1 : st = 1; · subst h1; exact ⟨rfl, fun h => h⟩
  by_cases h2 : st = 2; · subst h2; exact ⟨rfl, fun h => h⟩
  by_cases h3 : st = 3; · subst h3; exact ⟨rfl, fun h => h⟩
  by_cases h4 : st = 4; · subst h4; exact ⟨rfl, fun h => h⟩
  by_cases h7 : st = 7; · subst h7; exact ⟨rfl, fun h => h⟩
  by_cases h8 : st = 8; · subst h8; exact ⟨rfl, fun h => h⟩
  by_cases h10 : st = 10; · subst h10; exact ⟨rfl, fun h => h⟩
  have hc : convert st = .default := by unfold convert; simp [h0, h1, h2, h3, h4, h7, h8, h10]
  have hd : decisions.find? (fun d => d.1 = st) = none := by
    rw [List.find?_eq_none]
    intro x hx
    simp only [decisions, List.mem_cons, List.not_mem_nil, or_false] at hx
    rcases hx with rfl | rfl | rfl | rfl | rfl | rfl | rfl | rfl <;> simp <;> omega
  rw [hc, hd]
  exact ⟨rfl, fun h => h⟩

/-- what the handlers of a command are -/
inductive Kind' (P : Call → Prop) (r : Result) : Prop
  | none : r.handlers = [] → r.seen = [] → Kind' P r
  | idle (h : Handler) : r.handlers = [h] → h.calls = [] → h.returns = .default → r.seen = [] → Kind' P r
  | some (h : Handler) (x : Said) : r.handlers = [h] → (∀ c ∈ h.calls, answers c = false ∧ P c) → h.returns = convert x.returned →
      r.seen.getLast? = some x → doings r.seen = h.calls → Kind' P r

theorem one_kind (P : Call → Prop) (order : Requests → Requests) (s : State) (priv : Option Nat) (what : Callback) (p : Option Prog)
    (hP : ∀ g, p = some g → ∀ s priv, ∀ c ∈ (g.exec order s priv).calls, P c) : Kind' P (one order s priv what p) := by
  cases p with
  | none => exact .none rfl rfl
  | some g =>
    exact .some ⟨(g.exec order s priv).calls, convert (g.exec order s priv).returns⟩
      ⟨what, (g.exec order s priv).made, (g.exec order s priv).returns⟩ rfl
      (fun c hc => ⟨exec_answers order g s priv c hc, hP g rfl s priv c hc⟩) rfl rfl ((List.append_nil _).trans (exec_made order g s priv))

/-- every call a callback of the filter may make satisfies `P` -/
def Every (P : Call → Prop) (order : Requests → Requests) (g : Prog) : Prop := ∀ s priv, ∀ c ∈ (g.exec order s priv).calls, P c

structure Makes (P : Call → Prop) (order : Requests → Requests) (f : Filter) : Prop where
  connect : ∀ g, f.connect = some g → ∀ host address, Every P order (g host address)
  helo : ∀ g, f.helo = some g → ∀ fqdn, Every P order (g fqdn)
  envfrom : ∀ g, f.envfrom = some g → ∀ a, Every P order (g a)
  envrcpt : ∀ g, f.envrcpt = some g → ∀ a, Every P order (g a)
  data : ∀ g, f.data = some g → Every P order g
  unknown : ∀ g, f.unknown = some g → ∀ command, Every P order (g command)
  header : ∀ g, f.header = some g → ∀ name value, Every P order (g name value)
  eoh : ∀ g, f.eoh = some g → Every P order g
  body : ∀ g, f.body = some g → ∀ chunk, Every P order (g chunk)
  eom : ∀ g, f.eom = some g → Every P order g
  abort : ∀ g, f.abort = some g → Every P order g

theorem Makes.trivial (order : Requests → Requests) (f : Filter) : Makes (fun _ => True) order f := by
  constructor <;> intros <;> intro _ _ _ _ <;> exact True.intro

theorem Makes.of {order : Requests → Requests} {f : Filter} (o : Option Opt) (h : Keeps plain f) :
    Makes (fun c => recipientFlagsAgree o c = true ∧ hasCode c = true) order f :=
  ⟨fun g hg a b => exec_plain order o _ (h.connect g hg a b), fun g hg a => exec_plain order o _ (h.helo g hg a),
    fun g hg a => exec_plain order o _ (h.envfrom g hg a), fun g hg a => exec_plain order o _ (h.envrcpt g hg a),
    fun g hg => exec_plain order o _ (h.data g hg), fun g hg a => exec_plain order o _ (h.unknown g hg a),
    fun g hg a b => exec_plain order o _ (h.header g hg a b), fun g hg => exec_plain order o _ (h.eoh g hg),
    fun g hg a => exec_plain order o _ (h.body g hg a), fun g hg => exec_plain order o _ (h.eom g hg),
    fun g hg => exec_plain order o _ (h.abort g hg)⟩

theorem map_some {α β : Type} {x : Option α} {k : α → β} {b : β} (h : x.map k = some b) : ∃ g, x = some g ∧ k g = b := by
  cases x with
  | none => cases h
  | some g => exact ⟨g, rfl, Option.some.inj h⟩

theorem endOfMessage_kind (P : Call → Prop) (order : Requests → Requests) (f : Filter) (hf : Makes P order f) (s : State) (priv : Option Nat)
    (chunk : Bytes) : Kind' P (endOfMessage order f s priv chunk) := by
  unfold endOfMessage
  cases he : f.eom with
  | none => exact .none rfl rfl
  | some eom =>
    have hone := one_kind P order s priv .eom (some eom) (fun g hg => by cases hg; exact hf.eom _ he)
    dsimp only
    cases hb : f.body with
    | none => exact hone
    | some body =>
      dsimp only
      by_cases hc : chunk = []
      · rw [if_pos hc]; exact hone
      · rw [if_neg hc]
        by_cases hx : endsMessage ((body chunk).exec order s priv).returns = true
        · rw [if_pos hx]
          exact .some ⟨_, _⟩ ⟨.body chunk, _, _⟩ rfl (fun c hc => ⟨exec_answers order _ s priv c hc, hf.body _ hb chunk s priv c hc⟩) rfl rfl
            ((List.append_nil _).trans (exec_made ..))
        · rw [if_neg hx]
          refine .some ⟨_, _⟩ ⟨.eom, _, _⟩ rfl (fun c hc => ?_) rfl rfl ?_
          rotate_left
          · show _ ++ (_ ++ []) = _
            dsimp only
            rw [List.append_nil, exec_made, exec_made]
          rcases List.mem_append.mp hc with hc | hc
          · exact ⟨exec_answers order _ s priv c hc, hf.body _ hb chunk s priv c hc⟩
          · exact ⟨exec_answers order _ _ _ c hc, hf.eom _ he _ _ c hc⟩

theorem handle_kind (P : Call → Prop) (order : Requests → Requests) (f : Filter) (hf : Makes P order f) (s : State) (priv : Option Nat) (c : Cmd) :
    Kind' P (handle order f s priv c) := by
  cases c with
  | negotiate o =>
    unfold handle
    dsimp only
    cases f.negotiate with
    | none => exact .none rfl rfl
    | some g =>
      dsimp only
      split
      · exact .some ⟨[], .default⟩ ⟨.undefined, [], -1⟩ rfl (fun _ h => nomatch h) rfl rfl rfl
      · rename_i st a b _
        exact .some ⟨[], convert st⟩ ⟨.negotiate o.action o.step, [], st⟩ rfl (fun _ h => nomatch h) rfl rfl rfl
  | defineMacro x t => exact .none rfl rfl
  | quit => exact .none rfl rfl
  | connect h a => exact one_kind P order _ priv _ _ fun p hp => by obtain ⟨g, hg, rfl⟩ := map_some hp; exact hf.connect g hg _ _
  | helo x => exact one_kind P order _ priv _ _ fun p hp => by obtain ⟨g, hg, rfl⟩ := map_some hp; exact hf.helo g hg _
  | envelopeFrom x => exact one_kind P order _ priv _ _ fun p hp => by obtain ⟨g, hg, rfl⟩ := map_some hp; exact hf.envfrom g hg _
  | envelopeRecipient x => exact one_kind P order _ priv _ _ fun p hp => by obtain ⟨g, hg, rfl⟩ := map_some hp; exact hf.envrcpt g hg _
  | data => exact one_kind P order _ priv _ _ fun p hp => hf.data p hp
  | unknown x => exact one_kind P order _ priv _ _ fun p hp => by obtain ⟨g, hg, rfl⟩ := map_some hp; exact hf.unknown g hg _
  | header n v => exact one_kind P order _ priv _ _ fun p hp => by obtain ⟨g, hg, rfl⟩ := map_some hp; exact hf.header g hg _ _
  | endOfHeader => exact one_kind P order _ priv _ _ fun p hp => hf.eoh p hp
  | body x => exact one_kind P order _ priv _ _ fun p hp => by obtain ⟨g, hg, rfl⟩ := map_some hp; exact hf.body g hg _
  | endOfMessage x => exact endOfMessage_kind P order f hf _ priv x
  | abort =>
    unfold handle
    dsimp only
    split
    · exact one_kind P order _ priv _ _ fun p hp => hf.abort p hp
    · cases f.abort with
      | none => exact .none rfl rfl
      | some g => exact .idle ⟨[], .default⟩ rfl rfl rfl rfl

theorem Kind'.mild {P : Call → Prop} {r : Result} (h : Kind' P r) (hP : ∀ c, P c → hasCode c = true) : Mild r.handlers := by
  cases h with
  | none h1 h2 => rw [h1]; exact ⟨(fun _ h => nomatch h), (fun h => nomatch h)⟩
  | idle h h1 h2 h3 h4 =>
    rw [h1]
    refine ⟨?_, ?_⟩
    · rw [ran_one]
      intro x hx
      rw [List.flatMap_cons, h2] at hx
      cases hx
    · rw [decide_one h (by rw [h3]; exact fun h => nomatch h), h3]
      exact fun h => nomatch h
  | some h x h1 h2 h3 h4 h5 =>
    rw [h1]
    refine ⟨?_, ?_⟩
    · rw [ran_one]
      intro y hx
      rw [List.flatMap_cons, List.flatMap_nil, List.append_nil] at hx
      exact ⟨(h2 y hx).1, hP y (h2 y hx).2⟩
    · rw [decide_one h (by rw [h3]; exact (convert_ne x.returned).1), h3]
      exact (convert_ne x.returned).2

theorem Kind'.answers {P : Call → Prop} {r : Result} (h : Kind' P r) :
    (∀ x ∈ (ran r.handlers).flatMap (·.calls), answers x = false ∧ P x) ∧ Spec.Client.decide r.handlers ≠ .progress := by
  cases h with
  | none h1 h2 => rw [h1]; exact ⟨(fun _ h => nomatch h), (fun h => nomatch h)⟩
  | idle h h1 h2 h3 h4 =>
    rw [h1]
    refine ⟨?_, ?_⟩
    · rw [ran_one]
      intro x hx
      rw [List.flatMap_cons, h2] at hx
      cases hx
    · rw [decide_one h (by rw [h3]; exact fun h => nomatch h), h3]
      exact fun h => nomatch h
  | some h x h1 h2 h3 h4 h5 =>
    rw [h1]
    refine ⟨?_, ?_⟩
    · rw [ran_one]
      intro y hx
      rw [List.flatMap_cons, List.flatMap_nil, List.append_nil] at hx
      exact h2 y hx
    · rw [decide_one h (by rw [h3]; exact (convert_ne x.returned).1), h3]
      exact (convert_ne x.returned).2

theorem Kind'.reply {P : Call → Prop} {r : Result} (h : Kind' P r) (custom : Option (Nat × Option Bytes × Option Bytes)) :
    finalReply custom (Spec.Client.decide r.handlers) = finalReply custom (decision r.seen) ∧
      (hasReply (decision r.seen) = true → hasReply (Spec.Client.decide r.handlers) = true) := by
  cases h with
  | none h1 h2 => rw [h1, h2]; exact ⟨rfl, fun _ => rfl⟩
  | idle h h1 h2 h3 h4 =>
    rw [h1, h4, decide_one h (by rw [h3]; exact fun h => nomatch h), h3]
    exact ⟨rfl, fun _ => rfl⟩
  | some h x h1 h2 h3 h4 h5 =>
    rw [h1, decide_one h (by rw [h3]; exact (convert_ne x.returned).1), h3]
    exact convert_decision custom x r.seen h4

theorem Kind'.doings {P : Call → Prop} {r : Result} (h : Kind' P r) : (ran r.handlers).flatMap (·.calls) = Spec.LibMilter.doings r.seen := by
  cases h with
  | none h1 h2 => rw [h1, h2]; rfl
  | idle h h1 h2 h3 h4 =>
    rw [h1, h4, ran_one, List.flatMap_cons, h2]
    rfl
  | some h x h1 h2 h3 h4 h5 =>
    rw [h1, ran_one, List.flatMap_cons, List.flatMap_nil, List.append_nil]
    exact h5.symm

/-! ### Sessions -/

theorem receive_lastCustom (order : Requests → Requests) (s : State) (c : Cmd) (hq : c ≠ .quit) (handlers : List Handler) (o : Option Opt) (r : Option Requests)
    (hm : (∀ x ∈ (ran handlers).flatMap (·.calls), answers x = false) ∧ Spec.Client.decide handlers ≠ .progress)
    (hd : ∀ x t, c = .defineMacro x t → handlers = []) :
    lastCustom (Client.receive order s c handlers o r).log = customAfter (lastCustom s.log) ((ran handlers).flatMap (·.calls)) := by
  cases hk : kindOf c with
  | some kc =>
    obtain ⟨k, context⟩ := kc
    by_cases hn : k = .negotiate
    · subst hn
      cases c <;> simp only [kindOf, Option.some.injEq, Prod.mk.injEq, reduceCtorEq, false_and] at hk
      rename_i off
      rw [negotiate_eq order s off handlers o r hm.2]
      have h1 := runCalls_lastCustom order _ hm.1 (negotiating s off)
      have h0 : lastCustom (negotiating s off).log = lastCustom s.log := lastCustom_snoc s.log (.got (.negotiate off))
      rw [h0] at h1
      rw [← h1]
      generalize runCalls order (negotiating s off) ((ran handlers).flatMap (·.calls)) = s1
      show lastCustom (Client.respondNegotiate order (s1.note _) o r _).log = _
      obtain ⟨s', h2, _, h3⟩ := respondNegotiate_shape order (s1.note (.answeredNegotiate o (Spec.Client.decide handlers))) o r (Spec.Client.decide handlers)
      have h4 : lastCustom s'.log = lastCustom s1.log := by rw [h2]; exact lastCustom_snoc ..
      rcases h3 with h3 | ⟨p, h3⟩
      · rw [h3, h4]
      · obtain ⟨es, h5, h6⟩ := (writePacket_quiet s' p).log
        rw [h3, h5, lastCustom_quiet h6, h4]
    · rw [receive_eq order s c handlers o r k context hk hn]
      dsimp only
      rw [if_neg hm.2, respond_lastCustom, runCalls_lastCustom order _ hm.1, (enter_fields s c k context).1, lastCustom_snoc]
  | none =>
    cases c with
    | defineMacro x t => rw [hd x t rfl]; exact lastCustom_snoc s.log (.got (.defineMacro x t))
    | abort =>
      obtain ⟨status, e⟩ := abort_eq order s handlers o r
      have hl : lastCustom (runCalls order { setSt (s.note (.got .abort)) .abort with timer := false } ((ran handlers).flatMap (·.calls))).log =
          customAfter (lastCustom s.log) ((ran handlers).flatMap (·.calls)) := by
        rw [runCalls_lastCustom order _ hm.1]
        exact congrArg (customAfter · _) (lastCustom_snoc s.log _)
      rw [e, ← hl]
      generalize runCalls order { setSt (s.note (.got .abort)) .abort with timer := false } ((ran handlers).flatMap (·.calls)) = s1
      split
      · rfl
      · show lastCustom ((respondAbort (resetMessage s1) status).log ++ [_]) = _
        rw [(respondAbort_fields _ status).1]
        exact lastCustom_snoc ..
    | quit => exact absurd rfl hq
    | _ => cases hk

theorem doings_append (a b : List Said) : doings (a ++ b) = doings a ++ doings b := List.flatMap_append

/-- what holds of a session that has not ended -/
structure Good (s : Session) : Prop where
  attached : s.attached = true
  calm : Calm s.context
  custom : lastCustom s.context.log = customAfter none (doings s.seen)

theorem Good.start (n : Nat) (l : Link) : Good (.start (new n l)) := ⟨rfl, .new n l, rfl⟩

/-- the option given to the answer of a negotiation -/
def given (f : Filter) : Cmd → Option Opt
  | .negotiate o => some (chosen f o)
  | _ => none

theorem receive_attached (order : Requests → Requests) (f : Filter) {s : Session} (ha : s.attached = true) (c : Cmd) (hq : c ≠ .quit) :
    receive order f s c = { s with
      context := Client.receive order s.context c (handle order f s.context s.priv c).handlers (given f c) (some [])
      priv := (handle order f s.context s.priv c).priv, seen := s.seen ++ (handle order f s.context s.priv c).seen } := by
  unfold receive
  dsimp only
  rw [if_pos ha, ha]
  cases c <;> first | rfl | exact absurd rfl hq

theorem Good.received {order : Requests → Requests} {f : Filter} (hf : Keeps plain f) {s : Session} (h : Good s) (c : Cmd) (hq : c ≠ .quit) :
    Good (receive order f s c) := by
  have hk := handle_kind _ order f (Makes.of (order := order) none hf) s.context s.priv c
  rw [receive_attached order f h.attached c hq]
  refine ⟨h.attached, h.calm.received c hq _ _ _ (hk.mild fun _ h => h.2), ?_⟩
  show lastCustom (Client.receive ..).log = customAfter none (doings (_ ++ _))
  rw [receive_lastCustom order s.context c hq _ _ _ ⟨fun x hx => (hk.answers.1 x hx).1, hk.answers.2⟩ (fun x t h => by subst h; rfl),
    hk.doings, h.custom, doings_append, customAfter_append]

theorem Good.run {order : Requests → Requests} {f : Filter} (hf : Keeps plain f) (cmds : List Cmd) : ∀ {s : Session}, Good s → Cmd.quit ∉ cmds →
    Good (run order f s (cmds.map .command)) := by
  induction cmds with
  | nil => exact fun h _ => h
  | cons c cmds ih =>
    intro s h hq
    exact ih (h.received hf c (fun e => hq (e ▸ List.mem_cons_self))) (fun e => hq (List.mem_cons_of_mem _ e))

theorem one_seen (order : Requests → Requests) (s : State) (priv : Option Nat) (what : Callback) (p : Option Prog) :
    (one order s priv what p).seen.map (·.what) = if p.isSome then [what] else [] := by
  cases p <;> rfl

theorem one_seen_map {α : Type} (order : Requests → Requests) (s : State) (priv : Option Nat) (what : Callback) (p : Option α) (k : α → Prog) :
    (one order s priv what (p.map k)).seen.map (·.what) = if p.isSome then [what] else [] := by
  cases p <;> rfl

theorem endsMessage_iff (n : Int) : endsMessage n = true ↔ n ∈ [(1 : Int), 2, 3, 4] := by
  simp [endsMessage, or_assoc]

theorem endOfMessage_due (order : Requests → Requests) (f : Filter) (hb : f.eom.isSome = true ∨ f.body = none) (s : State) (priv : Option Nat)
    (begun : Bool) (chunk : Bytes) : Due f begun (.endOfMessage chunk) (endOfMessage order f s priv chunk).seen := by
  cases he : f.eom with
  | none =>
    rcases hb with hb | hb
    · rw [he] at hb; cases hb
    · unfold endOfMessage
      rw [he]
      cases chunk with
      | nil => show _ = _; rw [he]; rfl
      | cons a l => show _ = _; rw [he, hb]; rfl
  | some eom =>
    unfold endOfMessage
    rw [he]
    dsimp only
    cases hbd : f.body with
    | none =>
      cases chunk with
      | nil => show _ = _; rw [he]; rfl
      | cons a l =>
        show _ = _
        rw [he, hbd]
        rfl
    | some body =>
      cases chunk with
      | nil => show _ = _; rw [he]; rfl
      | cons a l =>
        dsimp only
        rw [if_neg (by simp)]
        by_cases hx : endsMessage ((body (a :: l)).exec order s priv).returns = true
        · rw [if_pos hx]
          show _ = _
          rw [hbd]
          dsimp only
          rw [if_pos (show (some body).isSome = true from rfl), if_pos]
          · rfl
          · simp only [List.any_cons, List.any_nil, Bool.or_false, decide_eq_true_eq]
            exact ⟨True.intro, (endsMessage_iff _).mp hx⟩
        · rw [if_neg hx]
          show _ = _
          rw [hbd, he]
          dsimp only
          rw [if_pos (show (some body).isSome = true from rfl), if_neg]
          · rfl
          · intro h
            simp only [List.any_cons, List.any_nil, Bool.or_false, Bool.or_eq_true, decide_eq_true_eq] at h
            rcases h with h | h
            · exact hx ((endsMessage_iff _).mpr h.2)
            · exact nomatch h.1

theorem handle_due (order : Requests → Requests) (f : Filter) (hu : LeavesContext f) (hb : f.eom.isSome = true ∨ f.body = none) (s : State)
    (priv : Option Nat) (c : Cmd) (hq : c ≠ .quit) : Due f (inMessage s.st) c (handle order f s priv c).seen := by
  cases c with
  | negotiate o =>
    show _ = _
    unfold handle
    dsimp only
    cases hn : f.negotiate with
    | none => rfl
    | some g =>
      dsimp only
      cases hg : g o.action o.step with
      | usesContext => exact absurd hg (hu g hn _ _)
      | answers => rfl
  | defineMacro x t => exact rfl
  | quit => exact absurd rfl hq
  | connect h a => exact one_seen_map ..
  | helo x => exact one_seen_map ..
  | envelopeFrom x => exact one_seen_map ..
  | envelopeRecipient x => exact one_seen_map ..
  | data => exact one_seen ..
  | unknown x => exact one_seen_map ..
  | header n v => exact one_seen_map ..
  | endOfHeader => exact one_seen ..
  | body x => exact one_seen_map ..
  | endOfMessage x => exact endOfMessage_due order f hb _ priv _ x
  | abort =>
    show _ = _
    unfold handle
    dsimp only
    split
    · exact one_seen ..
    · cases f.abort <;> rfl

theorem receive_inMessage (order : Requests → Requests) (s : State) (c : Cmd) (hq : c ≠ .quit) (handlers : List Handler) (o : Option Opt) (r : Option Requests)
    (hm : (∀ x ∈ (ran handlers).flatMap (·.calls), answers x = false) ∧ Spec.Client.decide handlers ≠ .progress) (cs : List Cmd)
    (ho : orderly (inMessage s.st) (c :: cs) = true) :
    inMessage (Client.receive order s c handlers o r).st = next (inMessage s.st) c := by
  have ho' := ho
  unfold orderly at ho'
  rw [Bool.and_eq_true] at ho'
  have ho1 := ho'.1
  generalize hb : inMessage s.st = b at ho1
  cases hk : kindOf c with
  | some kc =>
    obtain ⟨k, context⟩ := kc
    by_cases hn : k = .negotiate
    · subst hn
      cases c <;> simp only [kindOf, Option.some.injEq, Prod.mk.injEq, reduceCtorEq, false_and] at hk
      rw [negotiate_eq order s _ handlers o r hm.2, respondNegotiate_st]
      cases b with
      | false => rfl
      | true => cases ho1
    · rw [receive_st order s c handlers o r k context hk hn hm.2]
      cases c <;> first | (cases hk; done) | (cases hk; cases b <;> first | rfl | cases ho1)
  | none =>
    cases c with
    | defineMacro x t => exact hb
    | abort =>
      rcases abort_st order s handlers o r hm.1 with h | h <;> rw [h] <;> rfl
    | quit => exact absurd rfl hq
    | _ => cases hk

theorem run_due (order : Requests → Requests) (f : Filter) (hu : LeavesContext f) (hb : f.eom.isSome = true ∨ f.body = none) (cmds : List Cmd) :
    ∀ s : Session, s.attached = true → orderly (inMessage s.context.st) cmds = true →
      ∃ groups, AllDue f (inMessage s.context.st) cmds groups ∧ (run order f s (cmds.map .command)).seen = s.seen ++ groups.flatten := by
  induction cmds with
  | nil => intro s _ _; exact ⟨[], .nil _, (List.append_nil _).symm⟩
  | cons c cmds ih =>
    intro s ha ho
    by_cases hq : c = .quit
    · subst hq
      have hc : cmds = [] := by
        unfold orderly at ho
        rw [Bool.and_eq_true] at ho
        exact List.isEmpty_iff.mp ho.1
      subst hc
      refine ⟨[(finish order f { s with context := Client.receive order s.context .quit [] none (some []), seen := [] }).seen], .cons _ _ _ _ _ ?_ (.nil _), ?_⟩
      · show _ = _
        unfold finish
        dsimp only
        rw [if_pos ha]
        cases f.close <;> rfl
      · show (receive order f s .quit).seen = _
        unfold receive
        dsimp only
        rw [if_pos ha]
        show (finish order f _).seen = _
        unfold finish
        dsimp only
        rw [if_pos ha, if_pos ha]
        cases f.close with
        | none => simp [handle]
        | some p => simp [handle]
    · have hk := handle_kind _ order f (Makes.trivial order f) s.context s.priv c
      have e := receive_attached order f ha c hq
      have hst := receive_inMessage order s.context c hq (handle order f s.context s.priv c).handlers (given f c) (some [])
        ⟨fun x hx => (hk.answers.1 x hx).1, hk.answers.2⟩ cmds ho
      have ho2 : orderly (next (inMessage s.context.st) c) cmds = true := by
        unfold orderly at ho
        rw [Bool.and_eq_true] at ho
        exact ho.2
      have hst' : inMessage (receive order f s c).context.st = next (inMessage s.context.st) c := by rw [e]; exact hst
      obtain ⟨groups, h1, h2⟩ := ih (receive order f s c) (by rw [e]; exact ha) (by rw [hst']; exact ho2)
      refine ⟨(handle order f s.context s.priv c).seen :: groups, .cons _ _ _ _ _ (handle_due order f hu hb s.context s.priv c hq) (hst' ▸ h1), ?_⟩
      refine h2.trans ?_
      rw [e, List.flatten_cons, List.append_assoc]

/-! ### What calls of the library return -/

theorem called_link (order : Requests → Requests) (s : State) (c : Call) (ha : answers c = false) :
    (callNoted order s c).link = s.link ∧ (callNoted order s c).option = s.option := by
  have he : callNoted order s c = (call order s c).2.note (.called c (call order s c).1) := by
    cases c <;> first | rfl | (cases ha; done)
  rw [he]
  show (call order s c).2.link = s.link ∧ (call order s c).2.option = s.option
  by_cases hw : writes c = true
  · exact ⟨(call_quiet order s c hw).link, (call_quiet order s c hw).option⟩
  · cases c <;> first | (cases ha; done) | exact absurd rfl hw | exact ⟨rfl, rfl⟩

theorem call_result (order : Requests → Requests) (s : State) (hl : s.link = .ready) (c : Call) (hc : changes c = true)
    (hf : recipientFlagsAgree s.option c = true) :
    (call order s c).1 = true ↔ s.st = .doing .endOfMessage ∧ accepted s.option c = true := by
  by_cases h : s.st = .doing .endOfMessage ∧ accepted s.option c = true
  · have := ((total_gathers order (written s.log ++ s.buffered)).change (rs := []) ⟨hl, by rw [bytes_nil, List.append_nil]⟩ c h.1 h.2 hf).1
    exact ⟨fun _ => h, fun _ => this⟩
  · rw [call_refused order s c hc hf h]
    exact ⟨(fun h => nomatch h), fun h' => absurd h' h⟩

theorem request_right (order : Requests → Requests) (s : State) (hl : s.link = .ready) (r : Request) (hp : plain r = true) (atEnd : Bool)
    (he : atEnd = true ↔ s.st = .doing .endOfMessage) :
    Right s.option atEnd r (match r.effect with | .inl c => (call order s c).1 | .inr ok => ok) := by
  have key : ∀ c : Call, changes c = true → recipientFlagsAgree s.option c = true → means r = [c] → r.effect = .inl c →
      ((match r.effect with | .inl c => (call order s c).1 | .inr ok => ok) = true ↔ atEnd = true ∧ ∀ c ∈ means r, accepted s.option c = true) := by
    intro c h1 h2 h3 h4
    rw [h4, h3]
    dsimp only
    rw [call_result order s hl c h1 h2, he]
    refine and_congr_right fun _ => ⟨fun h x hx => ?_, fun h => h c List.mem_cons_self⟩
    rw [List.mem_singleton] at hx
    rw [hx]
    exact h
  cases r with
  | setReply code ext message => exact Props.C10_accepts s.custom _ ext message
  | setMultiLineReply code ext lines =>
    unfold Right Request.effect
    dsimp only
    rw [joinLines_eq]
    by_cases h : fit lines = true
    · rw [if_pos h, h]
      dsimp only
      cases ht : text lines with
      | nil => exact ⟨fun _ => ⟨rfl, .inl rfl⟩, fun _ => rfl⟩
      | cons a b =>
        rw [if_pos (by simp)]
        refine (Props.C10_accepts s.custom _ ext (some (a :: b))).trans ⟨fun h => ⟨rfl, .inr h⟩, fun h => ?_⟩
        rcases h.2 with h | h
        · cases h
        · exact h
    · rw [if_neg h]
      exact ⟨(fun h => nomatch h), fun h' => absurd h'.1 h⟩
  | progress => exact True.intro
  | quarantine x => exact True.intro
  | setSymbols a b => exact True.intro
  | addRecipientWith a p =>
    cases p with
    | none => exact key _ rfl rfl rfl rfl
    | some e => cases hp
  | _ => exact key _ rfl rfl rfl rfl

theorem exec_right (order : Requests → Requests) (o : Option Opt) (atEnd : Bool) (p : Prog) (hp : Only plain p) : ∀ (s : State) (priv : Option Nat),
    s.link = .ready → s.option = o → (atEnd = true ↔ s.st = .doing .endOfMessage) → ∀ m ∈ (p.exec order s priv).made, Right o atEnd m.1 m.2 := by
  induction p with
  | done st => intro s priv _ _ _ c hc; cases hc
  | ask r k ih =>
    intro s priv hl ho he m hm
    have hr := request_right order s hl r hp.1 atEnd he
    rw [ho] at hr
    unfold Prog.exec at hm
    cases hx : r.effect with
    | inl c =>
      rw [hx] at hm hr
      have ha := effect_answers hx
      rcases List.mem_cons.mp hm with hm | hm
      · rw [hm]; exact hr
      · exact ih _ (hp.2 _) _ _ ((called_link order s c ha).1.trans hl) ((called_link order s c ha).2.trans ho) (by rw [called_st order s c ha]; exact he) m hm
    | inr ok =>
      rw [hx] at hm hr
      rcases List.mem_cons.mp hm with hm | hm
      · rw [hm]; exact hr
      · exact ih _ (hp.2 _) _ _ hl ho he m hm
  | symbol n k ih => intro s priv; exact ih _ (hp _) _ _
  | setPriv v k ih => intro s priv; exact ih hp _ _
  | getPriv k ih => intro s priv; exact ih _ (hp _) _ _

theorem runCalls_link (order : Requests → Requests) (calls : List Call) (hc : ∀ c ∈ calls, answers c = false) :
    ∀ s : State, (runCalls order s calls).link = s.link ∧ (runCalls order s calls).option = s.option := by
  induction calls with
  | nil => exact fun _ => ⟨rfl, rfl⟩
  | cons c calls ih =>
    intro s
    have h1 := ih (fun x hx => hc x (List.mem_cons_of_mem _ hx)) (callNoted order s c)
    have h2 := called_link order s c (hc c List.mem_cons_self)
    exact ⟨h1.1.trans h2.1, h1.2.trans h2.2⟩

theorem one_right (order : Requests → Requests) (o : Option Opt) (atEnd : Bool) (s : State) (priv : Option Nat) (what : Callback) (p : Option Prog)
    (hp : ∀ g, p = some g → Only plain g) (hl : s.link = .ready) (ho : s.option = o) (he : atEnd = true ↔ s.st = .doing .endOfMessage) :
    ∀ x ∈ (one order s priv what p).seen, ∀ m ∈ x.made, Right o atEnd m.1 m.2 := by
  cases p with
  | none => intro x hx; cases hx
  | some g =>
    intro x hx m hm
    rw [List.mem_singleton.mp hx] at hm
    exact exec_right order o atEnd g (hp g rfl) s priv hl ho he m hm

theorem handle_right (order : Requests → Requests) (f : Filter) (hf : Keeps plain f) (s : State) (priv : Option Nat) (hl : s.link = .ready) (c : Cmd) :
    ∀ x ∈ (handle order f s priv c).seen, ∀ m ∈ x.made, Right s.option (isEnd c) m.1 m.2 := by
  have ent : ∀ k context, kindOf c = some (k, context) → (enter (s.note (.got c)) k context).link = .ready ∧
      (enter (s.note (.got c)) k context).option = s.option ∧ (enter (s.note (.got c)) k context).st = .doing k := fun k context _ =>
    ⟨(enter_fields s c k context).2.2.2.1.trans hl, (enter_fields s c k context).2.2.2.2, (enter_fields s c k context).2.1⟩
  have no : ∀ {k : Kind} {t : State}, t.st = .doing k → k ≠ .endOfMessage → (false = true ↔ t.st = .doing .endOfMessage) := fun {k t} h hk =>
    ⟨(fun h => nomatch h), fun h' => absurd (St.doing.inj (h.symm.trans h')) hk⟩
  cases c with
  | negotiate off =>
    intro x hx m hm
    unfold handle at hx
    dsimp only at hx
    cases hn : f.negotiate with
    | none => rw [hn] at hx; cases hx
    | some g =>
      rw [hn] at hx
      dsimp only at hx
      split at hx
      · rcases List.mem_cons.mp hx with rfl | hx
        · cases hm
        · rcases List.mem_cons.mp hx with rfl | hx
          · cases hm
          · cases hx
      · rw [List.mem_singleton.mp hx] at hm
        cases hm
  | defineMacro x t => intro x hx; cases hx
  | quit => intro x hx; cases hx
  | connect h a =>
    obtain ⟨e1, e2, e3⟩ := ent _ _ rfl
    exact one_right order _ _ _ priv _ _ (fun p hp => by obtain ⟨g, hg, rfl⟩ := map_some hp; exact hf.connect g hg _ _) e1 e2 (no e3 (fun h => nomatch h))
  | helo x =>
    obtain ⟨e1, e2, e3⟩ := ent _ _ rfl
    exact one_right order _ _ _ priv _ _ (fun p hp => by obtain ⟨g, hg, rfl⟩ := map_some hp; exact hf.helo g hg _) e1 e2 (no e3 (fun h => nomatch h))
  | envelopeFrom x =>
    obtain ⟨e1, e2, e3⟩ := ent _ _ rfl
    exact one_right order _ _ _ priv _ _ (fun p hp => by obtain ⟨g, hg, rfl⟩ := map_some hp; exact hf.envfrom g hg _) e1 e2 (no e3 (fun h => nomatch h))
  | envelopeRecipient x =>
    obtain ⟨e1, e2, e3⟩ := ent _ _ rfl
    exact one_right order _ _ _ priv _ _ (fun p hp => by obtain ⟨g, hg, rfl⟩ := map_some hp; exact hf.envrcpt g hg _) e1 e2 (no e3 (fun h => nomatch h))
  | data =>
    obtain ⟨e1, e2, e3⟩ := ent _ _ rfl
    exact one_right order _ _ _ priv _ _ (fun p hp => hf.data p hp) e1 e2 (no e3 (fun h => nomatch h))
  | unknown x =>
    obtain ⟨e1, e2, e3⟩ := ent _ _ rfl
    exact one_right order _ _ _ priv _ _ (fun p hp => by obtain ⟨g, hg, rfl⟩ := map_some hp; exact hf.unknown g hg _) e1 e2 (no e3 (fun h => nomatch h))
  | header n v =>
    obtain ⟨e1, e2, e3⟩ := ent _ _ rfl
    exact one_right order _ _ _ priv _ _ (fun p hp => by obtain ⟨g, hg, rfl⟩ := map_some hp; exact hf.header g hg _ _) e1 e2 (no e3 (fun h => nomatch h))
  | endOfHeader =>
    obtain ⟨e1, e2, e3⟩ := ent _ _ rfl
    exact one_right order _ _ _ priv _ _ (fun p hp => hf.eoh p hp) e1 e2 (no e3 (fun h => nomatch h))
  | body x =>
    obtain ⟨e1, e2, e3⟩ := ent _ _ rfl
    exact one_right order _ _ _ priv _ _ (fun p hp => by obtain ⟨g, hg, rfl⟩ := map_some hp; exact hf.body g hg _) e1 e2 (no e3 (fun h => nomatch h))
  | endOfMessage chunk =>
    obtain ⟨e1, e2, e3⟩ := ent _ _ rfl
    show ∀ x ∈ (endOfMessage order f (enter (s.note (.got (.endOfMessage chunk))) _ _) priv chunk).seen, _
    generalize enter (s.note (.got (.endOfMessage chunk))) _ _ = t at e1 e2 e3
    unfold endOfMessage
    cases he : f.eom with
    | none => intro x hx; cases hx
    | some eom =>
      have hone := one_right order s.option true t priv .eom (some eom) (fun g hg => by cases hg; exact hf.eom _ he) e1 e2 (by rw [e3]; exact ⟨fun _ => rfl, fun _ => rfl⟩)
      dsimp only
      cases hb : f.body with
      | none => exact hone
      | some body =>
        have hbd := exec_right order s.option true (body chunk) (hf.body _ hb _) t priv e1 e2 (by rw [e3]; exact ⟨fun _ => rfl, fun _ => rfl⟩)
        dsimp only
        split
        · exact hone
        · split
          · intro x hx m hm
            rw [List.mem_singleton.mp hx] at hm
            exact hbd m hm
          · intro x hx m hm
            rcases List.mem_cons.mp hx with rfl | hx
            · exact hbd m hm
            · rw [List.mem_singleton.mp hx] at hm
              have ha := exec_answers order (body chunk) t priv
              refine exec_right order s.option true eom (hf.eom _ he) _ _ ?_ ?_ ?_ m hm
              · rw [exec_context, (runCalls_link order _ ha _).1]; exact e1
              · rw [exec_context, (runCalls_link order _ ha _).2]; exact e2
              · rw [exec_context, runCalls_st order _ ha, e3]; exact ⟨fun _ => rfl, fun _ => rfl⟩
  | abort =>
    unfold handle
    dsimp only
    split
    · exact one_right order _ _ _ priv _ _ (fun p hp => hf.abort p hp) hl rfl ⟨(fun h => nomatch h), fun (h : St.abort = .doing .endOfMessage) => nomatch h⟩
    · cases f.abort <;> (intro x hx; cases hx)

theorem fits_congr {o : Option Opt} {custom : Option (Nat × Option Bytes × Option Bytes)} {c : Cmd} {calls : List Call} {a b : Status} {read : List Reply}
    (h : finalReply custom a = finalReply custom b) (hf : Fits o custom c calls a read) : Fits o custom c calls b read := by
  unfold Fits at hf ⊢
  rw [← h]
  exact hf

end Verif.LibMilter
