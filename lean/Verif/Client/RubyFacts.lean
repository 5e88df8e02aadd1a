import Verif.Spec.Ruby
import Verif.Client.LibMilterFacts
import Verif.Props.Options
/-
Facts about the model of the Ruby binding.
-/
namespace Verif.Ruby
open Verif Verif.Client Verif.Spec.Client Verif.Spec.Ruby
open Verif.Enc (encodeReplies)
open Verif.LibMilter (Calm Mild decide_one ran_one receive_lastCustom)

variable {σ τ : Type}

/-! ### Callbacks -/

/-- what a milter has decided after some doings -/
def decidedFrom (d : Option Status) (did : List (Act × Bool)) : Option Status := did.foldl (fun d x => after d x.1 x.2) d

theorem options_none (o : Options) : (o.code.isSome ∨ o.extendedCode.isSome ∨ o.reason.isSome) ∨ o = ⟨none, none, none⟩ := by
  obtain ⟨a, b, c⟩ := o
  cases a <;> cases b <;> cases c <;> first | exact .inr rfl | (left; simp)

theorem setReply_ok (order : Requests → Requests) (s : State) (code : Nat) (ext reason : Option Bytes)
    (h : (call order s (.setReply code ext reason)).1 = true) : 400 ≤ code ∧ code ≤ 599 := by
  have : (SetReply.setReply s.custom code ext reason).1 = true := h
  have := (Props.C10_accepts s.custom code ext reason).1 this
  exact ⟨this.1, this.2.1⟩

theorem setReply_status (order : Requests → Requests) (s : State) (v : Option Value) (x : σ) (code : Nat) (ext reason : Bytes) :
    (setReply order s v x code ext reason).status.map Value.toStatus =
      if (setReply order s v x code ext reason).ok = true then some (kindOfCode code) else v.map Value.toStatus := by
  unfold setReply
  dsimp only
  by_cases h : (call order s (.setReply code (some ext) (some reason))).1 = true
  · rw [if_pos h, if_pos h]
    have := setReply_ok order s code (some ext) (some reason) h
    unfold kindOfCode
    by_cases h1 : code < 500
    · rw [if_pos ⟨this.1, h1⟩, if_pos h1]; rfl
    · rw [if_neg (fun h => h1 h.2), if_pos ⟨by omega, by omega⟩, if_neg h1]; rfl
  · rw [if_neg h, if_neg h]

/-- what `refuse` does, apart from the instance variables -/
theorem refuse_some (order : Requests → Requests) (reset : σ → σ) (s : State) (v : Option Value) (x : σ) (o : Options)
    (status : Status) (code : Nat) (ext reason : Bytes) (h : o.code.isSome ∨ o.extendedCode.isSome ∨ o.reason.isSome) :
    (refuse order reset s v x o status code ext reason).ok = (setReply order s v x (o.code.getD code) (o.extendedCode.getD ext) (o.reason.getD reason)).ok ∧
    (refuse order reset s v x o status code ext reason).calls = [.setReply (o.code.getD code) (some (o.extendedCode.getD ext)) (some (o.reason.getD reason))] ∧
    (refuse order reset s v x o status code ext reason).status =
      (setReply order s v x (o.code.getD code) (o.extendedCode.getD ext) (o.reason.getD reason)).status := by
  unfold refuse
  dsimp only
  rw [if_pos h]
  split <;> exact ⟨rfl, rfl, rfl⟩

theorem refuse_none (order : Requests → Requests) (reset : σ → σ) (s : State) (v : Option Value) (x : σ)
    (status : Status) (code : Nat) (ext reason : Bytes) :
    (refuse order reset s v x ⟨none, none, none⟩ status code ext reason).ok = true ∧
    (refuse order reset s v x ⟨none, none, none⟩ status code ext reason).calls = [] ∧
    (refuse order reset s v x ⟨none, none, none⟩ status code ext reason).status = some (.name status false) := by
  unfold refuse
  dsimp only
  rw [if_neg (show ¬ ((none : Option Nat).isSome = true ∨ (none : Option Bytes).isSome = true ∨ (none : Option Bytes).isSome = true) by simp)]
  split <;> exact ⟨rfl, rfl, rfl⟩

theorem perform_calls (order : Requests → Requests) (reset : σ → σ) (s : State) (v : Option Value) (x : σ) (a : Act) :
    (perform order reset s v x a).calls = means a := by
  cases a with
  | reject o =>
    rcases options_none o with h | rfl
    · refine (refuse_some order reset s v x o .reject 550 _ _ h).2.1.trans ?_
      obtain ⟨a, b, c⟩ := o
      cases a <;> cases b <;> cases c <;> first | rfl | simp at h
    · exact (refuse_none order reset s v x .reject 550 _ _).2.1
  | temporaryFailure o =>
    rcases options_none o with h | rfl
    · refine (refuse_some order reset s v x o .temporaryFailure 451 _ _ h).2.1.trans ?_
      obtain ⟨a, b, c⟩ := o
      cases a <;> cases b <;> cases c <;> first | rfl | simp at h
    · exact (refuse_none order reset s v x .temporaryFailure 451 _ _).2.1
  | modify m => cases m <;> rfl
  | quarantine r => rfl
  | _ => rfl

theorem perform_status (order : Requests → Requests) (reset : σ → σ) (s : State) (v : Option Value) (x : σ) (a : Act) :
    (perform order reset s v x a).status.map Value.toStatus = after (v.map Value.toStatus) a (perform order reset s v x a).ok := by
  have key : ∀ (o : Options) (status : Status) (code : Nat) (ext reason : Bytes), (o.code.isSome ∨ o.extendedCode.isSome ∨ o.reason.isSome) →
      (refuse order reset s v x o status code ext reason).status.map Value.toStatus =
        if (refuse order reset s v x o status code ext reason).ok = true then some (kindOfCode (o.code.getD code)) else v.map Value.toStatus := by
    intro o status code ext reason h
    obtain ⟨h1, _, h3⟩ := refuse_some order reset s v x o status code ext reason h
    rw [h1, h3, setReply_status]
  cases a with
  | reject o =>
    rcases options_none o with h | rfl
    · refine (key o .reject 550 _ _ h).trans ?_
      show _ = after _ _ (refuse order reset s v x o Status.reject 550 (ascii "5.7.1") (ascii "Command rejected")).ok
      generalize (refuse order reset s v x o Status.reject 550 (ascii "5.7.1") (ascii "Command rejected")).ok = ok
      obtain ⟨a, b, c⟩ := o
      cases ok <;> cases a <;> cases b <;> cases c <;> first | rfl | simp at h
    · show (refuse order reset s v x ⟨none, none, none⟩ Status.reject 550 (ascii "5.7.1") (ascii "Command rejected")).status.map Value.toStatus = some .reject
      rw [(refuse_none order reset s v x .reject 550 _ _).2.2]; rfl
  | temporaryFailure o =>
    rcases options_none o with h | rfl
    · refine (key o .temporaryFailure 451 _ _ h).trans ?_
      show _ = after _ _ (refuse order reset s v x o Status.temporaryFailure 451 (ascii "4.7.1") (ascii "Service unavailable - try again later")).ok
      generalize (refuse order reset s v x o Status.temporaryFailure 451 (ascii "4.7.1") (ascii "Service unavailable - try again later")).ok = ok
      obtain ⟨a, b, c⟩ := o
      cases ok <;> cases a <;> cases b <;> cases c <;> first | rfl | simp at h
    · show (refuse order reset s v x ⟨none, none, none⟩ Status.temporaryFailure 451 (ascii "4.7.1") (ascii "Service unavailable - try again later")).status.map Value.toStatus = some .temporaryFailure
      rw [(refuse_none order reset s v x .temporaryFailure 451 _ _).2.2]; rfl
  | setReply code ext reason =>
    refine (setReply_status order s v x code ext reason).trans ?_
    show _ = after _ _ (setReply order s v x code ext reason).ok
    generalize (setReply order s v x code ext reason).ok = ok
    cases ok <;> rfl
  | status w =>
    cases w with
    | none => rfl
    | some w => cases w <;> rfl
  | _ => rfl

theorem exec_calls (order : Requests → Requests) (reset : σ → σ) (p : Prog σ) : ∀ (s : State) (v : Option Value) (x : σ),
    (p.exec order reset s v x).calls = (p.exec order reset s v x).did.flatMap fun d => means d.1 := by
  induction p with
  | done => intro s v x; rfl
  | raise => intro s v x; rfl
  | act a k ih =>
    intro s v x
    unfold Prog.exec
    dsimp only
    rw [ih, perform_calls, List.flatMap_cons]
  | own f k ih => intro s v x; exact ih _ _ _ _
  | symbol n k ih => intro s v x; exact ih _ _ _ _

theorem exec_status (order : Requests → Requests) (reset : σ → σ) (p : Prog σ) : ∀ (s : State) (v : Option Value) (x : σ),
    (p.exec order reset s v x).status.map Value.toStatus = decidedFrom (v.map Value.toStatus) (p.exec order reset s v x).did := by
  induction p with
  | done => intro s v x; rfl
  | raise => intro s v x; rfl
  | act a k ih =>
    intro s v x
    unfold Prog.exec
    dsimp only
    rw [ih, perform_status]
    rfl
  | own f k ih => intro s v x; exact ih _ _ _ _
  | symbol n k ih => intro s v x; exact ih _ _ _ _

theorem exec_only {q : Act → Bool} (order : Requests → Requests) (reset : σ → σ) (p : Prog σ) : Only q p → ∀ (s : State) (v : Option Value) (x : σ),
    ∀ d ∈ (p.exec order reset s v x).did, q d.1 = true := by
  induction p with
  | done => intro h s v x d hd; cases hd
  | raise => intro h s v x d hd; cases hd
  | act a k ih =>
    intro h s v x d hd
    rcases List.mem_cons.mp hd with rfl | hd
    · exact h.1
    · exact ih _ (h.2 _) _ _ _ d hd
  | own f k ih => intro h s v x; exact ih _ (h _) _ _ _
  | symbol n k ih => intro h s v x; exact ih _ (h _) _ _ _

/-- the calls of what a milter may do -/
theorem means_fine {a : Act} (h : plain a = true) (o : Option Opt) : ∀ c ∈ means a, answers c = false ∧ recipientFlagsAgree o c = true ∧ hasCode c = true := by
  intro c hc
  cases a with
  | reject x =>
    unfold means at hc
    split at hc <;> simp_all [answers, recipientFlagsAgree, hasCode]
  | temporaryFailure x =>
    unfold means at hc
    split at hc <;> simp_all [answers, recipientFlagsAgree, hasCode]
  | modify m =>
    cases m with
    | addRecipient r parameters =>
      cases parameters with
      | none =>
        rw [List.mem_singleton.mp (show c ∈ [Call.addRecipient (some r) none] from hc)]
        exact ⟨rfl, rfl, rfl⟩
      | some x => cases h
    | _ => rw [List.mem_singleton.mp hc]; exact ⟨rfl, rfl, rfl⟩
  | quarantine r => rw [List.mem_singleton.mp hc]; exact ⟨rfl, rfl, rfl⟩
  | setReply code ext reason => rw [List.mem_singleton.mp hc]; exact ⟨rfl, rfl, rfl⟩
  | progress => rw [List.mem_singleton.mp hc]; exact ⟨rfl, rfl, rfl⟩
  | _ => cases hc

theorem kindOfCode_ne (code : Nat) : kindOfCode code ≠ .progress := by
  unfold kindOfCode
  split <;> exact fun h => nomatch h

theorem after_ne {d : Option Status} (hd : d ≠ some .progress) {a : Act} (h : plain a = true) (ok : Bool) : after d a ok ≠ some .progress := by
  cases a with
  | reject o =>
    obtain ⟨x, y, z⟩ := o
    have := kindOfCode_ne (x.getD 550)
    cases ok <;> cases x <;> cases y <;> cases z <;> simp_all [after]
  | temporaryFailure o =>
    obtain ⟨x, y, z⟩ := o
    have := kindOfCode_ne (x.getD 451)
    cases ok <;> cases x <;> cases y <;> cases z <;> simp_all [after]
  | setReply code ext reason =>
    cases ok with
    | true => exact fun h => kindOfCode_ne code (Option.some.inj h)
    | false => exact hd
  | status w =>
    cases w with
    | none => exact fun h => nomatch h
    | some w =>
      cases w with
      | constant st => intro e; cases e; cases h
      | name st b => intro e; cases e; cases h
  | delayResponse => cases h
  | modify m => exact hd
  | progress => exact hd
  | _ => exact fun h => nomatch h

theorem decidedFrom_ne (did : List (Act × Bool)) : ∀ {d : Option Status}, d ≠ some .progress → (∀ x ∈ did, plain x.1 = true) →
    decidedFrom d did ≠ some .progress := by
  induction did with
  | nil => exact fun hd _ => hd
  | cons x did ih =>
    intro d hd h
    exact ih (after_ne hd (h x List.mem_cons_self) x.2) fun y hy => h y (List.mem_cons_of_mem _ hy)

/-! ### Objects -/

/-- the calls of some parts -/
def partCalls (parts : List Part) : List Call := parts.flatMap fun p => p.did.flatMap fun d => means d.1

/-- what comes of a callback is what it seems to be -/
structure Fine (P : Call → Prop) (fallback : Value) (r : Outcome τ) : Prop where
  calls : r.calls = partCalls r.parts
  fine : ∀ c ∈ r.calls, answers c = false ∧ P c
  decision : Decision fallback.toStatus r.parts (statusOf (if r.raised then some fallback else r.status))
  waits : statusOf (if r.raised then some fallback else r.status) ≠ .progress

/-- the callbacks of an object are -/
structure Honest (P : Call → Prop) (fallback : Value) (m : Object τ) : Prop where
  callback : ∀ what g, what ≠ .finished → m.callback what = some g → ∀ s x, Fine P fallback (g s none x)
  negotiated : m.negotiated.toStatus ≠ .progress

theorem Class.honest (order : Requests → Requests) (o : Option Opt) (fallback : Value) (hf : fallback.toStatus ≠ .progress) (c : Class σ) (hc : Keeps plain c) :
    Honest (fun c => recipientFlagsAgree o c = true ∧ hasCode c = true) fallback (c.object order) := by
  refine ⟨?_, fun h => nomatch h⟩
  intro what g _ hg s x
  obtain ⟨p, hp, rfl⟩ := LibMilter.map_some hg
  have honly := exec_only order c.reset p (hc what p hp) s none x
  have hcalls := exec_calls order c.reset p s none x
  have hstatus := exec_status order c.reset p s none x
  show Fine _ fallback (⟨[⟨0, (p.exec order c.reset s none x).did, (p.exec order c.reset s none x).raised⟩], (p.exec order c.reset s none x).calls,
    (p.exec order c.reset s none x).context, (p.exec order c.reset s none x).status, (p.exec order c.reset s none x).own, (p.exec order c.reset s none x).raised⟩ : Outcome σ)
  generalize p.exec order c.reset s none x = r at *
  have hne := decidedFrom_ne r.did (d := none) (fun h => nomatch h) honly
  refine ⟨?_, ?_, ?_, ?_⟩
  · show r.calls = _
    rw [hcalls]
    show _ = ([⟨0, r.did, r.raised⟩] : List Part).flatMap _
    rw [List.flatMap_cons, List.flatMap_nil, List.append_nil]
  · intro y hy
    rw [show y ∈ _ ↔ y ∈ r.calls from Iff.rfl, hcalls] at hy
    obtain ⟨d, hd, hy⟩ := List.mem_flatMap.mp hy
    exact means_fine (honly d hd) o y hy
  · show Decision fallback.toStatus [⟨0, r.did, r.raised⟩] (statusOf (if r.raised then some fallback else r.status))
    unfold Decision
    cases hr : r.raised with
    | true => exact rfl
    | false =>
      show (match List.filterMap (fun p => decided p.did) [(⟨0, r.did, false⟩ : Part)] with
        | [] => _ | l => _)
      have hs : statusOf r.status = (decided r.did).getD .default := congrArg (fun (y : Option Status) => y.getD .default) hstatus
      cases hd : decided r.did with
      | none =>
        rw [hd] at hs
        simp only [List.filterMap_cons, hd, List.filterMap_nil]
        exact .inl hs
      | some d =>
        rw [hd] at hs
        simp only [List.filterMap_cons, hd, List.filterMap_nil]
        refine ⟨?_, ?_⟩
        · show statusOf r.status ∈ _
          rw [hs]; exact List.mem_singleton.mpr rfl
        · intro t ht
          rw [List.mem_singleton.mp ht]
          show _ ≤ Props.severity (statusOf r.status)
          rw [hs]; exact Nat.le_refl _
  · show statusOf (if r.raised then some fallback else r.status) ≠ .progress
    cases r.raised with
    | true => exact hf
    | false =>
      show (r.status.map Value.toStatus).getD .default ≠ .progress
      rw [hstatus]
      cases hd : decidedFrom (Option.map Value.toStatus none) r.did with
      | none => exact fun h => nomatch h
      | some d => exact fun h => hne (hd.trans (congrArg some h))

/-! ### Commands -/

/-- what the handlers of a signal come to is what they seem to -/
structure Handled (P : Call → Prop) (fallback : Value) (c : Cmd) (r : Result τ) : Prop where
  fine : ∀ x ∈ (ran r.handlers).flatMap (·.calls), answers x = false ∧ P x
  waits : Spec.Client.decide r.handlers ≠ .progress
  calls : (ran r.handlers).flatMap (·.calls) = doings r.seen
  status : r.status = none
  decision : expectsReply c = true → ∃ d, Decides fallback.toStatus r.seen d ∧ (hasReply d = true → Spec.Client.decide r.handlers = d)

theorem decide_ne {h : Handler} (hn : h.returns ≠ .progress) : Spec.Client.decide [h] ≠ .progress := by
  by_cases e : h.returns = .notChange
  · unfold Spec.Client.decide
    rw [ran_one]
    simp [e]
  · rw [decide_one h e]
    exact hn

theorem one_calls (h : Handler) : (ran [h]).flatMap (·.calls) = h.calls := by
  rw [ran_one, List.flatMap_cons, List.flatMap_nil, List.append_nil]

theorem doings_one (what : Callback) (parts : List Part) : doings [⟨what, parts⟩] = partCalls parts := by
  show List.flatMap _ [_] = _
  rw [List.flatMap_cons, List.flatMap_nil, List.append_nil]
  rfl

theorem nothing_handled (P : Call → Prop) (fallback : Value) (c : Cmd) (own : τ) : Handled P fallback c ({ own := own, status := none } : Result τ) :=
  ⟨(fun _ h => nomatch h), (fun h => nomatch h), rfl, rfl, fun _ => ⟨.default, .inl rfl, fun _ => rfl⟩⟩

theorem one_handled {P : Call → Prop} {fallback : Value} {m : Object τ} (hm : Honest P fallback m) (c : Cmd) (x : Session τ) (hx : x.status = none) (s : State)
    (what : Callback) (hw : what ≠ .finished) : Handled P fallback c (one fallback m x s what) := by
  unfold one
  cases hg : m.callback what with
  | none => dsimp only; rw [hx]; exact nothing_handled P fallback c x.own
  | some g =>
    dsimp only
    rw [hx]
    have hf := hm.callback what g hw hg s x.own
    generalize g s none x.own = r at *
    refine ⟨?_, ?_, ?_, rfl, ?_⟩
    · rw [one_calls]; exact hf.fine
    · exact decide_ne hf.waits
    · rw [one_calls, doings_one]; exact hf.calls
    · intro _
      refine ⟨_, hf.decision, fun hr => decide_one _ ?_⟩
      intro e
      rw [show statusOf (if r.raised then some fallback else r.status) = .notChange from e] at hr
      cases hr

theorem handle_handled {P : Call → Prop} {fallback : Value} (hfb : fallback.toStatus ≠ .progress) {m : Object τ} (hm : Honest P fallback m) (c : Cmd)
    (x : Session τ) (hx : x.status = none) : Handled P fallback c (handle fallback m x c) := by
  cases c with
  | negotiate o =>
    refine ⟨?_, decide_ne hm.negotiated, ?_, rfl, fun h => nomatch h⟩
    · intro y hy
      have : y ∈ (ran [(⟨[], statusOf (some m.negotiated)⟩ : Handler)]).flatMap (·.calls) := hy
      rw [one_calls] at this
      cases this
    · exact one_calls _
  | defineMacro a b => unfold handle; dsimp only [eventOf]; rw [hx]; exact nothing_handled P fallback _ x.own
  | quit => unfold handle; dsimp only [eventOf]; rw [hx]; exact nothing_handled P fallback _ x.own
  | abort =>
    unfold handle
    dsimp only
    cases hg : m.callback (.abort x.context.st) with
    | none =>
      dsimp only
      rw [hx]
      cases m.reset with
      | none => exact ⟨(by rw [one_calls]; exact fun _ h => nomatch h), decide_ne hfb, one_calls _, rfl, fun h => nomatch h⟩
      | some reset => exact ⟨(by rw [one_calls]; exact fun _ h => nomatch h), (fun h => nomatch h), one_calls _, rfl, fun h => nomatch h⟩
    | some g =>
      dsimp only
      rw [hx]
      have hf := hm.callback (.abort x.context.st) g (fun h => nomatch h) hg (aborting x.context) x.own
      generalize g (aborting x.context) none x.own = r at *
      cases m.reset with
      | none => exact ⟨(by rw [one_calls]; exact hf.fine), decide_ne hfb, (by rw [one_calls, doings_one]; exact hf.calls), rfl, fun h => nomatch h⟩
      | some reset => exact ⟨(by rw [one_calls]; exact hf.fine), decide_ne hf.waits, (by rw [one_calls, doings_one]; exact hf.calls), rfl, fun h => nomatch h⟩
  | _ => exact one_handled hm _ x hx _ _ (fun h => nomatch h)

/-! ### Sessions -/

theorem doings_append (a b : List Said) : doings (a ++ b) = doings a ++ doings b := List.flatMap_append

/-- what holds of a session that has not ended -/
structure Good (x : Session τ) : Prop where
  calm : Calm x.context
  custom : lastCustom x.context.log = customAfter none (doings x.seen)
  status : x.status = none

theorem Good.start (m : Object τ) (n : Nat) (l : Link) : Good (.start m (new n l)) := ⟨.new n l, rfl, rfl⟩

/-- the option given to the answer of a negotiation -/
def given (m : Object τ) : Cmd → Option Opt
  | .negotiate o => some (m.choose o)
  | _ => none

theorem receive_eq (order : Requests → Requests) (fallback : Value) (m : Object τ) (x : Session τ) (c : Cmd) (hq : c ≠ .quit) :
    receive order fallback m x c = { context := Client.receive order x.context c (handle fallback m x c).handlers (given m c) (some [])
                                     own := (handle fallback m x c).own, status := (handle fallback m x c).status
                                     seen := x.seen ++ (handle fallback m x c).seen } := by
  unfold receive
  cases c <;> first | rfl | exact absurd rfl hq

theorem Good.received {order : Requests → Requests} {P : Call → Prop} (hP : ∀ c, P c → hasCode c = true) {fallback : Value} (hfb : fallback.toStatus ≠ .progress)
    {m : Object τ} (hm : Honest P fallback m) {x : Session τ} (h : Good x) (c : Cmd) (hq : c ≠ .quit) : Good (receive order fallback m x c) := by
  have hk := handle_handled hfb hm c x h.status
  rw [receive_eq order fallback m x c hq]
  refine ⟨h.calm.received c hq _ _ _ ⟨fun y hy => ⟨(hk.fine y hy).1, hP y (hk.fine y hy).2⟩, hk.waits⟩, ?_, hk.status⟩
  show lastCustom (Client.receive ..).log = customAfter none (doings (_ ++ _))
  rw [receive_lastCustom order x.context c hq _ _ _ ⟨fun y hy => (hk.fine y hy).1, hk.waits⟩ (fun a t h => by subst h; rfl),
    hk.calls, h.custom, doings_append, customAfter_append]

theorem Good.run {order : Requests → Requests} {P : Call → Prop} (hP : ∀ c, P c → hasCode c = true) {fallback : Value} (hfb : fallback.toStatus ≠ .progress)
    {m : Object τ} (hm : Honest P fallback m) (cmds : List Cmd) : ∀ {x : Session τ}, Good x → Cmd.quit ∉ cmds → Good (run order fallback m x cmds) := by
  induction cmds with
  | nil => exact fun h _ => h
  | cons c cmds ih =>
    intro x h hq
    exact ih (h.received hP hfb hm c (fun e => hq (e ▸ List.mem_cons_self))) (fun e => hq (List.mem_cons_of_mem _ e))

/-- what the MTA reads for a command, for any honest object -/
theorem Good.read {order : Requests → Requests} {fallback : Value} (hfb : fallback.toStatus ≠ .progress) {m : Object τ} {x : Session τ}
    (hm : Honest (fun c => recipientFlagsAgree (negotiated x.context.log) c = true ∧ hasCode c = true) fallback m) (hg : Good x) (hl : x.context.link = .ready)
    (c : Cmd) (hc : ∀ o, c ≠ .negotiate o) (hc' : c ≠ .quit) :
    ∃ said, (receive order fallback m x c).seen = x.seen ++ said ∧ ∃ d, (expectsReply c = true → Decides fallback.toStatus said d) ∧
      ((expectsReply c = true → hasReply d = true) →
        ∃ read, Fits (negotiated x.context.log) (customAfter none (doings (receive order fallback m x c).seen)) c (doings said) d read ∧
          written (receive order fallback m x c).context.log = written x.context.log ++ (encodeReplies order [] read).flatten) := by
  have hk := handle_handled hfb hm c x hg.status
  have e := receive_eq order fallback m x c hc'
  have hb := hg.calm.settled.empty hg.calm.orderly hg.calm.st
  have h0 : Between order (written x.context.log) (negotiated x.context.log) x.context [] :=
    ⟨⟨hl, fun _ => hb, by rw [bytes_nil, List.append_nil], hb⟩, hg.calm.settled.agrees, hg.calm.legal, hg.calm.coded, hg.calm.st,
      hg.calm.settled.agrees.option⟩
  have hcf : callsFor c (handle fallback m x c).handlers = doings (handle fallback m x c).seen := by
    rw [← hk.calls]
    cases c <;> first | rfl | exact absurd rfl hc'
  have key : ∀ d, (expectsReply c = true → hasReply d = true ∧ Spec.Client.decide (handle fallback m x c).handlers = d) →
      ∃ read, Fits (negotiated x.context.log) (customAfter none (doings (receive order fallback m x c).seen)) c (doings (handle fallback m x c).seen) d read ∧
          written (receive order fallback m x c).context.log = written x.context.log ++ (encodeReplies order [] read).flatten := by
    intro d hd
    obtain ⟨read, h1, h2, h3, _⟩ := h0.any c (handle fallback m x c).handlers (given m c) (some []) hc hc'
      (fun hx => by rw [(hd hx).2]; exact (hd hx).1) hk.fine
    rw [hcf, hg.custom, ← customAfter_append, ← doings_append] at h3
    refine ⟨read, ?_, ?_⟩
    · rw [e]
      by_cases hx : expectsReply c = true
      · rw [← (hd hx).2]
        exact h3
      · unfold Fits at h3 ⊢
        rw [if_neg hx] at h3 ⊢
        exact h3
    · rw [e]
      have := h1.sent.out
      rw [List.nil_append, bytes_encode order _ h2] at this
      exact this
  refine ⟨(handle fallback m x c).seen, by rw [e], ?_⟩
  by_cases hx : expectsReply c = true
  · obtain ⟨d, h1, h2⟩ := hk.decision hx
    exact ⟨d, fun _ => h1, fun hr => key d fun _ => ⟨hr hx, h2 (hr hx)⟩⟩
  · exact ⟨.default, fun h => absurd h hx, fun _ => key .default fun h => absurd h hx⟩

/-! ### Several milters as one -/

theorem simple_plain {a : Act} (h : simple a = true) : plain a = true := by
  cases a with
  | status w =>
    cases w with
    | none => rfl
    | some w =>
      cases w with
      | constant s => cases s <;> first | rfl | cases h
      | name s b => cases s <;> first | rfl | (cases b <;> cases h)
  | _ => exact h

/-- a status among several: a decision, not written with dashes -/
def Clean (v : Option Value) : Prop := ∀ w, v = some w → ensureStatus w = some w.toStatus ∧ Props.IsDecision w.toStatus

theorem Clean.name (s : Status) (h : Props.IsDecision s) : Clean (some (.name s false)) := fun _ hw => by cases hw; exact ⟨rfl, h⟩

theorem setReply_clean (order : Requests → Requests) (s : State) {v : Option Value} (hv : Clean v) (x : σ) (code : Nat) (ext reason : Bytes) :
    Clean (setReply order s v x code ext reason).status := by
  unfold setReply
  dsimp only
  split
  · split
    · exact .name _ (by decide)
    · split
      · exact .name _ (by decide)
      · exact hv
  · exact hv

theorem refuse_clean (order : Requests → Requests) (reset : σ → σ) (s : State) {v : Option Value} (hv : Clean v) (x : σ) (o : Options)
    (status : Status) (hs : Props.IsDecision status) (code : Nat) (ext reason : Bytes) : Clean (refuse order reset s v x o status code ext reason).status := by
  rcases options_none o with h | rfl
  · rw [(refuse_some order reset s v x o status code ext reason h).2.2]
    exact setReply_clean order s hv x _ _ _
  · rw [(refuse_none order reset s v x status code ext reason).2.2]
    exact .name _ hs

theorem perform_clean (order : Requests → Requests) (reset : σ → σ) (s : State) {v : Option Value} (hv : Clean v) (x : σ) {a : Act} (h : simple a = true) :
    Clean (perform order reset s v x a).status := by
  cases a with
  | reject o => exact refuse_clean order reset s hv x o .reject (by decide) _ _ _
  | temporaryFailure o => exact refuse_clean order reset s hv x o .temporaryFailure (by decide) _ _ _
  | setReply code ext reason => exact setReply_clean order s hv x code ext reason
  | status w =>
    intro w' hw'
    have hw' : w = some w' := hw'
    subst hw'
    cases w' with
    | constant st => exact ⟨rfl, fun e => by simp [simple, show Props.severity st = 0 from e] at h⟩
    | name st b =>
      cases b with
      | true => simp [simple] at h
      | false => exact ⟨rfl, fun e => by simp [simple, show Props.severity st = 0 from e] at h⟩
  | delayResponse => cases h
  | modify m => exact hv
  | progress => exact hv
  | _ => exact .name _ (by decide)

theorem exec_clean (order : Requests → Requests) (reset : σ → σ) (p : Prog σ) : Only simple p → ∀ (s : State) {v : Option Value} (_ : Clean v) (x : σ),
    Clean (p.exec order reset s v x).status := by
  induction p with
  | done => exact fun _ _ _ hv _ => hv
  | raise => exact fun _ _ _ hv _ => hv
  | act a k ih => exact fun h s _ hv x => ih _ (h.2 _) _ (perform_clean order reset s hv x h.1) _
  | own f k ih => exact fun h s _ hv x => ih _ (h _) _ hv _
  | symbol n k ih => exact fun h s _ hv x => ih _ (h _) _ hv _

theorem after_simple {a : Act} (h : simple a = true) (d : Option Status) (ok : Bool) : after d a ok = (after none a ok).or d := by
  cases a with
  | reject o =>
    obtain ⟨x, y, z⟩ := o
    cases ok <;> cases x <;> cases y <;> cases z <;> rfl
  | temporaryFailure o =>
    obtain ⟨x, y, z⟩ := o
    cases ok <;> cases x <;> cases y <;> cases z <;> rfl
  | setReply code ext reason => cases ok <;> rfl
  | status w =>
    cases w with
    | none => cases h
    | some w => cases w <;> rfl
  | _ => rfl

theorem decidedFrom_simple (did : List (Act × Bool)) : (∀ x ∈ did, simple x.1 = true) → ∀ d : Option Status, decidedFrom d did = (decided did).or d := by
  induction did with
  | nil => intro _ d; rfl
  | cons x did ih =>
    intro h d
    have ih := ih fun y hy => h y (List.mem_cons_of_mem _ hy)
    show decidedFrom (after d x.1 x.2) did = (decidedFrom (after none x.1 x.2) did).or d
    rw [ih, ih, after_simple (h x List.mem_cons_self) d, Option.or_assoc]

/-- a status that is one of those made -/
def Among (l : List Status) : Option Value → Prop
  | none => l = []
  | some w => ensureStatus w = some w.toStatus ∧ w.toStatus ∈ l

/-- what `resolve_status` has come to after decisions `l`: the context's status is one of them, and the resolved one is the most severe -/
structure Resolved (l : List Status) (v resolved : Option Value) : Prop where
  all : ∀ t ∈ l, Props.IsDecision t
  status : Among l v
  resolved : match resolved with
    | none => l = []
    | some w => ensureStatus w = some w.toStatus ∧ (l = [] ∧ w.toStatus = .default ∨ w.toStatus ∈ l ∧ ∀ t ∈ l, Props.severity t ≤ Props.severity w.toStatus)

theorem resolve_one {l : List Status} {v resolved : Option Value} (h : Resolved l v resolved) (d : Option Status) (e : Option Value) (he : Clean e)
    (hd : e.map Value.toStatus = d.or (v.map Value.toStatus)) (hdec : ∀ t, d = some t → Props.IsDecision t) :
    ∃ r, resolveStatus resolved (e.getD (.constant .default)) = some r ∧ Resolved (l ++ d.toList) e (some r) := by
  have hall : ∀ t ∈ l ++ d.toList, Props.IsDecision t := by
    intro t ht
    rcases List.mem_append.mp ht with ht | ht
    · exact h.all t ht
    · cases d with
      | none => cases ht
      | some t' => rw [List.mem_singleton.mp ht]; exact hdec t' rfl
  -- the new status
  have hnew : Among (l ++ d.toList) e := by
    cases e with
    | none =>
      have hs := h.status
      cases d with
      | none =>
        cases v with
        | none => exact (List.append_nil l).trans hs
        | some w => cases hd
      | some t => cases hd
    | some w =>
      refine ⟨(he w rfl).1, ?_⟩
      cases d with
      | some t =>
        have : w.toStatus = t := Option.some.inj hd
        rw [this]
        exact List.mem_append_right _ (List.mem_singleton.mpr rfl)
      | none =>
        have hs := h.status
        cases v with
        | none => cases hd
        | some w' =>
          have : w.toStatus = w'.toStatus := Option.some.inj hd
          rw [this]
          exact List.mem_append_left _ hs.2
  -- every decision is an old one or the new status
  have hold : ∀ t ∈ l ++ d.toList, t ∈ l ∨ some t = e.map Value.toStatus := by
    intro t ht
    rcases List.mem_append.mp ht with ht | ht
    · exact .inl ht
    · cases d with
      | none => cases ht
      | some t' => rw [List.mem_singleton.mp ht, hd]; exact .inr rfl
  cases resolved with
  | none =>
    have hl : l = [] := h.resolved
    refine ⟨e.getD (.constant .default), rfl, hall, hnew, ?_⟩
    cases e with
    | none => exact ⟨rfl, .inl ⟨hnew, rfl⟩⟩
    | some w =>
      refine ⟨hnew.1, .inr ⟨hnew.2, fun t ht => ?_⟩⟩
      rcases hold t ht with h' | h'
      · rw [hl] at h'; cases h'
      · cases h'; exact Nat.le_refl _
  | some r =>
    obtain ⟨hr1, hr2⟩ := h.resolved
    have hens : ensureStatus (e.getD (.constant .default)) = some (e.getD (.constant .default)).toStatus := by
      cases e with
      | none => rfl
      | some w => exact hnew.1
    refine ⟨.constant (if Status.compare r.toStatus (e.getD (.constant .default)).toStatus < 0 then (e.getD (.constant .default)).toStatus else r.toStatus), ?_, hall, hnew, rfl, ?_⟩
    · show (match ensureStatus r, ensureStatus (e.getD (.constant .default)) with
        | some a, some b => some (Value.constant (if Status.compare a b < 0 then b else a)) | _, _ => none) = _
      rw [hr1, hens]
    · show (_ ∧ (if Status.compare r.toStatus (e.getD (.constant .default)).toStatus < 0 then (e.getD (.constant .default)).toStatus else r.toStatus) = .default) ∨ _
      cases e with
      | none =>
        have hl : l = [] := (List.append_eq_nil_iff.mp hnew).1
        rcases hr2 with ⟨_, h2⟩ | ⟨h2, _⟩
        · refine .inl ⟨hnew, ?_⟩
          rw [h2]
          rfl
        · rw [hl] at h2; cases h2
      | some w =>
        right
        have hw : Props.IsDecision w.toStatus := hall _ hnew.2
        show (if Status.compare r.toStatus w.toStatus < 0 then w.toStatus else r.toStatus) ∈ _ ∧ _
        rcases hr2 with ⟨h1, h2⟩ | ⟨h1, h2⟩
        · have hlt : Status.compare r.toStatus w.toStatus < 0 := by
            rw [h2]
            generalize w.toStatus = t at hw
            cases t <;> first | (exact absurd rfl hw) | decide
          show (if Status.compare r.toStatus w.toStatus < 0 then w.toStatus else r.toStatus) ∈ _ ∧
            ∀ t ∈ _, Props.severity t ≤ Props.severity (if Status.compare r.toStatus w.toStatus < 0 then w.toStatus else r.toStatus)
          rw [if_pos hlt]
          refine ⟨hnew.2, fun t ht => ?_⟩
          rcases hold t ht with h' | h'
          · rw [h1] at h'; cases h'
          · cases h'; exact Nat.le_refl _
        · have hc := Props.C13_order r.toStatus w.toStatus (h.all _ h1) hw
          show (if Status.compare r.toStatus w.toStatus < 0 then w.toStatus else r.toStatus) ∈ _ ∧
            ∀ t ∈ _, Props.severity t ≤ Props.severity (if Status.compare r.toStatus w.toStatus < 0 then w.toStatus else r.toStatus)
          by_cases hlt : Status.compare r.toStatus w.toStatus < 0
          · rw [if_pos hlt]
            have hs := hc.1.1 hlt
            refine ⟨hnew.2, fun t ht => ?_⟩
            rcases hold t ht with h' | h'
            · exact Nat.le_of_lt (Nat.lt_of_le_of_lt (h2 t h') hs)
            · cases h'; exact Nat.le_refl _
          · rw [if_neg hlt]
            have hs : ¬ Props.severity r.toStatus < Props.severity w.toStatus := fun h => hlt (hc.1.2 h)
            refine ⟨List.mem_append_left _ h1, fun t ht => ?_⟩
            rcases hold t ht with h' | h'
            · exact h2 t h'
            · cases h'; exact Nat.le_of_not_lt hs

/-- the decisions of some parts -/
def partDecisions (parts : List Part) : List Status := parts.filterMap fun p => decided p.did

theorem applySessions_fine (order : Requests → Requests) (what : Callback) (hw : what ≠ .finished) (o : Option Opt) (l : List (Class σ × σ)) :
    (∀ c ∈ l, Keeps simple c.1) → ∀ (who : Nat) (s : State) (v resolved : Option Value) (ds : List Status), Clean v → Resolved ds v resolved →
    let r := applySessions order what who l s v resolved
    r.calls = partCalls r.parts ∧ (∀ c ∈ r.calls, answers c = false ∧ recipientFlagsAgree o c = true ∧ hasCode c = true) ∧
      r.raised = r.parts.any (·.raised) ∧ (r.raised = false → ∃ v', Resolved (ds ++ partDecisions r.parts) v' r.status) := by
  induction l with
  | nil =>
    intro _ who s v resolved ds _ h
    exact ⟨rfl, (fun _ h => nomatch h), rfl, fun _ => ⟨v, (List.append_nil ds).symm ▸ h⟩⟩
  | cons c l ih =>
    intro hk who s v resolved ds hv h
    obtain ⟨c, x⟩ := c
    have ih := ih fun y hy => hk y (List.mem_cons_of_mem _ hy)
    unfold applySessions
    cases hp : c.callback what with
    | none =>
      dsimp only
      exact ih (who + 1) s v resolved ds hv h
    | some p =>
      dsimp only
      have honly := hk (c, x) List.mem_cons_self what p hp
      have hdid := exec_only order c.reset p honly s v x
      have hcalls := exec_calls order c.reset p s v x
      have hstatus := exec_status order c.reset p s v x
      have hclean := exec_clean order c.reset p honly s hv x
      generalize p.exec order c.reset s v x = e at *
      have hfine : ∀ y ∈ e.calls, answers y = false ∧ recipientFlagsAgree o y = true ∧ hasCode y = true := by
        intro y hy
        rw [hcalls] at hy
        obtain ⟨d, hd, hy⟩ := List.mem_flatMap.mp hy
        exact means_fine (simple_plain (hdid d hd)) o y hy
      have hone : e.calls = partCalls [⟨who, e.did, e.raised⟩] := by
        rw [hcalls]
        show _ = List.flatMap _ [_]
        rw [List.flatMap_cons, List.flatMap_nil, List.append_nil]
      cases hr : e.raised with
      | true =>
        rw [if_pos rfl]
        rw [hr] at hone
        exact ⟨hone, hfine, rfl, fun h => nomatch h⟩
      | false =>
        rw [if_neg (fun h => nomatch h), if_neg hw]
        rw [decidedFrom_simple e.did hdid] at hstatus
        obtain ⟨r, h1, h2⟩ := resolve_one h (decided e.did) e.status hclean hstatus (fun t ht => by
          rw [ht] at hstatus
          cases hs : e.status with
          | none => rw [hs] at hstatus; cases hstatus
          | some w =>
            rw [hs] at hstatus
            have : w.toStatus = t := Option.some.inj hstatus
            rw [← this]
            exact (hclean w hs).2)
        rw [h1]
        dsimp only
        obtain ⟨i1, i2, i3, i4⟩ := ih (who + 1) e.context e.status (some r) _ hclean h2
        generalize applySessions order what (who + 1) l e.context e.status (some r) = t at *
        refine ⟨?_, ?_, ?_, ?_⟩
        · rw [i1, hcalls]
          show _ = List.flatMap _ (_ :: _)
          rw [List.flatMap_cons]
          rfl
        · intro y hy
          rcases List.mem_append.mp hy with hy | hy
          · exact hfine y hy
          · exact i2 y hy
        · rw [i3]; rfl
        · intro hr'
          obtain ⟨v', h3⟩ := i4 hr'
          refine ⟨v', ?_⟩
          have : ds ++ partDecisions (⟨who, e.did, false⟩ :: t.parts) = ds ++ (decided e.did).toList ++ partDecisions t.parts := by
            show ds ++ List.filterMap _ (_ :: _) = _
            rw [List.filterMap_cons, List.append_assoc]
            cases decided e.did <;> rfl
          rw [this]
          exact h3

theorem composite_honest (order : Requests → Requests) (o : Option Opt) (fallback : Value) (hf : fallback.toStatus ≠ .progress) (cs : List (Class σ))
    (hc : ∀ c ∈ cs, Keeps simple c) : Honest (fun c => recipientFlagsAgree o c = true ∧ hasCode c = true) fallback (composite order cs) := by
  refine ⟨?_, ?_⟩
  · intro what g hw hg s x
    cases hg
    obtain ⟨h1, h2, h3, h4⟩ := applySessions_fine order what hw o (cs.zip x) (fun c h => hc _ (List.of_mem_zip h).1) 0 s none none []
      (fun _ h => nomatch h) ⟨(fun _ h => nomatch h), rfl, rfl⟩
    show Fine _ fallback (if (applySessions order what 0 (cs.zip x) s none none).raised then applySessions order what 0 (cs.zip x) s none none
      else { applySessions order what 0 (cs.zip x) s none none with status := some ((applySessions order what 0 (cs.zip x) s none none).status.getD (.name .continue_ false)) })
    generalize applySessions order what 0 (cs.zip x) s none none = r at *
    cases hr : r.raised with
    | true =>
      rw [if_pos rfl]
      refine ⟨h1, h2, ?_, ?_⟩
      · unfold Decision
        rw [← h3, hr]
        exact rfl
      · rw [hr]; exact hf
    | false =>
      rw [if_neg (fun h => nomatch h)]
      obtain ⟨v', hR⟩ := h4 hr
      rw [List.nil_append] at hR
      have hd : Decision fallback.toStatus r.parts (statusOf (some (r.status.getD (.name .continue_ false)))) := by
        unfold Decision
        rw [← h3, hr]
        rw [if_neg (fun h => nomatch h)]
        have hres := hR.resolved
        show (match partDecisions r.parts with | [] => _ | l => _)
        cases hst : r.status with
        | none =>
          rw [hst] at hres
          rw [show partDecisions r.parts = [] from hres]
          exact .inr rfl
        | some w =>
          rw [hst] at hres
          obtain ⟨_, hres⟩ := hres
          rcases hres with ⟨e1, e2⟩ | ⟨e1, e2⟩
          · rw [e1]
            exact .inl e2
          · cases hl : partDecisions r.parts with
            | nil => rw [hl] at e1; cases e1
            | cons a b => rw [hl] at e1 e2; exact ⟨e1, e2⟩
      refine ⟨h1, h2, ?_, ?_⟩
      · show Decision fallback.toStatus r.parts (statusOf (if r.raised then _ else _))
        rw [hr]
        exact hd
      · show statusOf (if r.raised then _ else _) ≠ _
        rw [hr]
        show statusOf (some (r.status.getD (.name .continue_ false))) ≠ .progress
        have hres := hR.resolved
        cases hst : r.status with
        | none => exact fun h => nomatch h
        | some w =>
          rw [hst] at hres
          obtain ⟨_, hres⟩ := hres
          rcases hres with ⟨_, e2⟩ | ⟨e1, _⟩
          · exact fun h => nomatch e2.symm.trans h
          · intro h
            exact absurd rfl ((show w.toStatus = Status.progress from h) ▸ hR.all _ e1)
  · show (if cs.isEmpty then Value.name .reject false else .constant .continue_).toStatus ≠ .progress
    split <;> exact fun h => nomatch h

end Verif.Ruby
