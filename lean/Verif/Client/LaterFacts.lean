import Verif.Spec.Later
import Verif.Client.PythonFacts
/-
Facts about answers given later.
-/
namespace Verif.Later
open Verif Verif.Client Verif.Spec.Later
open Verif.Ruby (Act Prog Ran Session Value Callback Said Part statusOf perform setReply refuse eventOf)
open Verif.LibMilter (ran_one decide_one)

variable {σ : Type}

/-! ### Programs -/

theorem perform_context (order : Requests → Requests) (reset : σ → σ) (s : State) (v : Option Value) (x : σ) (a : Act) :
    (perform order reset s v x a).context = runCalls order s (perform order reset s v x a).calls := by
  have key : ∀ (o : Ruby.Options) (status : Status) (code : Nat) (ext reason : Bytes),
      (refuse order reset s v x o status code ext reason).context = runCalls order s (refuse order reset s v x o status code ext reason).calls := by
    intro o status code ext reason
    unfold refuse
    dsimp only
    split <;> split <;> rfl
  cases a with
  | reject o => exact key ..
  | temporaryFailure o => exact key ..
  | quarantine r =>
    unfold perform
    dsimp only
    split <;> rfl
  | _ => rfl

theorem runCalls_append (order : Requests → Requests) (s : State) (a b : List Call) : runCalls order s (a ++ b) = runCalls order (runCalls order s a) b := List.foldl_append

theorem exec_context (order : Requests → Requests) (reset : σ → σ) (p : Prog σ) : ∀ (s : State) (v : Option Value) (x : σ),
    (p.exec order reset s v x).context = runCalls order s (p.exec order reset s v x).calls := by
  induction p with
  | done => intro s v x; rfl
  | raise => intro s v x; rfl
  | act a k ih =>
    intro s v x
    unfold Prog.exec
    dsimp only
    rw [ih, runCalls_append, perform_context]
  | own f k ih => intro s v x; exact ih _ _ _ _
  | symbol n k ih => intro s v x; exact ih _ _ _ _

/-- the same, whatever was decided before -/
structure Same (a b : Ran σ) : Prop where
  did : a.did = b.did
  calls : a.calls = b.calls
  context : a.context = b.context
  own : a.own = b.own
  raised : a.raised = b.raised

theorem perform_same (order : Requests → Requests) (reset : σ → σ) (s : State) (v w : Option Value) (x : σ) (a : Act) :
    (perform order reset s v x a).ok = (perform order reset s w x a).ok ∧ (perform order reset s v x a).calls = (perform order reset s w x a).calls ∧
    (perform order reset s v x a).context = (perform order reset s w x a).context ∧ (perform order reset s v x a).own = (perform order reset s w x a).own := by
  have key : ∀ (o : Ruby.Options) (status : Status) (code : Nat) (ext reason : Bytes),
      (refuse order reset s v x o status code ext reason).ok = (refuse order reset s w x o status code ext reason).ok ∧
      (refuse order reset s v x o status code ext reason).calls = (refuse order reset s w x o status code ext reason).calls ∧
      (refuse order reset s v x o status code ext reason).context = (refuse order reset s w x o status code ext reason).context ∧
      (refuse order reset s v x o status code ext reason).own = (refuse order reset s w x o status code ext reason).own := by
    intro o status code ext reason
    unfold refuse
    by_cases h : o.code.isSome ∨ o.extendedCode.isSome ∨ o.reason.isSome
    · simp only [if_pos h, setReply]
      split <;> exact ⟨rfl, rfl, rfl, rfl⟩
    · simp only [if_neg h]
      exact ⟨trivial, trivial, trivial, trivial⟩
  cases a with
  | reject o => exact key ..
  | temporaryFailure o => exact key ..
  | quarantine r =>
    unfold perform
    dsimp only
    split <;> exact ⟨rfl, rfl, rfl, rfl⟩
  | _ => exact ⟨rfl, rfl, rfl, rfl⟩

theorem exec_same (order : Requests → Requests) (reset : σ → σ) (p : Prog σ) : ∀ (s : State) (v w : Option Value) (x : σ),
    Same (p.exec order reset s v x) (p.exec order reset s w x) := by
  induction p with
  | done => intro s v w x; exact ⟨rfl, rfl, rfl, rfl, rfl⟩
  | raise => intro s v w x; exact ⟨rfl, rfl, rfl, rfl, rfl⟩
  | act a k ih =>
    intro s v w x
    obtain ⟨h1, h2, h3, h4⟩ := perform_same order reset s v w x a
    have := ih (perform order reset s w x a).ok (perform order reset s w x a).context (perform order reset s v x a).status (perform order reset s w x a).status
      (perform order reset s w x a).own
    unfold Prog.exec
    dsimp only
    rw [h1, h2, h3, h4]
    exact ⟨congrArg (List.cons (a, (perform order reset s w x a).ok)) this.did, congrArg (List.append (perform order reset s w x a).calls) this.calls, this.context, this.own, this.raised⟩
  | own f k ih => intro s v w x; exact ih _ _ _ _ _
  | symbol n k ih => intro s v w x; exact ih _ _ _ _ _

/-- a decision does not depend on those before -/
theorem decided_any (did : List (Act × Bool)) : ∀ (d e : Option Status), Ruby.decidedFrom d did = Ruby.decidedFrom e did ∨
    (Ruby.decidedFrom d did = d ∧ Ruby.decidedFrom e did = e) := by
  induction did with
  | nil => exact fun d e => .inr ⟨rfl, rfl⟩
  | cons y did ih =>
    intro d e
    have : Spec.Ruby.after d y.1 y.2 = Spec.Ruby.after e y.1 y.2 ∨ (Spec.Ruby.after d y.1 y.2 = d ∧ Spec.Ruby.after e y.1 y.2 = e) := by
      obtain ⟨a, ok⟩ := y
      cases a with
      | reject o => obtain ⟨a, b, c⟩ := o; cases ok <;> cases a <;> cases b <;> cases c <;> first | exact .inl rfl | exact .inr ⟨rfl, rfl⟩
      | temporaryFailure o => obtain ⟨a, b, c⟩ := o; cases ok <;> cases a <;> cases b <;> cases c <;> first | exact .inl rfl | exact .inr ⟨rfl, rfl⟩
      | setReply a b c => cases ok <;> first | exact .inl rfl | exact .inr ⟨rfl, rfl⟩
      | status w =>
        cases w with
        | none => exact .inl rfl
        | some w => cases w <;> exact .inl rfl
      | modify m => exact .inr ⟨rfl, rfl⟩
      | progress => exact .inr ⟨rfl, rfl⟩
      | _ => exact .inl rfl
    rcases this with h | ⟨h1, h2⟩
    · left
      show Ruby.decidedFrom (Spec.Ruby.after d y.1 y.2) did = Ruby.decidedFrom (Spec.Ruby.after e y.1 y.2) did
      rw [h]
    · rcases ih d e with h | h
      · left
        show Ruby.decidedFrom (Spec.Ruby.after d y.1 y.2) did = Ruby.decidedFrom (Spec.Ruby.after e y.1 y.2) did
        rw [h1, h2]; exact h
      · right
        show Ruby.decidedFrom (Spec.Ruby.after d y.1 y.2) did = _ ∧ Ruby.decidedFrom (Spec.Ruby.after e y.1 y.2) did = _
        rw [h1, h2]; exact h

theorem exec_andThen (order : Requests → Requests) (reset : σ → σ) (p q : Prog σ) : ∀ (s : State) (v : Option Value) (x : σ),
    (andThen p q).exec order reset s v x =
      if (p.exec order reset s v x).raised then p.exec order reset s v x
      else
        ⟨(p.exec order reset s v x).did ++ (q.exec order reset (p.exec order reset s v x).context (p.exec order reset s v x).status (p.exec order reset s v x).own).did,
          (p.exec order reset s v x).calls ++ (q.exec order reset (p.exec order reset s v x).context (p.exec order reset s v x).status (p.exec order reset s v x).own).calls,
          (q.exec order reset (p.exec order reset s v x).context (p.exec order reset s v x).status (p.exec order reset s v x).own).context,
          (q.exec order reset (p.exec order reset s v x).context (p.exec order reset s v x).status (p.exec order reset s v x).own).status,
          (q.exec order reset (p.exec order reset s v x).context (p.exec order reset s v x).status (p.exec order reset s v x).own).own,
          (q.exec order reset (p.exec order reset s v x).context (p.exec order reset s v x).status (p.exec order reset s v x).own).raised⟩ := by
  induction p with
  | done => intro s v x; rfl
  | raise => intro s v x; rfl
  | act a k ih =>
    intro s v x
    unfold andThen
    show (let e := perform order reset s v x a
      let rest := (andThen (k e.ok) q).exec order reset e.context e.status e.own
      ({ rest with did := (a, e.ok) :: rest.did, calls := e.calls ++ rest.calls } : Ran σ)) = _
    dsimp only
    rw [ih]
    show _ = if ((k (perform order reset s v x a).ok).exec order reset (perform order reset s v x a).context (perform order reset s v x a).status (perform order reset s v x a).own).raised then _ else _
    split
    · rfl
    · show (⟨_, _, _, _, _, _⟩ : Ran σ) = ⟨_ :: _ ++ _, _ ++ _ ++ _, _, _, _, _⟩
      rw [List.append_assoc]
      rfl
  | own f k ih => intro s v x; exact ih _ _ _ _
  | symbol n k ih => intro s v x; exact ih _ _ _ _

/-! ### The context -/

/-- a context that waits, and is answered later, is one that was answered at once -/
theorem wait_answer (order : Requests → Requests) (s : State) (c : Cmd) (k : Kind) (context : Option Macros.Context) (hk : kindOf c = some (k, context)) (hn : k ≠ .negotiate)
    (a b : List Call) (st : Status) (h1 : st ≠ .progress) (h2 : st ≠ .notChange) (o : Option Opt) (r : Option Requests) :
    callNoted order (runCalls order (Client.receive order s c [⟨a, .progress⟩] o r) b) (.respond k st) = Client.receive order s c [⟨a ++ b, st⟩] o r := by
  rw [Client.receive_eq order s c _ o r k context hk hn, Client.receive_eq order s c _ o r k context hk hn]
  dsimp only
  rw [decide_one _ (show (⟨a, .progress⟩ : Handler).returns ≠ .notChange from fun h => nomatch h), decide_one _ (show (⟨a ++ b, st⟩ : Handler).returns ≠ .notChange from h2), if_pos rfl,
    if_neg (show ¬ ((⟨a ++ b, st⟩ : Handler).returns = .progress) from h1), ran_one, ran_one]
  show callNoted order (runCalls order (runCalls order _ (a ++ [])) b) _ = callNoted order (runCalls order _ (a ++ b ++ [])) _
  rw [List.append_nil, List.append_nil, runCalls_append]

end Verif.Later
