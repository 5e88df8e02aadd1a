import Verif.Client.Python
import Verif.Spec.Ruby
/-
What a milter written in Python relies on.
-/
namespace Verif.Spec.Python
open Verif Verif.Client
open Verif.Ruby (Options Act Prog Said Part Callback)

/-- what counts as given: not 0, and not the empty text, which are false in Python -/
def given (o : Options) : Options := ⟨o.code.filter (· != 0), o.extendedCode.filter (!·.isEmpty), o.reason.filter (!·.isEmpty)⟩

/-- Something a milter does, in the terms of `Spec/Ruby.lean`.  `None` is no status: it raises, and does nothing. -/
def meant : Act × Bool → Option (Act × Bool)
  | (.reject o, ok) => some (.reject (given o), ok)
  | (.temporaryFailure o, ok) => some (.temporaryFailure (given o), ok)
  | (.status none, _) => none
  | d => some d

/-- what some callbacks did, in these terms -/
def meaning (said : List Said) : List Said := said.map fun x => ⟨x.what, x.parts.map fun p => ⟨p.who, p.did.filterMap meant, p.raised⟩⟩

/-- everything a milter may do satisfies `p`, in its callbacks as in `on_error` -/
def Keeps {σ : Type} (p : Act → Bool) (m : Verif.Python.Class σ) : Prop :=
  (∀ what prog, m.callback what = some prog → Ruby.Only p prog) ∧ ∀ what, Ruby.Only p (m.onError what)

/-- no exception leaves a callback -/
def Quiet {σ : Type} : Prog σ → Prop
  | .done => True
  | .raise => False
  | .act _ k => ∀ b, Quiet (k b)
  | .own _ k => ∀ x, Quiet (k x)
  | .symbol _ k => ∀ v, Quiet (k v)

/-- none leaves `abort` -/
def QuietAbort {σ : Type} (m : Verif.Python.Class σ) : Prop := ∀ g, m.abort = some g → ∀ state, Quiet (g state)

/-! ### What a milter keeps -/

/-- the methods that end a message: accepting, discarding and quarantining it, refusing it or putting it off without a reply of its own -/
def closes (a : Act) : Bool := match meant (a, true) with
  | some (b, _) => Ruby.closes b
  | none => false

/-- whatever happens in a callback, the last it does is such a method, or an exception leaves it and `error` holds -/
def Closing {σ : Type} (error : Prop) : Prog σ → Prop
  | .done => False
  | .raise => error
  | .act a k => if closes a then (k true = .done ∨ Closing error (k true)) else ∀ b, Closing error (k b)
  | .own _ k => ∀ x, Closing error (k x)
  | .symbol _ k => ∀ v, Closing error (k v)

/-- a callback leaves `p` of the instance variables as it is -/
def Leaves {σ : Type} (reset : σ → σ) (p : σ → Prop) (prog : Prog σ) : Prop :=
  ∀ (order : Requests → Requests) (s : State) (v : Option Verif.Ruby.Value) (x : σ), p x → p (Verif.Python.exec order reset prog s v x).own

end Verif.Spec.Python
