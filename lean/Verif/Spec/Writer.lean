import Verif.Core.Writer
/-
What a trace of a writer - accepted calls, bytes taken by the channel, signals, in the order
in which they happened - must look like.
-/
namespace Verif.Spec.Writer
open Verif.Writer (Item)

/-- all bytes handed to the writer -/
def written : List Item → List UInt8
  | [] => []
  | .write c :: t => c ++ written t
  | _ :: t => written t

/-- all bytes the channel took -/
def sent : List Item → List UInt8
  | [] => []
  | .sent c :: t => c ++ sent t
  | _ :: t => sent t

/-- at every moment the bytes the channel took are a prefix of those written -/
def Ordered (t : List Item) : Prop :=
  ∀ p s, t = p ++ s → sent p <+: written p

/-- when "flushed" is emitted for the n-th time, there was an n-th flush request, and
everything written before it has reached the channel -/
def Honest (t : List Item) : Prop :=
  ∀ p s, t = p ++ .flushed :: s →
    ∃ q r, p = q ++ .flush :: r ∧ q.count .flush = p.count .flushed ∧ written q <+: sent p

/-- a "flushed" with everything written sent, and nothing written or asked for after it -/
def Settled (t : List Item) : Prop :=
  ∃ p s, t = p ++ .flushed :: s ∧ sent p = written p ∧ written s = [] ∧ .flush ∉ s

end Verif.Spec.Writer
