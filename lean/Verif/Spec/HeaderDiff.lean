import Verif.Manager.HeaderDiff
/-
What the MTA does with header modification replies: it edits its own header list, the
n-th header of a name being counted in its current list.
-/
namespace Verif.Spec
open Verif Verif.HeaderDiff

def mtaStep (l : List Header) : Edit → List Header
  | .insert i n v => Headers.insert l i n v
  | .add n v => Headers.append l n v
  | .change n i v => (Headers.change l n i v).2
  | .delete n (some i) => (Headers.delete l n i).2
  | .delete _ none => l

/-- The MTA applies the edits in the order received. -/
def mta (l : List Header) (edits : List Edit) : List Header := edits.foldl mtaStep l

end Verif.Spec
