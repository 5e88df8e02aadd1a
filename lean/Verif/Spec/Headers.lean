import Verif.Core.Headers
/-
What header list edits should do, by positions.
-/
namespace Verif.Spec
open Verif

/-- Positions (from 0) of the headers with this name, in order. -/
def positionsOf (l : List Header) (name : Bytes) : List Nat :=
  (List.range l.length).filter (fun i => (l[i]?).map (·.name) == some name)

/-- Position of the n-th (from 1) header of this name. -/
def nthOf (l : List Header) (name : Bytes) (n : Nat) : Option Nat :=
  if n = 0 then none else (positionsOf l name)[n - 1]?

/-- ASCII case-insensitive equality of names. -/
def SameNameCI (a b : Bytes) : Prop := a.map Headers.lower = b.map Headers.lower

end Verif.Spec
