import Verif.Manager.Module
/-!
What loading a directory of modules is meant to do.
-/
namespace Verif.Spec.Module

open Verif.Manager.Module

/-- The file of the module `n`: "n.so". -/
def fileOf (n : Bytes) : Bytes := n ++ [0x2e, 0x73, 0x6f]

/-- `n.so` is there and can be opened. -/
def Provides (d : Directory) (n : Bytes) : Prop := fileOf n ∈ d.entries ∧ d.resolves (fileOf n) = true

/-- The modules `ms` have one with the file `n.so`. -/
def Has (ms : List Mod) (n : Bytes) : Prop := ∃ m ∈ ms, m.file = fileOf n

/-- A directory whose names are those of modules, "n.so", or have nothing to do with modules:
they do not end in "so", and there is no module with the name of the file itself. -/
def Tidy (d : Directory) : Prop :=
  d.entries.Nodup ∧
  ∀ e ∈ d.entries, (∃ n, e = fileOf n) ∨ ((∀ p, e ≠ p ++ [0x73, 0x6f]) ∧ fileOf e ∉ d.entries)

end Verif.Spec.Module
