import Verif.Manager.Shipped
/-
Options of the package: `parsed_package_options` (binding/ruby/lib/milter/manager.rb 89-99) and `PackageConfigurationLoader` (709-740).

A `Hash` is the list of the pairs stored in it, the latest first.
-/
namespace Verif.PackageOptions
open Verif.Conditions (isBlank lstrip)

/-- what is left of a text when the blanks at its end are gone -/
def rstrip (s : Bytes) : Bytes := (lstrip s.reverse).reverse

/-- the blanks before and behind a separator belong to it: no other place of a piece loses any -/
def trim (first : Bool) : List Bytes → List Bytes
  | [] => []
  | [x] => [if first then x else lstrip x]
  | x :: y :: xs => rstrip (if first then x else lstrip x) :: trim false (y :: xs)

/-- `split(/\s*,\s*/)`, 94: empty pieces at the end are dropped -/
def splitCommas (s : Bytes) : List Bytes := ((trim true (splitOn 0x2c s)).reverse.dropWhile (· == [])).reverse

/-- `name, value = option.split(/\s*=\s*/, 2)`, 95; `none` is nil -/
def splitEqual (s : Bytes) : Option Bytes × Option Bytes :=
  if s = [] then (none, none)
  else if 0x3d ∈ s then (some (rstrip (s.takeWhile (· != 0x3d))), some (lstrip ((s.dropWhile (· != 0x3d)).drop 1)))
  else (some s, none)

/-- `parsed_package_options`, 89-99 -/
def parse (s : Bytes) : List (Option Bytes × Option Bytes) := ((splitCommas s).map splitEqual).reverse

/-- `options[name]`: nil for a name that is not there -/
def get (options : List (Option Bytes × Option Bytes)) (name : Bytes) : Option Bytes :=
  match options.find? fun p => p.1 == some name with
  | some p => p.2
  | none => none

/-- `encode_options`, 732-738, for a Hash with the given pairs in the order in which they were stored first -/
def encode (options : List (Bytes × Bytes)) : Bytes := joinWith [0x2c] (options.map fun p => p.1 ++ 0x3d :: p.2)

end Verif.PackageOptions
