import Verif.Core.Text
/-
core/milter-utils.c: names of flags and enumeration values in configuration and environment strings.
-/
namespace Verif.Names
open Verif

/-- The values of a `GFlagsClass` or `GEnumClass` with their nicks, in the order of their declaration. -/
abbrev Class := List (Bytes × UInt32)

/-- `GFlagsClass.mask`: GLib computes it from the values when the class is initialised. -/
def mask (c : Class) : UInt32 := c.foldl (fun m v => m ||| v.2) 0

/-- `g_flags_get_value_by_nick`, `g_enum_get_value_by_nick`: the first value with that nick -/
def byNick (c : Class) (nick : Bytes) : Option UInt32 := c.lookup nick

def all : Bytes := [97, 108, 108]
def default : Bytes := [100, 101, 102, 97, 117, 108, 116]

/-- a sign before the list or before one name, core/milter-utils.c:534-546, 554-565: does the rest add or remove, and the rest;
`append` is what holds without a sign.  The byte after the end of a C string is 0. -/
def sign (append : Bool) (s : Bytes) : Bool × Bytes :=
  match s with
  | 0x2b :: s => (true, s)
  | 0x2d :: s => (false, s)
  | s => (append, s)

/-- is there a sign before the list -/
def signed (s : Bytes) : Bool := s.head? = some 0x2b || s.head? = some 0x2d

/-- one round of the loop, core/milter-utils.c:550-596: the flags so far and the unknown names so far -/
def item (c : Class) (defaultFlags : UInt32) (append : Bool) (acc : UInt32 × List Bytes) (name : Bytes) : UInt32 × List Bytes :=
  let (localAppend, name) := sign append name
  if name = all then (if localAppend then (acc.1 ||| mask c, acc.2) else (0, acc.2))
  else match byNick c name with
    | some value =>
      let current := if value = 0 ∧ name = default then defaultFlags else value
      if localAppend then (acc.1 ||| current, acc.2) else (acc.1 &&& ~~~current, acc.2)
    | none => (acc.1, acc.2 ++ [name])

/-- `milter_utils_flags_from_string`, core/milter-utils.c:512-611: the flags, and the unknown names, which make up the error
message.  A string that is `NULL` is not modelled. -/
def flagsFromString (c : Class) (s : Bytes) (base defaultFlags : UInt32) : UInt32 × List Bytes :=
  let (append, rest) := sign true s
  (strsplit 0x7c rest).foldl (item c defaultFlags append) (if signed s then base else 0, [])

/-- `milter_utils_enum_from_string`, core/milter-utils.c:622-656: the value, and whether there is an error -/
def enumFromString (c : Class) (s : Bytes) : UInt32 × Bool :=
  match byNick c s with
  | some v => (v, false)
  | none => (0, true)

/-- `milter_utils_get_enum_nick_name`, core/milter-utils.c:111-132: `g_enum_get_value` finds the first value; the text for an
unknown one is left out -/
def nickName (c : Class) (v : UInt32) : Option Bytes := (c.find? (·.2 == v)).map (·.1)

end Verif.Names
