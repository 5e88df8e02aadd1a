import Verif.Core.Bytes
/-
File modes: `milter/core/milter-utils.c` 793-948.  A C string is the list of its bytes
before NUL.  The result is the mode stored through `mode` on success; on failure `*mode` is
left alone and only an error text (not modelled) is produced.
-/
namespace Verif.FileMode

/-- the mask of a target letter in the `switch` of the first loop (802-815) -/
def targetMask (c : UInt8) : Option Nat :=
  if c = 0x61 then some 0o777
  else if c = 0x75 then some 0o700
  else if c = 0x67 then some 0o070
  else if c = 0x6f then some 0o007
  else none

/-- the first loop of `parse_file_mode_symbol` (800-828): `none` if the very first byte is
not a target, else the target mask and the rest of the string -/
def targets (i : Nat) (target : Nat) : Bytes → Option (Nat × Bytes)
  | [] => some (target, [])
  | c :: s => match targetMask c with
    | some m => targets (i + 1) (target ||| m) s
    | none => if i = 0 then none else some (target, c :: s)

/-- the mask of a permission letter (859-867) -/
def permMask (c : UInt8) : Option Nat :=
  if c = 0x72 then some 0o444
  else if c = 0x77 then some 0o222
  else if c = 0x78 then some 0o111
  else none

/-- the last loop of `parse_file_mode_symbol` (857-878) -/
def perms (target mode : Nat) : Bytes → Option Nat
  | [] => some mode
  | c :: s => match permMask c with
    | some m => perms target (mode ||| (target &&& m)) s
    | none => none

/-- `parse_file_mode_symbol` (793-882) -/
def parseSymbol (s : Bytes) : Option Nat :=
  match targets 0 0 s with
  | none => none
  | some (_, []) => none
  | some (target, c :: s) =>
    if c = 0x3d then (if s = [] then none else perms target 0 s) else none

/-- the loop of `parse_file_mode_numeric` (890-910) -/
def numeric (i mode : Nat) : Bytes → Option Nat
  | [] => some mode
  | c :: s =>
    if 2 < i then none
    else if 0x30 ≤ c && c ≤ 0x37 then numeric (i + 1) ((mode <<< 3) ||| (c.toNat - 48)) s
    else none

/-- `parse_file_mode_numeric` (884-914) -/
def parseNumeric (s : Bytes) : Option Nat := numeric 0 0 s

/-- `milter_utils_parse_file_mode` (926-948) -/
def parse : Bytes → Option Nat
  | [] => some 0
  | c :: s =>
    if c = 0x61 ∨ c = 0x75 ∨ c = 0x67 ∨ c = 0x6f then parseSymbol (c :: s)
    else if 0x30 ≤ c && c ≤ 0x37 then parseNumeric (c :: s)
    else none

end Verif.FileMode
