import Verif.Core.Bytes
/-
Macro requests: `milter/core/milter-macros-requests.c`.

The hash table from command to symbol list is modelled by its lookup function; `none` is an
absent key, `some []` a key whose list is empty (a NULL `GList`).  `foreach` visits each key
once and `merge_requests` writes only the entry of that key, so its order is immaterial.
`same` is "`g_utf8_collate` returns 0".
-/
namespace Verif.MacrosRequests

abbrev Requests := UInt8 → Option (List Bytes)

/-- `milter_macros_requests_new` -/
def new : Requests := fun _ => none

/-- `milter_macros_requests_set_symbols_string_array` (208-223) -/
def setSymbols (r : Requests) (command : UInt8) (symbols : List Bytes) : Requests :=
  fun c => if c = command then some symbols else r c

/-- `milter_macros_requests_get_symbols` (232-240) -/
def getSymbols (r : Requests) (command : UInt8) : List Bytes := (r command).getD []

/-- the second loop of `merge_requests` (255-260) -/
def appendNew (same : Bytes → Bytes → Bool) : List Bytes → List Bytes → List Bytes
  | copied, [] => copied
  | copied, s :: symbols =>
    if copied.any (fun x => same x s) then appendNew same copied symbols
    else appendNew same (copied ++ [s]) symbols

/-- `milter_macros_requests_merge` (264-272) with `merge_requests` (242-262) -/
def merge (same : Bytes → Bytes → Bool) (dest src : Requests) : Requests :=
  fun c => match src c with
    | none => dest c
    | some symbols => some (appendNew same ((dest c).getD []) symbols)

end Verif.MacrosRequests
