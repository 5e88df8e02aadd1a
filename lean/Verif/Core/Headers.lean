import Verif.Core.Types
/-
core/milter-headers.c: the list of headers of a message.
-/
namespace Verif

/-- `MilterHeader`: a name and a value that may be NULL (core/milter-headers.h). Names are
never NULL in the callers. -/
structure Header where
  name : Bytes
  value : Option Bytes
deriving DecidableEq, Repr

namespace Headers

/-- `g_ascii_tolower` -/
def lower (c : UInt8) : UInt8 := if 0x41 ≤ c ∧ c ≤ 0x5a then c + 32 else c

/-- `g_ascii_strcasecmp (a, b) == 0` -/
def sameNameCI (a b : Bytes) : Bool := a.map lower == b.map lower

/-- `milter_headers_find`, core/milter-headers.c:250-264: the first header equal to `h`.
(`milter_header_compare` :81-89 is 0 exactly for equal name and equal value, NULL only
being equal to NULL.) -/
def find (l : List Header) (h : Header) : Option Header := l.find? (· == h)

/-- `milter_headers_lookup_by_name`, core/milter-headers.c:273-288 -/
def lookupByName (l : List Header) (name : Bytes) : Option Header :=
  l.find? (fun h => h.name == name)

/-- `milter_headers_get_nth_header`, core/milter-headers.c:290-307 -/
def getNth (l : List Header) (index : Nat) : Option Header :=
  if index < 1 then none else l[index - 1]?

/-- the loop of `milter_headers_index_in_same_header_name`, core/milter-headers.c:319-330,
with `count` headers of that name seen so far; `none` is -1 -/
def indexInSameNameFrom (count : Nat) (l : List Header) (target : Header) : Option Nat :=
  match l with
  | [] => none
  | h :: l =>
    if h.name ≠ target.name then indexInSameNameFrom count l target
    else if h.value = target.value then some (count + 1)
    else indexInSameNameFrom (count + 1) l target

/-- `milter_headers_index_in_same_header_name`, core/milter-headers.c:309-331 -/
def indexInSameName (l : List Header) (target : Header) : Option Nat :=
  indexInSameNameFrom 0 l target

/-- `milter_headers_remove`, core/milter-headers.c:333-350: returned gboolean and list.
`g_list_remove` removes the node of the header found. -/
def remove (l : List Header) (h : Header) : Bool × List Header :=
  match find l h with
  | none => (false, l)
  | some h' => (true, l.erase h')

/-- `milter_headers_add_header`, core/milter-headers.c:352-380: before the first header of
that name (ASCII case-insensitive), else at the end -/
def add (l : List Header) (name : Bytes) (value : Option Bytes) : List Header :=
  match l with
  | [] => [⟨name, value⟩]
  | h :: l => if sameNameCI h.name name then ⟨name, value⟩ :: h :: l else h :: add l name value

/-- `milter_headers_append_header`, core/milter-headers.c:382-394 -/
def append (l : List Header) (name : Bytes) (value : Option Bytes) : List Header :=
  l ++ [⟨name, value⟩]

/-- `milter_headers_insert_header`, core/milter-headers.c:396-411 with `g_list_insert`: the
`guint` position becomes a `gint`; negative or too large means at the end -/
def insert (l : List Header) (position : Nat) (name : Bytes) (value : Option Bytes) : List Header :=
  if position < intLimit ∧ position < l.length then
    l.take position ++ ⟨name, value⟩ :: l.drop position
  else l ++ [⟨name, value⟩]

/-- the loop of `milter_headers_lookup_by_name_with_index`,
core/milter-headers.c:424-434: the position of the header found, `count` headers of that
name having been seen -/
def positionFrom (count : Nat) (l : List Header) (name : Bytes) (index : Nat) : Option Nat :=
  match l with
  | [] => none
  | h :: l =>
    if h.name ≠ name then (positionFrom count l name index).map (· + 1)
    else if count + 1 = index then some 0
    else (positionFrom (count + 1) l name index).map (· + 1)

/-- `milter_headers_lookup_by_name_with_index`, core/milter-headers.c:413-437 -/
def position (l : List Header) (name : Bytes) (index : Nat) : Option Nat :=
  positionFrom 0 l name index

/-- `milter_headers_delete_header`, core/milter-headers.c:459-476 -/
def delete (l : List Header) (name : Bytes) (index : Nat) : Bool × List Header :=
  match position l name index with
  | none => (false, l)
  | some i => (true, l.eraseIdx i)

/-- `milter_headers_change_header`, core/milter-headers.c:439-457 -/
def change (l : List Header) (name : Bytes) (index : Nat) (value : Option Bytes) :
    Bool × List Header :=
  match value with
  | none => delete l name index
  | some v =>
    match position l name index with
    | some i => (true, l.set i ⟨(l[i]?.map (·.name)).getD name, some v⟩)
    | none => (true, add l name (some v))

/-- `milter_headers_length`, core/milter-headers.c:478-485 -/
def length (l : List Header) : Nat := l.length

/-- `milter_headers_copy`, core/milter-headers.c:219-236 -/
def copy (l : List Header) : List Header :=
  l.foldl (fun acc h => append acc h.name h.value) []

end Headers
end Verif
