import Verif.Core.Headers
/-
manager/milter-manager-children.c: header modifications emitted at end of message.
-/
namespace Verif.HeaderDiff
open Verif

/-- The header signals of the children object. -/
inductive Edit where
  | insert (index : Nat) (name : Bytes) (value : Option Bytes)
  | add (name : Bytes) (value : Option Bytes)
  | change (name : Bytes) (index : Nat) (value : Option Bytes)
  | delete (name : Bytes) (index : Option Nat)
deriving DecidableEq, Repr

/-- The first loop of `emit_header_signals`,
manager/milter-manager-children.c:1238-1268: walks the final headers from position `i`
with the not yet matched original headers `processing`; returns the signals and what is
left of `processing`. -/
def walk (original : List Header) (i : Nat) (processing : List Header) :
    List Header → List Edit × List Header
  | [] => ([], processing)
  | h :: rest =>
    match Headers.find processing h with
    | some _ => walk original (i + 1) (Headers.remove processing h).2 rest
    | none =>
      match Headers.lookupByName processing h.name with
      | none =>
        let r := walk original (i + 1) processing rest
        (.insert i h.name h.value :: r.1, r.2)
      | some found =>
        match Headers.indexInSameName original found with
        | none =>
          let r := walk original (i + 1) processing rest
          (.add h.name h.value :: r.1, r.2)
        | some index =>
          let r := walk original (i + 1) (Headers.remove processing found).2 rest
          (.change h.name index h.value :: r.1, r.2)

/-- The second loop, :1270-1284: what is left is deleted, from the last to the first. -/
def deletions (original left : List Header) : List Edit :=
  left.reverse.map (fun h => .delete h.name (Headers.indexInSameName original h))

/-- `emit_header_signals`, manager/milter-manager-children.c:1223-1287 -/
def emit (original final : List Header) : List Edit :=
  let r := walk original 0 (Headers.copy original) final
  r.1 ++ deletions original r.2

end Verif.HeaderDiff
