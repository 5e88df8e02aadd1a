import Verif.Core.XmlReader
/-
An XML document as a tree.
-/
namespace Verif.Spec.Xml
open Verif Verif.Xml

/-- an element with text or an element with elements in it -/
inductive Node where
  | leaf (name text : Bytes)
  | branch (name : Bytes) (nodes : List Node)

/-- an element that is not closed yet -/
structure Frame where
  name : Bytes
  text : Bytes := []
  nodes : List Node := []

/-- white space -/
def blank (s : Bytes) : Bool := s.all fun c => c == 9 || c == 10 || c == 13 || c == 32

/-- the element a frame becomes when it is closed: next to elements only white space may stand -/
def close (f : Frame) : Option Node :=
  if f.nodes.isEmpty then some (.leaf f.name f.text)
  else if blank f.text then some (.branch f.name f.nodes)
  else none

/-- the elements of a sequence of events: innermost open element first -/
def build : List Frame → List Event → Option (List Node)
  | [f], [] => if blank f.text then some f.nodes else none
  | f :: st, .start n :: r => build (⟨n, [], []⟩ :: f :: st) r
  | f :: p :: st, .stop n :: r =>
    if f.name = n then (close f).bind fun e => build ({ p with nodes := p.nodes ++ [e] } :: st) r else none
  | f :: st, .char c :: r => build ({ f with text := f.text ++ [c] } :: st) r
  | _, _ => none

/-- the root element of a document -/
def parse (document : Bytes) : Option Node :=
  match (events document).bind (build [⟨[], [], []⟩]) with
  | some [n] => some n
  | _ => none

end Verif.Spec.Xml
