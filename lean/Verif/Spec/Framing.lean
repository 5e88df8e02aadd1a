import Verif.Core.Bytes
/-
What a reader of the milter protocol description expects of packet framing,
independent of the decoder's state machine: a stream is a sequence of packets,
each a 4-byte big-endian length followed by that many bytes.
-/
namespace Verif.Spec
open Verif

/-- The complete packets at the front of a byte stream, in order.  A length word of
2^31 or more announces a packet that is never complete. -/
def frames (s : Bytes) : List Bytes :=
  match s with
  | a :: b :: c :: d :: rest =>
    let n := rd32 a b c d
    if n < intLimit ∧ n ≤ rest.length then rest.take n :: frames (rest.drop n) else []
  | _ => []
termination_by s.length
decreasing_by rw [List.length_drop]; simp only [List.length_cons]; omega

/-- The bytes left over after the complete packets. -/
def leftover (s : Bytes) : Bytes :=
  match s with
  | a :: b :: c :: d :: rest =>
    let n := rd32 a b c d
    if n < intLimit ∧ n ≤ rest.length then leftover (rest.drop n) else s
  | _ => s
termination_by s.length
decreasing_by rw [List.length_drop]; simp only [List.length_cons]; omega

/-- How reading a list of packets ends. -/
inductive Ending where
  | fine      -- every packet was understood
  | rejected  -- some packet was rejected
  | undefined -- undefined behaviour
deriving DecidableEq, Repr

variable {Ev : Type}

/-- Interpret packets one after the other with `f`, stopping at the first one that is
rejected. -/
def interpret (f : Bytes → HRes Ev) : List Bytes → List Ev × Ending
  | [] => ([], .fine)
  | p :: ps =>
    match f p with
    | .ok ev => let r := interpret f ps; (ev :: r.1, r.2)
    | .fail => ([], .rejected)
    | .ub => ([], .undefined)

/-- A packet on the wire: 4-byte big-endian length, then the payload. -/
def wire (payload : Bytes) : Bytes := be32 payload.length ++ payload

end Verif.Spec
