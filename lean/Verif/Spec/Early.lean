import Verif.Spec.Chain
/-
Milters that make up their mind before the end of a message.
-/
namespace Verif.Spec.Early
open Verif Verif.Children
open Verif.Server (St)
open Verif.Spec.Children

/-- a part of a message before its end, as the MTA sends it -/
inductive Part where
  | header (name value : Bytes)
  | endOfHeader
  | body (chunk : Bytes)

/-- the MTA's command -/
def Part.event : Part → Event
  | .header n v => .header n v
  | .endOfHeader => .endOfHeader
  | .body b => .body b

/-- the command that goes to the milter which is reading the message -/
def Part.command (convert : Bool) : Part → Cmd
  | .header n v => .header n (unspaced convert v)
  | .endOfHeader => .endOfHeader
  | .body b => .body b

/-- the parts of a message -/
def parts (m : Message) : List Part :=
  m.headers.map (fun h => .header h.1 h.2) ++ [.endOfHeader] ++ m.chunks.map .body

/-- what has arrived of a message -/
structure Arrived where
  headers : List (Bytes × Bytes) := []
  ended : Bool := false
  chunks : List Bytes := []

def Arrived.add (a : Arrived) : Part → Arrived
  | .header n v => { a with headers := a.headers ++ [(n, v)] }
  | .endOfHeader => { a with ended := true }
  | .body b => { a with chunks := a.chunks ++ [b] }

/-- what may come next: headers, then the end of the headers, then pieces of the body -/
def Arrived.allows (a : Arrived) : Part → Prop
  | .header _ _ => a.ended = false
  | .endOfHeader => a.ended = false
  | .body b => a.ended = true ∧ b ≠ [] ∧ b.length ≤ Enc.chunkSize

/-- the commands by which a milter that has seen nothing of the message gets what has arrived -/
def Arrived.again (cut : Bytes → List Bytes) (convert : Bool) (a : Arrived) : List Cmd :=
  a.headers.map (fun h => .header h.1 (unspaced convert h.2)) ++
  if a.ended then .endOfHeader :: (cut a.chunks.flatten).map .body else []

/-- Milter `i`, which has the latest part, accepts: it is done with the message.  The next one gets
what has arrived, one command after the other.  It may accept as well before it has got
everything; otherwise it says "continue" to the last part and is the one that reads on (`j`, with `later`
to come after it). -/
inductive Leaves (convert : Nat → Bool) (cut : Bytes → List Bytes) (a : Arrived) :
    Nat → List Nat → List Event → List (Nat × Cmd) → Nat → List Nat → Prop where
  | reads {i j : Nat} {later : List Nat} :
      Leaves convert cut a i (j :: later)
        (.reply i .accept :: receives j ((a.again cut (convert j)).length - 1) ++ [.reply j .cont])
        ((a.again cut (convert j)).map (j, ·)) j later
  | leaves {i k j : Nat} {rest later : List Nat} {some others : List Cmd} {es : List Event} {cs : List (Nat × Cmd)}
      (gets : a.again cut (convert k) = some ++ others) (something : some ≠ [])
      (next : Leaves convert cut a k rest es cs j later) :
      Leaves convert cut a i (k :: rest) (.reply i .accept :: receives k (some.length - 1) ++ es)
        (some.map (k, ·) ++ cs) j later

/-- Parts of a message are read: milter `i` gets each of them, and says "continue" or "accept". -/
inductive Reads (convert : Nat → Bool) (cut : Bytes → List Bytes) :
    Arrived → Nat → List Nat → List Part → List Event → List (Nat × Cmd) → Nat → List Nat → Prop where
  | nothing {a : Arrived} {i : Nat} {later : List Nat} : Reads convert cut a i later [] [] [] i later
  | continues {a : Arrived} {i j : Nat} {rest later : List Nat} {p : Part} {ps : List Part} {es : List Event}
      {cs : List (Nat × Cmd)} (allowed : a.allows p) (next : Reads convert cut (a.add p) i rest ps es cs j later) :
      Reads convert cut a i rest (p :: ps) ([p.event, .flushed i, .reply i .cont] ++ es)
        ((i, p.command (convert i)) :: cs) j later
  | accepts {a : Arrived} {i k j : Nat} {rest rest' later : List Nat} {p : Part} {ps : List Part} {es es' : List Event}
      {cs cs' : List (Nat × Cmd)} (allowed : a.allows p) (goes : Leaves convert cut (a.add p) i rest es cs k rest')
      (next : Reads convert cut (a.add p) k rest' ps es' cs' j later) :
      Reads convert cut a i rest (p :: ps) ([p.event, .flushed i] ++ es ++ es')
        ((i, p.command (convert i)) :: cs ++ cs') j later

/-- Milter `i` has the latest part.  Some milters, beginning with it, accept one after the other, and milter `j` has got at
least some of what has arrived when it is its turn to answer. -/
inductive Reaches (convert : Nat → Bool) (cut : Bytes → List Bytes) (a : Arrived) :
    Nat → List Nat → List Event → List (Nat × Cmd) → Nat → List Nat → Prop where
  | here {i : Nat} {rest : List Nat} : Reaches convert cut a i rest [] [] i rest
  | leaves {i k j : Nat} {rest later : List Nat} {some others : List Cmd} {es : List Event} {cs : List (Nat × Cmd)}
      (gets : a.again cut (convert k) = some ++ others) (something : some ≠ [])
      (next : Reaches convert cut a k rest es cs j later) :
      Reaches convert cut a i (k :: rest) (.reply i .accept :: receives k (some.length - 1) ++ es)
        (some.map (k, ·) ++ cs) j later

end Verif.Spec.Early
