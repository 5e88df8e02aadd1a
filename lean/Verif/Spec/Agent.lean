import Verif.Core.Agent
/-
What the history of an agent should look like from outside.
-/
namespace Verif.Spec.Agent
open Verif
open Verif.Agent (Item Event Call)

/-- nothing is decoded and no end is said -/
def Quiet (t : List Item) : Prop := .finished ∉ t ∧ ∀ b, .decoded b ∉ t

/-- an agent says at most once that it has finished, and decodes nothing after that -/
def OneEnd (t : List Item) : Prop := ∀ p q, t = p ++ .finished :: q → Quiet q

/-- no reader is given to the agent -/
def KeepsReader (es : List Event) : Prop := ∀ present, .setReader present ∉ es

/-- something that has to end an agent which reads: it is asked to shut down, by its owner or by a handler of one of its signals; the peer
closes the connection; reading fails.  `writing`: the event loop watches its writer. -/
inductive Ends (writing : Bool) : Event → Prop
  | asked : Ends writing (.call .shutdown)
  | closed (rs) : Ends writing (.readable rs .closed)
  | failed (rs hd) : Ends writing (.readable rs (.failed hd))
  | handler (rs o r) : r ∈ rs → .shutdown ∈ r.handler → Ends writing (.readable rs o)
  | error (hd) : Ends writing (.readerError hd)
  | writer (hd) : writing = true → .shutdown ∈ hd → Ends writing (.writerError hd)
  | write (hd) : writing = true → .shutdown ∈ hd → Ends writing (.writeFailed hd)
  | flushed (hd) : writing = true → .shutdown ∈ hd → Ends writing (.writerFlushed hd)

end Verif.Spec.Agent
