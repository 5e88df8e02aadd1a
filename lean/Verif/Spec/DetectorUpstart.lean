import Verif.Spec.DetectorRc
/-
What is expected of the detection of milters that upstart starts (C139): how a job is written, and what it says.
-/
namespace Verif.Spec.DetectorUpstart
open Verif Verif.Spec.Detector

/-- a line of a job: a comment, the events at which it starts, its command, or something else -/
inductive JobLine where
  | comment (text : Bytes)
  | start (events : Bytes)
  | exec (command : Bytes)
  | other (text : Bytes)

def JobLine.print : JobLine → Bytes
  | .comment t => ascii "# " ++ t ++ [0x0a]
  | .start t => ascii "start on " ++ t ++ [0x0a]
  | .exec t => ascii "exec " ++ t ++ [0x0a]
  | .other t => t ++ [0x0a]

/-- no blanks at either end -/
def Trimmed (t : Bytes) : Prop := (∀ c, t.head? = some c → ¬Blank c) ∧ ∀ c, t.getLast? = some c → ¬Blank c

def JobLine.Fine : JobLine → Prop
  | .comment t => 0x0a ∉ t ∧ Trimmed t
  | .start t => 0x0a ∉ t
  | .exec t => 0x0a ∉ t
  | .other t => 0x0a ∉ t ∧ ∀ p ∈ [ascii "# ", ascii "start on ", ascii "exec "], ¬p <+: t

def printJob (ls : List JobLine) : Bytes := (ls.map JobLine.print).flatten

/-- it starts by itself -/
def starts (ls : List JobLine) : Bool := ls.any fun | .start _ => true | _ => false

/-- the commands -/
def commands (ls : List JobLine) : List Bytes := ls.filterMap fun | .exec c => some c | _ => none

/-- the comments at the head that are not empty -/
def headComments : List JobLine → List Bytes
  | .comment t :: ls => if t = [] then [] else t :: headComments ls
  | _ => []

/-- what a job says of itself: the comments at its head -/
def about (ls : List JobLine) : Option Bytes :=
  if headComments ls = [] then none else some (List.intercalate [0x20] (headComments ls))

end Verif.Spec.DetectorUpstart
