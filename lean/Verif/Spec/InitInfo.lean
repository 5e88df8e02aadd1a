import Verif.Manager.InitInfo
import Verif.Spec.Detector
/-
What the comments at the head of an init script are meant to say (Linux Standard Base, and the tags of chkconfig).
-/
namespace Verif.Spec.InitInfo
open Verif Verif.Spec.Detector

def letter (c : UInt8) : Prop := (0x41 ≤ c ∧ c ≤ 0x5a) ∨ (0x61 ≤ c ∧ c ≤ 0x7a) ∨ c = 0x2d

/-- a text on one line, without blanks around it -/
structure Text (v : Bytes) : Prop where
  line : 0x0a ∉ v
  nonempty : v ≠ []
  first : ∀ c, v.head? = some c → ¬Blank c
  last : ∀ c, v.getLast? = some c → ¬Blank c

/-- no colon comes right after a letter or a hyphen -/
def NoWordColon (v : Bytes) : Prop := ∀ a c b, v = a ++ c :: 0x3a :: b → ¬letter c

/-- an entry: a keyword, and a value, which may be empty or go on in further lines, each with blanks before it -/
structure Field where
  key : Bytes
  gap : Bytes
  first : Bytes
  more : List (Bytes × Bytes)

structure Field.Good (f : Field) : Prop where
  key : f.key ≠ [] ∧ ∀ c ∈ f.key, letter c
  gap : Blanks f.gap
  first : (f.first = [] ∧ f.more = []) ∨ (Text f.first ∧ NoWordColon f.first)
  more : ∀ x ∈ f.more, Blanks x.1 ∧ Text x.2 ∧ NoWordColon x.2

/-- the lines of an entry in the file -/
def Field.lines (f : Field) : List Bytes :=
  (ascii "# " ++ f.key ++ [0x3a] ++ f.gap ++ f.first) :: f.more.map fun x => ascii "# " ++ x.1 ++ x.2

/-- what it says: the lines of the value with a space between them -/
def Field.value (f : Field) : Bytes := f.first ++ (f.more.map fun x => 0x20 :: x.2).flatten

/-- lines as a text -/
def text (ls : List Bytes) : Bytes := (ls.map (· ++ [0x0a])).flatten

/-- a line of comment -/
def Comment (l : Bytes) : Prop := l.head? = some 0x23 ∧ 0x0a ∉ l

/-- the head of a script: comments, the block with its entries, and comments again -/
def head (before : List Bytes) (fields : List Field) (after : List Bytes) : List Bytes :=
  before ++ ascii "### BEGIN INIT INFO" :: (fields.map Field.lines).flatten ++ ascii "### END INIT INFO" :: after

/-- the last value that is given for a keyword -/
def lookup (fields : List Field) (key : Bytes) : Option Bytes := (fields.reverse.find? fun f => f.key = key).map Field.value

end Verif.Spec.InitInfo
