import Verif.Core.Reader
/-
What the history of a reader should look like from outside.
-/
namespace Verif.Spec.Reader
open Verif
open Verif.Reader (Item)

/-- the bytes the peer sent -/
def sent : List Item → Bytes
  | [] => []
  | .sent b :: t => b ++ sent t
  | _ :: t => sent t

/-- the chunks handed on -/
def chunks : List Item → List Bytes
  | [] => []
  | .flow b :: t => b :: chunks t
  | _ :: t => chunks t

/-- the bytes handed on -/
def given (t : List Item) : Bytes := (chunks t).flatten

/-- nothing is handed on that was not sent before, nothing out of order, nothing twice -/
def Faithful (t : List Item) : Prop := ∀ p s, t = p ++ s → given p <+: sent p

/-- "finished" is the last the reader says: no data, error or second end after it -/
def OneEnd (t : List Item) : Prop := ∀ p s, t = p ++ .finished :: s → .finished ∉ s ∧ .error ∉ s ∧ chunks s = []

/-- an error is said only to be followed by the end -/
def ErrorsEnd (t : List Item) : Prop := ∀ p s, t = p ++ .error :: s → ∃ s', s = .finished :: s'

/-- What a reader says when there is something to read: `asked`, it was asked to stop.  It ends when a read fails, when everything was read from a connection that
is hung up, and when a handler asks it to stop. -/
def visit (hungUp : Bool) : Bytes → Bool → List Verif.Reader.Step → List Item
  | _, asked, [] => if asked then [.finished] else []
  | [], asked, r :: _ => if r.fails then [.error, .finished] else if hungUp || asked then [.finished] else []
  | b :: l, asked, r :: rs =>
    let n := min (max r.ready 1) 4096
    let rest := (b :: l).drop n
    .flow ((b :: l).take n) :: if r.more && rest ≠ [] then visit hungUp rest (asked || r.stops) rs else if asked || r.stops then [.finished] else []

end Verif.Spec.Reader
