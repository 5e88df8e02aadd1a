import Verif.Core.EventLoop
/-
What the users of an event loop rely on, about what can be seen of it (`Item`).
-/
namespace Verif.Spec.EventLoop
open Verif Verif.EventLoop

/-! ### Sources -/

/-- a source there is: its number, its kind, the id that was returned for it -/
structure Live where
  serial : Nat
  kind : Kind
  id : UInt32
deriving DecidableEq

/-- what is known after some items -/
structure Known where
  /-- the sources there are -/
  live : List Live := []
  /-- the sources whose removal is to be told next -/
  gone : List Nat := []
  /-- how many there have been -/
  count : Nat := 0

/-- the sources without one -/
def Known.without (k : Known) (serial : Nat) : Known :=
  { k with live := k.live.filter (·.serial ≠ serial), gone := (k.live.filter (·.serial = serial)).map (·.serial) }

/-- The items that may follow, and what is known after them.
* A new source has a number of its own, an id that is not 0, and not that of any source there is.
* Removing succeeds exactly for the id of a source there is, and takes away just this one.
* Only sources there are are called.
* A source is taken away when its function returns FALSE, and that of a child process when it returns.
* As soon as a source was taken away, and only then, its removal is told. -/
inductive Fine : Known → Item → Known → Prop
  | added (k kind id) : k.gone = [] → id ≠ 0 → (∀ x ∈ k.live, x.id ≠ id) →
      Fine k (.added k.count kind id) { k with live := ⟨k.count, kind, id⟩ :: k.live, count := k.count + 1 }
  | removed (k x) : k.gone = [] → x ∈ k.live → Fine k (.removed x.id true) (k.without x.serial)
  | notRemoved (k id) : k.gone = [] → (∀ x ∈ k.live, x.id ≠ id) → Fine k (.removed id false) k
  | called (k x) : k.gone = [] → x ∈ k.live → Fine k (.called x.serial) k
  | again (k serial) : k.gone = [] → (∀ x ∈ k.live, x.serial = serial → x.kind ≠ .child) → Fine k (.answered serial true) k
  | over (k serial again) : k.gone = [] → (again = true → ∀ x ∈ k.live, x.serial = serial → x.kind = .child) →
      Fine k (.answered serial again) (k.without serial)
  | notified (k serial) : k.gone = [serial] → Fine k (.notified serial) { k with gone := [] }
  | run (k) : k.gone = [] → Fine k .run k
  | left (k) : k.gone = [] → Fine k .left k
  | quit (k ok) : k.gone = [] → Fine k (.quit ok) k

/-- all items of a history -/
inductive AllFine : Known → List Item → Known → Prop
  | nil (k) : AllFine k [] k
  | cons (k x k' t k'') : Fine k x k' → AllFine k' t k'' → AllFine k (x :: t) k''

/-- how often the function of a source was called, and how often it returned -/
def calls (t : List Item) (serial : Nat) : Nat := t.countP fun x => x = .called serial
def returns (t : List Item) (serial : Nat) : Nat := t.countP fun x => x = .answered serial true || x = .answered serial false

def isAdded : Item → Bool
  | .added _ _ _ => true
  | _ => false

def isNotified : Item → Bool
  | .notified _ => true
  | _ => false

/-- how many sources were added, and how many removals were told -/
def addings (t : List Item) : Nat := t.countP isAdded
def tellings (t : List Item) : Nat := t.countP isNotified

/-- an event that adds a source -/
def isAdd : Event → Bool
  | .add _ => true
  | _ => false

/-- an id is given out that was given out for a source whose function is being called -/
def Reused (t : List Item) : Prop := ∃ a b n kind m kind' id, t = a ++ .added m kind' id :: b ∧ .added n kind id ∈ a ∧ returns a n < calls a n

/-- there are never more sources than there are ids -/
def Room (t : List Item) : Prop := ∀ a b, t = a ++ b → addings a - tellings a < 2 ^ 32 - 1

/-! ### Running and quitting -/

/-- The runs going on, the innermost first: has it been told to quit.  A quit is for the innermost run that has not been told yet. -/
def tell : List Bool → List Bool
  | [] => []
  | true :: l => true :: tell l
  | false :: l => true :: l

/-- The runs after an item; `none`: a run left that was not told to, or a quit went wrong.  A quit is refused if there is no run left to tell. -/
def runsAfter (l : List Bool) : Item → Option (List Bool)
  | .run => some (false :: l)
  | .left => match l with
    | true :: l => some l
    | _ => none
  | .quit ok => if ok = l.contains false then some (tell l) else none
  | _ => some l

/-- after some items -/
def runs (t : List Item) : Option (List Bool) := t.foldlM runsAfter []

end Verif.Spec.EventLoop
