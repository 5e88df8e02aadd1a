import Verif.Core.Headers
import Verif.Core.Types
/-
The MTA's own copy of a message, and what it does to it on reading replies.
-/
namespace Verif.Spec.Mta
open Verif

structure Copy where
  headers : List Header
  body : Bytes
  /-- a new body has begun to arrive -/
  replacing : Bool
  sender : Bytes × Option Bytes
  recipients : List (Bytes × Option Bytes)
  quarantine : Option Bytes
deriving DecidableEq

/-- The n-th header of a name is counted in the current list.  The first piece of a new body replaces the old one, the others
are added to it. -/
def Copy.read (c : Copy) : Reply → Copy
  | .addHeader n v => { c with headers := Headers.append c.headers n (some v) }
  | .insertHeader i n v => { c with headers := Headers.insert c.headers i n v }
  | .changeHeader n i v => { c with headers := (Headers.change c.headers n i (some v)).2 }
  | .deleteHeader n i => { c with headers := (Headers.delete c.headers n i).2 }
  | .replaceBody b => { c with body := (if c.replacing then c.body else []) ++ b, replacing := true }
  | .changeFrom a p => { c with sender := (a, p) }
  | .addRecipient a p => { c with recipients := c.recipients ++ [(a, p)] }
  | .deleteRecipient a => { c with recipients := c.recipients.filter (·.1 ≠ a) }
  | .quarantine r => { c with quarantine := some r }
  | _ => c

end Verif.Spec.Mta
