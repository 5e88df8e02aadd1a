import Verif.Manager.Session
/-
What happens in a session, as events of the session as a whole.
-/
namespace Verif.Spec.Session
open Verif

/-- a command of the MTA or an event at a milter -/
def whole : Children.Event → Session.Event
  | .negotiate o => .command (.negotiate o) []
  | .connect h a => .command (.connect h a) []
  | .helo f => .command (.helo f) []
  | .envelopeFrom f => .command (.envelopeFrom f) []
  | .envelopeRecipient r => .command (.envelopeRecipient r) []
  | .data => .command .data []
  | .unknown c => .command (.unknown c) []
  | .header n v => .command (.header n v) []
  | .endOfHeader => .command .endOfHeader []
  | .body b => .command (.body b) []
  | .endOfMessage b => .command (.endOfMessage b) []
  | .quit => .command .quit []
  | .abort => .command .abort []
  | e => .milter e []

end Verif.Spec.Session
