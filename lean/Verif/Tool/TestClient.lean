import Verif.Client.Agrees
import Verif.Core.Option
/-!
milter-test-client (`tool/milter-test-client.c`): a milter that prints what it is told.  What it
prints is not modelled.  `milter-test-client-libmilter.c` is not modelled either.
-/
namespace Verif.Tool.TestClient

open Verif Verif.Client

/-- `milter_option_remove_step` (core/milter-option.c:320-327). -/
def removeStep (o : Opt) (step : UInt32) : Opt := { o with step := o.step &&& ~~~step }

/-- The option as `cb_negotiate` leaves it (milter-test-client.c:106-109). -/
def chosen (o : Opt) : Opt := removeStep o (0x800 ||| 0x100000 ||| Opt.noMask)

/-- The handlers that are connected (milter-test-client.c:270-292): one for each request except for
the definition of macros and the end of the session.  Each of them prints and returns
`MILTER_STATUS_CONTINUE` (milter-test-client.c:82-258). -/
def handlers : Cmd → List Handler
  | .defineMacro _ _ | .quit => []
  | _ => [⟨[], .continue_⟩]

/-- A request as it comes to milter-test-client: `cb_decoder_negotiate` hands on the offer and a new
object for the macros requests (client/milter-client-context.c:3940-3967). -/
def request : Cmd → Client.Op
  | .negotiate o => .command (.negotiate o) (handlers (.negotiate o)) (some (chosen o)) (some [])
  | c => .command c (handlers c) none none

/-- A connection: the bytes go to the MTA at once, `n` is the size of the buffer for packets. -/
def serve (order : Requests → Requests) (n : Nat) (cmds : List Cmd) : State :=
  run order (new n .ready) (cmds.map request)

end Verif.Tool.TestClient
