import Verif.Client.LibMilter
import Verif.Client.Agrees
/-!
milter-test-client-libmilter (`tool/milter-test-client-libmilter.c`) with the library of this repository
(`libmilter/libmilter-compatible.c`).  What it prints is not modelled.
-/
namespace Verif.Tool.TestClientLibmilter

open Verif Verif.LibMilter

/-- `smfilter` (milter-test-client-libmilter.c:331-349) with its callbacks (125-329); 0 is `SMFIS_CONTINUE`, 3
`SMFIS_ACCEPT`, 7 `SMFIS_NOREPLY`.  No callback but `mlfi_negotiate` does anything but print, and that does not use its
context. -/
def smfilter : Filter where
  flags := 0x1
  connect := some fun _ _ => .done 0                                    -- 125-137
  helo := some fun _ => .done 7                                         -- 139-147
  envfrom := some fun _ => .done 7                                      -- 149-165
  envrcpt := some fun _ => .done 0                                      -- 167-183
  header := some fun _ _ => .done 0                                     -- 185-193
  eoh := some (.done 0)                                                 -- 195-203
  body := some fun _ => .done 7                                         -- 205-213
  eom := some (.done 0)                                                 -- 216-224
  close := some (.done 3)                                               -- 251-263
  abort := some (.done 0)                                               -- 265-273
  unknown := some fun _ => .done 0                                      -- 275-283
  data := some (.done 0)                                                -- 285-293
  negotiate := some fun action step =>                                  -- 295-329
    .answers 0 (action &&& (0x1 ||| 0x2 ||| 0x4 ||| 0x8 ||| 0x10 ||| 0x20 ||| 0x40 ||| 0x80 ||| 0x100))
      (step &&& (0x2000 ||| 0x4000 ||| 0x80000))

/-- A connection: the bytes go to the MTA at once, `n` is the size of the buffer for packets. -/
def serve (order : Requests → Requests) (n : Nat) (events : List Event) : Session :=
  run order smfilter (.start (Client.new n .ready)) events

end Verif.Tool.TestClientLibmilter
