import Verif.Client.Privilege
/-
How milter-manager starts, `milter_manager_main`, manager/milter-manager-main.c:585-706, as far as it is about who does what.

The configuration that is loaded before, and the signal handlers, are left out; `Verif.Manager.Configuration` has the first.
-/
namespace Verif.Startup
open Verif.Credentials Verif.Privilege

/-- what can be seen from outside, and who does it -/
inductive Act where
  /-- the process launcher is forked -/
  | launcher (c : Creds)
  /-- milter-manager listens for the MTA -/
  | listen (c : Creds)
  /-- it listens for its controllers -/
  | control (c : Creds)
  /-- it serves the MTA and its controllers -/
  | serve (c : Creds)
  /-- it gives up -/
  | fail
deriving DecidableEq, Repr

/-- what the environment answers -/
structure Answers where
  fork : Bool := true
  listen : Bool := true
  /-- it listens on a UNIX socket -/
  unix : Bool := false
  refusals : Refusals := {}
  /-- there is a controller and it can listen -/
  control : Bool := true
  /-- it runs as a daemon -/
  daemon : Bool := false
  daemonize : Bool := true
deriving DecidableEq, Repr

/-- 674-706: after privileges were dropped, with or without success -/
def afterDrop (a : Answers) (d : State × Bool) : List Act :=
  if !d.2 then [.fail]
  else
    let control : List Act := if a.control then [.control d.1.creds] else []
    if a.daemon && !a.daemonize then control ++ [.fail] else control ++ [.serve d.1.creds]

/-- 638-706 -/
def main (db : Database) (w : Wanted) (privilegeMode : Bool) (a : Answers) (c : Creds) : List Act :=
  if privilegeMode && !a.fork then [.fail]
  else
    let launcher : List Act := if privilegeMode then [.launcher c] else []
    if !a.listen then launcher ++ [.fail]
    else launcher ++ [.listen c] ++ afterDrop a (drop db w a.refusals { creds := c, socket := if a.unix then some c.euid else none })

end Verif.Startup
