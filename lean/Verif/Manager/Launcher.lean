import Verif.Core.Credentials
import Verif.Manager.ControlCodec
/-
The process launcher, manager/milter-manager-process-launcher.c: a process of its own, forked by milter-manager while it is root, that starts the commands of
milters.

Not modelled: what the started processes write (it is logged), the working directory and the environment of a started process, and the file descriptors it
inherits.
-/
namespace Verif.Launcher
open Verif.Credentials
open Verif.Control (Launch)

/-- `ProcessData`, 63-72 -/
structure Process where
  pid : Nat
  commandLine : Bytes
  userName : Option Bytes
deriving DecidableEq, Repr

/-- the launcher: who it is, and `processes`, the newest first -/
structure State where
  creds : Creds
  processes : List Process := []
deriving DecidableEq, Repr

/-- what can be seen from outside -/
inductive Item where
  /-- a process runs this program with these arguments, as this one -/
  | started (pid : Nat) (argv : List Bytes) (creds : Creds)
  /-- the reply "success" is written -/
  | success
  /-- the reply "error" is written -/
  | error
deriving DecidableEq, Repr

/-- what the environment answers while a command is launched -/
structure Answers where
  /-- `getpwnam_r` fails although there is an entry, for one that does not fit into 512 bytes (301, 327-331) -/
  tooLong : Bool := false
  /-- `g_shell_parse_argv`: the arguments, if the line can be parsed -/
  argv : Option (List Bytes)
  /-- `g_spawn_async_with_pipes`: the new process, if there is one -/
  pid : Option Nat
  /-- system calls of the new process that are refused although it may make them -/
  setgid : Bool := false
  initgroups : Bool := false
  setuid : Bool := false
deriving DecidableEq, Repr

/-- `setup_child`, 252-291: the new process before it runs the program.  A failure is logged, and the program is run all the same. -/
def setupChild (db : Database) (a : Answers) (p : Option Passwd) (c : Creds) : Creds :=
  match p with
  | none => c
  | some p =>
    match Credentials.setgid c p.gid a.setgid with
    | none => c
    | some c =>
      match Credentials.initgroups db c p.name p.gid a.initgroups with
      | none => c
      | some c =>
        match Credentials.setuid c p.uid a.setuid with
        | none => c
        | some c => c

/-- `is_already_launched`, 230-250 -/
def alreadyLaunched (s : State) (commandLine : Bytes) : Bool := s.processes.any fun p => p.commandLine == commandLine

/-- the second half of `launch`, 342-398: `p` is the entry of the user -/
def spawn (db : Database) (s : State) (l : Launch) (a : Answers) (p : Option Passwd) : State × List Item × Bool :=
  match a.argv with
  | none => (s, [], false)
  | some argv =>
    match a.pid with
    | none => (s, [], false)
    | some pid => ({ s with processes := ⟨pid, l.commandLine, l.userName⟩ :: s.processes }, [.started pid argv (setupChild db a p s.creds)], true)

/-- `launch`, 303-399 -/
def launch (db : Database) (s : State) (l : Launch) (a : Answers) : State × List Item × Bool :=
  if alreadyLaunched s l.commandLine then (s, [], false)
  else
    match l.userName with
    | none => spawn db s l a none
    | some u =>
      match if a.tooLong then none else db.password u with
      | none => (s, [], false)
      | some p => spawn db s l a (some p)

/-- `cb_decoder_launch`, 401-441 -/
def request (db : Database) (s : State) (l : Launch) (a : Answers) : State × List Item :=
  let r := launch db s l a
  (r.1, r.2.1 ++ [if r.2.2 then .success else .error])

/-- `child_watch_func`, 199-228 -/
def exited (s : State) (pid : Nat) : State := { s with processes := s.processes.eraseP fun p => p.pid == pid }

/-- what happens to the launcher -/
inductive Event where
  | request (l : Launch) (a : Answers)
  /-- a process that was started ends -/
  | exited (pid : Nat)
deriving DecidableEq, Repr

/-- one event -/
def step (db : Database) (s : State) : Event → State × List Item
  | .request l a => request db s l a
  | .exited pid => (exited s pid, [])

/-- a history -/
def run (db : Database) (s : State) : List Event → State × List Item
  | [] => (s, [])
  | e :: es =>
    let a := step db s e
    let b := run db a.1 es
    (b.1, a.2 ++ b.2)

end Verif.Launcher
