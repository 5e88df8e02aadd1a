import Verif.Core.Bytes
/-
UNIX domain sockets and PID files on the disk: `milter_connection_listen` (core/milter-connection.c 342-435), listening, cleaning up and the PID file of a client
(client/milter-client.c 991-1088, 1720-1760, 2055-2105, 2325-2393, 2571-2710), the controller's socket (manager/milter-manager-controller.c 106-165, 355-485) and their place in
`milter_manager_main` (manager/milter-manager-main.c 641-732).

The disk is a map from paths to what is there; symbolic links are left out.  Whether a system call succeeds is a parameter, except that `bind` fails if something is there.
Every change of the disk is recorded, so that one can speak of what others may see in between.
-/
namespace Verif.UnixSocket

/-- what is at a path: a socket some process listens on (or has), or a file -/
inductive Kind where
  | socket (process : Nat)
  | file (content : Nat)
deriving DecidableEq, Repr

structure Node where
  kind : Kind
  mode : UInt32
  group : Nat
deriving DecidableEq, Repr

abbrev Files := Bytes → Option Node

/-- the disk as it is now and, latest first, as it was before -/
structure Disk where
  now : Files
  before : List Files := []

/-- one change -/
def Disk.put (d : Disk) (path : Bytes) (node : Option Node) : Disk :=
  { now := fun p => if p = path then node else d.now p, before := d.now :: d.before }

/-- outcomes of system calls (true: success) and what they depend on -/
structure Outcome where
  unlinkOld : Bool := true
  socket : Bool := true
  setsockopt : Bool := true
  bind : Bool := true
  listen : Bool := true
  chown : Bool := true
  chmod : Bool := true
  unlinkUsed : Bool := true
  umask : UInt32 := 0x12
  ownGroup : Nat := 0
  /-- `getgrnam` -/
  groups : Bytes → Option Nat := fun _ => none

/-- the settings of a socket; the path is that of the connection spec -/
structure Settings where
  path : Bytes
  mode : UInt32
  group : Option Bytes := none
  removeOnCreate : Bool := true
  removeOnClose : Bool := true

/-- `milter_connection_listen` for a UNIX socket, milter-connection.c 342-435 -/
def listen (me : Nat) (o : Outcome) (path : Bytes) (remove : Bool) (d : Disk) : Bool × Disk :=
  if remove ∧ (d.now path).isSome ∧ !o.unlinkOld then (false, d)
  else
    let d := if remove ∧ (d.now path).isSome then d.put path none else d
    if !o.socket then (false, d)
    else if !o.setsockopt then (false, d)
    else if !o.bind ∨ (d.now path).isSome then (false, d)
    else
      let d := d.put path (some ⟨.socket me, 0o777 &&& ~~~o.umask, o.ownGroup⟩)
      if !o.listen then (false, d) else (true, d)

/-- `change_unix_socket_group`, milter-client.c 991-1042, milter-manager-controller.c 355-390; an error is reported, no more -/
def changeGroup (o : Outcome) (s : Settings) (d : Disk) : Disk :=
  match s.group with
  | none => d
  | some name =>
    match o.groups name with
    | none => d
    | some gid => if o.chown then d.put s.path ((d.now s.path).map fun n => { n with group := gid }) else d

/-- `change_unix_socket_mode`, milter-client.c 1045-1067, milter-manager-controller.c 392-406; an error is reported, no more -/
def changeMode (o : Outcome) (s : Settings) (d : Disk) : Disk :=
  if o.chmod then d.put s.path ((d.now s.path).map fun n => { n with mode := s.mode }) else d

/-- `milter_client_listen_channel` (milter-client.c 1720-1747) with `listen_started` (1069-1088): the address is kept if it succeeds -/
def start (me : Nat) (o : Outcome) (s : Settings) (d : Disk) : Bool × Disk :=
  match listen me o s.path s.removeOnCreate d with
  | (true, d) => (true, changeMode o s (changeGroup o s d))
  | (false, d) => (false, d)

/-- removing the used socket, milter-client.c 2069-2086, milter-manager-controller.c 106-140: whatever is there -/
def close (o : Outcome) (s : Settings) (d : Disk) : Disk :=
  if s.removeOnClose ∧ o.unlinkUsed ∧ (d.now s.path).isSome then d.put s.path none else d

/-- settings of a process -/
structure Process where
  me : Nat
  manager : Settings
  controller : Option Settings := none
  pidFile : Option Bytes := none
  removePidFile : Bool := true

/-- the outcomes of a run -/
structure Course where
  manager : Outcome := {}
  controller : Outcome := {}
  dropPrivilege : Bool := true
  daemonize : Bool := true
  savePid : Bool := true
  unlinkPid : Bool := true
  /-- what others do to the disk while it runs -/
  others : Files → Files := id

/-- `milter_client_cleanup`, milter-client.c 2055-2105, for a client that has listened; `pid` is the PID file that was created -/
def cleanup (c : Course) (p : Process) (pid : Option Bytes) (d : Disk) : Disk :=
  let d := close c.manager p.manager d
  match pid with
  | none => d
  | some f => if p.removePidFile ∧ c.unlinkPid ∧ (d.now f).isSome then d.put f none else d

/-- `milter_client_run`, milter-client.c 2325-2393, of a process with its own number; a PID file that cannot be written ends it without cleaning up -/
def run (c : Course) (p : Process) (d : Disk) : Disk :=
  match p.pidFile with
  | none => cleanup c p none { now := c.others d.now, before := d.now :: d.before }
  | some f =>
    if !c.savePid then d
    else
      let d := d.put f (some ⟨.file p.me, 0o644, c.manager.ownGroup⟩)
      cleanup c p (some f) { now := c.others d.now, before := d.now :: d.before }

/-- the controller is let go: `dispose`, milter-manager-controller.c 142-165 -/
def closeController (c : Course) (s : Option Settings) (d : Disk) : Disk :=
  match s with
  | none => d
  | some s => close c.controller s d

/-- `milter_manager_main`, milter-manager-main.c 641-732, from listening on; the Boolean tells whether it got as far as running -/
def main (c : Course) (p : Process) (d : Disk) : Bool × Disk :=
  match start p.me c.manager p.manager d with
  | (false, d) => (false, d)
  | (true, d) =>
    if !c.dropPrivilege then (false, d)
    else
      let (listening, d) : Option Settings × Disk := match p.controller with
        | none => (none, d)
        | some s =>
          match start p.me c.controller s d with
          | (true, d) => (some s, d)
          | (false, d) => (none, d)
      if !c.daemonize then (false, closeController c listening d)
      else (true, closeController c listening (run c p d))

/-! ## The mode -/

/-- `milter_client_get_unix_socket_mode` (milter-client.c 2581-2592) of a manager (milter-manager.c 873-893): 0 means "not set" -/
def effectiveMode (configured own default_ : UInt32) : UInt32 :=
  let mode := if configured = 0 then own else configured
  if mode = 0 then default_ else mode

/-! ## The controller -/

/-- `MilterManagerControllerPrivate`: the spec listened on, with the settings in force, and whether the socket is watched -/
structure Controller where
  listening : Option Bytes := none
  watched : Bool := false

/-- `dispose_spec`, milter-manager-controller.c 106-140, with the setting now in force -/
def Controller.disposeSpec (k : Controller) (o : Outcome) (removeOnClose : Bool) (d : Disk) : Controller × Disk :=
  match k.listening with
  | none => (k, d)
  | some path => ({ k with listening := none }, if removeOnClose ∧ o.unlinkUsed ∧ (d.now path).isSome then d.put path none else d)

/-- what happens to a controller -/
inductive Step where
  /-- `milter_manager_controller_listen`, 424-485, with the settings in force then; no spec: the controller is switched off -/
  | listen (o : Outcome) (s : Option Settings) (removeOnClose : Bool)
  /-- an error on the socket, `watch_func` 331-352 -/
  | error
  /-- `dispose`, 142-165 -/
  | dispose (o : Outcome) (removeOnClose : Bool)

/-- one step -/
def Controller.step (me : Nat) (k : Controller) (d : Disk) : Step → Controller × Disk
  | .listen o s removeOnClose =>
    if k.watched then (k, d)
    else
      let (k, d) := k.disposeSpec o removeOnClose d
      match s with
      | none => (k, d)
      | some s =>
        match start me o s d with
        | (true, d) => ({ listening := some s.path, watched := true }, d)
        | (false, d) => (k, d)
  | .error => ({ k with watched := false }, d)
  | .dispose o removeOnClose => ({ k with watched := false }).disposeSpec o removeOnClose d

/-- all steps -/
def Controller.steps (me : Nat) : Controller → Disk → List Step → Controller × Disk
  | k, d, [] => (k, d)
  | k, d, s :: ss =>
    let r := k.step me d s
    Controller.steps me r.1 r.2 ss

end Verif.UnixSocket
