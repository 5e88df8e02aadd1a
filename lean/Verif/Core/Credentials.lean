import Verif.Core.Bytes
/-
Who a process is: the system calls that change it, as POSIX describes them for Linux, without file system ids, capabilities and user name spaces.  This stands for the
kernel and the C library; it is specified, not verified.
-/
namespace Verif.Credentials

/-- the user and group ids of a process: real, effective, saved; and its supplementary groups -/
structure Creds where
  ruid : Nat
  euid : Nat
  suid : Nat
  rgid : Nat
  egid : Nat
  sgid : Nat
  groups : List Nat
deriving DecidableEq, Repr

/-- an entry of the password database -/
structure Passwd where
  name : Bytes
  uid : Nat
  gid : Nat
deriving DecidableEq, Repr

/-- the databases of users and groups -/
structure Database where
  /-- `getpwnam` -/
  password : Bytes → Option Passwd
  /-- `getgrnam`: the id of a group -/
  group : Bytes → Option Nat
  /-- the groups a user is listed in -/
  memberships : Bytes → List Nat

/-- setgid(2): for root all three ids; otherwise only to the real or saved id.  `refused`: the kernel refuses for another reason. -/
def setgid (c : Creds) (g : Nat) (refused : Bool := false) : Option Creds :=
  if refused then none
  else if c.euid = 0 then some { c with rgid := g, egid := g, sgid := g }
  else if g = c.rgid ∨ g = c.sgid then some { c with egid := g }
  else none

/-- setuid(2): for root all three ids; otherwise only to the real or saved id.  `refused`: the kernel refuses for another reason, as EAGAIN. -/
def setuid (c : Creds) (u : Nat) (refused : Bool := false) : Option Creds :=
  if refused then none
  else if c.euid = 0 then some { c with ruid := u, euid := u, suid := u }
  else if u = c.ruid ∨ u = c.suid then some { c with euid := u }
  else none

/-- setgroups(2): only for root -/
def setgroups (c : Creds) (gs : List Nat) (refused : Bool := false) : Option Creds :=
  if refused then none else if c.euid = 0 then some { c with groups := gs } else none

/-- initgroups(3): the groups the user is listed in, and one more -/
def initgroups (db : Database) (c : Creds) (name : Bytes) (g : Nat) (refused : Bool := false) : Option Creds :=
  setgroups c (g :: db.memberships name) refused

/-- a system call a process makes about who it is -/
inductive Syscall where
  | setuid (u : Nat)
  | setgid (g : Nat)
  | setgroups (gs : List Nat)
  /-- setresuid(2): each id to the real, effective or saved one; any for root -/
  | setresuid (r e s : Nat)
  /-- setresgid(2) -/
  | setresgid (r e s : Nat)
deriving DecidableEq, Repr

/-- the process after the call, unchanged if it fails -/
def syscall (c : Creds) : Syscall → Creds
  | .setuid u => (setuid c u).getD c
  | .setgid g => (setgid c g).getD c
  | .setgroups gs => (setgroups c gs).getD c
  | .setresuid r e s =>
    let may (x : Nat) : Prop := c.euid = 0 ∨ x = c.ruid ∨ x = c.euid ∨ x = c.suid
    if may r ∧ may e ∧ may s then { c with ruid := r, euid := e, suid := s } else c
  | .setresgid r e s =>
    let may (x : Nat) : Prop := c.euid = 0 ∨ x = c.rgid ∨ x = c.egid ∨ x = c.sgid
    if may r ∧ may e ∧ may s then { c with rgid := r, egid := e, sgid := s } else c

end Verif.Credentials
