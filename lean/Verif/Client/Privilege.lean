import Verif.Core.Credentials
import Verif.Core.Text
/-
Dropping privileges: `milter_client_drop_privilege`, client/milter-client.c:1762-1907.
-/
namespace Verif.Privilege
open Verif.Credentials

/-- what the process asks for: `effective-user` and `effective-group` -/
structure Wanted where
  user : Option Bytes
  group : Option Bytes
deriving DecidableEq, Repr

/-- system calls that are refused although the process may make them, and the owner of the socket cannot be changed -/
structure Refusals where
  setgid : Bool := false
  initgroups : Bool := false
  setuid : Bool := false
  chown : Bool := false
deriving DecidableEq, Repr

/-- the process and its socket -/
structure State where
  creds : Creds
  /-- the owner of the UNIX socket it listens on, if it does -/
  socket : Option Nat := none
deriving DecidableEq, Repr

/-- "nobody" -/
def nobody : Bytes := ascii "nobody"

/-- `find_password`, 1762-1792 -/
def findPassword (db : Database) (user : Option Bytes) : Option Passwd := db.password (user.getD nobody)

/-- the socket is given to the user, 1804-1817: if that fails it is not, and nothing else happens -/
def giveSocket (r : Refusals) (p : Passwd) (s : State) : State :=
  match s.socket with
  | none => s
  | some _ => if r.chown then s else { s with socket := some p.uid }

/-- `switch_user`, 1794-1834: the state, and whether it succeeded -/
def switchUser (db : Database) (w : Wanted) (r : Refusals) (s : State) : State × Bool :=
  match findPassword db w.user with
  | none => (s, false)
  | some p =>
    let s := giveSocket r p s
    match setuid s.creds p.uid r.setuid with
    | none => (s, false)
    | some c => ({ s with creds := c }, true)

/-- `switch_group`, 1836-1898 -/
def switchGroup (db : Database) (w : Wanted) (r : Refusals) (s : State) : State × Bool :=
  match w.group with
  | none => (s, true)
  | some name =>
    match db.group name with
    | none => (s, false)
    | some g =>
      match setgid s.creds g r.setgid with
      | none => (s, false)
      | some c =>
        let s := { s with creds := c }
        match findPassword db w.user with
        | none => (s, false)
        | some p =>
          match initgroups db s.creds p.name g r.initgroups with
          | none => (s, false)
          | some c => ({ s with creds := c }, true)

/-- `milter_client_drop_privilege`, 1900-1907 -/
def drop (db : Database) (w : Wanted) (r : Refusals) (s : State) : State × Bool :=
  if s.creds.euid ≠ 0 then (s, true)
  else
    let a := switchGroup db w r s
    if a.2 then switchUser db w r a.1 else (a.1, false)

end Verif.Privilege
