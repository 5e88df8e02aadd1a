import Verif.Core.Credentials
/-
Who a process should be.
-/
namespace Verif.Spec.Credentials
open Verif Verif.Credentials

/-- the process is this user and nobody else, in this group and in the groups of this user and in no other -/
def identity (db : Database) (p : Passwd) (group : Nat) : Creds :=
  { ruid := p.uid, euid := p.uid, suid := p.uid, rgid := group, egid := group, sgid := group, groups := group :: db.memberships p.name }

/-- whatever the process does about it, this holds -/
def Forever (c : Creds) (P : Creds → Prop) : Prop := ∀ calls : List Syscall, P (calls.foldl syscall c)

end Verif.Spec.Credentials
