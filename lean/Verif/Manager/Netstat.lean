import Verif.Core.Text
/-
The connection checker that asks netstat: binding/ruby/lib/milter/manager/netstat-connection-checker.rb, and how checkers are asked (binding/ruby/lib/milter/manager.rb:1037-1058,
`boolean_handled_accumulator` of manager/milter-manager-leader.c:360-374).

A line of netstat's output is the list of its words (`split`), the first of which is at the beginning of the line.  `none` is an exception.
-/
namespace Verif.Netstat
open Verif

/-- `[:.]` -/
def separator (c : UInt8) : Bool := c == 0x3a || c == 0x2e

/-- the text between separators -/
def pieces : Bytes → List Bytes
  | [] => [[]]
  | c :: t =>
    if separator c then [] :: pieces t
    else match pieces t with
      | p :: ps => (c :: p) :: ps
      | [] => [[c]]

/-- without empty strings at the end -/
def dropEmpty : List Bytes → List Bytes
  | [] => []
  | p :: ps =>
    match dropEmpty ps with
    | [] => if p = [] then [] else [p]
    | qs => p :: qs

/-- `split(/[:.]/)` -/
def split (t : Bytes) : List Bytes := dropEmpty (pieces t)

/-- `join` -/
def join (sep : UInt8) : List Bytes → Bytes
  | [] => []
  | [p] => p
  | p :: ps => p ++ sep :: join sep ps

/-- `parse_tcp_address` (152-162) and `local_tcp_address`, `foreign_tcp_address` (22-28): the address, a colon and the port (nothing, if `pop` gives nil) -/
def tcpAddress (v6 : Bool) (t : Bytes) : Bytes :=
  join (if v6 then 0x3a else 0x2e) (split t).dropLast ++ 0x3a :: ((split t).getLast?).getD []

/-- the state of each connection, by the address of the client -/
abbrev Table := Bytes → Option (Option Bytes)

structure Database where
  tcp4 : Table := fun _ => none
  tcp6 : Table := fun _ => none

/-- a line of netstat's output, 134-149: other protocols than `tcp`, `tcp4` and `tcp6` that begin with "tcp" raise an exception (`@database[...]` is nil), and so do lines without addresses -/
def parseLine (db : Database) : List Bytes → Option Database
  | protocol :: words =>
    if (ascii "tcp").isPrefixOf protocol then
      match words with
      | _ :: _ :: _ :: foreign :: state =>
        if protocol = ascii "tcp" ∨ protocol = ascii "tcp4" then
          some { db with tcp4 := fun k => if k = tcpAddress false foreign then some state.head? else db.tcp4 k }
        else if protocol = ascii "tcp6" then
          some { db with tcp6 := fun k => if k = tcpAddress true foreign then some state.head? else db.tcp6 k }
        else none
      | _ => none
    else some db
  | [] => some db

/-- `parse_netstat_result`, 132-150 -/
def parse (db : Database) : List (List Bytes) → Option Database
  | [] => some db
  | l :: ls =>
    match parseLine db l with
    | some db => parse db ls
    | none => none

/-- the address of the SMTP client: the text of the address, and the port; anything else is `other` -/
inductive Client where
  | ipv4 (address port : Bytes)
  | ipv6 (address port : Bytes)
  | other
deriving DecidableEq, Repr

/-- the attributes of a checker: the last result of netstat, and when it was read -/
structure Checker where
  available : Bool
  database : Option Database := none
  lastUpdate : Option Nat := none
  lifetime : Nat := 5

/-- `need_database_update?`, 126-130 -/
def Checker.needsUpdate (c : Checker) (now : Nat) : Bool :=
  if c.database.isNone then true
  else match c.lastUpdate with
    | none => true
    | some t => decide (now - t > c.lifetime)

/-- `update_database`, 120-124, with what netstat would say; the flag says that netstat was run -/
def Checker.update (c : Checker) (now : Nat) (output : List (List Bytes)) : Option Checker × Bool :=
  if c.needsUpdate now then
    match parse {} output with
    | some db => (some { c with database := some db }, true)
    | none => (none, true)
  else (some c, false)

/-- `connected?` (38-45) and `connection_info` (84-113), for a client at a port other than 0 or of no IP address; the flag says that netstat was run -/
def Checker.connected (c : Checker) (serverLocal : Bool) (client : Client) (now : Nat) (output : List (List Bytes)) : Option Bool × Checker × Bool :=
  if !serverLocal then (some true, c, false)
  else if !c.available then (some true, c, false)
  else
    match client with
    | .other => (some true, c, false)
    | .ipv4 a p =>
      match c.update now output with
      | (none, ran) => (none, c, ran)
      | (some c, ran) =>
        match (c.database.bind fun db => db.tcp4 (a ++ 0x3a :: p)) with
        | none => (some true, c, ran)
        | some state => (some (!(state = none || state = some (ascii "CLOSE_WAIT"))), c, ran)
    | .ipv6 a p =>
      match c.update now output with
      | (none, ran) => (none, c, ran)
      | (some c, ran) =>
        match (c.database.bind fun db => db.tcp6 (a ++ 0x3a :: p)) with
        | none => (some true, c, ran)
        | some state => (some (!(state = none || state = some (ascii "CLOSE_WAIT"))), c, ran)

/-- the signal "connection-check": each checker in `Milter::Callback.guard(true)`, the next if it says yes; at last the class's own handler, which says yes -/
def check : List (Option Bool) → Bool
  | [] => true
  | r :: rs => if r.getD true then check rs else false

end Verif.Netstat
