import Verif.Core.ProtocolAgent
import Verif.Core.Text
/-
Applicable conditions: binding/ruby/lib/milter/manager.rb:1213-1410 (`ApplicableConditionConfiguration`), binding/ruby/lib/milter/manager/child-context.rb, the accumulator of the
stop-on-* signals (server/milter-server-context.c:3645-3657), and conditions of data/applicable-conditions.

A block of Ruby is a function of its arguments and of the agent of the milter, whose macros it may read and write; it says whether the milter is to be stopped, or
raises an exception.  The cache of macros of a `ChildContext` lasts for one call of a handler and is thrown away by writing, so that it cannot be seen and is left out.
-/
namespace Verif.Conditions
open Verif.Macros

/-- `Milter::SocketAddress`, binding/ruby/lib/milter/core/socket-address.rb; an IP address is a number -/
inductive Address where
  | ipv4 (n : Nat)
  | ipv6 (n : Nat)
  | unix
  | unknown
deriving DecidableEq, Repr

/-- what the block says: `some b` if it returns (a value that counts as) `b`, `none` if it raises an exception -/
abbrev Block := Agent → Option Bool × Agent

/-- what the milter is about to be told -/
inductive Event where
  | connect (host : Bytes) (address : Address)
  | helo (fqdn : Bytes)
  | envelopeFrom (sender : Bytes)
  | envelopeRecipient (recipient : Bytes)
  | data
  | header (name value : Bytes)
  | endOfHeader
  | body (chunk : Bytes)
  | endOfMessage
deriving DecidableEq, Repr

/-- the blocks given to `define_*_stopper`, 1221-1271 -/
structure Condition where
  name : Bytes
  connect : List (Bytes → Address → Block) := []
  helo : List (Bytes → Block) := []
  envelopeFrom : List (Bytes → Block) := []
  envelopeRecipient : List (Bytes → Block) := []
  data : List Block := []
  header : List (Bytes → Bytes → Block) := []
  endOfHeader : List Block := []
  body : List (Bytes → Block) := []
  endOfMessage : List Block := []

/-- what is called for an event, with which arguments, 1306-1405.  For a chunk of the body three arguments are given (1389): the context, `name` - that of the condition, by
`method_missing` - and the chunk; a block with two parameters takes the first two. -/
def Condition.blocks (c : Condition) : Event → List Block
  | .connect h a => c.connect.map fun b => b h a
  | .helo f => c.helo.map fun b => b f
  | .envelopeFrom f => c.envelopeFrom.map fun b => b f
  | .envelopeRecipient r => c.envelopeRecipient.map fun b => b r
  | .data => c.data
  | .header n v => c.header.map fun b => b n v
  | .endOfHeader => c.endOfHeader
  | .body _ => c.body.map fun b => b c.name
  | .endOfMessage => c.endOfMessage

/-- `any?` over the blocks, each in `Milter::Callback.guard(false)`: an exception counts as false -/
def any : List Block → Agent → Bool × Agent
  | [], a => (false, a)
  | b :: bs, a =>
    match b a with
    | (some true, a) => (true, a)
    | (_, a) => any bs a

/-- the signal: the handlers of the conditions, in the order they were attached, until one says stop (3653-3656); the class's own handler says no (840-881) -/
def stop : List Condition → Event → Agent → Bool × Agent
  | [], _, a => (false, a)
  | c :: cs, e, a =>
    match any (c.blocks e) a with
    | (true, a) => (true, a)
    | (false, a) => stop cs e a

/-! ## `ChildContext` -/

/-- `normalize_macro_name`, binding/ruby/lib/milter/core/macro.rb:28-30 -/
def normalizeName (name : Bytes) : Bytes :=
  if 3 ≤ name.length ∧ bracketed name = true ∧ 0x0a ∉ (name.drop 1).take (name.length - 2) then (name.drop 1).take (name.length - 2) else name

/-- `[]`, child-context.rb:36-38 -/
def read (a : Agent) (name : Bytes) : Option Bytes × Agent := (a.getAvailable.1 (normalizeName name), a.getAvailable.2)

/-- `[]=`, child-context.rb:40-44 -/
def write (a : Agent) (name value : Bytes) : Agent := a.setMacro a.context (normalizeName name) (some value)

/-! ## Conditions that come with milter-manager -/

/-- `authenticated?`, core/macro.rb:34-36 -/
def authenticated (a : Agent) : Bool × Agent :=
  let r := read a (ascii "auth_type")
  if r.1.isSome then (true, r.2)
  else
    let r := read r.2 (ascii "auth_authen")
    (r.1.isSome, r.2)

/-- "Authenticated", data/applicable-conditions/authentication.conf -/
def authenticatedCondition : Condition :=
  { name := ascii "Authenticated", envelopeFrom := [fun _ a => let r := authenticated a; (some !r.1, r.2)] }

/-- "Unauthenticated" -/
def unauthenticatedCondition : Condition :=
  { name := ascii "Unauthenticated", envelopeFrom := [fun _ a => let r := authenticated a; (some r.1, r.2)] }

/-- an `IPAddr` with a mask: the addresses of a family with the given first bits -/
structure Network where
  v6 : Bool
  base : Nat
  length : Nat
deriving DecidableEq, Repr

/-- `IPAddr#include?` of Ruby's library (specified): same family, same first bits -/
def Network.includes (n : Network) : Address → Bool
  | .ipv4 x => !n.v6 && decide (x / 2 ^ (32 - n.length) = n.base / 2 ^ (32 - n.length))
  | .ipv6 x => n.v6 && decide (x / 2 ^ (128 - n.length) = n.base / 2 ^ (128 - n.length))
  | _ => false

/-- `local?` of socket addresses, socket-address.rb:61-63, 118-120, 165-167, 194-196, with `ipv4_loopback?`, `ipv4_private?`, `ipv6_loopback?` and `ipv6_linklocal?` of Ruby's
`Addrinfo` (specified) -/
def Address.isLocal : Address → Bool
  | .ipv4 n => decide (n / 2 ^ 24 = 127) || (decide (n / 2 ^ 24 = 10) || decide (n / 2 ^ 20 = 0xac1) || decide (n / 2 ^ 16 = 0xc0a8))
  | .ipv6 n => decide (n = 1) || decide (n / 2 ^ 118 = 0x3fa)
  | .unix => true
  | .unknown => false

/-- `to_ip_address` is not nil -/
def Address.hasIp : Address → Bool
  | .ipv4 _ => true
  | .ipv6 _ => true
  | _ => false

/-- `Milter::Manager::AddressMatcher`, binding/ruby/lib/milter/manager/address-matcher.rb -/
structure AddressMatcher where
  locals : List Network := []
  remotes : List Network := []
deriving DecidableEq, Repr

/-- `local_address?`, 22-29 -/
def AddressMatcher.localAddress (m : AddressMatcher) (x : Address) : Bool :=
  if x = .unknown then false
  else if x.hasIp && m.remotes.any (fun n => n.includes x) then false
  else if x.isLocal then true
  else x.hasIp && m.locals.any (fun n => n.includes x)

/-- `remote_address?`, 31-34 -/
def AddressMatcher.remoteAddress (m : AddressMatcher) (x : Address) : Bool :=
  if x = .unknown then false else !m.localAddress x

/-- "Remote Network", data/applicable-conditions/remote-network.conf -/
def remoteNetwork (m : AddressMatcher) : Condition :=
  { name := ascii "Remote Network", connect := [fun _ x a => (some !m.remoteAddress x, a)] }

/-- the macro of `restrict_accounts_generic` -/
def flag : Bytes := ascii "have-not-restricted-account"

/-- "true" -/
def yes : Bytes := ascii "true"

/-- `restrict_accounts_generic`, data/applicable-conditions/restrict-accounts.conf:3-21 -/
def restrictAccounts (restricted : Bytes → Bool) : Condition :=
  { name := ascii "Restrict Accounts"
    envelopeRecipient := [fun r a => if restricted r then (some false, a) else (some true, write a flag yes)]
    data := [fun a => let r := read a flag; (some (decide (r.1 = some yes)), r.2)] }

/-- the account of a recipient, restrict-accounts.conf:39-43 -/
def account (recipient : Bytes) : Bytes :=
  if 3 ≤ recipient.length ∧ recipient.head? = some 0x3c ∧ recipient.getLast? = some 0x3e ∧ 0x0a ∉ (recipient.drop 1).take (recipient.length - 2)
  then (recipient.drop 1).take (recipient.length - 2) else recipient

/-- `restrict_accounts_by_list`: `accounts` are the `===` of strings and regular expressions -/
def byList (accounts : List (Bytes → Bool)) (recipient : Bytes) : Bool := accounts.any fun m => m (account recipient)

/-- `s25r`, data/applicable-conditions/s25r.conf; the matchers are parameters -/
structure S25r where
  white : List (Bytes → Bool)
  black : List (Bytes → Bool)
  onlyIpv4 : Bool := true

/-- `address.ipv4?` -/
def Address.isIpv4 : Address → Bool
  | .ipv4 _ => true
  | _ => false

/-- `white?`, 18-21 -/
def S25r.isWhite (s : S25r) (host : Bytes) (x : Address) : Bool :=
  if s.onlyIpv4 && !x.isIpv4 then true else s.white.any fun m => m host

/-- `black?`, 23-26 -/
def S25r.isBlack (s : S25r) (host : Bytes) (x : Address) : Bool :=
  if s.onlyIpv4 && !x.isIpv4 then false else s.black.any fun m => m host

/-- "S25R" -/
def s25rCondition (s : S25r) : Condition :=
  { name := ascii "S25R", connect := [fun h x a => (some (if s.isWhite h x then true else if s.isBlack h x then false else true), a)] }

/-! ## A milter is told of events -/

/-- the `MilterCommand` of an event -/
def Event.stage : Event → Context
  | .connect _ _ => 0x43
  | .helo _ => 0x48
  | .envelopeFrom _ => 0x4d
  | .envelopeRecipient _ => 0x52
  | .data => 0x54
  | .header _ _ => 0x4c
  | .endOfHeader => 0x4e
  | .body _ => 0x42
  | .endOfMessage => 0x45

/-- `milter_manager_children_define_macro` (manager/milter-manager-children.c:3162-3207) for a milter that takes part: the macros of the MTA replace those of the stage, if the MTA
sent any -/
def defineMacro (macros : Option Table) (e : Event) (a : Agent) : Agent :=
  match macros with
  | some t => a.setTable e.stage t
  | none => a

/-- the stage is set before the stop-on-* signal (server/milter-server-context.c:1795, 1892, 1953, 2008, 2097, 2153, 2208, 2259), but not in `milter_server_context_helo` (1694-1732) -/
def enter (e : Event) (a : Agent) : Agent :=
  match e with
  | .helo _ => a
  | e => a.setContext e.stage

/-- `prepend_macro` (1006-1016) sets the stage to that of the command and then to "unknown" -/
def sent (e : Event) (a : Agent) : Agent := (a.setContext e.stage).setContext 0x55

/-- the macros the MTA gave for a command, the event, and whether the milter has asked not to be sent it -/
structure Told where
  macros : Option Table
  event : Event
  unwanted : Bool := false

/-- one of the functions `milter_server_context_connect` ... `_end_of_message`, as far as the macros and the decision to stop go -/
def tell (cs : List Condition) (t : Told) (a : Agent) : Bool × Agent :=
  match stop cs t.event (enter t.event (defineMacro t.macros t.event a)) with
  | (true, a) => (true, a)
  | (false, a) => (false, if t.unwanted then a else sent t.event a)

/-- what is decided at each of a list of events of which the milter is told whatever was decided before - which is so for the recipients of a message
(`cb_stopped`, manager/milter-manager-children.c:2185-2189) and the event after them -/
def tellAll (cs : List Condition) : List Told → Agent → List Bool × Agent
  | [], a => ([], a)
  | t :: ts, a =>
    ((tell cs t a).1 :: (tellAll cs ts (tell cs t a).2).1, (tellAll cs ts (tell cs t a).2).2)

end Verif.Conditions
