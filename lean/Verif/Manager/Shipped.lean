import Verif.Manager.Conditions
import Verif.Core.Headers
/-
More conditions that come with milter-manager: data/applicable-conditions/{trust,stress,dnsbl,sendmail-compatible}.conf and
binding/ruby/lib/milter/manager/breaker.rb.

Strings are bytes: Ruby's `downcase` is taken on ASCII letters only, and `.` of a regular expression is any byte but a line feed.
-/
namespace Verif.Conditions
open Verif.Macros

/-- `downcase`, trust.conf:36 -/
def downcase (s : Bytes) : Bytes := s.map Headers.lower

/-- `\s` of Ruby's regular expressions -/
def isBlank (c : UInt8) : Bool := c == 0x20 || (0x09 ≤ c && c ≤ 0x0d)

/-- `lstrip`; the NUL that `strip` removes, too, is left out -/
def lstrip (s : Bytes) : Bytes := s.dropWhile isBlank

/-- `strip` -/
def strip (s : Bytes) : Bytes := (lstrip (lstrip s).reverse).reverse

/-! ## Trust -/

/-- an entry of `@envelope_from_domains`, trust.conf:14-16: a string, or a regular expression or a block, which are functions of the domain -/
inductive Matcher where
  | literal (domain : Bytes)
  | test (f : Bytes → Bool)

/-- `match?`, 39-47: `String#===` is equality -/
def Matcher.accepts : Matcher → Bytes → Bool
  | .literal d, host => decide (d = host)
  | .test f, host => f host

/-- what follows the first "@" after the first byte -/
def afterAt : Bytes → Option Bytes
  | [] => none
  | [_] => none
  | _ :: 0x40 :: rest => some rest
  | _ :: c :: rest => afterAt (c :: rest)

/-- `parse_envelope_from`, 49-56: the domain that `/\A<(.+?)@(.+?)>\z/` finds.  The first group is as short as possible, so that it ends before the first "@"
that is not at its beginning. -/
def senderDomain (sender : Bytes) : Option Bytes :=
  match sender with
  | 0x3c :: rest =>
    if rest.getLast? = some 0x3e ∧ 0x0a ∉ rest then
      match afterAt rest.dropLast with
      | some d => if d = [] then none else some d
      | none => none
    else none
  | _ => none

/-- `trusted_envelope_from_domain?`, 18-22 -/
def trustedSender (domains : List Matcher) (sender : Bytes) : Bool :=
  match senderDomain sender with
  | none => false
  | some d => domains.any fun m => m.accepts (downcase d)

/-- `parse_envelope_from_domain_list_file`, 58-71, for a line (with the line feed at its end, if there is one); `regexp` makes a regular expression that does not
mind the case -/
def trustLine (regexp : Bytes → Bytes → Bool) (line : Bytes) : Option Matcher :=
  let s := strip line
  match s with
  | [] => none
  | 0x23 :: _ => none
  | 0x2f :: rest =>
    if rest.getLast? = some 0x2f ∧ 2 ≤ rest.length then some (.test (regexp rest.dropLast)) else some (.literal (downcase s))
  | _ => some (.literal (downcase s))

/-- `trusted_domain` -/
def trustedDomain : Bytes := ascii "trusted_domain"

/-- "Trust", 92-101 -/
def trustCondition (domains : List Matcher) : Condition :=
  { name := ascii "Trust"
    envelopeFrom := [fun sender a => (some false, if trustedSender domains sender then write a trustedDomain (ascii "yes") else a)] }

/-! ## Stress -/

/-- the fields of a line: `split(/\s+/, 8)`, breaker.rb:93; what comes after the seventh field is left in one piece, which is not looked at -/
def fields : Bytes → List Bytes
  | [] => [[]]
  | c :: s =>
    if isBlank c then
      match s with
      | d :: _ => if isBlank d then fields s else [] :: fields s
      | [] => [[], []]
    else match fields s with
      | f :: fs => (c :: f) :: fs
      | [] => [[c]]

/-- `to_i` of a string of digits and what follows; underscores and signs are left out -/
def toI (s : Bytes) : Nat := (s.takeWhile isDigit).foldl (fun n c => n * 10 + (c.toNat - 0x30)) 0

/-- `detect_postfix_process_limit_from_master_cf`, 87-100, for the lines of master.cf: `none` for nil -/
def masterLimit : List Bytes → Option Nat
  | [] => none
  | l :: ls =>
    if l.head? = some 0x23 then masterLimit ls
    else match fields l with
      | service :: more =>
        if service ≠ ascii "smtp" then masterLimit ls
        else match more with
          | _ :: _ :: _ :: _ :: _ :: maxproc :: _ => if maxproc = ascii "-" then none else some (toI maxproc)
          | _ => some 0
      | [] => masterLimit ls

/-- `detect_postfix_process_limit`, 61-85, for `default_process_limit` of postconf and the lines of master.cf, if there are any -/
def processLimit (default : Option Nat) (master : Option (List Bytes)) : Nat :=
  ((master.bind masterLimit).or default).getD 0

/-- `detect_postfix_threshold_n_connections`, 52-59.  The product with 0.75 is exact for numbers below 2⁵¹. -/
def postfixThreshold (limit : Nat) : Nat := limit * 3 / 4

/-- `Breaker`: the threshold, if it is set or has been detected -/
structure Breaker where
  threshold : Option Nat := none
deriving DecidableEq, Repr

/-- `threshold_n_connections`, 32-34 -/
def Breaker.get (b : Breaker) (detected : Nat) : Nat × Breaker :=
  match b.threshold with
  | some n => (n, b)
  | none => (detected, ⟨some detected⟩)

/-- `threshold_n_connections=`, 20 -/
def Breaker.set (b : Breaker) (n : Option Nat) : Breaker := { b with threshold := n }

/-- `stressing?`, 26-30 -/
def Breaker.stressing (b : Breaker) (detected sessions : Nat) : Bool × Breaker :=
  let (n, b) := b.get detected
  (if n = 0 then false else decide (n ≤ sessions), b)

/-- "Stress Notify", stress.conf:25-32 -/
def stressNotify (b : Breaker) (detected sessions : Nat) : Condition :=
  { name := ascii "Stress Notify"
    connect := [fun _ _ a => (some false, if (b.stressing detected sessions).1 then write a (ascii "stress") (ascii "yes") else a)] }

/-- "No Stress", 34-40 -/
def noStress (b : Breaker) (detected sessions : Nat) : Condition :=
  { name := ascii "No Stress", connect := [fun _ _ a => (some (b.stressing detected sessions).1, a)] }

/-! ## DNSBL -/

/-- an entry of `@services`, dnsbl.conf:20-26 -/
structure Service where
  domain : Bytes
  expected : Option Network := none
deriving DecidableEq, Repr

/-- `address.address` of an IPv4 address -/
def dotted (n : Nat) : Bytes :=
  joinWith [0x2e] [decimal (n / 2 ^ 24 % 256), decimal (n / 2 ^ 16 % 256), decimal (n / 2 ^ 8 % 256), decimal (n % 256)]

/-- `rev_address + "." + domain`, 46, 52 -/
def query (address domain : Bytes) : Bytes := joinWith [0x2e] (strsplit 0x2e address).reverse ++ [0x2e] ++ domain

/-- what the thread for a service answers, 54-66; `resolve` is `getaddress`, which raises an exception (`none`) if there is no answer in time -/
def Service.answer (resolve : Bytes → Option Address) (s : Service) (address : Bytes) : Bool :=
  match resolve (query address s.domain) with
  | none => false
  | some x => match s.expected with
    | none => true
    | some n => n.includes x

/-- the loop over the answers in the order they come, 71-77 -/
def listedBy : List Bool → Bool
  | [] => false
  | a :: as => if a then true else listedBy as

/-- `listed?`, 38-41, when the threads answer in the given order -/
def listed (resolve : Bytes → Option Address) (arrival : List Service) (x : Address) : Bool :=
  match x with
  | .ipv4 n => listedBy (arrival.map fun s => s.answer resolve (dotted n))
  | _ => false

/-- "DNSBL Listed", 94-102 -/
def dnsblListed (resolve : Bytes → Option Address) (arrival : List Service) : Condition :=
  { name := ascii "DNSBL Listed", connect := [fun _ x a => (some !listed resolve arrival x, a)] }

/-- "Not DNSBL Listed", 104-112 -/
def notDnsblListed (resolve : Bytes → Option Address) (arrival : List Service) : Condition :=
  { name := ascii "Not DNSBL Listed", connect := [fun _ x a => (some (listed resolve arrival x), a)] }

/-! ## Sendmail Compatible -/

/-- `\w` -/
def isWordByte (c : UInt8) : Bool := isDigit c || (0x41 ≤ c && c ≤ 0x5a) || (0x61 ≤ c && c ≤ 0x7a) || c == 0x5f

/-- `/\bPostfix\b/i`, core/macro.rb:39, in what follows a byte `last` -/
def postfixIn (last : Option UInt8) : Bytes → Bool
  | [] => false
  | c :: s =>
    (!(last.any isWordByte) && decide (downcase ((c :: s).take 7) = ascii "postfix") && !((c :: s)[7]?.any isWordByte)) || postfixIn (some c) s

/-- `postfix?`, core/macro.rb:38-40 -/
def isPostfix (a : Agent) : Bool × Agent :=
  let r := read a (ascii "v")
  (postfixIn none (r.1.getD []), r.2)

/-- `context[name] ||= value` -/
def orSet (a : Agent) (name : Bytes) (value : Option Bytes) : Agent :=
  let r := read a name
  if r.1.isSome then r.2 else r.2.setMacro r.2.context (normalizeName name) value

/-- `dns_caches` as a list of the addresses with their names -/
abbrev Cache := List (Bytes × Bytes)

/-- `max_n_dns_caches` -/
def cacheLimit : Nat := 100

/-- `resolve_host_name`, sendmail-compatible.conf:21-34; `resolve` is `Resolv.getname`, with `none` for an exception -/
def resolveName (resolve : Bytes → Option Bytes) (cache : Cache) (address : Option Bytes) : Option Bytes × Cache :=
  match address with
  | none => (none, cache)
  | some x =>
    match cache.lookup x with
    | some name => (some name, if cacheLimit ≤ cache.length then [] else cache)
    | none =>
      match resolve x with
      | none => (none, cache)
      | some name => (some name, if cacheLimit ≤ cache.length + 1 then [] else (x, name) :: cache)

/-- the handler for connections, 36-43; `ip` and `port` are what netstat says of the client -/
def sendmailConnect (ip port : Option Bytes) (resolve : Bytes → Option Bytes) (cache : Cache) (a : Agent) : Agent × Cache :=
  let r := isPostfix a
  if r.1 then
    let a := orSet r.2 (ascii "if_addr") ip
    let q := read a (ascii "if_name")
    -- the right side of ||= is evaluated if there is none
    let n := if q.1.isSome then (none, cache) else resolveName resolve cache (read q.2 (ascii "if_addr")).1
    let a := orSet q.2 (ascii "if_name") n.1
    (orSet a (ascii "daemon_port") port, n.2)
  else (r.2, cache)

/-- the handler for MAIL, 45-48 -/
def sendmailFrom (a : Agent) : Agent :=
  let r := isPostfix a
  if r.1 then orSet r.2 (ascii "i") (some (ascii "dummy-id")) else r.2

/-- "Sendmail Compatible" -/
def sendmailCompatible (ip port : Address → Option Bytes) (resolve : Bytes → Option Bytes) (cache : Cache) : Condition :=
  { name := ascii "Sendmail Compatible"
    connect := [fun _ x a => (some false, (sendmailConnect (ip x) (port x) resolve cache a).1)]
    envelopeFrom := [fun _ a => (some false, sendmailFrom a)] }

end Verif.Conditions
