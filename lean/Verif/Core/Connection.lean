import Verif.Core.Types
import Verif.Core.Text
/-
Connection specs: `milter/core/milter-connection.c` 62-345.

`inet_ntop`/`inet_pton` are the parameter `inet`, `getaddrinfo` the parameter `resolve`
(per family: the first address found, `none` for a failure).  Error texts are not modelled.
-/
namespace Verif.Connection

/-- `struct sockaddr`: the port in host order, raw address bytes -/
inductive SockAddr where
  | unix (path : Bytes)
  | inet (port : UInt16) (addr : Bytes)
  | inet6 (port : UInt16) (addr : Bytes)
deriving DecidableEq, Repr

structure Net where
  inet : Inet
  /-- `getaddrinfo` restricted to PF_INET -/
  resolve4 : Bytes → Option Bytes
  /-- `getaddrinfo` restricted to PF_INET6 -/
  resolve6 : Bytes → Option Bytes

/-- `sizeof (sun_path) - 1` on Linux -/
def unixPathMax : Nat := 107

/-- "unix:" -/
def sUnix : Bytes := [0x75, 0x6e, 0x69, 0x78, 0x3a]
/-- "local:" -/
def sLocal : Bytes := [0x6c, 0x6f, 0x63, 0x61, 0x6c, 0x3a]
/-- "inet:" -/
def sInet : Bytes := [0x69, 0x6e, 0x65, 0x74, 0x3a]
/-- "inet6:" -/
def sInet6 : Bytes := [0x69, 0x6e, 0x65, 0x74, 0x36, 0x3a]

/-- `milter_connection_address_to_spec` (62-112).  `inet_ntop` cannot fail for these
families with buffers of the documented size.  AF_UNSPEC and unknown families, which give
the texts "unknown" and "unexpected:N", are left out. -/
def toSpec (net : Net) : SockAddr → Bytes
  | .unix path => sUnix ++ path
  | .inet port a => sInet ++ decimal port.toNat ++ [0x40, 0x5b] ++ net.inet.v4.ntop a ++ [0x5d]
  | .inet6 port a => sInet6 ++ decimal port.toNat ++ [0x40, 0x5b] ++ net.inet.v6.ntop a ++ [0x5d]

/-- `parse_connection_spec_host` (114-183) -/
def parseHost (pton resolve : Bytes → Option Bytes) : Bytes → Option Bytes
  | [] => resolve []
  | c :: host =>
    if c = 0x5b then
      -- for an empty rest `host[host_size - 1]` is the '[' itself
      if (host.getLast?.getD 0x5b) = 0x5d then pton (host.take (host.length - 1)) else none
    else resolve (c :: host)

/-- value of a run of decimal digits -/
def digitsValue (s : Bytes) : Nat := s.foldl (fun n c => 10 * n + (c.toNat - 48)) 0

/-- largest `long` -/
def longMax : Nat := 2 ^ 63 - 1

/-- `atoi` of glibc on a 64-bit system, for a string that starts with digits (or none):
`(int) strtol (...)`, where `strtol` saturates at `LONG_MAX` and the cast keeps the low 32
bits.  (C leaves out-of-range values undefined.) -/
def atoi (s : Bytes) : Int := (Int.ofNat (min (digitsValue (s.takeWhile isDigit)) longMax)).bmod (2 ^ 32)

/-- the loop of `parse_connection_spec_port_and_host` (205-218): the address -/
def portLoop (any : Bytes) (host : Bytes → Option Bytes) : Bytes → Option Bytes
  | [] => some any
  | c :: s =>
    if c = 0x40 then host s
    else if isDigit c then portLoop any host s
    else none

/-- `parse_connection_spec_port_and_host` (185-230); `g_htons` of the caller keeps the low
16 bits -/
def portAndHost (any : Bytes) (host : Bytes → Option Bytes) (port : Bytes) :
    Option (UInt16 × Bytes) :=
  match portLoop any host port with
  | none => none
  | some a => if atoi port > 65535 then none else some (UInt16.ofNat (atoi port % 65536).toNat, a)

/-- the bytes after the first colon -/
def afterColon : Bytes → Option Bytes
  | [] => none
  | c :: s => if c = 0x3a then some s else afterColon s

/-- `milter_connection_parse_spec` (232-345) for a non-NULL spec, called with an `address`
to fill; `ub` is the `strcpy` past the end of `sun_path` -/
def parseSpec (net : Net) (spec : Bytes) : HRes SockAddr :=
  match afterColon spec with
  | none => .fail
  | some [] => .fail
  | some (c :: s) =>
    let content := c :: s
    if sUnix.isPrefixOf spec || sLocal.isPrefixOf spec then
      if content.length ≤ unixPathMax then .ok (.unix content) else .ub
    else if sInet.isPrefixOf spec then
      match portAndHost [0, 0, 0, 0] (parseHost net.inet.v4.pton net.resolve4) content with
      | none => .fail
      | some (p, a) => .ok (.inet p a)
    else if sInet6.isPrefixOf spec then
      match portAndHost (List.replicate 16 0) (parseHost net.inet.v6.pton net.resolve6) content with
      | none => .fail
      | some (p, a) => .ok (.inet6 p a)
    else .fail

end Verif.Connection
