import Verif.Core.Bytes
/-
Data carried by the milter protocol: options, addresses, commands and replies.
-/
namespace Verif

/-- `MilterOption` (core/milter-option.c): version, action flags, step flags, each a
`guint32`. -/
structure Opt where
  version : UInt32
  action : UInt32
  step : UInt32
deriving DecidableEq, Repr

/-- `struct sockaddr` as far as the protocol transports it: family, port in network
byte order, raw address bytes / path.  (`sin6_flowinfo` and `sin6_scope_id` are never
transmitted and the decoder zeroes them, so they are left out.) -/
inductive Addr where
  | inet (port1 port2 : UInt8) (addr : Bytes)
  | inet6 (port1 port2 : UInt8) (addr : Bytes)
  | unix (path : Bytes)
  | unspec
deriving DecidableEq, Repr

/-- `inet_ntop` / `inet_pton` for one family.  These are libc functions: they are
parameters of the model. -/
structure InetText where
  /-- `inet_ntop` of the raw address -/
  ntop : Bytes → Bytes
  /-- `inet_pton`: `none` is its result 0 -/
  pton : Bytes → Option Bytes

/-- The libc pair for IPv4 and IPv6. -/
structure Inet where
  v4 : InetText
  v6 : InetText

/-- A macro table: a `GHashTable` from name to value (`none` is a NULL value).
Iteration order of a hash table is unspecified; see `Macros` for how order is handled. -/
abbrev MacroTable := List (Bytes × Option Bytes)

/-- Milter commands: one constructor per function of core/milter-command-encoder.c and
per signal of core/milter-command-decoder.c. -/
inductive Cmd where
  | negotiate (o : Opt)
  | defineMacro (ctx : UInt8) (macros : MacroTable)
  | connect (host : Bytes) (addr : Addr)
  | helo (fqdn : Bytes)
  | envelopeFrom (from_ : Bytes)
  | envelopeRecipient (to : Bytes)
  | data
  | header (name value : Bytes)
  | endOfHeader
  | body (chunk : Bytes)
  | endOfMessage (chunk : Bytes)
  | abort
  | quit
  | unknown (command : Bytes)
deriving DecidableEq, Repr

/-- Macro requests: stage command character to the symbols asked for
(`MilterMacrosRequests`, core/milter-macros-requests.c). -/
abbrev Requests := List (UInt8 × List Bytes)

/-- Milter replies: one constructor per signal of core/milter-reply-decoder.c. -/
inductive Reply where
  | negotiate (o : Opt) (requests : Option Requests)
  | cont
  | replyCode (code : Nat) (extended : Bytes) (message : Option Bytes)
  | temporaryFailure
  | reject
  | accept
  | discard
  | addHeader (name : Bytes) (value : Bytes)
  | insertHeader (index : Nat) (name : Bytes) (value : Option Bytes)
  | changeHeader (name : Bytes) (index : Nat) (value : Bytes)
  | deleteHeader (name : Bytes) (index : Nat)
  | changeFrom (from_ : Bytes) (parameters : Option Bytes)
  | addRecipient (recipient : Bytes) (parameters : Option Bytes)
  | deleteRecipient (recipient : Bytes)
  | replaceBody (chunk : Bytes)
  | progress
  | quarantine (reason : Bytes)
  | connectionFailure
  | shutdown
  | skip
deriving DecidableEq, Repr

end Verif
