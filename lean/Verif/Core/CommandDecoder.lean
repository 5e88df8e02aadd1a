import Verif.Core.Types
import Verif.Core.Decoder
/-
core/milter-command-decoder.c: handlers called by the framing machine with the
readable memory `m` (buffer contents and terminating NUL) and the packet length.
`command_length - 1` is written `len - 1` with natural subtraction where the C code
only passes it to a scan (a scan over -1 bytes finds nothing, as over 0 bytes).
-/
namespace Verif.CmdDec
open Verif

/-- `check_macro_context`, core/milter-command-decoder.c:283-310:
C H M R T L N B E U -/
def checkMacroContext (c : UInt8) : Bool :=
  [0x43, 0x48, 0x4d, 0x52, 0x54, 0x4c, 0x4e, 0x42, 0x45, 0x55].contains c

/-- `g_hash_table_insert`: replace the value of an equal key or add the key. -/
def tableInsert (t : MacroTable) (k : Bytes) (v : Option Bytes) : MacroTable :=
  match t with
  | [] => [(k, v)]
  | (k', v') :: t => if k' = k then (k', v) :: t else (k', v') :: tableInsert t k v

/-- key normalisation, core/milter-command-decoder.c:354-358: braces are stripped when
the name both starts with `{` and ends with `}` (`key_length` ≥ 1 here). -/
def normalizeKey (key : Bytes) : Bytes :=
  if key.head? = some 0x7b ∧ key.getLast? = some 0x7d then
    (key.drop 1).take (key.length - 2)
  else key

/-- `decode_define_macros`, core/milter-command-decoder.c:312-370: memory `m` from
`buffer + i`, `n = length - i` bytes left. -/
def decodeDefineMacros (m : Bytes) (n : Nat) (acc : MacroTable) : HRes MacroTable :=
  if n = 0 then .ok acc
  else
    match findNull1 m n with
    | .fail => .fail
    | .ub => .ub
    | .ok k =>
      let key := m.take k
      let m1 := m.drop (k + 1)
      let n1 := n - (k + 1)
      match findNull m1 n1 with
      | .fail => .fail
      | .ub => .ub
      | .ok k2 =>
        decodeDefineMacros (m1.drop (k2 + 1)) (n1 - (k2 + 1))
          (tableInsert acc (normalizeKey key) (some (m1.take k2)))
termination_by n
decreasing_by omega

/-- `decode_define_macro`, core/milter-command-decoder.c:371-409. The context is
required to exist by looking at `strlen(buffer)`, not at the packet length. -/
def decodeDefineMacro (m : Bytes) (len : Nat) : HRes Cmd :=
  if (m.takeWhile (· != 0)).length - 1 ≥ 1 then
    match m with
    | _ :: ctx :: rest =>
      if checkMacroContext ctx then do
        let t ← decodeDefineMacros rest (len - 2) []
        return .defineMacro ctx t
      else .fail
    | _ => .ub
  else .fail

/-- size of `sun_path` in `struct sockaddr_un` -/
def sunPathSize : Nat := 108

/-- the address part of `decode_connect_content`, core/milter-command-decoder.c:569-605
with `decode_connect_inet_address` :411-441, `_inet6_` :443-479, `_unix_` :481-499
(`strcpy` into a 108 byte array). -/
def decodeAddress (inet : Inet) (family p q : UInt8) (text : Bytes) : HRes Addr :=
  if family = 0x34 then
    match inet.v4.pton text with
    | some a => .ok (.inet p q a)
    | none => .fail
  else if family = 0x36 then
    let text := if (ascii "IPv6:").isPrefixOf text then text.drop 5 else text
    match inet.v6.pton text with
    | some a => .ok (.inet6 p q a)
    | none => .fail
  else if text.length < sunPathSize then .ok (.unix text)
  else .ub

/-- the part of `decode_connect_content` after the family byte,
core/milter-command-decoder.c:526-605; `left` is the signed number `length - i`. -/
def decodeFamily (inet : Inet) (host : Bytes) (family : UInt8) (m2 : Bytes) (left : Int) :
    HRes Cmd :=
  if family = 0x34 ∨ family = 0x36 ∨ family = 0x4c then do
    checkAtLeast left 2
    match m2 with
    | p :: q :: m3 => do
      let _ ← findNull1 m3 (left - 2).toNat
      let text ← cstr m3
      let a ← decodeAddress inet family p q text
      return .connect host a
    | _ => .ub
  else if family = 0x55 then do
    checkExact left 0
    return .connect host .unspec
  else .fail

/-- `decode_connect_content`, core/milter-command-decoder.c:501-609; `m`, `n` are
`buffer + 1` and `command_length - 1`. -/
def decodeConnectContent (inet : Inet) (m : Bytes) (n : Nat) : HRes Cmd := do
  let k ← findNull1 m n
  let host ← cstr m
  match m.drop (k + 1) with
  | [] => .ub
  | family :: m2 => decodeFamily inet host family m2 ((n : Int) - ((k + 2 : Nat) : Int))

/-- the common part of `decode_helo` :639-663, `decode_envelope_from` :665-689,
`decode_envelope_recipient` :691-714, `decode_unknown` :879-903: one non-empty string. -/
def decodeString (m : Bytes) (len : Nat) (mk : Bytes → Cmd) : HRes Cmd := do
  let _ ← findNull1 (m.drop 1) (len - 1)
  let s ← cstr (m.drop 1)
  return mk s

/-- `decode_data` :716-737, `decode_end_of_header` :766-787, `decode_abort` :833-854,
`decode_quit` :856-877: `command_length - 1 == 0`. -/
def decodeEmpty {Ev : Type} (len : Nat) (c : Ev) : HRes Ev := do
  checkExact ((len : Int) - 1) 0
  return c

/-- `milter_decoder_decode_header_content`, core/milter-decoder.c:319-347 -/
def decodeHeaderContent (m : Bytes) (n : Nat) : HRes (Bytes × Bytes) := do
  let k ← findNull1 m n
  let name ← cstr m
  let _ ← findNull (m.drop (k + 1)) (n - (k + 1))
  let value ← cstr (m.drop (k + 1))
  return (name, value)

/-- `milter_decoder_decode_negotiate`, core/milter-decoder.c:510-552: the option; the
`processed_length` it also returns is always 13. -/
def decodeOption (m : Bytes) (len : Nat) : HRes Opt := do
  checkAtLeast ((len : Int) - 1) 4
  let v ← readBE32 (m.drop 1)
  checkAtLeast ((len : Int) - 5) 4
  let a ← readBE32 (m.drop 5)
  checkAtLeast ((len : Int) - 9) 4
  let s ← readBE32 (m.drop 9)
  return ⟨UInt32.ofNat v, UInt32.ofNat a, UInt32.ofNat s⟩

/-- `decode_negotiate`, core/milter-command-decoder.c:905-938 -/
def decodeNegotiate (m : Bytes) (len : Nat) : HRes Cmd := do
  let o ← decodeOption m len
  checkExact ((len : Int) - 13) 0
  return .negotiate o

/-- `decode_body`, core/milter-command-decoder.c:789-805: `command_length - 1` bytes
from `buffer + 1`; with length 0 that is a size of `(gsize)-1`. -/
def decodeBody (m : Bytes) (len : Nat) : HRes Cmd :=
  if len = 0 then .ub else .ok (.body ((m.drop 1).take (len - 1)))

/-- `decode_end_of_message`, core/milter-command-decoder.c:807-831 -/
def decodeEndOfMessage (m : Bytes) (len : Nat) : HRes Cmd :=
  if len > 1 then .ok (.endOfMessage ((m.drop 1).take (len - 1))) else .ok (.endOfMessage [])

/-- the `switch` of `decode`, core/milter-command-decoder.c:940-1000, on the first byte
`c` of the memory `m` -/
def dispatch (inet : Inet) (c : UInt8) (m : Bytes) (len : Nat) : HRes Cmd :=
  if c = 0x4f then decodeNegotiate m len
  else if c = 0x44 then decodeDefineMacro m len
  else if c = 0x43 then decodeConnectContent inet (m.drop 1) (len - 1)
  else if c = 0x48 then decodeString m len .helo
  else if c = 0x4d then decodeString m len .envelopeFrom
  else if c = 0x52 then decodeString m len .envelopeRecipient
  else if c = 0x54 then decodeEmpty len .data
  else if c = 0x4c then do
    let (n, v) ← decodeHeaderContent (m.drop 1) (len - 1)
    return .header n v
  else if c = 0x4e then decodeEmpty len .endOfHeader
  else if c = 0x42 then decodeBody m len
  else if c = 0x45 then decodeEndOfMessage m len
  else if c = 0x41 then decodeEmpty len .abort
  else if c = 0x51 then decodeEmpty len .quit
  else if c = 0x55 then decodeString m len .unknown
  else .fail

/-- `decode`, core/milter-command-decoder.c:940-1000: the default handler of the
`decode` signal reads `buffer[0]` whatever the length is. -/
def decode (inet : Inet) : Decoder.Handler Cmd := fun m len =>
  match m with
  | [] => .ub
  | c :: _ => dispatch inet c m len

end Verif.CmdDec
