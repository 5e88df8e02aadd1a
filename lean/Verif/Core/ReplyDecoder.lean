import Verif.Core.CommandDecoder
import Verif.Core.Text
/-
core/milter-reply-decoder.c.  Same conventions as CommandDecoder.
-/
namespace Verif.RepDec
open Verif

/-- `find_space_character`, core/milter-reply-decoder.c:147-158; `none` is -1. -/
def findSpace : Bytes → Nat → HRes (Option Nat)
  | _, 0 => .ok none
  | [], _ + 1 => .ub
  | c :: m, n + 1 => if c = 0x20 then .ok (some 0) else do
      let k ← findSpace m n
      return k.map (· + 1)

/-- core/milter-reply-decoder.c:215-229: enhanced code and message, separated at the first
blank of the packet (`g_strndup` stops at a NUL) -/
def splitText (code : Nat) (m : Bytes) (n : Nat) : HRes Reply :=
  match findSpace m n with
  | .fail => .fail
  | .ub => .ub
  | .ok none => do
    let ext ← cstr m
    return .replyCode code ext none
  | .ok (some k) => do
    let msg ← cstr (m.drop (k + 1))
    return .replyCode code ((m.take k).takeWhile (· != 0)) (some msg)

/-- the text part of `decode_reply_reply_code`, core/milter-reply-decoder.c:208-229, from
the byte after the three digits: one blank is skipped -/
def decodeCodeText (code : Nat) (m : Bytes) (n : Nat) : HRes Reply :=
  if m.head? = some 0x20 then splitText code (m.drop 1) (n - 1) else splitText code m n

/-- `decode_reply_reply_code`, core/milter-reply-decoder.c:160-237; `atoi` of three
digits. -/
def decodeReplyCode (m : Bytes) (len : Nat) : HRes Reply := do
  checkAtLeast ((len : Int) - 1) 3
  match m.drop 1 with
  | a :: b :: c :: rest =>
    if (a = 0x34 ∨ a = 0x35) ∧ isDigit b ∧ isDigit c then do
      let _ ← findNull1 (m.drop 1) (len - 1)
      decodeCodeText ((a.toNat - 48) * 100 + (b.toNat - 48) * 10 + (c.toNat - 48)) rest (len - 4)
    else .fail
  | _ => .ub

/-- `decode_reply_add_header`, core/milter-reply-decoder.c:331-355 -/
def decodeAddHeader (m : Bytes) (len : Nat) : HRes Reply := do
  let (n, v) ← CmdDec.decodeHeaderContent (m.drop 1) (len - 1)
  return .addHeader n v

/-- `decode_header_content_with_index`, core/milter-reply-decoder.c:357-406: index, name,
value (NULL when empty).  The index is the 32-bit word itself (the code stores it in a
`gint`). -/
def decodeIndexed (m : Bytes) (length : Nat) : HRes (Nat × Bytes × Option Bytes) :=
  if length < 4 then .fail
  else do
    let i ← readBE32 m
    let m1 := m.drop 4
    let n1 := length - 4
    let k ← findNull1 m1 n1
    let name ← cstr m1
    let m2 := m1.drop (k + 1)
    let k2 ← findNull m2 (n1 - (k + 1))
    if k2 = 0 then return (i, name, none)
    else do
      let v ← cstr m2
      return (i, name, some v)

/-- `decode_reply_insert_header`, core/milter-reply-decoder.c:408-432.  The content is
decoded with `command_length + 1` although only `command_length - 1` bytes belong to it. -/
def decodeInsertHeader (m : Bytes) (len : Nat) : HRes Reply := do
  let (i, n, v) ← decodeIndexed (m.drop 1) (len + 1)
  return .insertHeader i n v

/-- `decode_reply_change_header`, core/milter-reply-decoder.c:434-464 -/
def decodeChangeHeader (m : Bytes) (len : Nat) : HRes Reply := do
  let (i, n, v) ← decodeIndexed (m.drop 1) (len + 1)
  match v with
  | some v => return .changeHeader n i v
  | none => return .deleteHeader n i

/-- `decode_two_string`, core/milter-reply-decoder.c:466-509 -/
def decodeTwo (m : Bytes) (n : Nat) : HRes (Bytes × Option Bytes) := do
  let k ← findNull1 m n
  let a ← cstr m
  if n - (k + 1) = 0 then return (a, none)
  else do
    let _ ← findNull1 (m.drop (k + 1)) (n - (k + 1))
    let b ← cstr (m.drop (k + 1))
    return (a, some b)

/-- `decode_reply_change_from`, core/milter-reply-decoder.c:511-539 -/
def decodeChangeFrom (m : Bytes) (len : Nat) : HRes Reply := do
  let (a, b) ← decodeTwo (m.drop 1) (len - 1)
  return .changeFrom a b

/-- `decode_reply_add_recipient`, core/milter-reply-decoder.c:541-561: the result of the
NUL check is ignored. -/
def decodeAddRecipient (m : Bytes) (_len : Nat) : HRes Reply := do
  let a ← cstr (m.drop 1)
  return .addRecipient a none

/-- `decode_reply_add_recipient_with_parameters`, core/milter-reply-decoder.c:563-591 -/
def decodeAddRecipientParams (m : Bytes) (len : Nat) : HRes Reply := do
  let (a, b) ← decodeTwo (m.drop 1) (len - 1)
  return .addRecipient a b

/-- `decode_reply_delete_recipient` :593-617 and `decode_reply_quarantine` :661-685 -/
def decodeReplyString (m : Bytes) (len : Nat) (mk : Bytes → Reply) : HRes Reply := do
  let _ ← findNull1 (m.drop 1) (len - 1)
  let s ← cstr (m.drop 1)
  return mk s

/-- `decode_reply_replace_body`, core/milter-reply-decoder.c:619-636 -/
def decodeReplaceBody (m : Bytes) (len : Nat) : HRes Reply :=
  if len = 0 then .ub else .ok (.replaceBody ((m.drop 1).take (len - 1)))

/-- `milter_utils_macro_stage_to_command`, core/milter-utils.c:301-334 -/
def stageToCommand (s : Nat) : Option UInt8 :=
  [0x43, 0x48, 0x4d, 0x52, 0x54, 0x45, 0x4e][s]?

/-- `g_hash_table_insert` on the symbols table,
core/milter-macros-requests.c:208-223 -/
def requestsInsert (t : Requests) (k : UInt8) (v : List Bytes) : Requests :=
  match t with
  | [] => [(k, v)]
  | (k', v') :: t => if k' = k then (k', v) :: t else (k', v') :: requestsInsert t k v

/-- the loop of `decode_macros_requests`, core/milter-reply-decoder.c:770-810: memory
from `buffer + i`, `n = length - i` bytes left -/
def decodeRequests (m : Bytes) (n : Nat) (acc : Requests) : HRes Requests :=
  if n = 0 then .ok acc
  else if n < 4 then .fail
  else
    match readBE32 m with
    | .fail => .fail
    | .ub => .ub
    | .ok stage =>
      match findNull1 (m.drop 4) (n - 4) with
      | .fail => .fail
      | .ub => .ub
      | .ok k =>
        match stageToCommand stage with
        | none => .fail
        | some c =>
          decodeRequests ((m.drop 4).drop (k + 1)) (n - 4 - (k + 1))
            (requestsInsert acc c (strsplit 0x20 ((m.drop 4).take k)))
termination_by n
decreasing_by omega

/-- `decode_reply_negotiate`, core/milter-reply-decoder.c:821-867 and the start of
`decode_macros_requests` :766-769 -/
def decodeNegotiate (m : Bytes) (len : Nat) : HRes Reply := do
  let o ← CmdDec.decodeOption m len
  if len - 13 = 0 then return .negotiate o none
  else do
    let r ← decodeRequests (m.drop 13) (len - 13) []
    return .negotiate o (some r)

/-- the `switch` of `decode`, core/milter-reply-decoder.c:869-947 -/
def dispatch (c : UInt8) (m : Bytes) (len : Nat) : HRes Reply :=
  if c = 0x4f then decodeNegotiate m len
  else if c = 0x63 then CmdDec.decodeEmpty len .cont
  else if c = 0x79 then decodeReplyCode m len
  else if c = 0x74 then CmdDec.decodeEmpty len .temporaryFailure
  else if c = 0x72 then CmdDec.decodeEmpty len .reject
  else if c = 0x61 then CmdDec.decodeEmpty len .accept
  else if c = 0x64 then CmdDec.decodeEmpty len .discard
  else if c = 0x68 then decodeAddHeader m len
  else if c = 0x69 then decodeInsertHeader m len
  else if c = 0x6d then decodeChangeHeader m len
  else if c = 0x65 then decodeChangeFrom m len
  else if c = 0x2b then decodeAddRecipient m len
  else if c = 0x32 then decodeAddRecipientParams m len
  else if c = 0x2d then decodeReplyString m len .deleteRecipient
  else if c = 0x62 then decodeReplaceBody m len
  else if c = 0x70 then CmdDec.decodeEmpty len .progress
  else if c = 0x71 then decodeReplyString m len .quarantine
  else if c = 0x66 then CmdDec.decodeEmpty len .connectionFailure
  else if c = 0x34 then CmdDec.decodeEmpty len .shutdown
  else if c = 0x73 then CmdDec.decodeEmpty len .skip
  else .fail

/-- `decode`, core/milter-reply-decoder.c:869-947 -/
def decode : Decoder.Handler Reply := fun m len =>
  match m with
  | [] => .ub
  | c :: _ => dispatch c m len

end Verif.RepDec
