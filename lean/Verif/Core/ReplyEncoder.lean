import Verif.Core.CommandEncoder
import Verif.Core.ReplyCode
/-
core/milter-reply-encoder.c.
-/
namespace Verif.Enc
open Verif

/-- `milter_utils_command_to_macro_stage`, core/milter-utils.c:266-299 with the stage
numbers of core/milter-protocol.h:124-130; `none` is -1. -/
def commandToStage (c : UInt8) : Option Nat :=
  if c = 0x43 then some 0 else if c = 0x48 then some 1 else if c = 0x4d then some 2
  else if c = 0x52 then some 3 else if c = 0x54 then some 4 else if c = 0x45 then some 5
  else if c = 0x4e then some 6 else none

/-- `encode_macros_request`, core/milter-reply-encoder.c:70-97.  (An empty symbol list is
a NULL dereference in the code; the model writes an empty list and the theorems require
a non-empty one.) -/
def macrosRequest (r : UInt8 × List Bytes) : Bytes :=
  match commandToStage r.1 with
  | none => []
  | some stage => be32 stage ++ (joinWith [0x20] r.2 ++ [0])

/-- `encode_macros_requests`, core/milter-reply-encoder.c:99-103; `order` is the order in
which `g_hash_table_foreach` visits the table. -/
def macrosRequests (order : Requests → Requests) (r : Requests) : Bytes :=
  ((order r).map macrosRequest).flatten

/-- `encode_reply_header`, core/milter-reply-encoder.c:235-270; no packet for an empty
name. -/
def replyHeader (letter : UInt8) (index : Option Nat) (name : Bytes) (value : Option Bytes) :
    Option Bytes :=
  if name = [] then none
  else some (letter :: ((match index with | none => [] | some i => be32 i) ++
    (name ++ 0 :: (value.getD [] ++ [0]))))

/-- a string reply that is not written for an empty string -/
def replyString (letter : UInt8) (s : Bytes) : Option Bytes :=
  if s = [] then none else some (letter :: (s ++ [0]))

/-- the optional second string of `change_from` and `add_recipient`,
core/milter-reply-encoder.c:349-352, 386-389 -/
def paramPart (p : Option Bytes) : Bytes :=
  match p with
  | none => []
  | some p => if p = [] then [] else p ++ [0]

/-- Content built by each `milter_reply_encoder_encode_*` function; `none` when the
function returns no packet. -/
def replyContent (order : Requests → Requests) : Reply → Option Bytes
  | .negotiate o r => some (negotiateContent (some o) ++
      (match r with | none => [] | some r => macrosRequests order r))           -- :106-122
  | .cont => some [0x63]                                                        -- :125-139
  | .replyCode code ext msg =>                                                  -- :142-165
      (ReplyCode.format code (some ext) msg).map (fun t => 0x79 :: (t ++ [0]))
  | .temporaryFailure => some [0x74]                                            -- :168-182
  | .reject => some [0x72]                                                      -- :185-199
  | .accept => some [0x61]                                                      -- :202-216
  | .discard => some [0x64]                                                     -- :219-233
  | .addHeader n v => replyHeader 0x68 none n (some v)                          -- :273-283
  | .insertHeader i n v => replyHeader 0x69 (some i) n v                        -- :286-297
  | .changeHeader n i v => replyHeader 0x6d (some i) n (some v)                 -- :300-311
  | .deleteHeader n i => replyHeader 0x6d (some i) n none                       -- :314-324
  | .changeFrom f p => if f = [] then none else
      some (0x65 :: (f ++ 0 :: paramPart p))                                    -- :327-354
  | .addRecipient r p => if r = [] then none else
      some ((if paramPart p = [] then 0x2b else 0x32) :: (r ++ 0 :: paramPart p)) -- :357-391
  | .deleteRecipient r => replyString 0x2d r                                    -- :394-416
  | .replaceBody chunk => if chunk = [] then none else
      some (0x62 :: chunk.take chunkSize)                                       -- :419-446
  | .progress => some [0x70]                                                    -- :449-462
  | .quarantine r => replyString 0x71 r                                         -- :465-487
  | .connectionFailure => some [0x66]                                           -- :490-504
  | .shutdown => some [0x34]                                                    -- :507-520
  | .skip => some [0x73]                                                        -- :523-536

/-- All reply encoding functions except negotiate clear the buffer first. -/
def replyClears : Reply → Bool
  | .negotiate _ _ => false
  | _ => true

/-- One call on an encoder whose buffer is `buf`: the new buffer and the packet, if one
was produced. -/
def encodeReply (order : Requests → Requests) (buf : Bytes) (r : Reply) : Bytes × Option Bytes :=
  match replyContent order r with
  | none => (buf, none)
  | some c =>
    let p := pack ((if replyClears r then [] else buf) ++ c)
    (p, some p)

/-- A whole history of one reply encoder: the packets returned. -/
def encodeReplies (order : Requests → Requests) (buf : Bytes) : List Reply → List Bytes
  | [] => []
  | r :: rs =>
    let (buf', p) := encodeReply order buf r
    p.toList ++ encodeReplies order buf' rs

/-- `packed_size` of `milter_reply_encoder_encode_replace_body`,
core/milter-reply-encoder.c:440-443 -/
def replaceBodyPackedSize (chunk : Bytes) : Nat :=
  if chunk = [] then 0 else if chunk.length > chunkSize then chunkSize else chunk.length

end Verif.Enc
