import Verif.Core.Types
/-
core/milter-encoder.c and core/milter-command-encoder.c.
The model of an encoder object is its `buffer` (MilterEncoderPrivate).
-/
namespace Verif.Enc
open Verif

/-- MILTER_CHUNK_SIZE, core/milter-protocol.h:40 -/
@[irreducible] def chunkSize : Nat := 65535

theorem chunkSize_eq : chunkSize = 65535 := by unfold chunkSize; rfl

/-- `milter_encoder_pack`, core/milter-encoder.c:158-176: prepends the 4-byte
big-endian `(guint32)buffer->len`. The packet handed out is the buffer itself. -/
def pack (content : Bytes) : Bytes := be32 (content.length % 4294967296) ++ content

/-- `milter_encoder_encode_negotiate`, core/milter-encoder.c:178-204: what is appended
to the buffer; `none` is a NULL option. -/
def negotiateContent (o : Option Opt) : Bytes :=
  0x4f :: match o with
    | none => []
    | some o => be32 o.version.toNat ++ (be32 o.action.toNat ++ be32 o.step.toNat)

/-- one iteration of `encode_macros`, core/milter-command-encoder.c:114-131 -/
def encodeMacro (kv : Bytes × Option Bytes) : Bytes :=
  match kv.1 with
  | [] => []
  | k0 :: ks =>
    (if k0 = 0x7b ∨ ks = [] then k0 :: ks else 0x7b :: (k0 :: ks) ++ [0x7d])
      ++ 0 :: (kv.2.getD [] ++ [0])

/-- `encode_macros`, core/milter-command-encoder.c:107-133.  `sort` stands for
`g_hash_table_get_keys` followed by `g_list_sort` with `compare_macro_key`
(`g_utf8_collate`, locale dependent): an unspecified rearrangement of the table. -/
def encodeMacros (sort : MacroTable → MacroTable) (t : MacroTable) : Bytes :=
  ((sort t).map encodeMacro).flatten

/-- `encode_connect_inet`, `_inet6`, `_unix`, `_unknown` and the trailing NUL,
core/milter-command-encoder.c:157-202, 236-253 -/
def encodeAddr (inet : Inet) : Addr → Bytes
  | .inet p q a => 0x34 :: p :: q :: (inet.v4.ntop a ++ [0])
  | .inet6 p q a => 0x36 :: p :: q :: (ascii "IPv6:" ++ inet.v6.ntop a ++ [0])
  | .unix path => 0x4c :: 0 :: 0 :: (path ++ [0])
  | .unspec => [0x55]

/-- Content built by each `milter_command_encoder_encode_*` function before packing,
core/milter-command-encoder.c:81-514.  String arguments are C strings. -/
def commandContent (inet : Inet) (sort : MacroTable → MacroTable) : Cmd → Bytes
  | .negotiate o => negotiateContent (some o)                     -- :82-92
  | .defineMacro ctx t => 0x44 :: ctx :: encodeMacros sort t       -- :136-155
  | .connect host addr => 0x43 :: (host ++ 0 :: encodeAddr inet addr) -- :218-255
  | .helo s => 0x48 :: (s ++ [0])                                  -- :258-274
  | .envelopeFrom s => 0x4d :: (s ++ [0])                          -- :277-293
  | .envelopeRecipient s => 0x52 :: (s ++ [0])                     -- :296-312
  | .data => [0x54]                                                -- :315-328
  | .header n v => 0x4c :: (n ++ 0 :: (v ++ [0]))                  -- :331-349
  | .endOfHeader => [0x4e]                                         -- :352-365
  | .body chunk => 0x42 :: chunk.take chunkSize                    -- :381-406
  | .endOfMessage chunk => 0x45 :: chunk                           -- :438-454
  | .abort => [0x41]                                               -- :466-479
  | .quit => [0x51]                                                -- :482-495
  | .unknown s => 0x55 :: (s ++ [0])                               -- :498-514

/-- Does this encoding function call `milter_encoder_clear_buffer` first?  All of
them do except negotiate (core/milter-command-encoder.c:82-92 and
core/milter-encoder.c:178-204). -/
def clearsBuffer : Cmd → Bool
  | .negotiate _ => false
  | _ => true

/-- One call of an encoding function on an encoder whose buffer is `buf`: the packet
returned, which is also the new buffer. -/
def encodeCommand (inet : Inet) (sort : MacroTable → MacroTable) (buf : Bytes) (c : Cmd) :
    Bytes :=
  pack ((if clearsBuffer c then [] else buf) ++ commandContent inet sort c)

/-- `packed_size` reported by `milter_command_encoder_encode_body`,
core/milter-command-encoder.c:397-405 -/
def bodyPackedSize (chunk : Bytes) : Nat :=
  if chunk.length > chunkSize then chunkSize else chunk.length

/-- A whole history of one encoder object: the packets it returned, in order. -/
def encodeAll (inet : Inet) (sort : MacroTable → MacroTable) (buf : Bytes) :
    List Cmd → List Bytes
  | [] => []
  | c :: cs =>
    let p := encodeCommand inet sort buf c
    p :: encodeAll inet sort p cs

end Verif.Enc
