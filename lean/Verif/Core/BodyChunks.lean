import Verif.Core.ReplyEncoder
/-
Loops that cut a body into packets.
-/
namespace Verif.Enc
open Verif

theorem replaceBodyPackedSize_pos (rest : Bytes) (h : rest ≠ []) :
    0 < replaceBodyPackedSize rest := by
  have : 0 < rest.length := List.length_pos_iff.2 h
  unfold replaceBodyPackedSize
  rw [if_neg h, chunkSize_eq]
  split <;> omega

theorem bodyPackedSize_pos (rest : Bytes) (h : rest ≠ []) : 0 < bodyPackedSize rest := by
  have : 0 < rest.length := List.length_pos_iff.2 h
  unfold bodyPackedSize
  rw [chunkSize_eq]
  split <;> omega

/-- The loop of `milter_client_context_replace_body`, client/milter-client-context.c:3179-3197:
the packets handed to `write_packet_on_end_of_message`, given the part of the body not yet
sent and the encoder's buffer. -/
def replaceBodyLoop (order : Requests → Requests) (buf rest : Bytes) : List Bytes :=
  if _h : rest = [] then []
  else
    let (buf', p) := encodeReply order buf (.replaceBody rest)
    p.toList ++ replaceBodyLoop order buf' (rest.drop (replaceBodyPackedSize rest))
termination_by rest.length
decreasing_by
  have := replaceBodyPackedSize_pos rest _h
  have h2 : 0 < rest.length := List.length_pos_iff.2 _h
  rw [List.length_drop]; omega

/-- `flush_body` repeated while `priv->body->len` is not 0,
server/milter-server-context.c:1208-1256 with `process_next_state_body` :1277-1281: each
call encodes the front of the pending body and erases `packed_size` bytes of it. -/
def flushBodyLoop (inet : Inet) (sort : MacroTable → MacroTable) (buf body : Bytes) :
    List Bytes :=
  if _h : body = [] then []
  else
    let p := encodeCommand inet sort buf (.body body)
    p :: flushBodyLoop inet sort p (body.drop (bodyPackedSize body))
termination_by body.length
decreasing_by
  have := bodyPackedSize_pos body _h
  have h2 : 0 < body.length := List.length_pos_iff.2 _h
  rw [List.length_drop]; omega

end Verif.Enc
