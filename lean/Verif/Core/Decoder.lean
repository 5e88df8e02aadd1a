import Verif.Core.Bytes
/-
The packet framing state machine, core/milter-decoder.c.
-/
namespace Verif.Decoder
open Verif

/-- `MilterDecoderState` (core/milter-decoder.c: IN_START .. IN_ERROR).
`crashed` is not in the code: it marks that a handler had undefined behaviour. -/
inductive St where
  | start | length | content | error | crashed
deriving DecidableEq, Repr

/-- `MilterDecoderPrivate`: state, accumulated buffer, length of the packet being
received (core/milter-decoder.c, struct _MilterDecoderPrivate). -/
structure Dec where
  st : St
  buf : Bytes
  clen : Nat
deriving DecidableEq, Repr

/-- `milter_decoder_init`: empty buffer, IN_START. -/
def init : Dec := ⟨.start, [], 0⟩

variable {Ev : Type}

/-- The handler of the `decode` signal: it gets the readable memory
(`buffer->str` with its terminating NUL) and `command_length`. -/
abbrev Handler (Ev : Type) := Bytes → Nat → HRes Ev

/-- The `while (loop)` of `milter_decoder_decode`, core/milter-decoder.c:381-435.
Returns the decoder and the signals emitted.
`command_length` is a `gint32` that is compared with the `gsize` buffer length
(line 408), so a length word of 2^31 or more is a huge unsigned number and the
packet never completes (a buffer that long does not exist). -/
def loop (h : Handler Ev) (st : St) (buf : Bytes) (clen : Nat) : Dec × List Ev :=
  match st with
  | .start =>
    match buf with
    | [] => (⟨.start, [], clen⟩, [])
    | x :: xs => loop h .length (x :: xs) clen
  | .length =>
    match buf with
    | a :: b :: c :: e :: rest => loop h .content rest (rd32 a b c e)
    | short => (⟨.length, short, clen⟩, [])
  | .content =>
    if clen < intLimit ∧ clen ≤ buf.length then
      match h (buf ++ [0]) clen with
      | .ok ev =>
        let r := loop h .start (buf.drop clen) clen
        (r.1, ev :: r.2)
      | .fail => (⟨.error, buf, clen⟩, [])
      | .ub => (⟨.crashed, buf, clen⟩, [])
    else (⟨.content, buf, clen⟩, [])
  | .error => (⟨.error, buf, clen⟩, [])
  | .crashed => (⟨.crashed, buf, clen⟩, [])
termination_by 4 * buf.length + (match st with | .content => 2 | .start => 1 | _ => 0)
decreasing_by
  · simp only [List.length_cons]; omega
  · simp only [List.length_cons]; omega
  · rw [List.length_drop]; omega

/-- `milter_decoder_decode`, core/milter-decoder.c:360-438.  An empty chunk returns
at once (line 372); otherwise the chunk is appended and the loop runs. (The guard on
line 370 compares the state with an error quark and never fires.) -/
def feed (h : Handler Ev) (d : Dec) (chunk : Bytes) : Dec × List Ev :=
  if chunk = [] then (d, [])
  else loop h d.st (d.buf ++ chunk) d.clen

/-- Value returned by `milter_decoder_decode` for this chunk: FALSE exactly when a
packet was rejected during this call (lines 366, 418, 437). -/
def feedOk (h : Handler Ev) (d : Dec) (chunk : Bytes) : Bool :=
  d.st == .error || (feed h d chunk).1.st != .error

/-- A sequence of feeds, collecting the signals in order. -/
def feedAll (h : Handler Ev) (d : Dec) : List Bytes → Dec × List Ev
  | [] => (d, [])
  | c :: cs =>
    let r := feed h d c
    let r' := feedAll h r.1 cs
    (r'.1, r.2 ++ r'.2)

/-- `milter_decoder_end_decode`, core/milter-decoder.c:461-486: new decoder and the
returned gboolean. (The `g_return_val_if_fail` on line 468 returns FALSE in IN_ERROR.) -/
def endDecode (d : Dec) : Dec × Bool :=
  match d.st with
  | .start => (d, true)
  | .length => ({ d with st := .error }, false)
  | .content => ({ d with st := .error }, false)
  | .error => (d, false)
  | .crashed => (d, false)

end Verif.Decoder
