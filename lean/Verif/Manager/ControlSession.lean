import Verif.Manager.Configuration
import Verif.Core.Decoder
import Verif.Core.CommandEncoder
/-
A control connection: `milter/manager/milter-manager-controller.c` 249-290 sets up the agent,
`milter/core/milter-agent.c` 374-400 hands what is read to the decoder, and the callbacks of
`milter-manager-controller-context.c` 92-250 (`Configuration.control`) answer while the decoder
runs.  Simplifications: what is written goes out (`Core/Writer.lean` is about how); other
connections, signals and changes of the files come between two reads.
-/
namespace Verif.ControlSession
open Verif Verif.Configuration

/-- the connection and the manager it controls -/
structure Line where
  dec : Decoder.Dec := Decoder.init
  sys : System
  sent : Bytes := []

/-- what happens: something is read from the connection, or something else happens to the
manager -/
inductive Input where
  | chunk (b : Bytes)
  | other (e : Event)

/-- a callback of the decoder: the reply is encoded and written (`milter_agent_write_packet`) -/
def serve (w : World) (xml : FS → Conf → Bytes) (message : Bytes) (l : Line) (c : Control.Command) : Line :=
  let r := control w xml message l.sys c
  { l with
    sys := r.1
    sent := l.sent ++ Enc.pack (Control.encodeReply r.2) }

/-- `cb_reader_flow` (milter-agent.c 374-400): if the decoder fails, an error is emitted that nobody
listens to -/
def receive (w : World) (xml : FS → Conf → Bytes) (message : Bytes) (l : Line) : Input → Line
  | .chunk b =>
    let r := Decoder.feed Control.decodeCommand l.dec b
    { r.2.foldl (serve w xml message) l with dec := r.1 }
  | .other e => { l with sys := event w xml message l.sys e }

/-- a connection is accepted and used -/
def run (w : World) (xml : FS → Conf → Bytes) (message : Bytes) (s : System) (is : List Input) : Line :=
  is.foldl (receive w xml message) { sys := s }

end Verif.ControlSession
