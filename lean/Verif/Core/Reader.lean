import Verif.Core.Decoder
/-
The reader, core/milter-reader.c, and what an agent makes of it, core/milter-agent.c.

The environment is the peer, the event loop and the channel: bytes arrive, the peer hangs up, the event loop calls the two
callbacks.  `arrived` are the bytes which have arrived and which `g_io_channel_read_chars` has not returned yet; whether they are still in
the kernel or in the buffer of the channel is up to the environment.  Not modelled: logging, tags, failures to register with the event loop.
-/
namespace Verif.Reader

/-- one call of `g_io_channel_read_chars` and what follows it -/
structure Step where
  /-- so many bytes are there to be returned, if they have arrived -/
  ready : Nat := 4096
  /-- the channel reports an error, if there is nothing to return -/
  fails : Bool := false
  /-- a handler of the signal the reader emits then asks it to shut down -/
  stops : Bool := false
  /-- there are bytes left in the buffer of the channel, if any are left at all -/
  more : Bool := false
deriving DecidableEq, Repr

/-- what can be seen from outside -/
inductive Item where
  /-- the peer sent these bytes -/
  | sent (bytes : Bytes)
  | hungUp
  /-- the signal "flow" -/
  | flow (bytes : Bytes)
  /-- the signal "error" -/
  | error
  /-- the signal "finished" -/
  | finished
  /-- memory of the reader is used after it was freed -/
  | useAfterFree
deriving DecidableEq, Repr

/-- `MilterReaderPrivate`, core/milter-reader.c:37-46, and the connection -/
structure State where
  /-- somebody else than the one who lets go of the reader when it has finished keeps a reference to it -/
  kept : Bool := false
  arrived : Bytes := []
  hungUp : Bool := false
  /-- `io_channel` is not NULL -/
  channel : Bool := true
  readWatch : Bool := false
  errorWatch : Bool := false
  shutdownRequested : Bool := false
  freed : Bool := false
deriving DecidableEq, Repr

/-- `BUFFER_SIZE`, 133 -/
def bufferSize : Nat := 4096

/-- `read_from_channel`, 134-183: the state, what is seen, and whether to go on.  A read returns at least one byte if one has arrived, and at
most `bufferSize`. -/
def readOnce (s : State) (r : Step) : State × List Item × Bool :=
  let n := min (max r.ready 1) bufferSize
  let stop (s : State) : State := if r.stops then { s with shutdownRequested := true } else s
  if s.arrived ≠ [] then (stop { s with arrived := s.arrived.drop n }, [.flow (s.arrived.take n)], true)
  else if r.fails then ({ s with shutdownRequested := true }, [.error], false)
  else (s, [], !s.hungUp)

/-- the calls of `read_from_channel` in `read_watch_func`, 226-236 -/
def readLoop : State → List Step → State × List Item × Bool
  | s, [] => (s, [], true)
  | s, r :: rs =>
    let a := readOnce s r
    if a.2.2 && r.more && a.1.arrived ≠ [] then
      let b := readLoop a.1 rs
      (b.1, a.2.1 ++ b.2.1, b.2.2)
    else a

/-- `finish`, 204-213, after `clear_watch_id`, 185-202; the one who has the reader lets go of it (`cb_reader_finished`, core/milter-agent.c:423-433) -/
def finish (s : State) : State × List Item :=
  ({ s with shutdownRequested := false, readWatch := false, errorWatch := false, freed := !s.kept }, [.finished])

/-- `read_watch_func`, 215-255: after all `processing` is set to FALSE -/
def readReady (s : State) (rs : List Step) : State × List Item :=
  let a := if s.shutdownRequested then (s, [], true) else readLoop s rs
  if a.2.2 && !a.1.shutdownRequested then (a.1, a.2.1)
  else
    let f := finish a.1
    (f.1, a.2.1 ++ f.2 ++ if f.1.freed then [.useAfterFree] else [])

/-- `error_watch_func`, 257-307; the condition has G_IO_HUP, G_IO_ERR, G_IO_NVAL -/
def errorReady (s : State) (hup err nval : Bool) : State × List Item :=
  let requested := s.shutdownRequested || hup
  let failed := err || (!requested && (hup || nval))
  let f := finish { s with shutdownRequested := requested || failed }
  (f.1, (if failed then [.error] else []) ++ f.2)

/-- `milter_reader_start` with `watch_io_channel`, 309-345, 426-434 -/
def start (s : State) : State := if s.channel && !s.readWatch then { s with readWatch := true, errorWatch := true } else s

/-- `milter_reader_shutdown` outside of the callbacks, 442-467 -/
def shutdown (s : State) : State × List Item :=
  if !s.readWatch then (s, [])
  else if s.shutdownRequested then (s, [])
  else finish { s with shutdownRequested := true, channel := false }

/-- what happens to a reader -/
inductive Event where
  | start
  | shutdown
  /-- the peer sends bytes -/
  | arrive (bytes : Bytes)
  /-- the peer closes the connection -/
  | hangUp
  /-- there is something to read -/
  | readReady (reads : List Step)
  /-- there is an error -/
  | errorReady (hup err nval : Bool)
deriving DecidableEq, Repr

/-- One event.  A callback runs only while it is registered.  A closed connection brings nothing, and is the only one that is seen as hung up.
Nobody uses a reader that was freed. -/
def step (s : State) : Event → State × List Item
  | .arrive bytes => if s.hungUp then (s, []) else ({ s with arrived := s.arrived ++ bytes }, [.sent bytes])
  | .hangUp => if s.hungUp then (s, []) else ({ s with hungUp := true }, [.hungUp])
  | .start => if s.freed then (s, []) else (start s, [])
  | .shutdown => if s.freed then (s, []) else shutdown s
  | .readReady rs => if s.readWatch && rs ≠ [] then readReady s rs else (s, [])
  | .errorReady hup err nval => if s.errorWatch && (!hup || s.hungUp) then errorReady s hup err nval else (s, [])

/-- a history -/
def run (s : State) : List Event → State × List Item
  | [] => (s, [])
  | e :: es =>
    let a := step s e
    let b := run a.1 es
    (b.1, a.2 ++ b.2)

end Verif.Reader
