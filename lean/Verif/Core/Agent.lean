import Verif.Core.Bytes
/-
The agent, core/milter-agent.c: what it makes of its reader and its writer, and when it says that it has finished.

An agent calls handlers, and handlers call the agent.  The handlers are the environment: with every signal comes the list of calls its
handlers make.  Of the reader (core/milter-reader.c) and the writer (core/milter-writer.c) only what decides about their ends is here;
`Verif.Core.Reader` and `Verif.Core.Writer` have the rest.  Not modelled: the timer of the agent, tags, logging, the bytes written, calls made by handlers of the signals
the writer emits while it is shut down, and handlers that replace the reader or the writer.
-/
namespace Verif.Agent

/-- calls a handler makes -/
inductive Call where
  /-- `milter_agent_start` -/
  | start
  /-- `milter_agent_shutdown` -/
  | shutdown
deriving DecidableEq, Repr

/-- what can be seen from outside -/
inductive Item where
  /-- these bytes are given to the decoder -/
  | decoded (bytes : Bytes)
  /-- the signal "error" -/
  | error
  /-- the signal "flushed" -/
  | flushed
  /-- the signal "finished" -/
  | finished
  /-- `milter_agent_start` fails -/
  | refused
deriving DecidableEq, Repr

/-- the reader: `read_watch_id` is not 0, `shutdown_requested`, `processing` (core/milter-reader.c:37-46) -/
structure Reader where
  watching : Bool := false
  requested : Bool := false
  processing : Bool := false
deriving DecidableEq, Repr

/-- the writer: `io_channel` is not NULL, `error_watch_id` is not 0 (core/milter-writer.c:38-50) -/
structure Writer where
  channel : Bool := true
  watching : Bool := false
deriving DecidableEq, Repr

/-- `MilterAgentPrivate`, 39-50 -/
structure State where
  loop : Bool := false
  reader : Option Reader := none
  writer : Option Writer := none
  finished : Bool := false
  shuttingDown : Bool := false
deriving DecidableEq, Repr

/-- `milter_reader_start`, core/milter-reader.c:426-434 -/
def startReader (r : Reader) : Reader := { r with watching := true }

/-- `milter_writer_start`, core/milter-writer.c:582-591 -/
def startWriter (w : Writer) : Writer := if w.channel then { w with watching := true } else w

/-- `milter_agent_start`, 624-649 -/
def start (s : State) : State × List Item :=
  if !s.loop then (s, [.refused])
  else ({ s with reader := s.reader.map startReader, writer := s.writer.map startWriter }, [])

/-- `milter_writer_shutdown`, core/milter-writer.c:677-697; the "flushed" or the "error" of the bytes that were left is not counted -/
def shutdownWriter (w : Writer) : Writer := if w.watching then { channel := false, watching := false } else w

/-- `milter_reader_shutdown`, core/milter-reader.c:442-467: the reader after it, and whether it says "finished" -/
def shutdownReader (r : Reader) : Reader × Bool :=
  if !r.watching then (r, false)
  else if r.requested then (r, false)
  else if r.processing then ({ r with requested := true }, false)
  else ({ r with watching := false }, true)

/-- `finished`, 363-380, which runs after the handlers of "finished".  A reader that ends here is let go of, and as `finished` is set
already nothing more is said (`cb_reader_finished`, 423-433). -/
def defaultFinished (s : State) : State :=
  let reader := s.reader.bind fun r => if (shutdownReader r).2 then none else some (shutdownReader r).1
  { s with finished := true, reader := reader, writer := s.writer.map shutdownWriter }

/-- the calls a handler makes while `shutting_down` is set: `milter_agent_shutdown` does nothing, 661-662 -/
def innerCalls (s : State) : List Call → State × List Item
  | [] => (s, [])
  | .shutdown :: cs => innerCalls s cs
  | .start :: cs =>
    let a := start s
    let b := innerCalls a.1 cs
    (b.1, a.2 ++ b.2)

/-- the signal "finished" while `shutting_down` is set; `h` are the calls of its handlers -/
def innerFinish (h : List Call) (s : State) : State × List Item :=
  let a := innerCalls s h
  (defaultFinished a.1, .finished :: a.2)

/-- `milter_agent_shutdown`, 651-684, when `shutting_down` is not set; `h` are the calls of the handlers of "finished" -/
def shutdown (h : List Call) (s : State) : State × List Item :=
  let s := { s with shuttingDown := true }
  let haveReader := s.reader.isSome
  -- milter_reader_shutdown, with cb_reader_finished
  let a : State × List Item :=
    match s.reader with
    | none => (s, [])
    | some r =>
      if (shutdownReader r).2 then
        let s := { s with reader := none }
        if s.finished then (s, []) else innerFinish h s
      else ({ s with reader := some (shutdownReader r).1 }, [])
  let s := { a.1 with writer := a.1.writer.map shutdownWriter }
  let b := if !haveReader && !s.finished then innerFinish h s else (s, [])
  ({ b.1 with shuttingDown := false }, a.2 ++ b.2)

/-- one call of a handler -/
def call (h : List Call) (s : State) : Call → State × List Item
  | .start => start s
  | .shutdown => if s.shuttingDown then (s, []) else shutdown h s

/-- the calls of a handler -/
def calls (h : List Call) (s : State) : List Call → State × List Item
  | [] => (s, [])
  | c :: cs =>
    let a := call h s c
    let b := calls h a.1 cs
    (b.1, a.2 ++ b.2)

/-- the signal "finished", `milter_finished_emittable_emit`: the handlers, then `finished` -/
def finish (h : List Call) (s : State) : State × List Item :=
  let a := calls h s h
  (defaultFinished a.1, .finished :: a.2)

/-- the reader says "finished": `cb_reader_finished`, 423-433 -/
def readerFinished (h : List Call) (s : State) : State × List Item :=
  let s := { s with reader := none }
  if s.finished then (s, []) else finish h s

/-- one read in `read_watch_func`: `cb_reader_flow`, 382-408.  `fails`: the decoder does not accept the bytes; the handlers of what was decoded, and of the error, make
`handler`. -/
structure Read where
  bytes : Bytes := []
  fails : Bool := false
  handler : List Call := []
deriving DecidableEq, Repr

/-- the reads of one `read_watch_func` -/
def reads (h : List Call) (s : State) : List Read → State × List Item
  | [] => (s, [])
  | r :: rs =>
    let a := calls h s r.handler
    let b := reads h a.1 rs
    (b.1, .decoded r.bytes :: (if r.fails then [.error] else []) ++ a.2 ++ b.2)

/-- how a visit of the read callback ends -/
inductive Outcome where
  /-- there will be more to read -/
  | more
  /-- the peer has closed the connection -/
  | closed
  /-- the last read failed; the handlers of "error" make these calls -/
  | failed (handler : List Call)
deriving DecidableEq, Repr

/-- the reader, if any -/
def onReader (f : Reader → Reader) (s : State) : State := { s with reader := s.reader.map f }

/-- `read_watch_func`, core/milter-reader.c:215-255, with `cb_reader_flow` and `cb_reader_error` (410-421) -/
def readable (h : List Call) (s : State) (rs : List Read) (o : Outcome) : State × List Item :=
  let a := reads h (onReader (fun r => { r with processing := true }) s) rs
  let b : State × List Item × Bool :=
    match o with
    | .more => (a.1, [], false)
    | .closed => (a.1, [], true)
    | .failed handler =>
      let c := calls h (onReader (fun r => { r with requested := true }) a.1) handler
      (c.1, .error :: c.2, true)
  let requested := match b.1.reader with
    | some r => r.requested
    | none => false
  if b.2.2 || requested then
    let d := readerFinished h b.1
    (d.1, a.2 ++ b.2.1 ++ d.2)
  else (onReader (fun r => { r with processing := false }) b.1, a.2 ++ b.2.1)

/-- `error_watch_func` of the reader, core/milter-reader.c:257-307: a hang-up, or an error whose handlers make these calls -/
def readerError (h : List Call) (s : State) (handler : Option (List Call)) : State × List Item :=
  let s := onReader (fun r => { r with requested := true }) s
  match handler with
  | none => readerFinished h s
  | some cs =>
    let a := calls h s cs
    let b := readerFinished h a.1
    (b.1, .error :: a.2 ++ b.2)

/-- `error_watch_func` of the writer, core/milter-writer.c:520-550, with `cb_writer_error` and `cb_writer_finished` (502-530) -/
def writerError (h : List Call) (s : State) (handler : List Call) : State × List Item :=
  let a := calls h s handler
  ({ a.1 with writer := none }, .error :: a.2)

/-- `write_watch_func` of the writer reports an error, `cb_writer_error`; the writer stays -/
def writeFailed (h : List Call) (s : State) (handler : List Call) : State × List Item :=
  let a := calls h s handler
  (a.1, .error :: a.2)

/-- `cb_writer_flushed`, 488-500 -/
def writerFlushed (h : List Call) (s : State) (handler : List Call) : State × List Item :=
  let a := calls h s handler
  (a.1, .flushed :: a.2)

/-- what happens to an agent -/
inductive Event where
  /-- `milter_agent_set_event_loop` -/
  | setLoop
  /-- `milter_agent_set_reader` with a new reader, or none -/
  | setReader (present : Bool)
  /-- `milter_agent_set_writer` with a new writer, or none -/
  | setWriter (present : Bool)
  | call (c : Call)
  | readable (rs : List Read) (o : Outcome)
  | readerError (handler : Option (List Call))
  | writerError (handler : List Call)
  | writeFailed (handler : List Call)
  | writerFlushed (handler : List Call)
deriving DecidableEq, Repr

/-- the reader waits for the event loop -/
def reading (s : State) : Bool := match s.reader with
  | some r => r.watching
  | none => false

/-- the writer waits for the event loop -/
def writing (s : State) : Bool := match s.writer with
  | some w => w.watching
  | none => false

/-- One event; `h` are the calls of the handlers of "finished".  A callback runs only while it is registered. -/
def step (h : List Call) (s : State) : Event → State × List Item
  | .setLoop => ({ s with loop := true }, [])
  | .setReader present => ({ s with reader := if present then some {} else none }, [])
  | .setWriter present => ({ s with writer := if present then some {} else none }, [])
  | .call c => call h s c
  | .readable rs o => if reading s then readable h s rs o else (s, [])
  | .readerError handler => if reading s then readerError h s handler else (s, [])
  | .writerError handler => if writing s then writerError h s handler else (s, [])
  | .writeFailed handler => if writing s then writeFailed h s handler else (s, [])
  | .writerFlushed handler => if writing s then writerFlushed h s handler else (s, [])

/-- a history -/
def run (h : List Call) (s : State) : List Event → State × List Item
  | [] => (s, [])
  | e :: es =>
    let a := step h s e
    let b := run h a.1 es
    (b.1, a.2 ++ b.2)

end Verif.Agent
