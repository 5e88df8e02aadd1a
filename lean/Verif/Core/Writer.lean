import Verif.Core.Bytes
/-
The writer: `milter/core/milter-writer.c`.

The event loop, the channel and the signal handlers are the environment: an event says
which callback runs and what the channel answered, and which calls of the writer the signal
handlers make meanwhile.  Not modelled: the `writing` flag (it is only set while the channel
is called, which calls nothing back), tags, logging, and calls made by handlers while
`milter_writer_shutdown` emits its signals (write, flush and shutdown do nothing then).
-/
namespace Verif.Writer

/-- `struct _MilterWriterPrivate` (38-50) -/
structure State where
  /-- `io_channel` is not NULL -/
  channel : Bool := true
  /-- `loop` is not NULL -/
  loop : Bool := false
  buffer : Bytes := []
  flushPoint : Nat := 0
  writeWatch : Bool := false
  flushWatch : Bool := false
  errorWatch : Bool := false
deriving DecidableEq, Repr

/-- what can be seen from outside: accepted calls, bytes taken by the channel, signals -/
inductive Item where
  /-- `milter_writer_write` returned TRUE -/
  | write (chunk : Bytes)
  /-- `milter_writer_flush` returned TRUE -/
  | flush
  /-- the channel took these bytes -/
  | sent (bytes : Bytes)
  /-- the "flushed" signal -/
  | flushed
  /-- the "error" signal -/
  | error
  /-- the "finished" signal -/
  | finished
deriving DecidableEq, Repr

/-- calls of the API; for `shutdown` the number of bytes the channel takes and whether it
reports an error -/
inductive Call where
  | start
  | write (chunk : Bytes)
  | flush
  | shutdown (accepted : Nat) (err : Bool)
deriving DecidableEq, Repr

/-- `request_flush` (306-325) -/
def requestFlush (s : State) : State := { s with flushWatch := true }

/-- `milter_writer_write` (423-475) -/
def write (s : State) (chunk : Bytes) : State × List Item :=
  if !s.channel then (s, [])
  else if !s.loop then (s, [])
  else if chunk.length = 0 then (s, [.write chunk])
  else ({ s with buffer := s.buffer ++ chunk, writeWatch := true }, [.write chunk])

/-- `milter_writer_flush` (477-518) -/
def flush (s : State) : State × List Item :=
  if !s.channel then (s, [])
  else if !s.loop then (s, [])
  else if s.writeWatch then ({ s with flushPoint := s.buffer.length }, [.flush])
  else (requestFlush s, [.flush])

/-- `milter_writer_start` (582-591) with `watch_io_channel` (552-580); registering with
the event loop is taken to succeed -/
def start (s : State) : State :=
  if s.channel && !s.errorWatch then { s with errorWatch := true, loop := true } else s

/-- `flush_buffer_on_shutdown` (599-675) -/
def flushOnShutdown (s : State) (accepted : Nat) (err : Bool) : State × List Item :=
  if s.buffer.length = 0 then (s, [])
  else
    ({ s with buffer := s.buffer.drop accepted },
      .sent (s.buffer.take accepted) :: if err then [.error] else [.flushed])

/-- `milter_writer_shutdown` (677-697) -/
def shutdown (s : State) (accepted : Nat) (err : Bool) : State × List Item :=
  if !s.errorWatch then (s, [])
  else
    let s := { s with writeWatch := false, flushWatch := false, errorWatch := false, loop := false }
    if s.channel then
      let (s, out) := flushOnShutdown s accepted err
      ({ s with channel := false }, out)
    else (s, [])

/-- one call -/
def call (s : State) : Call → State × List Item
  | .start => (start s, [])
  | .write c => write s c
  | .flush => flush s
  | .shutdown k e => shutdown s k e

/-- the calls a signal handler makes -/
def calls (s : State) : List Call → State × List Item
  | [] => (s, [])
  | c :: cs =>
    let (s1, o1) := call s c
    let (s2, o2) := calls s1 cs
    (s2, o1 ++ o2)

/-- the middle of `write_watch_func` (354-388): the channel takes `n` bytes -/
def accept (s : State) (n : Nat) : State × List Item :=
  if n = 0 then (s, [])
  else
    let needFlush := decide (0 < s.flushPoint) && decide (s.flushPoint ≤ n)
    let s' := { s with
      flushPoint := if s.flushPoint ≤ n then 0 else s.flushPoint - n
      buffer := s.buffer.drop n }
    (if needFlush && s'.loop then requestFlush s' else s', [.sent (s.buffer.take n)])

/-- `write_watch_func` (327-421) when the channel takes `accepted` bytes and `err` tells
whether it reports an error; `handler` are the calls made by the handlers of "error" -/
def writeReady (s : State) (accepted : Nat) (err : Bool) (handler : List Call) : State × List Item :=
  if s.buffer.length = 0 then ({ s with writeWatch := false }, [])
  else
    let (s, out) := accept s (min accepted s.buffer.length)
    if err then
      let (s, o) := calls s handler
      ({ s with writeWatch := false }, out ++ .error :: o)
    else (s, out)

/-- answers of `g_io_channel_flush` -/
inductive FlushResult where
  | again
  | done
  | error
deriving DecidableEq, Repr

/-- `flush_watch_func` (261-304); `handler` are the calls made by the handlers of the
signal it emits -/
def flushReady (s : State) (r : FlushResult) (handler : List Call) : State × List Item :=
  match r with
  | .again => (s, [])
  | .done =>
    let (s, o) := calls s handler
    ({ s with flushWatch := false }, .flushed :: o)
  | .error =>
    let (s, o) := calls s handler
    ({ s with flushWatch := false }, .error :: o)

/-- `error_watch_func` (520-550); the handler calls are those of "error" -/
def errorReady (s : State) (handler : List Call) : State × List Item :=
  let (s, o) := calls s handler
  ({ s with errorWatch := false, writeWatch := false, flushWatch := false },
    .error :: o ++ [.finished])

/-- what happens to a writer: a call, or a callback of the event loop -/
inductive Event where
  | call (c : Call)
  | writeReady (accepted : Nat) (err : Bool) (handler : List Call)
  | flushReady (r : FlushResult) (handler : List Call)
  | errorReady (handler : List Call)
deriving DecidableEq, Repr

/-- one event; a callback runs only while it is registered -/
def step (s : State) : Event → State × List Item
  | .call c => call s c
  | .writeReady k e h => if s.writeWatch then writeReady s k e h else (s, [])
  | .flushReady r h => if s.flushWatch then flushReady s r h else (s, [])
  | .errorReady h => if s.errorWatch then errorReady s h else (s, [])

/-- a history -/
def run (s : State) : List Event → State × List Item
  | [] => (s, [])
  | e :: es =>
    let (s1, o1) := step s e
    let (s2, o2) := run s1 es
    (s2, o1 ++ o2)

/-- `milter_agent_write_packet` (milter-agent.c): write, then flush -/
def packet (c : Bytes) : List Call := [.write c, .flush]

end Verif.Writer
