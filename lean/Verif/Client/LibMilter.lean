import Verif.Client.Context
import Verif.Core.Connection
import Verif.Core.Logger
/-
The library with the interface of Sendmail's libmilter: libmilter/libmilter-compatible.c, on top of the context of
`Client/Context.lean`.

A filter is its callbacks.  A callback is a program: it may call the functions of the library on its context, look at what they
return, and return a status.  Pointers kept with `smfi_setpriv` are numbers.

Left out: error messages, `smfi_opensocket`, `smfi_main` and `smfi_stop` (they run the client of `Client/Service.lean`),
`smfi_version`, the choice of the event loop.  NULL as return code of a reply or as list of macros crashes and is left
out.  A size below 0 given to `smfi_replacebody` too.
-/
namespace Verif.LibMilter
open Verif Verif.Client

/-! ### The functions for callbacks -/

/-- a call of a function of the library; a NULL string is `none` -/
inductive Request where
  | setReply (code : Bytes) (ext message : Option Bytes)
  | setMultiLineReply (code : Bytes) (ext : Option Bytes) (lines : List Bytes)
  | addHeader (name value : Option Bytes)
  | changeHeader (name : Option Bytes) (index : Int) (value : Option Bytes)
  | insertHeader (index : Int) (name value : Option Bytes)
  | changeFrom (mail arguments : Option Bytes)
  | addRecipient (recipient : Option Bytes)
  | addRecipientWith (recipient arguments : Option Bytes)
  | deleteRecipient (recipient : Option Bytes)
  | progress
  | replaceBody (body : Bytes)
  | quarantine (reason : Option Bytes)
  | setSymbols (state : Int) (macros : Bytes)
deriving DecidableEq, Repr

/-- an `int` given as a `guint32` or `guint` -/
def asUnsigned (n : Int) : Nat := (n % 4294967296).toNat

/-- `isspace` in the C locale -/
def isSpace (c : UInt8) : Bool := c == 0x20 || (0x09 ≤ c && c ≤ 0x0d)

/-- `atoi` of glibc on a 64-bit system: `(int) strtol (...)`, where `strtol` skips spaces, takes a sign and saturates, and the cast keeps the low 32 bits -/
def atoi (s : Bytes) : Int :=
  let value (t : Bytes) : Int := Int.ofNat (Connection.digitsValue (t.takeWhile isDigit))
  match s.dropWhile isSpace with
  | 0x2d :: t => (max (-(Connection.longMax : Int) - 1) (-value t)).bmod (2 ^ 32)
  | 0x2b :: t => (min (Connection.longMax : Int) (value t)).bmod (2 ^ 32)
  | t => (min (Connection.longMax : Int) (value t)).bmod (2 ^ 32)

/-- `smfi_setreply`, libmilter/libmilter-compatible.c:741-763 -/
def setReply (code : Bytes) (ext message : Option Bytes) : Call := .setReply (asUnsigned (atoi code)) ext message

/-- the loop of `smfi_setmlreply`, libmilter/libmilter-compatible.c:778-798: the lines joined, or `none` for a failure -/
def joinLines : List Bytes → Option Bytes
  | [] => some []
  | line :: lines =>
    if line.length > 980 then none
    else if line.contains 0x0d then none
    else match lines with
      | [] => some line
      | _ => (joinLines lines).map fun rest => line ++ 0x0a :: rest

/-- What a function of the library does: one call of the context whose result it returns, or nothing, with a result of its own.
`smfi_setreply` … `smfi_setsymlist`, libmilter/libmilter-compatible.c:741-1057.  `smfi_setsymlist` writes into
the macros requests of the agent; the client context never sets them, so they are new ones, which nobody keeps. -/
def Request.effect : Request → Call ⊕ Bool
  | .setReply code ext message => .inl (LibMilter.setReply code ext message)
  | .setMultiLineReply code ext lines =>
    match joinLines lines with
    | none => .inr false
    | some text => if 0 < text.length then .inl (LibMilter.setReply code ext (some text)) else .inr true
  | .addHeader name value => .inl (.addHeader name value)
  | .changeHeader name index value => .inl (.changeHeader name (asUnsigned index) value)
  | .insertHeader index name value => .inl (.insertHeader (asUnsigned index) name value)
  | .changeFrom mail arguments => .inl (.changeFrom mail arguments)
  | .addRecipient recipient => .inl (.addRecipient recipient none)
  | .addRecipientWith recipient arguments => .inl (.addRecipient recipient arguments)
  | .deleteRecipient recipient => .inl (.deleteRecipient recipient)
  | .progress => .inl .progress
  | .replaceBody body => .inl (.replaceBody body)
  | .quarantine reason => .inl (.quarantine reason)
  | .setSymbols _ _ => .inr true

/-! ### Callbacks -/

/-- what a callback does -/
inductive Prog where
  /-- it returns -/
  | done (status : Int)
  /-- a call; it goes on with whether that succeeded -/
  | ask (r : Request) (k : Bool → Prog)
  /-- `smfi_getsymval` -/
  | symbol (name : Bytes) (k : Option Bytes → Prog)
  /-- `smfi_setpriv` -/
  | setPriv (v : Option Nat) (k : Prog)
  /-- `smfi_getpriv` -/
  | getPriv (k : Option Nat → Prog)

/-- what comes of a callback: the calls it made of the library and on the context, the context after them, the private data, the status -/
structure Ran where
  made : List (Request × Bool)
  calls : List Call
  context : State
  priv : Option Nat
  returns : Int

/-- A callback runs.  `smfi_getsymval`, `smfi_setpriv`, `smfi_getpriv`: libmilter/libmilter-compatible.c:727-739, 1020-1031.  (The agent keeps
the table of macros it makes for the first question; the next makes the same.) -/
def Prog.exec (order : Requests → Requests) : Prog → State → Option Nat → Ran
  | .done status, s, p => ⟨[], [], s, p, status⟩
  | .ask r k, s, p =>
    match r.effect with
    | .inl c =>
      let rest := (k (call order s c).1).exec order (callNoted order s c) p
      { rest with made := (r, (call order s c).1) :: rest.made, calls := c :: rest.calls }
    | .inr ok =>
      let rest := (k ok).exec order s p
      { rest with made := (r, ok) :: rest.made }
  | .symbol name k, s, p => (k (s.agent.getMacro name).1).exec order s p
  | .setPriv v k, s, _ => k.exec order s v
  | .getPriv k, s, p => (k p).exec order s p

/-- what `xxfi_negotiate` does.  It is called with a pointer to the macros requests where it expects its context, because the handler of the
signal "negotiate" has one parameter too few (libmilter/libmilter-compatible.c:264-268 and client/milter-client-context.c:515-525): to use it is undefined. -/
inductive Negotiation where
  /-- it uses its context -/
  | usesContext
  /-- status and what it puts into `action_out` and `step_out` (low 32 bits) -/
  | answers (status : Int) (action step : UInt32)
deriving DecidableEq

/-- `struct smfiDesc`: the callbacks that are set.  `flags` is what the filter says it will do to messages. -/
structure Filter where
  flags : UInt32 := 0
  negotiate : Option (UInt32 → UInt32 → Negotiation) := none
  connect : Option (Bytes → Addr → Prog) := none
  helo : Option (Bytes → Prog) := none
  envfrom : Option (List Bytes → Prog) := none
  envrcpt : Option (List Bytes → Prog) := none
  data : Option Prog := none
  unknown : Option (Bytes → Prog) := none
  header : Option (Bytes → Bytes → Prog) := none
  eoh : Option Prog := none
  body : Option (Bytes → Prog) := none
  eom : Option Prog := none
  abort : Option Prog := none
  close : Option Prog := none

/-- a callback as the filter sees it -/
inductive Callback where
  | negotiate (action step : UInt32)
  | connect (host : Bytes) (address : Addr)
  | helo (fqdn : Bytes)
  | envfrom (arguments : List Bytes)
  | envrcpt (arguments : List Bytes)
  | data
  | unknown (command : Bytes)
  | header (name value : Bytes)
  | eoh
  | body (chunk : Bytes)
  | eom
  | abort
  | close
  /-- the behaviour is undefined from here on -/
  | undefined
deriving DecidableEq, Repr

/-- a callback that was called: its arguments, the calls of the library it made with what they returned, and what it returned itself; not in the code -/
structure Said where
  what : Callback
  made : List (Request × Bool)
  returned : Int
deriving DecidableEq, Repr

/-- `libmilter_compatible_convert_status_to`, libmilter/libmilter-compatible.c:1076-1100; values: libmilter/mfapi.h -/
def convert (status : Int) : Status :=
  if status = 0 then .continue_
  else if status = 1 then .reject
  else if status = 2 then .discard
  else if status = 3 then .accept
  else if status = 4 then .temporaryFailure
  else if status = 7 then .noReply
  else if status = 8 then .skip
  else if status = 10 then .allOptions
  else .default

/-- what the handlers of one signal come to -/
structure Result where
  handlers : List Handler := []
  /-- the callbacks called -/
  seen : List Said := []
  priv : Option Nat

/-- one callback in the context `s`, as in `cb_connect`, …, `cb_body`, libmilter/libmilter-compatible.c:290-424: only connected if set -/
def one (order : Requests → Requests) (s : State) (priv : Option Nat) (what : Callback) : Option Prog → Result
  | none => { priv := priv }
  | some prog =>
    let r := prog.exec order s priv
    ⟨[⟨r.calls, convert r.returns⟩], [⟨what, r.made, r.returns⟩], r.priv⟩

/-- a status of `xxfi_body` after which `xxfi_eom` is not called, libmilter/libmilter-compatible.c:437-446 -/
def endsMessage (status : Int) : Bool := status == 1 || status == 2 || status == 3 || status == 4

/-- `cb_end_of_message`, libmilter/libmilter-compatible.c:426-454; only connected if `xxfi_eom` is set, 509 -/
def endOfMessage (order : Requests → Requests) (f : Filter) (s : State) (priv : Option Nat) (chunk : Bytes) : Result :=
  match f.eom with
  | none => { priv := priv }
  | some eom =>
    match f.body with
    | none => one order s priv .eom (some eom)
    | some body =>
      if chunk = [] then one order s priv .eom (some eom)
      else
        let r := (body chunk).exec order s priv
        if endsMessage r.returns then ⟨[⟨r.calls, convert r.returns⟩], [⟨.body chunk, r.made, r.returns⟩], r.priv⟩
        else
          let e := eom.exec order r.context r.priv
          ⟨[⟨r.calls ++ e.calls, convert e.returns⟩], [⟨.body chunk, r.made, r.returns⟩, ⟨.eom, e.made, e.returns⟩], e.priv⟩

/-- `MILTER_CLIENT_CONTEXT_STATE_IN_MESSAGE_PROCESSING`, client/milter-client-context.h:411-413, with the order of the states, 378-409 -/
def inMessage : St → Bool
  | .doing k | .replied k => match k with
    | .negotiate | .connect | .helo | .endOfMessage => false
    | _ => true
  | _ => false

/-- the handlers of the signal for a command: `s` is the context when the command arrives; they run after `Client.receive` has entered its state -/
def handle (order : Requests → Requests) (f : Filter) (s : State) (priv : Option Nat) (c : Cmd) : Result :=
  let entered := match kindOf c with
    | some (k, context) => enter (s.note (.got c)) k context
    | none => s.note (.got c)
  match c with
  | .connect host address => one order entered priv (.connect host address) (f.connect.map fun g => g host address)
  | .helo fqdn => one order entered priv (.helo fqdn) (f.helo.map fun g => g fqdn)
  | .envelopeFrom a => one order entered priv (.envfrom [a]) (f.envfrom.map fun g => g [a])
  | .envelopeRecipient a => one order entered priv (.envrcpt [a]) (f.envrcpt.map fun g => g [a])
  | .data => one order entered priv .data f.data
  | .unknown command => one order entered priv (.unknown command) (f.unknown.map fun g => g command)
  | .header name value => one order entered priv (.header name value) (f.header.map fun g => g name value)
  | .endOfHeader => one order entered priv .eoh f.eoh
  | .body chunk => one order entered priv (.body chunk) (f.body.map fun g => g chunk)
  | .endOfMessage chunk => endOfMessage order f entered priv chunk
  | .abort =>                                                           -- 456-471
    if inMessage s.st then one order { setSt entered .abort with timer := false } priv .abort f.abort
    else match f.abort with
      | none => { priv := priv }
      | some _ => ⟨[⟨[], .default⟩], [], priv⟩
  | .negotiate o =>                                                     -- 264-288
    match f.negotiate with
    | none => { priv := priv }
    | some g => match g o.action o.step with
      | .usesContext => ⟨[⟨[], .default⟩], [⟨.negotiate o.action o.step, [], -1⟩, ⟨.undefined, [], -1⟩], priv⟩
      | .answers status _ _ => ⟨[⟨[], convert status⟩], [⟨.negotiate o.action o.step, [], status⟩], priv⟩
  | .defineMacro _ _ | .quit => { priv := priv }

/-- the option as `cb_negotiate` leaves it, libmilter/libmilter-compatible.c:276-286 -/
def chosen (f : Filter) (o : Opt) : Opt :=
  match f.negotiate with
  | none => o
  | some g => match g o.action o.step with
    | .usesContext => o
    | .answers status action step => if status = 0 then { o with action := action, step := step } else o

/-! ### A session -/

/-- `SmfiContext` with its client context, and the callbacks that were called -/
structure Session where
  context : State
  /-- `private_data` -/
  priv : Option Nat := none
  /-- the object is still connected to the signals -/
  attached : Bool := true
  /-- the callbacks called; not in the code -/
  seen : List Said := []

/-- `cb_connection_established`, libmilter/libmilter-compatible.c:550-555 -/
def Session.start (context : State) : Session := { context := context }

/-- `cb_finished`, libmilter/libmilter-compatible.c:473-482: the object goes with its last reference, and its handlers with it -/
def finish (order : Requests → Requests) (f : Filter) (s : Session) : Session :=
  if s.attached then
    match f.close with
    | none => { s with attached := false }
    | some prog =>
      let r := prog.exec order s.context s.priv
      { context := r.context, priv := r.priv, attached := false, seen := s.seen ++ [⟨.close, r.made, r.returns⟩] }
  else s

/-- what happens to a session -/
inductive Event where
  | command (c : Cmd)
  /-- the time for the next command is over -/
  | timeout
  /-- the MTA is gone: `cb_reader_finished`, core/milter-agent.c:423-433 -/
  | hangUp
  /-- nothing can be written any more -/
  | close
deriving DecidableEq

/-- a command arrives -/
def receive (order : Requests → Requests) (f : Filter) (s : Session) (c : Cmd) : Session :=
  let r := if s.attached then handle order f s.context s.priv c else { priv := s.priv }
  let o := match c with | .negotiate o => some (if s.attached then chosen f o else o) | _ => none
  let s' := { s with context := Client.receive order s.context c r.handlers o (some []), priv := r.priv, seen := s.seen ++ r.seen }
  match c with
  | .quit => finish order f s'
  | _ => s'

/-- one event -/
def step (order : Requests → Requests) (f : Filter) (s : Session) : Event → Session
  | .command c => receive order f s c
  | .timeout =>
    if s.context.timer then finish order f { s with context := Client.step order s.context .timeout } else s
  | .hangUp => finish order f { s with context := setSt s.context .finished }
  | .close => { s with context := Client.step order s.context .close }

/-- a whole session -/
def run (order : Requests → Requests) (f : Filter) (s : Session) (events : List Event) : Session := events.foldl (step order f) s

/-! ### Settings of the process -/

/-- the static variables, libmilter/libmilter-compatible.c:36-41, and the logger.  `filter` is the name and the
callbacks registered. -/
structure Settings where
  filter : Option (Bytes × Filter) := none
  spec : Option Bytes := none
  backlog : Int := -1
  /-- a `guint` -/
  timeout : Nat := 7210
  log : Logger.State := Logger.init

/-- calls that change the settings -/
inductive Setting where
  | register (version : Nat) (name : Option Bytes) (f : Filter)
  | setConnection (spec : Option Bytes)
  | setBacklog (backlog : Int)
  | setTimeout (timeout : Int)
  | setDebug (level : Int)
  /-- `libmilter_compatible_reset`, at the end of `smfi_main` -/
  | reset

/-- the prefix `smfi_setconn` adds, libmilter/libmilter-compatible.c:682-685 -/
def normalizeSpec (spec : Bytes) : Bytes := if spec.contains 0x3a then spec else ascii "unix:" ++ spec

/-- `smfi_setdbg`, libmilter/libmilter-compatible.c:638-653; the levels are those of `Logger.levels` -/
def debugLevel (level : Int) : UInt32 :=
  (if level > 0 then 2 else 0) ||| (if level > 1 then 4 else 0) ||| (if level > 2 then 8 else 0) ||| (if level > 3 then 0x10 else 0) |||
  (if level > 4 then 0x20 else 0) ||| (if level > 5 then 0x40 else 0)

/-- One call: whether it succeeds, and the settings after it.  `smfi_register`, `smfi_setbacklog`, `smfi_setdbg`, `smfi_settimeout`,
`smfi_setconn` (no address is filled in, so a path is not too long here), `libmilter_compatible_reset`: libmilter/libmilter-compatible.c:244-262, 623-700, 1059-1074. -/
def configure (net : Connection.Net) (s : Settings) : Setting → Bool × Settings
  | .register version name f =>
    if version ≠ 0x01000001 ∧ version ≠ 2 ∧ version ≠ 3 ∧ version ≠ 4 then (false, s)
    else (true, { s with filter := some (name.getD (ascii "Unknown"), f) })
  | .setConnection none => (false, s)
  | .setConnection (some spec) =>
    if Connection.parseSpec net (normalizeSpec spec) = .fail then (false, s) else (true, { s with spec := some (normalizeSpec spec) })
  | .setBacklog backlog => if backlog ≤ 0 then (false, s) else (true, { s with backlog := backlog })
  | .setTimeout timeout => (true, { s with timeout := asUnsigned timeout })
  | .setDebug level => (true, { s with log := Logger.setTarget s.log (debugLevel level) })
  | .reset => (true, { s with filter := none, spec := none, backlog := -1, timeout := 7210 })

/-- a process that makes some of these calls -/
def configureAll (net : Connection.Net) (s : Settings) (calls : List Setting) : Settings := calls.foldl (fun s c => (configure net s c).2) s

end Verif.LibMilter
