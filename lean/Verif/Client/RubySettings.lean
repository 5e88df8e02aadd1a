import Verif.Core.FileMode
import Verif.Core.Headers
/-
The settings of a milter written in Ruby: binding/ruby/lib/milter/client/command-line.rb and client/configuration.rb, with the setters of Milter::Client
(binding/ruby/lib/milter/client.rb, binding/ruby/ext/client/rb-milter-client.c, the properties of milter/client/milter-client.c).

Simplifications: `OptionParser` is not modelled, a command line is the list of its options with their arguments, converted to what the option asks for and completed; what
`OptionParser` itself refuses is `Switch.bad`.  A configuration file is the list of the calls it makes.  The files a path stands for are C131, what is a connection spec is C20: both
are given.  The groups `database` and the level and the path of the log, the hooks `maintained` and `event_loop_created`, and the locations of settings are left out.  Numbers are
integers.
-/
namespace Verif.RubySettings
open Verif

/-- a Ruby value of a setting -/
inductive Value
  | nil
  | bool (b : Bool)
  | int (n : Int)
  | text (s : Bytes)          -- a String or a Symbol
  | backend (name : Bytes)    -- a Milter::ClientEventLoopBackend
  | pair (a b : Bytes)        -- an Array of two Strings
  deriving DecidableEq, Repr

/-- the settings (configuration.rb 64-76, 170, 195-196), with `environment` (20) -/
inductive Key
  | environment | name | connectionSpec | unixSocketMode | unixSocketGroup | removeOnCreate | removeOnClose | daemon | pidFile
  | maintenanceInterval | suspendTime | maxConnections | maxFileDescriptors | fallbackStatus | eventLoopBackend | nWorkers
  | packetBufferSize | maxPendingFinishedSessions | runGc | handleSignal | effectiveUser | effectiveGroup | useSyslog | syslogFacility
  deriving DecidableEq, Repr

/-- a `Milter::Client::Configuration` -/
abbrev Config := Key → Value

/-- an attribute is written -/
def Config.put (c : Config) (k : Key) (v : Value) : Config := fun k' => if k' = k then v else c k'

/-- the world of a milter: the variable MILTER_ENV, the name of the program without directory and extension, and whether a text is a connection spec (C20) -/
structure World where
  env : Option Bytes
  program : Bytes
  isSpec : Bytes → Bool

/-- the nicks of the back ends, milter/client/milter-client-enum-types of `MilterClientEventLoopBackend` (milter-client.h) -/
def backends : List Bytes := [ascii "default", ascii "glib", ascii "libev"]

/-- `available_fallback_statuses` (configuration.rb 463-464) -/
def fallbacks : List Bytes := [ascii "accept", ascii "reject", ascii "temporary-failure", ascii "discard"]

/-- `Configuration#clear` with those of the groups (configuration.rb 26-35, 95-118, 176-179, 229-232).  The line `@name = File.basename($PROGRAM_NAME, ".*"),` ends in a comma,
so the name is an array of the program's name and the connection spec. -/
def fresh (w : World) : Config
  | .environment => .text (w.env.getD (ascii "development"))
  | .name => .pair w.program (ascii "inet:20025")
  | .connectionSpec => .text (ascii "inet:20025")
  | .unixSocketMode => .int 0o770
  | .unixSocketGroup => .nil
  | .removeOnCreate => .bool true
  | .removeOnClose => .bool true
  | .daemon => .bool false
  | .pidFile => .nil
  | .maintenanceInterval => .int 100
  | .suspendTime => .int 5
  | .maxConnections => .int 0
  | .maxFileDescriptors => .int 0
  | .fallbackStatus => .text (ascii "accept")
  | .eventLoopBackend => .text (ascii "glib")
  | .nWorkers => .int 0
  | .packetBufferSize => .int 0
  | .maxPendingFinishedSessions => .int 0
  | .runGc => .bool true
  | .handleSignal => .bool true
  | .effectiveUser => .nil
  | .effectiveGroup => .nil
  | .useSyslog => .bool false
  | .syslogFacility => .text (ascii "mail")

/-- what a piece of a configuration file comes to -/
inductive End
  | ok
  | invalid    -- `InvalidValue`
  | raised     -- another exception
  deriving DecidableEq, Repr

/-- `x ||= default` -/
def orElse (v d : Value) : Value := if v = .nil then d else v

/-- `status.to_s.downcase.gsub(/_/, '-')` (configuration.rb 594), for texts -/
def normalizeStatus (s : Bytes) : Bytes := s.map fun c => let d := Headers.lower c; if d = 0x5f then 0x2d else d

/-- the setters of the loaders (configuration.rb 469-700): the value written, or how they fail; `name`, `handle_signal` and `environment` have none (NoMethodError).
`Milter::Connection.parse_spec` raises TypeError for what is not text. -/
def assign (w : World) (k : Key) (v : Value) : Except End Value :=
  match k with
  | .environment | .name | .handleSignal => .error .raised
  | .connectionSpec =>
    match v with
    | .nil => .ok .nil
    | .text s => if w.isSpec s then .ok v else .error .raised
    | _ => .error .raised
  | .maintenanceInterval | .maxFileDescriptors | .nWorkers | .packetBufferSize | .maxPendingFinishedSessions => .ok (orElse v (.int 0))
  | .suspendTime => .ok (orElse v (.int 5))
  | .maxConnections => .ok (orElse v (.int 0))
  | .fallbackStatus =>
    match v with
    | .nil => .ok .nil
    | .text s => if normalizeStatus s ∈ fallbacks then .ok (.text (normalizeStatus s)) else .error .invalid
    | _ => .error .invalid
  | .eventLoopBackend =>
    match v with
    | .text s => .ok (if s ∈ backends then .backend s else .nil)
    | _ => .ok v
  | _ => .ok v

/-- a call in a configuration file: a setting, `load` and `load_if_exist` with the files the path stands for, or something that raises an exception -/
inductive Stmt
  | set (k : Key) (v : Value)
  | load (files : List (List Stmt))
  | loadIfExist (files : List (List Stmt))
  | raise

mutual
/-- a call (configuration.rb 428-446) -/
def stmt (w : World) (c : Config) : Stmt → Config × End
  | .set k v =>
    match assign w k v with
    | .ok v => (c.put k v, .ok)
    | .error e => (c, e)
  | .load files => if files.isEmpty then (c, .raised) else loadPaths w c files
  | .loadIfExist files => if files.isEmpty then (c, .ok) else loadPaths w c files
  | .raise => (c, .raised)
/-- `instance_eval(content, path)`: the calls until one raises -/
def stmts (w : World) (c : Config) : List Stmt → Config × End
  | [] => (c, .ok)
  | s :: rest =>
    match stmt w c s with
    | (c, .ok) => stmts w c rest
    | r => r
/-- `resolved_paths.each` with `load_path` (configuration.rb 431-433, 449-466): an `InvalidValue` ends the file and is logged, other exceptions go on -/
def loadPaths (w : World) (c : Config) : List (List Stmt) → Config × End
  | [] => (c, .ok)
  | f :: rest =>
    match stmts w c f with
    | (c, .raised) => (c, .raised)
    | (c, _) => loadPaths w c rest
end

/-- an option of the command line (command-line.rb 84-270) -/
inductive Switch
  | help                                 -- `--help`, `--library-version`
  | configuration (files : List (List Stmt))
  | environment (s : Bytes)
  | connectionSpec (s : Bytes)
  | daemon (b : Bool)
  | pidFile (s : Bytes)
  | fallbackStatus (s : Bytes)
  | statusOnError (s : Bytes)
  | user (s : Bytes)
  | group (s : Bytes)
  | unixSocketGroup (s : Bytes)
  | unixSocketMode (s : Bytes)
  | maxFileDescriptors (n : Int)
  | eventLoopBackend (s : Bytes)
  | nWorkers (n : Int)
  | packetBufferSize (n : Int)
  | maxPendingFinishedSessions (n : Int)
  | handleSignal (b : Bool)
  | maintenanceInterval (s : Bytes)      -- without `Integer`, so it stays a String
  | runGc (b : Bool)
  | syslog (b : Bool)
  | syslogFacility (s : Bytes)
  | bad                                  -- refused by `OptionParser`

/-- what becomes of a milter that is started -/
inductive Stop
  | exited (success : Bool)   -- `exit`
  | died                      -- an exception nobody catches
  deriving DecidableEq, Repr

/-- the block of an option (command-line.rb 84-270); an exception is caught by `parse`, which exits (32-43) -/
def option (w : World) (c : Config) : Switch → Except Stop Config
  | .help => .error (.exited true)
  | .bad => .error (.exited false)
  | .configuration files =>
    match stmt w c (.load files) with
    | (c, .ok) => .ok c
    | _ => .error (.exited false)
  | .environment s => .ok (c.put .environment (.text s))
  | .connectionSpec s => .ok (c.put .connectionSpec (.text s))
  | .daemon b => .ok (c.put .daemon (.bool b))
  | .pidFile s => .ok (c.put .pidFile (.text s))
  | .fallbackStatus s => if s ∈ fallbacks then .ok (c.put .fallbackStatus (.text s)) else .error (.exited false)
  | .statusOnError s => .ok (c.put .fallbackStatus (.text s))
  | .user s => .ok (c.put .effectiveUser (.text s))
  | .group s => .ok (c.put .effectiveGroup (.text s))
  | .unixSocketGroup s => .ok (c.put .unixSocketGroup (.text s))
  | .unixSocketMode s => .ok (c.put .unixSocketMode (.text s))
  | .maxFileDescriptors n => .ok (c.put .maxFileDescriptors (.int n))
  | .eventLoopBackend s => if s ∈ backends then .ok (c.put .eventLoopBackend (.text s)) else .error (.exited false)
  | .nWorkers n => if n ≤ 0 then .error (.exited false) else .ok (c.put .nWorkers (.int n))
  | .packetBufferSize n => if n < 0 then .error (.exited false) else .ok (c.put .packetBufferSize (.int n))
  | .maxPendingFinishedSessions n => if n ≤ 0 then .error (.exited false) else .ok (c.put .maxPendingFinishedSessions (.int n))
  | .handleSignal b => .ok (c.put .handleSignal (.bool b))
  | .maintenanceInterval s => .ok (c.put .maintenanceInterval (.text s))
  | .runGc b => .ok (c.put .runGc (.bool b))
  | .syslog b => .ok (c.put .useSyslog (.bool b))
  | .syslogFacility s => .ok (c.put .syslogFacility (.text s))

/-- `parse` (command-line.rb 32-43) -/
def parse (w : World) (c : Config) : List Switch → Except Stop Config
  | [] => .ok c
  | o :: rest =>
    match option w c o with
    | .ok c => parse w c rest
    | .error e => .error e

/-- `CommandLine.new` (command-line.rb 23-30, 68-72): the name is that given, or the program's -/
def start (w : World) (given : Option Bytes) : Config := (fresh w).put .name (.text (given.getD w.program))

/-- the settings of the client, `MilterClientPrivate` and what is done to the process; the values before are those of `milter_client_new` (milter-client.c 493-545) -/
structure Client where
  spec : Option Bytes := none
  socketGroup : Option Bytes := none
  socketMode : Option Nat := none
  fallback : Value := .nil
  backend : Option Bytes := none
  packetBuffer : Nat := 0
  pidFile : Option Bytes := none
  maintenance : Nat := 0
  gc : Bool := false
  workers : Nat := 0
  maxPending : Nat := 0
  user : Option Bytes := none
  group : Option Bytes := none
  syslog : Option (Bytes × Option Bytes) := none
  suspendTime : Nat := 5
  maxConnections : Nat := 0
  removeOnCreate : Bool := true
  removeOnClose : Bool := true
  limit : Option Int := none      -- `setrlimit`
  deriving DecidableEq

/-- the setters raise `TypeError`, `RangeError`, `ArgumentError` or a `Milter::Error` -/
abbrev Set := Except Stop

/-- whatever is not `false` or `nil` -/
def truthy : Value → Bool
  | .nil => false
  | .bool false => false
  | _ => true

/-- `NUM2UINT`: a negative number becomes a large one -/
def uint : Value → Set Nat
  | .int n => if -2147483648 ≤ n ∧ n < 4294967296 then .ok (n % 4294967296).toNat else .error .died
  | _ => .error .died

/-- `RVAL2CSTR` -/
def cstr : Value → Set Bytes
  | .text s => .ok s
  | _ => .error .died

/-- `RVAL2CSTR_ACCEPT_NIL` -/
def cstrOrNil : Value → Set (Option Bytes)
  | .nil => .ok none
  | .text s => .ok (some s)
  | _ => .error .died

/-- `client_set_unix_socket_mode` (rb-milter-client.c 228-252) for what is not `nil` -/
def socketMode : Value → Set (Option Nat)
  | .text s =>
    match FileMode.parse s with
    | some m => .ok (some m)
    | none => .error .died
  | v => (uint v).map some

/-- a property of an enumerated type: the value or its nick -/
def enum : Value → Set Bytes
  | .backend s => .ok s
  | .text s => if s ∈ backends then .ok s else .error .died
  | _ => .error .died

/-- `LogConfiguration#setup` (configuration.rb 234-236), rb-milter-client.c 99-115 -/
def setupLog (c : Config) (x : Client) : Set Client :=
  if truthy (c .useSyslog) then do
    let ident ← cstr (c .name)
    let facility ← cstrOrNil (c .syslogFacility)
    .ok { x with syslog := some (ident, facility) }
  else .ok x

/-- `client.x = @x if @x` -/
def ifGiven {α : Type} (set : Value → Set α) (before : α) (v : Value) : Set α := if truthy v then set v else .ok before

/-- `SecurityConfiguration#setup` (configuration.rb 181-184) -/
def setupSecurity (c : Config) (x : Client) : Set Client := do
  let user ← ifGiven cstrOrNil x.user (c .effectiveUser)
  let group ← ifGiven cstrOrNil x.group (c .effectiveGroup)
  .ok { x with user := user, group := group }

/-- `client.connection_spec=` (rb-milter-client.c 170-180): `milter_client_set_connection_spec` raises for what is no spec -/
def specOf (w : World) : Value → Set Bytes
  | .text s => if w.isSpec s then .ok s else .error .died
  | _ => .error .died

/-- `@max_file_descriptors.nonzero?` (configuration.rb 145-152): only numbers have the method; a failing `setrlimit` is left out -/
def limitOf : Value → Set (Option Int)
  | .int n => .ok (if n = 0 then none else some n)
  | _ => .error .died

/-- `MilterConfiguration#setup` (configuration.rb 120-153); `n-workers` is a property from 0 to 1000 (milter-client.c 283-288), and GLib makes a value outside one of the ends -/
def setupMilter (w : World) (c : Config) (x : Client) : Set Client := do
  let spec ← specOf w (c .connectionSpec)
  let group ← cstrOrNil (c .unixSocketGroup)
  let mode ← ifGiven socketMode x.socketMode (c .unixSocketMode)
  let backend ← enum (c .eventLoopBackend)
  let buffer ← uint (c .packetBufferSize)
  let pid ← cstrOrNil (c .pidFile)
  let maintenance ← uint (c .maintenanceInterval)
  let workers ← uint (c .nWorkers)
  let pending ← uint (c .maxPendingFinishedSessions)
  let limit ← limitOf (c .maxFileDescriptors)
  .ok { x with
    spec := some spec
    socketGroup := group
    socketMode := mode
    fallback := c .fallbackStatus
    backend := some backend
    packetBuffer := buffer
    pidFile := pid
    maintenance := maintenance
    gc := truthy (c .runGc)
    workers := min workers 1000
    maxPending := pending
    limit := limit }

/-- `Configuration#setup` (configuration.rb 37-42) -/
def setup (w : World) (c : Config) : Set Client := do
  let x ← setupLog c {}
  let x ← setupSecurity c x
  setupMilter w c x

/-- a milter at work -/
structure Running where
  client : Client
  daemon : Bool
  handlesSignals : Bool
  deriving DecidableEq

/-- `run` (command-line.rb 45-60), if listening, dropping privileges and becoming a daemon succeed -/
def run (w : World) (given : Option Bytes) (argv : List Switch) : Except Stop Running := do
  let c ← parse w (start w given) argv
  let x ← setup w c
  .ok { client := x, daemon := truthy (c .daemon), handlesSignals := truthy (c .handleSignal) }

end Verif.RubySettings
