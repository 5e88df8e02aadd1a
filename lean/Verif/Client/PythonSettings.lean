import Verif.Core.FileMode
import Verif.Core.Headers
/-
The settings of a milter written in Python: binding/python/gi/overrides/MilterClient/command_line.py.

Simplifications: `argparse` is not modelled, a command line is the list of its options with their arguments, completed and converted to what the option asks for; what `argparse` itself refuses is
`Switch.bad`.  A configuration file is the list of its settings, each with its section and its name in small letters; what `configparser` refuses is `Switch.bad` too; the section `DEFAULT` and
interpolation are left out.  A section without settings is like none.  `int` takes digits, with a sign or without.
-/
namespace Verif.PythonSettings
open Verif

/-- a value of a setting -/
inductive Value
  | none
  | bool (b : Bool)
  | int (n : Int)
  | text (s : Bytes)
  deriving DecidableEq, Repr

/-- the attributes of the namespace, the `dest` of the options (command_line.py:138-309) -/
inductive Key
  | environment | name | connectionSpec | daemon | pidFile | fallbackStatus | effectiveUser | effectiveGroup | unixSocketGroup | unixSocketMode
  | maxFileDescriptors | eventLoopBackend | logLevel | logPath | useSyslog | syslogFacility
  deriving DecidableEq, Repr

/-- their names -/
def Key.attribute : Key → Bytes
  | .environment => ascii "environment"
  | .name => ascii "name"
  | .connectionSpec => ascii "connection_spec"
  | .daemon => ascii "daemon"
  | .pidFile => ascii "pid_file"
  | .fallbackStatus => ascii "fallback_status"
  | .effectiveUser => ascii "effective_user"
  | .effectiveGroup => ascii "effective_group"
  | .unixSocketGroup => ascii "unix_socket_group"
  | .unixSocketMode => ascii "unix_socket_mode"
  | .maxFileDescriptors => ascii "max_file_descriptors"
  | .eventLoopBackend => ascii "event_loop_backend"
  | .logLevel => ascii "log_level"
  | .logPath => ascii "log_path"
  | .useSyslog => ascii "use_syslog"
  | .syslogFacility => ascii "syslog_facility"

/-- an `argparse.Namespace` -/
abbrev Namespace := Key → Value

/-- `setattr` -/
def Namespace.put (n : Namespace) (k : Key) (v : Value) : Namespace := fun k' => if k' = k then v else n k'

/-- the world of a milter: the variable MILTER_ENV, the name of the program without directory and extension, and the facilities of syslog -/
structure World where
  env : Option Bytes
  program : Bytes
  facilities : List Bytes

/-- a setting of a configuration file -/
structure Entry where
  section_ : Bytes
  option : Bytes
  text : Bytes
  deriving DecidableEq, Repr

/-- AVAILABLE_FALLBACK_STATUSES (command_line.py:43-48) -/
def fallbacks : List Bytes := [ascii "accept", ascii "reject", ascii "temporary-failure", ascii "discard"]

/-- AVAILABLE_EVENT_LOOP_BACKENDS (command_line.py:37-41): the nicks of `MilterClientEventLoopBackend` -/
def backends : List Bytes := [ascii "default", ascii "glib", ascii "libev"]

/-- the defaults of the options (command_line.py:138-309); `given` is the name given to `CommandLine` (50-54) -/
def fresh (w : World) (given : Option Bytes) : Namespace
  | .environment => .text (w.env.getD (ascii "development"))
  | .name => .text (match given with | some (b :: bs) => b :: bs | _ => w.program)
  | .connectionSpec => .text (ascii "inet:20025")
  | .fallbackStatus => .text (ascii "accept")
  | .eventLoopBackend => .text (ascii "default")
  | .logLevel => .text (ascii "default")
  | .logPath => .text (ascii "-")
  | .useSyslog => .bool false
  | .syslogFacility => .text (ascii "mail")
  | _ => .none

/-- `config.get`: the last in the files read -/
def find (s o : Bytes) (before : Option Bytes) : List Entry → Option Bytes
  | [] => before
  | e :: rest => find s o (if e.section_ = s ∧ e.option = o then some e.text else before) rest

/-- `config.getboolean`: the conversion of `configparser`; `none` if it raises -/
def boolean (t : Bytes) : Option Bool :=
  let t := t.map Headers.lower
  if t ∈ [ascii "1", ascii "yes", ascii "true", ascii "on"] then some true
  else if t ∈ [ascii "0", ascii "no", ascii "false", ascii "off"] then some false
  else none

/-- a call of `set_config` -/
structure Row where
  key : Key
  section_ : Bytes
  option : Bytes
  isBool : Bool := false

/-- the calls of `set_config` (command_line.py:107-130); `available_values` is not used -/
def rows : List Row := [
  ⟨.environment, ascii "basic", ascii "environment", false⟩,
  ⟨.connectionSpec, ascii "milter", ascii "connection_spec", false⟩,
  ⟨.daemon, ascii "milter", ascii "daemon", true⟩,
  ⟨.pidFile, ascii "milter", ascii "pid_file", false⟩,
  ⟨.fallbackStatus, ascii "milter", ascii "fallback_status", false⟩,
  ⟨.effectiveUser, ascii "milter", ascii "user", false⟩,
  ⟨.effectiveGroup, ascii "milter", ascii "group", false⟩,
  ⟨.unixSocketGroup, ascii "milter", ascii "unix_socket_group", false⟩,
  ⟨.unixSocketMode, ascii "milter", ascii "unix_socket_mode", false⟩,
  ⟨.maxFileDescriptors, ascii "milter", ascii "max_file_descriptors", false⟩,
  ⟨.eventLoopBackend, ascii "milter", ascii "event_loop_backend", false⟩,
  ⟨.logLevel, ascii "log", ascii "level", false⟩,
  ⟨.logPath, ascii "log", ascii "path", false⟩,
  ⟨.useSyslog, ascii "log", ascii "use_syslog", true⟩,
  ⟨.syslogFacility, ascii "log", ascii "syslog_facility", false⟩]

/-- `set_config` (command_line.py:96-105): what is looked up is the attribute, not the option; `none` if it raises -/
def setConfig (config : List Entry) (n : Namespace) (r : Row) : Option Namespace :=
  match find r.section_ r.key.attribute none config with
  | none => some n
  | some t => if r.isBool then (boolean t).map fun b => n.put r.key (.bool b) else some (n.put r.key (.text t))

/-- the calls one after the other -/
def setAll (config : List Entry) : List Row → Namespace → Option Namespace
  | [], n => some n
  | r :: rest, n =>
    match setConfig config n r with
    | some n => setAll config rest n
    | none => none

/-- an option of the command line (command_line.py:138-309) -/
inductive Switch
  | help                                 -- `--help`, `--version`, `--library-version`
  | configuration (file : List Entry)
  | environment (s : Bytes)
  | name (s : Bytes)
  | connectionSpec (s : Bytes)
  | daemon (b : Bool)
  | pidFile (s : Bytes)
  | fallbackStatus (s : Bytes)
  | user (s : Bytes)
  | group (s : Bytes)
  | unixSocketGroup (s : Bytes)
  | unixSocketMode (s : Bytes)
  | maxFileDescriptors (n : Int)
  | eventLoopBackend (s : Bytes)
  | logLevel (s : Bytes)
  | logPath (s : Bytes)
  | verbose
  | syslog (b : Bool)
  | syslogFacility (s : Bytes)
  | bad                                  -- refused by `argparse` or `configparser`
  deriving DecidableEq

/-- what becomes of a milter that is not started -/
inductive Stop
  | exited (success : Bool)
  | died                      -- an exception nobody catches
  deriving DecidableEq, Repr

/-- the namespace with its `config` -/
structure Parsed where
  values : Namespace
  config : List Entry := []

/-- an option; `ConfigurationLoadAction` (command_line.py:86-130) reads a file into the `config` of those before -/
def option (w : World) (p : Parsed) : Switch → Except Stop Parsed
  | .help => .error (.exited true)
  | .bad => .error (.exited false)
  | .configuration file =>
    match setAll (p.config ++ file) rows p.values with
    | some n => .ok ⟨n, p.config ++ file⟩
    | none => .error .died
  | .environment s => .ok { p with values := p.values.put .environment (.text s) }
  | .name s => .ok { p with values := p.values.put .name (.text s) }
  | .connectionSpec s => .ok { p with values := p.values.put .connectionSpec (.text s) }
  | .daemon b => .ok { p with values := p.values.put .daemon (.bool b) }
  | .pidFile s => .ok { p with values := p.values.put .pidFile (.text s) }
  | .fallbackStatus s => if s ∈ fallbacks then .ok { p with values := p.values.put .fallbackStatus (.text s) } else .error (.exited false)
  | .user s => .ok { p with values := p.values.put .effectiveUser (.text s) }
  | .group s => .ok { p with values := p.values.put .effectiveGroup (.text s) }
  | .unixSocketGroup s => .ok { p with values := p.values.put .unixSocketGroup (.text s) }
  | .unixSocketMode s => .ok { p with values := p.values.put .unixSocketMode (.text s) }
  | .maxFileDescriptors n => .ok { p with values := p.values.put .maxFileDescriptors (.int n) }
  | .eventLoopBackend s => if s ∈ backends then .ok { p with values := p.values.put .eventLoopBackend (.text s) } else .error (.exited false)
  | .logLevel s => .ok { p with values := p.values.put .logLevel (.text s) }
  | .logPath s => .ok { p with values := p.values.put .logPath (.text s) }
  | .verbose => .ok { p with values := p.values.put .logLevel (.text (ascii "all")) }
  | .syslog b => .ok { p with values := p.values.put .useSyslog (.bool b) }
  | .syslogFacility s => if s ∈ w.facilities then .ok { p with values := p.values.put .syslogFacility (.text s) } else .error (.exited false)

/-- `_parse` (command_line.py:311-315) -/
def parse (w : World) (p : Parsed) : List Switch → Except Stop Parsed
  | [] => .ok p
  | o :: rest =>
    match option w p o with
    | .ok p => parse w p rest
    | .error e => .error e

/-- the milter that runs: the settings of the logger, of the client, and of the process -/
structure Running where
  logLevel : Value
  logPath : Value
  spec : Value
  pidFile : Option Bytes := none
  fallback : Option Bytes := none     -- `accept` if there is none (client.py:23-27)
  syslog : Option (Value × Value) := none
  user : Option Bytes := none
  group : Option Bytes := none
  socketGroup : Option Bytes := none
  socketMode : Option Int := none
  limit : Option Int := none
  backend : Option Bytes := none
  daemon : Bool := false
  deriving DecidableEq, Repr

/-- `if value:` for a text -/
def word : Value → Option Bytes
  | .text (b :: bs) => some (b :: bs)
  | _ => none

/-- the digits of a number in a base up to 10 -/
def digits (base : Nat) : Bytes → Nat → Option Nat
  | [], n => some n
  | c :: rest, n => if 0x30 ≤ c.toNat ∧ c.toNat < 0x30 + base then digits base rest (n * base + (c.toNat - 0x30)) else none

/-- `int` -/
def toInt (base : Nat) : Bytes → Option Int
  | [] => none
  | 0x2d :: c :: rest => (digits base (c :: rest) 0).map fun n => -(n : Int)
  | 0x2b :: c :: rest => (digits base (c :: rest) 0).map fun n => (n : Int)
  | s => (digits base s 0).map fun n => (n : Int)

/-- the mode of the socket (command_line.py:336-342); `none` if `int` raises -/
def mode : Value → Option (Option Int)
  | .text (c :: cs) => (if c = 0x30 then toInt 8 (c :: cs) else toInt 10 (c :: cs)).map some
  | _ => some none

/-- the limit of open files (command_line.py:343-348) -/
def limit : Value → Option (Option Int)
  | .int n => some (if n > 0 then some n else none)
  | .text (c :: cs) => (toInt 10 (c :: cs)).map fun n => if n > 0 then some n else none
  | _ => some none

/-- the back end (command_line.py:349-352); `none` if there is no such constant -/
def backend : Value → Option (Option Bytes)
  | .text (c :: cs) => if (c :: cs).map Headers.lower ∈ backends then some (some ((c :: cs).map Headers.lower)) else none
  | _ => some none

/-- `if value:` for a switch -/
def isSet : Value → Bool
  | .bool b => b
  | _ => false

/-- `run` until the client runs, with `_apply_args` and `_setup_client` (command_line.py:56-75, 317-352) -/
def start (w : World) (given : Option Bytes) (argv : List Switch) : Except Stop Running :=
  match parse w ⟨fresh w given, []⟩ argv with
  | .error e => .error e
  | .ok p =>
    let n := p.values
    let user := word (n .effectiveUser)
    let user := match word (n .effectiveGroup) with
      | some g => some g
      | none => user
    match mode (n .unixSocketMode), limit (n .maxFileDescriptors), backend (n .eventLoopBackend) with
    | some m, some l, some b =>
      .ok { logLevel := n .logLevel, logPath := n .logPath, spec := n .connectionSpec, pidFile := word (n .pidFile), fallback := word (n .fallbackStatus),
            syslog := if isSet (n .useSyslog) then some (n .name, n .syslogFacility) else none,
            user := user, socketGroup := word (n .unixSocketGroup), socketMode := m, limit := l, backend := b, daemon := isSet (n .daemon) }
    | _, _, _ => .error .died

end Verif.PythonSettings
