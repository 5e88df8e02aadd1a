import Verif.Client.PythonSettings
/-
What C144 means by the settings given to a milter written in Python.
-/
namespace Verif.Spec.PythonSettings
open Verif Verif.PythonSettings

/-- the settings of a configuration file, with their sections and names -/
def settings : List (Bytes × Bytes × Key) := [
  (ascii "basic", ascii "environment", .environment),
  (ascii "milter", ascii "connection_spec", .connectionSpec),
  (ascii "milter", ascii "daemon", .daemon),
  (ascii "milter", ascii "pid_file", .pidFile),
  (ascii "milter", ascii "fallback_status", .fallbackStatus),
  (ascii "milter", ascii "user", .effectiveUser),
  (ascii "milter", ascii "group", .effectiveGroup),
  (ascii "milter", ascii "unix_socket_group", .unixSocketGroup),
  (ascii "milter", ascii "unix_socket_mode", .unixSocketMode),
  (ascii "milter", ascii "max_file_descriptors", .maxFileDescriptors),
  (ascii "milter", ascii "event_loop_backend", .eventLoopBackend),
  (ascii "log", ascii "level", .logLevel),
  (ascii "log", ascii "path", .logPath),
  (ascii "log", ascii "use_syslog", .useSyslog),
  (ascii "log", ascii "syslog_facility", .syslogFacility)]

/-- is a setting a switch -/
def isSwitch : Key → Bool
  | .daemon | .useSyslog => true
  | _ => false

/-- the words for on and off -/
def words : List (Bytes × Bool) :=
  [(ascii "yes", true), (ascii "no", false), (ascii "on", true), (ascii "off", false), (ascii "true", true), (ascii "false", false), (ascii "1", true), (ascii "0", false)]

/-- what a word means, in any case -/
def truth (t : Bytes) : Option Bool := (words.find? fun w => w.1 == t.map Headers.lower).map (·.2)

/-- the value a text is for -/
def value (k : Key) (t : Bytes) : Value := if isSwitch k then (match truth t with | some b => .bool b | none => .none) else .text t

/-- what an entry of a configuration file gives -/
def written (e : Entry) : Option (Key × Value) :=
  (settings.find? fun s => s.1 == e.section_ && s.2.1 == e.option).map fun s => (s.2.2, value s.2.2 e.text)

/-- the settings an option gives -/
def given : Switch → List (Key × Value)
  | .help | .bad => []
  | .configuration file => file.filterMap written
  | .environment s => [(.environment, .text s)]
  | .name s => [(.name, .text s)]
  | .connectionSpec s => [(.connectionSpec, .text s)]
  | .daemon b => [(.daemon, .bool b)]
  | .pidFile s => [(.pidFile, .text s)]
  | .fallbackStatus s => [(.fallbackStatus, .text s)]
  | .user s => [(.effectiveUser, .text s)]
  | .group s => [(.effectiveGroup, .text s)]
  | .unixSocketGroup s => [(.unixSocketGroup, .text s)]
  | .unixSocketMode s => [(.unixSocketMode, .text s)]
  | .maxFileDescriptors n => [(.maxFileDescriptors, .int n)]
  | .eventLoopBackend s => [(.eventLoopBackend, .text s)]
  | .logLevel s => [(.logLevel, .text s)]
  | .logPath s => [(.logPath, .text s)]
  | .verbose => [(.logLevel, .text (ascii "all"))]
  | .syslog b => [(.useSyslog, .bool b)]
  | .syslogFacility s => [(.syslogFacility, .text s)]

/-- the value given last, or that before -/
def last (k : Key) (before : Value) : List (Key × Value) → Value
  | [] => before
  | (k', v) :: rest => last k (if k' = k then v else before) rest

/-- what holds without any setting (the usage) -/
def default (name : Bytes) : Key → Value
  | .name => .text name
  | .connectionSpec => .text (ascii "inet:20025")
  | .fallbackStatus => .text (ascii "accept")
  | .eventLoopBackend | .logLevel => .text (ascii "default")
  | .logPath => .text (ascii "-")
  | .useSyslog => .bool false
  | .syslogFacility => .text (ascii "mail")
  | _ => .none

/-- the setting the user has asked for -/
def asked (name : Bytes) (argv : List Switch) (k : Key) : Value := last k (default name k) (argv.flatMap given)

/-! ### settings without an error -/

/-- the settings of a configuration file that have the name the code looks for; a switch is on or off -/
def PlainEntry (e : Entry) : Prop :=
  ∃ k, (e.section_, e.option, k) ∈ settings ∧ k ∉ [.effectiveUser, .effectiveGroup, .logLevel, .logPath] ∧ (isSwitch k = true → (truth e.text).isSome)

/-- an option without an error -/
def PlainOption (w : World) : Switch → Prop
  | .help | .bad | .group _ => False
  | .configuration file => ∀ e ∈ file, PlainEntry e
  | .fallbackStatus s => s ∈ [ascii "accept", ascii "reject", ascii "temporary-failure", ascii "discard"]
  | .eventLoopBackend s => s ∈ [ascii "default", ascii "glib", ascii "libev"]
  | .syslogFacility s => s ∈ w.facilities
  | _ => True

def isConfiguration : Switch → Bool
  | .configuration _ => true
  | _ => false

/-! ### what the values mean -/

/-- a text that is not empty -/
def text : Value → Option Bytes
  | .text s => if s = [] then none else some s
  | _ => none

/-- an octal number -/
def octal (s : Bytes) : Nat := s.foldl (fun n c => n * 8 + (c.toNat - 48)) 0

/-- a mode of a socket is an octal number -/
def mode (v : Value) : Option Int := (text v).map fun s => (octal s : Int)

/-- a decimal number, with a sign or without -/
def IsNumber (s : Bytes) (n : Int) : Prop :=
  ∃ ds : Bytes, ds ≠ [] ∧ (∀ c ∈ ds, 0x30 ≤ c.toNat ∧ c.toNat ≤ 0x39) ∧
    let m : Int := (ds.foldl (fun n c => n * 10 + (c.toNat - 48)) 0 : Nat)
    (s = ds ∧ n = m) ∨ (s = 0x2b :: ds ∧ n = m) ∨ (s = 0x2d :: ds ∧ n = -m)

/-- a limit of open files: a number from 1 on, or none -/
def Limit (v : Value) (l : Option Int) : Prop :=
  match v with
  | .int n => l = if 0 < n then some n else none
  | .text s => if s = [] then l = none else ∃ n, IsNumber s n ∧ l = if 0 < n then some n else none
  | _ => l = none

/-- the milter runs with these settings -/
structure RunsWith (a : Key → Value) (r : Running) : Prop where
  logLevel : r.logLevel = a .logLevel
  logPath : r.logPath = a .logPath
  spec : r.spec = a .connectionSpec
  pidFile : r.pidFile = text (a .pidFile)
  fallback : r.fallback = text (a .fallbackStatus)
  syslog : r.syslog = if a .useSyslog = .bool true then some (a .name, a .syslogFacility) else none
  user : r.user = text (a .effectiveUser)
  group : r.group = text (a .effectiveGroup)
  socketGroup : r.socketGroup = text (a .unixSocketGroup)
  socketMode : r.socketMode = mode (a .unixSocketMode)
  limit : Limit (a .maxFileDescriptors) r.limit
  backend : r.backend = (text (a .eventLoopBackend)).map (·.map Headers.lower)
  daemon : r.daemon = true ↔ a .daemon = .bool true

/-- legal values: a mode in octal digits, the first of them 0; a limit that is a number; a back end there is -/
structure Legal (a : Key → Value) : Prop where
  mode : ∀ s, text (a .unixSocketMode) = some s → s.head? = some 0x30 ∧ ∀ c ∈ s, 0x30 ≤ c.toNat ∧ c.toNat ≤ 0x37
  limit : ∀ s, text (a .maxFileDescriptors) = some s → ∃ n, IsNumber s n
  backend : ∀ s, text (a .eventLoopBackend) = some s → s.map Headers.lower ∈ [ascii "default", ascii "glib", ascii "libev"]

end Verif.Spec.PythonSettings
