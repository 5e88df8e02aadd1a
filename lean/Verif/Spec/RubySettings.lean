import Verif.Client.RubySettings
/-
What C137 means by the settings given to a milter written in Ruby.
-/
namespace Verif.Spec.RubySettings
open Verif Verif.RubySettings

/-! ### what is given -/

mutual
/-- the settings written in a configuration file, in order, with the files it loads in their places -/
def written : Stmt → List (Key × Value)
  | .set k v => [(k, v)]
  | .load files => writtenFiles files
  | .loadIfExist files => writtenFiles files
  | .raise => []
def writtenAll : List Stmt → List (Key × Value)
  | [] => []
  | s :: rest => written s ++ writtenAll rest
def writtenFiles : List (List Stmt) → List (Key × Value)
  | [] => []
  | f :: rest => writtenAll f ++ writtenFiles rest
end

/-- the settings an option gives -/
def given : Switch → List (Key × Value)
  | .help | .bad => []
  | .configuration files => writtenFiles files
  | .environment s => [(.environment, .text s)]
  | .connectionSpec s => [(.connectionSpec, .text s)]
  | .daemon b => [(.daemon, .bool b)]
  | .pidFile s => [(.pidFile, .text s)]
  | .fallbackStatus s => [(.fallbackStatus, .text s)]
  | .statusOnError s => [(.fallbackStatus, .text s)]
  | .user s => [(.effectiveUser, .text s)]
  | .group s => [(.effectiveGroup, .text s)]
  | .unixSocketGroup s => [(.unixSocketGroup, .text s)]
  | .unixSocketMode s => [(.unixSocketMode, .text s)]
  | .maxFileDescriptors n => [(.maxFileDescriptors, .int n)]
  | .eventLoopBackend s => [(.eventLoopBackend, .text s)]
  | .nWorkers n => [(.nWorkers, .int n)]
  | .packetBufferSize n => [(.packetBufferSize, .int n)]
  | .maxPendingFinishedSessions n => [(.maxPendingFinishedSessions, .int n)]
  | .handleSignal b => [(.handleSignal, .bool b)]
  | .maintenanceInterval s => [(.maintenanceInterval, .text s)]
  | .runGc b => [(.runGc, .bool b)]
  | .syslog b => [(.useSyslog, .bool b)]
  | .syslogFacility s => [(.syslogFacility, .text s)]

/-- the value given last, or that before -/
def last (k : Key) (before : Value) : List (Key × Value) → Value
  | [] => before
  | (k', v) :: rest => last k (if k' = k then v else before) rest

/-- what holds without any setting (doc/configuration.rd and the usage) -/
def default : Key → Value
  | .connectionSpec => .text (ascii "inet:20025")
  | .unixSocketMode => .int 0o770
  | .removeOnCreate | .removeOnClose | .runGc | .handleSignal => .bool true
  | .daemon | .useSyslog => .bool false
  | .maintenanceInterval => .int 100
  | .suspendTime => .int 5
  | .maxConnections | .maxFileDescriptors | .nWorkers | .packetBufferSize | .maxPendingFinishedSessions => .int 0
  | .fallbackStatus => .text (ascii "accept")
  | .eventLoopBackend => .text (ascii "glib")
  | .syslogFacility => .text (ascii "mail")
  | _ => .nil

/-- the setting the user has asked for -/
def asked (argv : List Switch) (k : Key) : Value := last k (default k) (argv.flatMap given)

/-! ### legal values -/

/-- a number a `guint` can hold, up to `m` -/
def Number (m : Int) (v : Value) : Prop := v = .nil ∨ ∃ n : Int, v = .int n ∧ 0 ≤ n ∧ n ≤ m

/-- a text or nothing -/
def Word (v : Value) : Prop := v = .nil ∨ ∃ s, v = .text s

/-- a status by any of its spellings -/
def StatusWord (s : Bytes) : Prop := (s.map fun c => if c = 0x5f then 0x2d else Headers.lower c) ∈
  [ascii "accept", ascii "reject", ascii "temporary-failure", ascii "discard"]

/-- the values doc/configuration.rd allows in a configuration file -/
def Legal (w : World) (k : Key) (v : Value) : Prop :=
  match k with
  | .connectionSpec => ∃ s, v = .text s ∧ w.isSpec s = true
  | .unixSocketMode => (∃ n : Int, v = .int n ∧ 0 ≤ n ∧ n ≤ 4294967295) ∨ ∃ s m, v = .text s ∧ FileMode.parse s = some m
  | .unixSocketGroup | .pidFile | .effectiveUser | .effectiveGroup | .syslogFacility => Word v
  | .daemon | .runGc | .useSyslog | .removeOnCreate | .removeOnClose => ∃ b, v = .bool b
  | .maintenanceInterval | .packetBufferSize | .maxPendingFinishedSessions | .suspendTime | .maxConnections => Number 4294967295 v
  | .nWorkers => Number 1000 v
  | .maxFileDescriptors => v = .nil ∨ ∃ n, v = .int n
  | .fallbackStatus => v = .nil ∨ ∃ s, v = .text s ∧ StatusWord s
  | .eventLoopBackend => ∃ s, v = .text s ∧ s ∈ [ascii "default", ascii "glib", ascii "libev"]
  | .name | .environment | .handleSignal => False

mutual
/-- a call without an error -/
def Fine (w : World) : Stmt → Prop
  | .set k v => Legal w k v
  | .load files => files ≠ [] ∧ FineFiles w files
  | .loadIfExist files => FineFiles w files
  | .raise => False
def FineAll (w : World) : List Stmt → Prop
  | [] => True
  | s :: rest => Fine w s ∧ FineAll w rest
def FineFiles (w : World) : List (List Stmt) → Prop
  | [] => True
  | f :: rest => FineAll w f ∧ FineFiles w rest
end

/-- an option without an error; `--maintenance-interval` is not among them -/
def FineOption (w : World) : Switch → Prop
  | .help | .bad | .maintenanceInterval _ => False
  | .configuration files => files ≠ [] ∧ FineFiles w files
  | .connectionSpec s => w.isSpec s = true
  | .fallbackStatus s | .statusOnError s => s ∈ [ascii "accept", ascii "reject", ascii "temporary-failure", ascii "discard"]
  | .unixSocketMode s => ∃ m, FileMode.parse s = some m
  | .eventLoopBackend s => s ∈ [ascii "default", ascii "glib", ascii "libev"]
  | .nWorkers n => 0 < n ∧ n ≤ 1000
  | .packetBufferSize n => 0 ≤ n ∧ n ≤ 4294967295
  | .maxPendingFinishedSessions n => 0 < n ∧ n ≤ 4294967295
  | _ => True

/-! ### what the values mean -/

/-- a number; nothing is none -/
def number : Value → Nat
  | .int n => n.toNat
  | _ => 0

def word : Value → Option Bytes
  | .text s => some s
  | _ => none

def yes : Value → Bool
  | .bool b => b
  | _ => false

/-- the mode of a socket -/
def mode : Value → Option Nat
  | .int n => some n.toNat
  | .text s => FileMode.parse s
  | _ => none

/-- a status in its usual spelling -/
def status : Value → Value
  | .text s => .text (s.map fun c => if c = 0x5f then 0x2d else Headers.lower c)
  | _ => .nil

/-- the limit of open files, if there is to be one -/
def limit : Value → Option Int
  | .int n => if n = 0 then none else some n
  | _ => none

/-- the milter runs with these settings -/
structure RunsWith (name : Bytes) (a : Key → Value) (r : Running) : Prop where
  spec : r.client.spec = word (a .connectionSpec)
  socketGroup : r.client.socketGroup = word (a .unixSocketGroup)
  socketMode : r.client.socketMode = mode (a .unixSocketMode)
  fallback : r.client.fallback = status (a .fallbackStatus)
  backend : r.client.backend = word (a .eventLoopBackend)
  packetBuffer : r.client.packetBuffer = number (a .packetBufferSize)
  pidFile : r.client.pidFile = word (a .pidFile)
  maintenance : r.client.maintenance = number (a .maintenanceInterval)
  gc : r.client.gc = yes (a .runGc)
  workers : r.client.workers = number (a .nWorkers)
  maxPending : r.client.maxPending = number (a .maxPendingFinishedSessions)
  user : r.client.user = word (a .effectiveUser)
  group : r.client.group = word (a .effectiveGroup)
  syslog : r.client.syslog = if yes (a .useSyslog) then some (name, word (a .syslogFacility)) else none
  limit : r.client.limit = limit (a .maxFileDescriptors)
  daemon : r.daemon = yes (a .daemon)
  handlesSignals : r.handlesSignals = yes (a .handleSignal)

/-- the settings the documentation has besides -/
structure AlsoWith (a : Key → Value) (r : Running) : Prop where
  suspendTime : r.client.suspendTime = number (a .suspendTime)
  maxConnections : r.client.maxConnections = number (a .maxConnections)
  removeOnCreate : r.client.removeOnCreate = yes (a .removeOnCreate)
  removeOnClose : r.client.removeOnClose = yes (a .removeOnClose)

end Verif.Spec.RubySettings
