import Verif.Manager.Egg
import Verif.Manager.ControlCodec
/-
The configuration of milter-manager and what changes it: the configuration object
(`milter/manager/milter-manager-configuration.c`), the manager that lets the command line
override it (`milter/manager/milter-manager.c` 826-1567, `milter/client/milter-client-main.c`,
`milter/manager/milter-manager-main.c` 113-168, 214-245, 529-621) and the controller
(`milter/manager/milter-manager-controller-context.c` 92-250).

A configuration file is a Ruby program.  What it does to the configuration is a sequence of
calls of the configuration's API; which calls those are may depend on the configuration as it
is when the file is run and on the files there are (it can load further files).  The
interpreter is a parameter (`World.run`), so a theorem holds for every configuration file.
Not modelled: the data the Ruby subclass of the configuration keeps for itself (database
settings, hooks: manager.rb 114-120), reference counts and log messages.
-/
namespace Verif.Configuration
open Verif.Egg (Egg Condition)

/-- `MilterClientEventLoopBackend` (milter-client.h) -/
inductive Backend where
  | default
  | glib
  | libev
deriving DecidableEq, Repr

/-- what is fixed when milter-manager is built (configure.ac 318-330, 541-618): NULL for what
was not given, except for the connection spec, which always has a value (587-607) -/
structure Build where
  platform : Option Bytes
  options : Option Bytes
  user : Option Bytes
  group : Option Bytes
  socketGroup : Option Bytes
  spec : Bytes
  pidFile : Option Bytes

/-- `MilterManagerConfigurationPrivate` (configuration.c 47-86).  Numbers are `guint`s that are
only stored.  `locations` maps the name of a setting to the file and line that set it last;
`handlers` are the functions connected to the configuration's signals. -/
structure Conf where
  loadPaths : List Bytes
  eggs : List Egg
  conditions : List Condition
  handlers : List Nat
  privilegeMode : Bool
  controllerSpec : Option Bytes
  controllerSocketGroup : Option Bytes
  managerSpec : Option Bytes
  daemon : Bool
  fallback : Status
  fallbackAtDisconnect : Status
  maintenanceInterval : Nat
  suspendTime : Nat
  maxConnections : Nat
  maxFileDescriptors : Nat
  connectionCheckInterval : Nat
  backend : Backend
  nWorkers : Nat
  packetBufferSize : Nat
  chunkSize : Nat
  maxPending : Nat
  platform : Option Bytes
  options : Option Bytes
  user : Option Bytes
  group : Option Bytes
  pidFile : Option Bytes
  customDirectory : Option Bytes
  locations : List (Bytes × Bytes × Int)
  managerSocketGroup : Option Bytes
  managerSocketMode : Nat
  controllerSocketMode : Nat
  removeManagerOnClose : Bool
  removeControllerOnClose : Bool
  removeManagerOnCreate : Bool
  removeControllerOnCreate : Bool
  useSyslog : Bool
  facility : Option Bytes
deriving DecidableEq, Repr

/-! ### clearing -/

/-- `milter_manager_configuration_clear_signal_handlers` (1615-1640): every function connected
so far is disconnected.  (The loop of 1629-1634, taken when handler numbers have wrapped
around, is not modelled: 2^64 connections come first.) -/
def clearSignalHandlers (c : Conf) : Conf := { c with handlers := [] }

/-- `milter_manager_configuration_clear_eggs` (1726-1738) -/
def clearEggs (c : Conf) : Conf := { c with eggs := [] }

/-- `milter_manager_configuration_clear_applicable_conditions` (1944-1956) -/
def clearConditions (c : Conf) : Conf := { c with conditions := [] }

/-- `clear_controller` (1958-1970) -/
def clearController (c : Conf) : Conf :=
  { c with controllerSpec := none, controllerSocketGroup := none }

/-- `clear_manager` (1972-1997), the defaults of 35-38, milter-client.h 47 and
milter-protocol.h 40 -/
def clearManager (b : Build) (c : Conf) : Conf :=
  { c with
    managerSpec := some b.spec
    privilegeMode := false
    daemon := false
    fallback := .accept
    fallbackAtDisconnect := .temporaryFailure
    maintenanceInterval := 10
    suspendTime := 5
    maxConnections := 0
    maxFileDescriptors := 0
    connectionCheckInterval := 0
    backend := .glib
    nWorkers := 0
    packetBufferSize := 0
    chunkSize := 65535
    maxPending := 0 }

/-- `clear_package` (1999-2011): only a value that is there is replaced by the default -/
def clearPackage (b : Build) (c : Conf) : Conf :=
  let c := if c.platform.isSome then { c with platform := b.platform } else c
  if c.options.isSome then { c with options := b.options } else c

/-- `clear_account` (2013-2027) -/
def clearAccount (b : Build) (c : Conf) : Conf := { c with user := b.user, group := b.group }

/-- `clear_process` (2029-2037) -/
def clearProcess (b : Build) (c : Conf) : Conf := { c with pidFile := b.pidFile }

/-- `clear_configuration` (2039-2049) -/
def clearConfiguration (c : Conf) : Conf := { c with customDirectory := none, locations := [] }

/-- `clear_socket` (2051-2067): 0660 is 432 -/
def clearSocket (b : Build) (c : Conf) : Conf :=
  { c with
    managerSocketGroup := b.socketGroup
    managerSocketMode := 0o660
    controllerSocketMode := 0o660
    removeManagerOnClose := true
    removeControllerOnClose := true
    removeManagerOnCreate := true
    removeControllerOnCreate := true }

/-- `clear_log` (2069-2077) -/
def clearLog (c : Conf) : Conf := { c with useSyslog := true, facility := none }

/-- `milter_manager_configuration_clear` (2079-2114).  The `clear` of the Ruby subclass touches
nothing that is modelled and always succeeds (manager.rb 114-120). -/
def clear (b : Build) (c : Conf) : Conf :=
  let c := clearSignalHandlers c
  let c := clearEggs c
  let c := clearConditions c
  let c := clearController c
  let c := clearManager b c
  let c := clearPackage b c
  let c := clearAccount b c
  let c := clearProcess b c
  let c := clearConfiguration c
  let c := clearSocket b c
  clearLog c

/-! ### the setters -/

/-- one call of the configuration's API, from a configuration file or from anything else that
has the configuration at hand -/
inductive Call where
  | appendLoadPath (d : Bytes)
  | prependLoadPath (d : Bytes)
  | clearLoadPaths
  /-- what adding, removing, defining and changing milters makes of the list (Manager/Egg.lean) -/
  | setEggs (es : List Egg)
  | setConditions (cs : List Condition)
  | connect (handler : Nat)
  | privilegeMode (v : Bool)
  | controllerSpec (v : Option Bytes)
  | controllerSocketGroup (v : Option Bytes)
  | managerSpec (v : Option Bytes)
  | daemon (v : Bool)
  | fallback (v : Status)
  | fallbackAtDisconnect (v : Status)
  | maintenanceInterval (v : Nat)
  | suspendTime (v : Nat)
  | maxConnections (v : Nat)
  | maxFileDescriptors (v : Nat)
  | connectionCheckInterval (v : Nat)
  | backend (v : Backend)
  | nWorkers (v : Nat)
  | packetBufferSize (v : Nat)
  | chunkSize (v : Nat)
  | maxPending (v : Nat)
  | platform (v : Option Bytes)
  | options (v : Option Bytes)
  | user (v : Option Bytes)
  | group (v : Option Bytes)
  | pidFile (v : Option Bytes)
  | customDirectory (v : Option Bytes)
  | setLocation (key : Bytes) (file : Bytes) (line : Int)
  | resetLocation (key : Bytes)
  | managerSocketGroup (v : Option Bytes)
  | managerSocketMode (v : Nat)
  | controllerSocketMode (v : Nat)
  | removeManagerOnClose (v : Bool)
  | removeControllerOnClose (v : Bool)
  | removeManagerOnCreate (v : Bool)
  | removeControllerOnCreate (v : Bool)
  | useSyslog (v : Bool)
  | facility (v : Option Bytes)
deriving DecidableEq, Repr

/-- the setters of configuration.c (959-990, 1242-1612, 1768-1845, 2265-2294, 2309-2500): each
stores its argument.  A location is stored under its key, replacing the one there was. -/
def call (c : Conf) : Call → Conf
  | .appendLoadPath d => { c with loadPaths := c.loadPaths ++ [d] }
  | .prependLoadPath d => { c with loadPaths := d :: c.loadPaths }
  | .clearLoadPaths => { c with loadPaths := [] }
  | .setEggs es => { c with eggs := es }
  | .setConditions cs => { c with conditions := cs }
  | .connect h => { c with handlers := c.handlers ++ [h] }
  | .privilegeMode v => { c with privilegeMode := v }
  | .controllerSpec v => { c with controllerSpec := v }
  | .controllerSocketGroup v => { c with controllerSocketGroup := v }
  | .managerSpec v => { c with managerSpec := v }
  | .daemon v => { c with daemon := v }
  | .fallback v => { c with fallback := v }
  | .fallbackAtDisconnect v => { c with fallbackAtDisconnect := v }
  | .maintenanceInterval v => { c with maintenanceInterval := v }
  | .suspendTime v => { c with suspendTime := v }
  | .maxConnections v => { c with maxConnections := v }
  | .maxFileDescriptors v => { c with maxFileDescriptors := v }
  | .connectionCheckInterval v => { c with connectionCheckInterval := v }
  | .backend v => { c with backend := v }
  | .nWorkers v => { c with nWorkers := v }
  | .packetBufferSize v => { c with packetBufferSize := v }
  | .chunkSize v => { c with chunkSize := v }
  | .maxPending v => { c with maxPending := v }
  | .platform v => { c with platform := v }
  | .options v => { c with options := v }
  | .user v => { c with user := v }
  | .group v => { c with group := v }
  | .pidFile v => { c with pidFile := v }
  | .customDirectory v => { c with customDirectory := v }
  | .setLocation k f l => { c with locations := c.locations.filter (fun e => e.1 != k) ++ [(k, f, l)] }
  | .resetLocation k => { c with locations := c.locations.filter (fun e => e.1 != k) }
  | .managerSocketGroup v => { c with managerSocketGroup := v }
  | .managerSocketMode v => { c with managerSocketMode := v }
  | .controllerSocketMode v => { c with controllerSocketMode := v }
  | .removeManagerOnClose v => { c with removeManagerOnClose := v }
  | .removeControllerOnClose v => { c with removeControllerOnClose := v }
  | .removeManagerOnCreate v => { c with removeManagerOnCreate := v }
  | .removeControllerOnCreate v => { c with removeControllerOnCreate := v }
  | .useSyslog v => { c with useSyslog := v }
  | .facility v => { c with facility := v }

/-! ### files -/

/-- the file system as far as the configuration sees it: the regular files with their contents,
and the paths `g_file_set_contents` can write to -/
structure FS where
  file : Bytes → Option Bytes
  writable : Bytes → Bool

/-- the surroundings: what was fixed at build time, `g_build_filename`, and what running a
configuration file (with `load`, or with `load_custom`) does in the presence of these files to
a configuration: a list of calls, and whether it ended well.  The Ruby loader always ends well:
`Milter::Callback.guard` (callback.rb 19-24) logs every exception and goes on, so a file with
an error in it does what stands before the error (manager.rb 365-384). -/
structure World where
  build : Build
  join : Bytes → Bytes → Bytes
  run : FS → Bytes → Conf → List Call × Bool
  runCustom : FS → Bytes → Conf → List Call × Bool

/-- `CONFIG_FILE_NAME` (configure.ac 230) -/
def configFileName : Bytes := ascii "milter-manager.conf"
/-- `CUSTOM_CONFIG_FILE_NAME` (configure.ac 231) -/
def customConfigFileName : Bytes := ascii "milter-manager.custom.conf"

/-- `find_file` (configuration.c 1005-1056) for a name that is not an absolute path: the first
of the load paths that has a regular file of that name -/
def findFile (w : World) (fs : FS) (name : Bytes) : List Bytes → Option Bytes
  | [] => none
  | d :: ds => if (fs.file (w.join d name)).isSome then some (w.join d name) else findFile w fs name ds

/-- how loading a file ended (`MilterManagerConfigurationError`, configuration.h 40-46) -/
inductive Loaded where
  | ok
  | notExist
  | error
deriving DecidableEq, Repr

/-- run a file: its calls, one after the other -/
def runFile (fs : FS) (run : FS → Bytes → Conf → List Call × Bool) (content : Bytes) (c : Conf) :
    Conf × Loaded :=
  match run fs content c with
  | (calls, ok) => (calls.foldl call c, if ok then .ok else .error)

/-- `milter_manager_configuration_load` (1058-1082) and
`milter_manager_configuration_load_custom` (1084-1110), with the method of the class that runs
the file.  A file that is found can be read. -/
def load (w : World) (fs : FS) (run : FS → Bytes → Conf → List Call × Bool) (name : Bytes) (c : Conf) :
    Conf × Loaded :=
  match findFile w fs name c.loadPaths with
  | none => (c, .notExist)
  | some path =>
    match fs.file path with
    | none => (c, .error)
    | some content => runFile fs run content c

/-- `milter_manager_configuration_load_custom_if_exist` (1133-1153) -/
def loadCustomIfExist (w : World) (fs : FS) (c : Conf) : Conf × Bool :=
  match load w fs w.runCustom customConfigFileName c with
  | (c, .ok) => (c, true)
  | (c, .notExist) => (c, true)
  | (c, .error) => (c, false)

/-- `milter_manager_configuration_reload` (1155-1185) -/
def reload (w : World) (fs : FS) (c : Conf) : Conf × Bool :=
  let c := clear w.build c
  match load w fs w.run configFileName c with
  | (c, .notExist) => (c, false)
  | (c, .error) => (c, false)
  | (c, .ok) => loadCustomIfExist w fs c

/-- the file system once `g_file_set_contents` has written `content` to `path` -/
def FS.write (fs : FS) (path content : Bytes) : FS :=
  { fs with file := fun p => if p = path then some content else fs.file p }

/-- `milter_manager_configuration_save_custom` (1187-1233): the first of the load paths that
can be written gets the file -/
def saveCustom (w : World) (content : Bytes) (fs : FS) : List Bytes → FS × Bool
  | [] => (fs, false)
  | d :: ds =>
    if fs.writable (w.join d customConfigFileName) then
      (fs.write (w.join d customConfigFileName) content, true)
    else saveCustom w content fs ds

/-- a configuration as `milter_manager_configuration_new` (935-957) leaves it: the defaults of
the properties (146-475) and of `milter_manager_configuration_init` (490-531), cleared.  The
load paths are `$MILTER_MANAGER_CONFIG_DIR`, if it is set, and the directory fixed at build
time. -/
def newConf (b : Build) (loadPaths : List Bytes) : Conf :=
  clear b
    { loadPaths := loadPaths, eggs := [], conditions := [], handlers := [], privilegeMode := false,
      controllerSpec := none, controllerSocketGroup := none, managerSpec := some b.spec,
      daemon := false, fallback := .accept, fallbackAtDisconnect := .temporaryFailure,
      maintenanceInterval := 10, suspendTime := 5, maxConnections := 0, maxFileDescriptors := 0,
      connectionCheckInterval := 0, backend := .glib, nWorkers := 0, packetBufferSize := 0,
      chunkSize := 65535, maxPending := 0, platform := b.platform, options := b.options,
      user := b.user, group := b.group, pidFile := b.pidFile, customDirectory := none,
      locations := [], managerSocketGroup := b.socketGroup, managerSocketMode := 0o660,
      controllerSocketMode := 0o660, removeManagerOnClose := true,
      removeControllerOnClose := true, removeManagerOnCreate := true,
      removeControllerOnCreate := true, useSyslog := true, facility := none }

/-! ### the manager -/

/-- what the manager keeps beside the configuration: the members of `MilterClientPrivate`
(milter-client.c 85-140) and `MilterManagerPrivate` (milter-manager.c 40-70) that command line
options set.  `syslog` is the running syslog logger with the facility it was started with. -/
structure Own where
  spec : Option Bytes := none
  pidFile : Option Bytes := none
  user : Option Bytes := none
  group : Option Bytes := none
  socketMode : Nat := 0
  socketGroup : Option Bytes := none
  nWorkers : Nat := 0
  customWorkers : Bool := false
  backend : Backend := .default
  maxPending : Nat := 0
  customPending : Bool := false
  daemon : Bool := false
  customDaemon : Bool := false
  facility : Option Bytes := none
  syslog : Option (Option Bytes) := none
deriving DecidableEq, Repr

/-- a manager with its configuration -/
structure Manager where
  conf : Conf
  own : Own
deriving DecidableEq, Repr

/-- `milter_client_stop_syslog` (milter-client.c 2986-2993) -/
def stopSyslog (o : Own) : Own := { o with syslog := none }

/-- `milter_client_start_syslog` (2969-2984) -/
def startSyslog (o : Own) : Own :=
  let o := stopSyslog o
  { o with syslog := some o.facility }

/-- `milter_client_set_syslog_facility` (2945-2967) -/
def setFacility (o : Own) (facility : Option Bytes) : Own :=
  if o.facility = facility then o
  else
    let o := { o with facility := facility }
    if o.syslog.isSome then startSyslog o else o

/-- `milter_manager_new` (milter-manager.c 351-361): syslog is started with facility "mail" -/
def newManager (c : Conf) : Manager := { conf := c, own := startSyslog (setFacility {} (some (ascii "mail"))) }

/-- the options of the command line (milter-client-main.c 594-659), with their arguments read.
An argument that cannot be read ends the program.  `--user-id`, `--user-name` and `--user` end
in the same call, as do those of the group; `--log-level`, `--log-path`, `--verbose` and
`--quiet` concern the logger alone. -/
inductive CliOption where
  | spec (v : Bytes)
  | syslog
  | facility (v : Bytes)
  | daemon
  | noDaemon
  | user (v : Bytes)
  | group (v : Bytes)
  | socketGroup (v : Bytes)
  | socketMode (v : Nat)
  | nWorkers (v : Nat)
  | backend (v : Backend)
  | packetBufferSize (v : Nat)
  | pidFile (v : Bytes)
  | maxPending (v : Nat)
deriving DecidableEq, Repr

/-- the `parse_...` functions of milter-client-main.c (74-592) with the setters of the manager
(milter-manager.c 849-868, 893-909, 930-946, 1035-1051, 1072-1088, 1127-1138, 1159-1174,
1249-1264, 1287-1303, 1327-1343, 1378-1395).  The spec has been accepted by
`milter_connection_parse_spec`. -/
def option (m : Manager) : CliOption → Manager
  | .spec v =>
    { conf := call m.conf (.managerSpec (some v)), own := { m.own with spec := some v } }
  | .syslog => { m with own := startSyslog m.own }
  | .facility v => { m with own := setFacility m.own (some v) }
  | .daemon =>
    { conf := call m.conf (.daemon true), own := { m.own with customDaemon := true, daemon := true } }
  | .noDaemon =>
    { conf := call m.conf (.daemon false), own := { m.own with customDaemon := true, daemon := false } }
  | .user v => { conf := call m.conf (.user (some v)), own := { m.own with user := some v } }
  | .group v => { conf := call m.conf (.group (some v)), own := { m.own with group := some v } }
  | .socketGroup v =>
    { conf := call m.conf (.managerSocketGroup (some v)), own := { m.own with socketGroup := some v } }
  | .socketMode v =>
    { conf := call m.conf (.managerSocketMode v), own := { m.own with socketMode := v } }
  | .nWorkers v =>
    { conf := call m.conf (.nWorkers v), own := { m.own with customWorkers := true, nWorkers := v } }
  | .backend v => { conf := call m.conf (.backend v), own := { m.own with backend := v } }
  | .packetBufferSize v => { m with conf := call m.conf (.packetBufferSize v) }
  | .pidFile v => { conf := call m.conf (.pidFile (some v)), own := { m.own with pidFile := some v } }
  | .maxPending v =>
    { conf := call m.conf (.maxPending v), own := { m.own with customPending := true, maxPending := v } }

/-- `apply_syslog_parameters` (milter-manager.c 1435-1458) -/
def applySyslog (m : Manager) : Manager :=
  if m.conf.useSyslog then
    if m.own.syslog.isSome then { m with own := setFacility m.own m.conf.facility }
    else { m with own := startSyslog m.own }
  else { m with own := stopSyslog m.own }

/-- set a value that is there and forget which file had set it: the pattern of
`apply_custom_parameters` -/
def applyOne (c : Conf) (set : Call) (key : Bytes) : Conf := call (call c set) (.resetLocation key)

/-- `apply_custom_parameters` (milter-manager.c 1460-1554), one setting after the other: 1480-1487 -/
def applySpec (o : Own) (c : Conf) : Conf :=
  match o.spec with
  | some v => applyOne c (.managerSpec (some v)) (ascii "manager.connection_spec")
  | none => c

/-- 1489-1495 -/
def applyPidFile (o : Own) (c : Conf) : Conf :=
  match o.pidFile with
  | some v => applyOne c (.pidFile (some v)) (ascii "manager.pid_file")
  | none => c

/-- 1497-1503 -/
def applyUser (o : Own) (c : Conf) : Conf :=
  match o.user with
  | some v => applyOne c (.user (some v)) (ascii "security.effective_user")
  | none => c

/-- 1505-1511, with the misspelled key -/
def applyGroup (o : Own) (c : Conf) : Conf :=
  match o.group with
  | some v => applyOne c (.group (some v)) (ascii "security.effective_grourp")
  | none => c

/-- 1513-1519 -/
def applySocketMode (o : Own) (c : Conf) : Conf :=
  if o.socketMode ≠ 0 then
    applyOne c (.managerSocketMode o.socketMode) (ascii "manager.unix_socket_mode")
  else c

/-- 1521-1527 -/
def applySocketGroup (o : Own) (c : Conf) : Conf :=
  match o.socketGroup with
  | some v => applyOne c (.managerSocketGroup (some v)) (ascii "manager.unix_socket_group")
  | none => c

/-- 1529-1536 -/
def applyWorkers (o : Own) (c : Conf) : Conf :=
  if o.customWorkers then applyOne c (.nWorkers o.nWorkers) (ascii "manager.n_workers") else c

/-- 1538-1544 -/
def applyBackend (o : Own) (c : Conf) : Conf :=
  if o.backend ≠ .default then applyOne c (.backend o.backend) (ascii "manager.event_loop_backend")
  else c

/-- 1546-1554 -/
def applyPending (o : Own) (c : Conf) : Conf :=
  if o.customPending then
    applyOne c (.maxPending o.maxPending) (ascii "manager.max_pending_finished_sessions")
  else c

/-- `apply_custom_parameters` (milter-manager.c 1460-1554) -/
def applyCustom (m : Manager) : Manager :=
  let c := applySpec m.own m.conf
  let c := applyPidFile m.own c
  let c := applyUser m.own c
  let c := applyGroup m.own c
  let c := applySocketMode m.own c
  let c := applySocketGroup m.own c
  let c := applyWorkers m.own c
  let c := applyBackend m.own c
  let c := applyPending m.own c
  { m with conf := c }

/-- `milter_manager_reload` (milter-manager.c 1556-1567) -/
def Manager.reload (w : World) (fs : FS) (m : Manager) : Manager × Bool :=
  match Configuration.reload w fs m.conf with
  | (c, ok) => (applyCustom (applySyslog { m with conf := c }), ok)

/-! what the manager answers when asked for a setting: the getters of milter-manager.c, with
`milter_client_get_unix_socket_mode` (milter-client.c 2582-2593) and
`milter_client_get_unix_socket_group` (2633-2645) falling back to the defaults of the client,
which are 0660 and NULL (505-507). -/

/-- `get_connection_spec` (milter-manager.c 826-847) -/
def Manager.spec (m : Manager) : Option Bytes :=
  match m.conf.managerSpec with
  | some v => some v
  | none => m.own.spec

/-- `get_unix_socket_mode` (872-891) -/
def Manager.socketMode (m : Manager) : Nat :=
  let mode := if m.conf.managerSocketMode = 0 then m.own.socketMode else m.conf.managerSocketMode
  if mode = 0 then 0o660 else mode

/-- `get_unix_socket_group` (911-928) -/
def Manager.socketGroup (m : Manager) : Option Bytes :=
  match m.conf.managerSocketGroup with
  | some v => some v
  | none => m.own.socketGroup

/-- `get_effective_user` (1015-1033) -/
def Manager.user (m : Manager) : Option Bytes :=
  match m.conf.user with
  | some v => some v
  | none => m.own.user

/-- `get_effective_group` (1053-1070) -/
def Manager.group (m : Manager) : Option Bytes :=
  match m.conf.group with
  | some v => some v
  | none => m.own.group

/-- `get_pid_file` (1140-1157) -/
def Manager.pidFile (m : Manager) : Option Bytes :=
  match m.conf.pidFile with
  | some v => some v
  | none => m.own.pidFile

/-- `get_default_packet_buffer_size` (1114-1125) -/
def Manager.packetBufferSize (m : Manager) : Nat := m.conf.packetBufferSize

/-- `get_n_workers` (1226-1247) -/
def Manager.nWorkers (m : Manager) : Nat :=
  if m.own.customWorkers then m.own.nWorkers else m.conf.nWorkers

/-- `get_event_loop_backend` (1266-1285) -/
def Manager.backend (m : Manager) : Backend :=
  if m.own.backend = .default then m.conf.backend else m.own.backend

/-- `is_run_as_daemon` (1305-1325) -/
def Manager.daemon (m : Manager) : Bool :=
  if m.own.customDaemon then m.own.daemon else m.conf.daemon

/-- `get_max_pending_finished_sessions` (1355-1376) -/
def Manager.maxPending (m : Manager) : Nat :=
  if m.own.customPending then m.own.maxPending else m.conf.maxPending

/-! ### starting -/

/-- what the program is started with -/
structure Start where
  /-- `$MILTER_MANAGER_CONFIG_DIR` (configuration.c 526-529) -/
  configDirEnv : Option Bytes
  /-- `CONFIG_DIR` -/
  configDir : Bytes
  opts : List CliOption
  /-- `--config-dir` -/
  optConfigDir : Option Bytes
  /-- `getuid() == 0` -/
  root : Bool
  /-- the directory `append_custom_configuration_directory` (milter-manager-main.c 529-569)
  appends for a configuration, after creating it if necessary; `none` if there is no effective
  user, no such account or the directory cannot be made -/
  userDir : Conf → Option Bytes

/-- `milter_manager_init` (milter-manager-main.c 113-168) and `milter_manager_main`
up to the point where the configuration is complete (600-621).  The hook that runs
after the options (milter-client-main.c 668-692) does nothing: a configuration that
was just cleared has a connection spec.  Loading does not change the files. -/
def start (w : World) (fs : FS) (s : Start) : Manager :=
  let paths := match s.configDirEnv with
    | some d => [d, s.configDir]
    | none => [s.configDir]
  let m := newManager (newConf w.build paths)
  let m := s.opts.foldl option m
  let m := match s.optConfigDir with
    | some d => (Manager.reload w fs { m with conf := call m.conf (.prependLoadPath d) }).1
    | none => m
  let m := if s.root then m else { m with conf := call m.conf (.privilegeMode false) }
  let m := match s.userDir m.conf with
    | some d => { m with conf := call m.conf (.appendLoadPath d) }
    | none => m
  (Manager.reload w fs m).1

/-! ### the controller -/

/-- a running manager and the files -/
structure System where
  manager : Manager
  fs : FS

/-- the callbacks of the controller (milter-manager-controller-context.c 92-250): what is done
and the reply that is sent.  `xml` is the configuration as XML, `message` the text of the
error. -/
def control (w : World) (xml : FS → Conf → Bytes) (message : Bytes) (s : System) :
    Control.Command → System × Control.Reply
  | .setConfiguration content =>
    match saveCustom w content s.fs s.manager.conf.loadPaths with
    | (fs, true) => ({ s with fs := fs }, .success)
    | (fs, false) => ({ s with fs := fs }, .error message)
  | .getConfiguration => (s, .configuration (xml s.fs s.manager.conf))
  | .reload =>
    match reload w s.fs s.manager.conf with
    | (c, _) => ({ s with manager := { s.manager with conf := c } }, .success)
  | .getStatus => (s, .status (ascii "FIXME"))

/-! ### histories -/

/-- what can happen to a running manager -/
inductive Event where
  /-- the files change, by whatever hand -/
  | files (fs : FS)
  /-- SIGHUP: `cb_idle_reload_configuration` (milter-manager-main.c 214-229) -/
  | hangup
  /-- a command arrives at the controller -/
  | control (c : Control.Command)

/-- one event -/
def event (w : World) (xml : FS → Conf → Bytes) (message : Bytes) (s : System) : Event → System
  | .files fs => { s with fs := fs }
  | .hangup => { s with manager := (Manager.reload w s.fs s.manager).1 }
  | .control c => (control w xml message s c).1

end Verif.Configuration
