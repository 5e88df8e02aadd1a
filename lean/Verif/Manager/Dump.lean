import Verif.Manager.Configuration
import Verif.Manager.ConfigurationXml
import Verif.Manager.XmlLoader
import Verif.Manager.Shipped
import Verif.Core.Logger
/-
What `milter-manager --show-config` prints (binding/ruby/lib/milter/manager.rb 83-87, 150-360), and
how a configuration file with such statements is carried out (362-520, 709-1218, and
client/configuration.rb 340-760).

The values of Ruby are `nil`, Booleans, numbers and texts; numbers of seconds are whole, although the
properties are doubles.  What each setter records about the place of the assignment
(`update_location`) is left out: the places of the current configuration appear in the comments only.
-/
namespace Verif.Dump
open Verif Verif.Configuration
open Verif.Egg (Egg Condition)
open Verif.Connection (Net parseSpec)

/-- a value as it is written; `seconds` is a Float without a fraction -/
inductive Lit where
  | nil
  | bool (b : Bool)
  | num (n : Nat)
  | seconds (n : Nat)
  | str (s : Bytes)
deriving DecidableEq, Repr

/-- the settings of the database (client/configuration.rb 228-260) -/
structure Db where
  type : Lit := .nil
  name : Lit := .nil
  host : Lit := .nil
  port : Lit := .nil
  path : Lit := .nil
  user : Lit := .nil
  password : Lit := .nil
  extra : List (Bytes × Lit) := []
deriving DecidableEq, Repr

/-- what is configured: the configuration, the default logger, the database -/
structure Process where
  conf : Conf
  level : UInt32 := 0
  logPath : Option Bytes := none
  db : Db := {}

/-! ### writing -/

/-- a digit of `%X` -/
def hex (n : Nat) : UInt8 := if n < 10 then UInt8.ofNat (48 + n) else UInt8.ofNat (55 + n)

/-- how `String#inspect` writes a character, depending on the next one.  Bytes from 0x80 on are
parts of printable characters; of the others, those without a letter of their own are written in
hexadecimal (Ruby may write them `\u00HH`, which means the same). -/
def escape (c : UInt8) (next : Option UInt8) : Bytes :=
  if c = 0x22 ∨ c = 0x5c then [0x5c, c]
  else if c = 0x23 ∧ (next = some 0x7b ∨ next = some 0x24 ∨ next = some 0x40) then [0x5c, c]
  else if c = 0x0a then [0x5c, 0x6e]
  else if c = 0x0d then [0x5c, 0x72]
  else if c = 0x09 then [0x5c, 0x74]
  else if c = 0x0c then [0x5c, 0x66]
  else if c = 0x0b then [0x5c, 0x76]
  else if c = 0x08 then [0x5c, 0x62]
  else if c = 0x07 then [0x5c, 0x61]
  else if c = 0x1b then [0x5c, 0x65]
  else if c < 0x20 ∨ c = 0x7f then [0x5c, 0x78, hex (c.toNat / 16), hex (c.toNat % 16)]
  else [c]

def escapeAll : Bytes → Bytes
  | [] => []
  | c :: s => escape c s.head? ++ escapeAll s

/-- `String#inspect` and, for the names of conditions, `String#dump` -/
def inspect (s : Bytes) : Bytes := [0x22] ++ escapeAll s ++ [0x22]

/-- `%o` -/
def octal (n : Nat) : Bytes :=
  if n < 8 then [UInt8.ofNat (48 + n)] else octal (n / 8) ++ [UInt8.ofNat (48 + n % 8)]
termination_by n
decreasing_by omega

/-- `inspect` of a value -/
def Lit.print : Lit → Bytes
  | .nil => ascii "nil"
  | .bool true => ascii "true"
  | .bool false => ascii "false"
  | .num n => decimal n
  | .seconds n => decimal n ++ ascii ".0"
  | .str s => inspect s

/-- the value of a property that is a text or NULL -/
def textLit : Option Bytes → Lit
  | none => .nil
  | some s => .str s

/-- the settings that are shown -/
inductive Key where
  | platform | options
  | privilegeMode | user | group
  | logLevel | logPath | useSyslog | facility
  | spec | mode | socketGroup | onCreate | onClose | daemon | pidFile | maintenance | suspend | maxConnections
  | maxFiles | customDirectory | fallback | atDisconnect | backend | nWorkers | packetBuffer | checkInterval | chunkSize | maxPending
  | controllerSpec | controllerMode | controllerGroup | controllerOnCreate | controllerOnClose
  | dbType | dbName | dbHost | dbPort | dbPath | dbUser | dbPassword
deriving DecidableEq, Repr

/-- what they are called -/
def Key.name : Key → Bytes
  | .platform => ascii "package.platform"
  | .options => ascii "package.options"
  | .privilegeMode => ascii "security.privilege_mode"
  | .user => ascii "security.effective_user"
  | .group => ascii "security.effective_group"
  | .logLevel => ascii "log.level"
  | .logPath => ascii "log.path"
  | .useSyslog => ascii "log.use_syslog"
  | .facility => ascii "log.syslog_facility"
  | .spec => ascii "manager.connection_spec"
  | .mode => ascii "manager.unix_socket_mode"
  | .socketGroup => ascii "manager.unix_socket_group"
  | .onCreate => ascii "manager.remove_unix_socket_on_create"
  | .onClose => ascii "manager.remove_unix_socket_on_close"
  | .daemon => ascii "manager.daemon"
  | .pidFile => ascii "manager.pid_file"
  | .maintenance => ascii "manager.maintenance_interval"
  | .suspend => ascii "manager.suspend_time_on_unacceptable"
  | .maxConnections => ascii "manager.max_connections"
  | .maxFiles => ascii "manager.max_file_descriptors"
  | .customDirectory => ascii "manager.custom_configuration_directory"
  | .fallback => ascii "manager.fallback_status"
  | .atDisconnect => ascii "manager.fallback_status_at_disconnect"
  | .backend => ascii "manager.event_loop_backend"
  | .nWorkers => ascii "manager.n_workers"
  | .packetBuffer => ascii "manager.packet_buffer_size"
  | .checkInterval => ascii "manager.connection_check_interval"
  | .chunkSize => ascii "manager.chunk_size"
  | .maxPending => ascii "manager.max_pending_finished_sessions"
  | .controllerSpec => ascii "controller.connection_spec"
  | .controllerMode => ascii "controller.unix_socket_mode"
  | .controllerGroup => ascii "controller.unix_socket_group"
  | .controllerOnCreate => ascii "controller.remove_unix_socket_on_create"
  | .controllerOnClose => ascii "controller.remove_unix_socket_on_close"
  | .dbType => ascii "database.type"
  | .dbName => ascii "database.name"
  | .dbHost => ascii "database.host"
  | .dbPort => ascii "database.port"
  | .dbPath => ascii "database.path"
  | .dbUser => ascii "database.user"
  | .dbPassword => ascii "database.password"

/-- the nicks of `MilterClientEventLoopBackend` (client/milter-client.h 81-86) -/
def backendNick : Backend → Bytes
  | .default => ascii "default"
  | .glib => ascii "glib"
  | .libev => ascii "libev"

/-- `dump_log_items` (187-198): the names of the levels that are set -/
def levelNames (level : UInt32) : Bytes :=
  let names := (Logger.levels.filter fun v => level &&& v.2 != 0).map (·.1)
  if names = [] then ascii "default" else joinWith [0x7c] names

/-- the value that is written for a setting (172-266) -/
def Process.value (p : Process) : Key → Lit
  | .platform => textLit p.conf.platform
  | .options => textLit p.conf.options
  | .privilegeMode => .bool p.conf.privilegeMode
  | .user => textLit p.conf.user
  | .group => textLit p.conf.group
  | .logLevel => .str (levelNames p.level)
  | .logPath => textLit p.logPath
  | .useSyslog => .bool p.conf.useSyslog
  | .facility => textLit p.conf.facility
  | .spec => textLit p.conf.managerSpec
  | .mode => .num p.conf.managerSocketMode
  | .socketGroup => textLit p.conf.managerSocketGroup
  | .onCreate => .bool p.conf.removeManagerOnCreate
  | .onClose => .bool p.conf.removeManagerOnClose
  | .daemon => .bool p.conf.daemon
  | .pidFile => textLit p.conf.pidFile
  | .maintenance => if p.conf.maintenanceInterval = 0 then .nil else .num p.conf.maintenanceInterval
  | .suspend => .num p.conf.suspendTime
  | .maxConnections => .num p.conf.maxConnections
  | .maxFiles => .num p.conf.maxFileDescriptors
  | .customDirectory => textLit p.conf.customDirectory
  | .fallback => .str (statusNick p.conf.fallback)
  | .atDisconnect => .str (statusNick p.conf.fallbackAtDisconnect)
  | .backend => .str (backendNick p.conf.backend)
  | .nWorkers => .num p.conf.nWorkers
  | .packetBuffer => .num p.conf.packetBufferSize
  | .checkInterval => .num p.conf.connectionCheckInterval
  | .chunkSize => .num p.conf.chunkSize
  | .maxPending => .num p.conf.maxPending
  | .controllerSpec => textLit p.conf.controllerSpec
  | .controllerMode => .num p.conf.controllerSocketMode
  | .controllerGroup => textLit p.conf.controllerSocketGroup
  | .controllerOnCreate => .bool p.conf.removeControllerOnCreate
  | .controllerOnClose => .bool p.conf.removeControllerOnClose
  | .dbType => p.db.type
  | .dbName => p.db.name
  | .dbHost => p.db.host
  | .dbPort => p.db.port
  | .dbPath => p.db.path
  | .dbUser => p.db.user
  | .dbPassword => p.db.password

/-- how it is written: modes in octal (208, 246), everything else with `inspect` or `to_s` -/
def Process.text (p : Process) : Key → Bytes
  | .mode => if p.conf.managerSocketMode = 0 then [0x30] else 0x30 :: octal p.conf.managerSocketMode
  | .controllerMode => 0x30 :: octal p.conf.controllerSocketMode
  | k => (p.value k).print

/-- `%d` -/
def integer (i : Int) : Bytes := if i < 0 then 0x2d :: decimal i.natAbs else decimal i.natAbs

/-- `dump_location` (282-293): where the setting was made -/
def Process.place (p : Process) (indent : Bytes) (key : Option Bytes) : Bytes :=
  match key.bind fun k => p.conf.locations.find? fun l => l.1 = k with
  | some (_, file, line) => indent ++ ascii "# " ++ file ++ [0x3a] ++ integer line
  | none => indent ++ ascii "# default"

/-- `dump_item` (295-298): the lines that are added to the result -/
def Process.item (p : Process) (indent key text place : Bytes) : List Bytes :=
  [p.place indent (some place), indent ++ key ++ ascii " = " ++ text]

/-- a group of settings and an empty line (172-266) -/
def Process.group (p : Process) (ks : List Key) : List Bytes :=
  (ks.flatMap fun k => p.item [] k.name (p.text k) k.name) ++ [[]]

def groups : List (List Key) :=
  [[.platform, .options],
   [.privilegeMode, .user, .group],
   [.logLevel, .logPath, .useSyslog, .facility],
   [.spec, .mode, .socketGroup, .onCreate, .onClose, .daemon, .pidFile, .maintenance, .suspend, .maxConnections, .maxFiles,
    .customDirectory, .fallback, .atDisconnect, .backend, .nWorkers, .packetBuffer, .checkInterval, .chunkSize, .maxPending],
   [.controllerSpec, .controllerMode, .controllerGroup, .controllerOnCreate, .controllerOnClose],
   [.dbType, .dbName, .dbHost, .dbPort, .dbPath, .dbUser, .dbPassword]]

/-- the settings of a milter that are shown, in that order (manager.rb 341-359) -/
inductive EggKey where
  | spec | description | enabled | fallback | evaluation | command | options | user | connection | writing | reading | endOfMessage
deriving DecidableEq, Repr

def EggKey.name : EggKey → Bytes
  | .spec => ascii "connection_spec"
  | .description => ascii "description"
  | .enabled => ascii "enabled"
  | .fallback => ascii "fallback_status"
  | .evaluation => ascii "evaluation_mode"
  | .command => ascii "command"
  | .options => ascii "command_options"
  | .user => ascii "user_name"
  | .connection => ascii "connection_timeout"
  | .writing => ascii "writing_timeout"
  | .reading => ascii "reading_timeout"
  | .endOfMessage => ascii "end_of_message_timeout"

/-- `applicable_condition[NAME].KEY` and the like -/
def placeKey (what : String) (name : Option Bytes) (key : Bytes) : Bytes :=
  ascii what ++ [0x5b] ++ name.getD [] ++ [0x5d] ++ key

/-- `dump_applicable_condition` (300-314) -/
def Process.condition (p : Process) (c : Condition) : List Bytes :=
  [p.place [] (some (placeKey "applicable_condition" c.name [])),
   ascii "define_applicable_condition(" ++ (textLit c.name).print ++ ascii ") do |condition|"] ++
  p.item [0x20, 0x20] (ascii "condition.description") (textLit c.description).print
    (placeKey "applicable_condition" c.name (ascii ".description")) ++
  [ascii "end", []]

/-- the value that is written for a setting of a milter (341-359) -/
def eggValue (e : Egg) : EggKey → Lit
  | .spec => textLit e.connectionSpec
  | .description => textLit e.description
  | .enabled => .bool e.enabled
  | .fallback => .str (statusNick e.fallback)
  | .evaluation => .bool e.evaluation
  | .command => textLit e.command
  | .options => textLit e.commandOptions
  | .user => textLit e.userName
  | .connection => .seconds e.timeouts.connection
  | .writing => .seconds e.timeouts.writing
  | .reading => .seconds e.timeouts.reading
  | .endOfMessage => .seconds e.timeouts.endOfMessage

/-- `dump_egg_item` (316-321) -/
def Process.eggItem (p : Process) (e : Egg) (k : EggKey) : List Bytes :=
  p.item [0x20, 0x20] (ascii "milter." ++ k.name) (eggValue e k).print (placeKey "milter" e.name (ascii "." ++ k.name))

/-- `dump_egg_applicable_conditions` (323-339) -/
def Process.eggConditions (p : Process) (e : Egg) : List Bytes :=
  if e.conditions = [] then [p.place [0x20, 0x20] none, ascii "  milter.applicable_conditions = []"]
  else
    [ascii "  milter.applicable_conditions = ["] ++
    (e.conditions.flatMap fun c =>
      [p.place [0x20, 0x20, 0x20, 0x20] (some (placeKey "milter" e.name (placeKey ".applicable_condition" c.name []))),
       [0x20, 0x20, 0x20, 0x20] ++ (textLit c.name).print ++ [0x2c]]) ++
    [ascii "  ]"]

/-- the settings before and after the conditions -/
def eggKeys₁ : List EggKey := [.spec, .description, .enabled, .fallback, .evaluation]
def eggKeys₂ : List EggKey := [.command, .options, .user, .connection, .writing, .reading, .endOfMessage]

/-- `dump_egg` (341-359) -/
def Process.egg (p : Process) (e : Egg) : List Bytes :=
  [p.place [] (some (placeKey "milter" e.name [])), ascii "define_milter(" ++ (textLit e.name).print ++ ascii ") do |milter|"] ++
  eggKeys₁.flatMap (p.eggItem e) ++
  p.eggConditions e ++
  eggKeys₂.flatMap (p.eggItem e) ++
  [ascii "end", []]

/-- the lines of `@result` before `strip` (156-170) -/
def Process.lines (p : Process) : List Bytes :=
  groups.flatMap p.group ++ p.conf.conditions.flatMap p.condition ++ p.conf.eggs.flatMap p.egg

/-- `ConfigurationDumper#dump` (156-170) -/
def Process.dump (p : Process) : Bytes := Conditions.strip ((p.lines.map (· ++ [0x0a])).flatten)

/-! ### carrying out -/

/-- a setting of that name -/
def keys : List Key := groups.flatten

def keyOf (name : Bytes) : Option Key := keys.find? fun k => k.name = name

/-- a text or `nil` -/
def Lit.text : Lit → Option (Option Bytes)
  | .nil => some none
  | .str s => some (some s)
  | _ => none

def Lit.truth : Lit → Option Bool
  | .bool b => some b
  | _ => none

def Lit.number : Lit → Option Nat
  | .num n => some n
  | _ => none

/-- a number, or what `nil` stands for -/
def Lit.numberOr (default : Nat) : Lit → Option Nat
  | .nil => some default
  | .num n => some n
  | _ => none

/-- an assignment that stores a value of the right kind; Ruby/GLib2 raises for another one -/
def store {α : Type} (v : Option α) (f : α → Process) : XmlLoader.Out Process :=
  match v with
  | some v => .on (f v)
  | none => .raised

/-- a connection spec is checked first (client/configuration.rb 395-399, manager.rb 793-797) -/
def storeSpec (net : Net) (v : Lit) (f : Option Bytes → Process) : XmlLoader.Out Process :=
  match v with
  | .nil => .on (f none)
  | .str s =>
    match parseSpec net s with
    | .ok _ => .on (f (some s))
    | .fail => .raised
    | .ub => .ub
  | _ => .raised

/-- the value of an enumeration with that nick -/
def statusOf (s : Bytes) : Option Status :=
  [Status.default, .notChange, .continue_, .reject, .discard, .accept, .temporaryFailure, .noReply, .skip, .allOptions, .progress,
    .abort, .quarantine, .stop, .error].find? fun x => statusNick x = s

def backendOf (s : Bytes) : Option Backend := [Backend.default, .glib, .libev].find? fun x => backendNick x = s

/-- `level=` (client/configuration.rb 190-200): the level, if all names are known -/
def levelOf (current : UInt32) : Lit → Option UInt32
  | .nil => some 0
  | .str s =>
    if s = [] ∨ s = ascii "default" then some 0
    else
      let r := Logger.levelFromString s current
      if r.2 = [] then some r.1 else none
  | _ => none

/-- an assignment to a setting: the setters of manager.rb 709-1034 and client/configuration.rb
378-560, 620-760 -/
def assign (net : Net) (p : Process) (v : Lit) : Key → XmlLoader.Out Process
  | .platform => store v.text fun x => { p with conf := { p.conf with platform := x } }
  | .options => store v.text fun x => { p with conf := { p.conf with options := x } }
  | .privilegeMode => store v.truth fun x => { p with conf := { p.conf with privilegeMode := x } }
  | .user => store v.text fun x => { p with conf := { p.conf with user := x } }
  | .group => store v.text fun x => { p with conf := { p.conf with group := x } }
  | .logLevel => store (levelOf p.level v) fun x => { p with level := x }
  | .logPath => store v.text fun x => { p with logPath := x }
  | .useSyslog => store v.truth fun x => { p with conf := { p.conf with useSyslog := x } }
  | .facility => store v.text fun x => { p with conf := { p.conf with facility := x } }
  | .spec => storeSpec net v fun x => { p with conf := { p.conf with managerSpec := x } }
  | .mode => store v.number fun x => { p with conf := { p.conf with managerSocketMode := x } }
  | .socketGroup => store v.text fun x => { p with conf := { p.conf with managerSocketGroup := x } }
  | .onCreate => store v.truth fun x => { p with conf := { p.conf with removeManagerOnCreate := x } }
  | .onClose => store v.truth fun x => { p with conf := { p.conf with removeManagerOnClose := x } }
  | .daemon => store v.truth fun x => { p with conf := { p.conf with daemon := x } }
  | .pidFile => store v.text fun x => { p with conf := { p.conf with pidFile := x } }
  | .maintenance => store (v.numberOr 0) fun x => { p with conf := { p.conf with maintenanceInterval := x } }
  | .suspend => store (v.numberOr 5) fun x => { p with conf := { p.conf with suspendTime := x } }
  | .maxConnections => store (v.numberOr 0) fun x => { p with conf := { p.conf with maxConnections := x } }
  | .maxFiles => store (v.numberOr 0) fun x => { p with conf := { p.conf with maxFileDescriptors := x } }
  | .customDirectory => store v.text fun x => { p with conf := { p.conf with customDirectory := x } }
  | .fallback =>
    store (match v with | .str s => XmlLoader.fallbackStatus s | _ => none) fun x => { p with conf := { p.conf with fallback := x } }
  | .atDisconnect =>
    store (match v with | .str s => statusOf s | _ => none) fun x => { p with conf := { p.conf with fallbackAtDisconnect := x } }
  | .backend => store (match v with | .str s => backendOf s | _ => none) fun x => { p with conf := { p.conf with backend := x } }
  | .nWorkers => store (v.numberOr 0) fun x => { p with conf := { p.conf with nWorkers := x } }
  | .packetBuffer => store (v.numberOr 0) fun x => { p with conf := { p.conf with packetBufferSize := x } }
  | .checkInterval => store (v.numberOr 0) fun x => { p with conf := { p.conf with connectionCheckInterval := x } }
  | .chunkSize => store (v.numberOr 65535) fun x => { p with conf := { p.conf with chunkSize := x } }
  | .maxPending => store (v.numberOr 0) fun x => { p with conf := { p.conf with maxPending := x } }
  | .controllerSpec => storeSpec net v fun x => { p with conf := { p.conf with controllerSpec := x } }
  | .controllerMode => store v.number fun x => { p with conf := { p.conf with controllerSocketMode := x } }
  | .controllerGroup => store v.text fun x => { p with conf := { p.conf with controllerSocketGroup := x } }
  | .controllerOnCreate => store v.truth fun x => { p with conf := { p.conf with removeControllerOnCreate := x } }
  | .controllerOnClose => store v.truth fun x => { p with conf := { p.conf with removeControllerOnClose := x } }
  | .dbType => .on { p with db := { p.db with type := v } }
  | .dbName => .on { p with db := { p.db with name := v } }
  | .dbHost => .on { p with db := { p.db with host := v } }
  | .dbPort => .on { p with db := { p.db with port := v } }
  | .dbPath => .on { p with db := { p.db with path := v } }
  | .dbUser => .on { p with db := { p.db with user := v } }
  | .dbPassword => .on { p with db := { p.db with password := v } }

/-- a statement of a configuration file -/
inductive Stmt where
  /-- `path = value` -/
  | set (path : Bytes) (v : Lit)
  /-- `path = []` -/
  | emptyList (path : Bytes)
  /-- `path = [` -/
  | openList (path : Bytes)
  /-- `value,` -/
  | entry (v : Lit)
  /-- `]` -/
  | closeList
  /-- `function(argument) do |var|`, with the name of the variable -/
  | begin_ (function : Bytes) (argument : Lit) (var : Bytes)
  /-- `end` -/
  | fin
deriving DecidableEq, Repr

def storeEgg {α : Type} (v : Option α) (f : α → Egg) : XmlLoader.Out Egg :=
  match v with
  | some v => .on (f v)
  | none => .raised

/-- a number of seconds -/
def Lit.time : Lit → Option Nat
  | .num n => some n
  | .seconds n => some n
  | _ => none

/-- an assignment within `define_milter` (manager.rb 1162-1205).  `connection_spec=` of the extension
(ext/manager/rb-milter-manager-egg.c 31-42) takes no `nil`, and `command_options=` (1162-1170) asks
the options whether they are empty, which `nil` cannot answer. -/
def assignEgg (net : Net) (e : Egg) (v : Lit) : EggKey → XmlLoader.Out Egg
  | .spec =>
    match v with
    | .str s =>
      match Egg.setConnectionSpec net e (some s) with
      | none => .ub
      | some (true, e) => .on e
      | some (false, _) => .raised
    | _ => .raised
  | .description => storeEgg v.text fun x => { e with description := x }
  | .enabled => storeEgg v.truth fun x => { e with enabled := x }
  | .fallback => storeEgg (match v with | .str s => XmlLoader.fallbackStatus s | _ => none) fun x => { e with fallback := x }
  | .evaluation => storeEgg v.truth fun x => { e with evaluation := x }
  | .command => storeEgg v.text fun x => { e with command := x }
  | .options =>
    match v with
    | .str s => .on { e with commandOptions := some s }
    | _ => .raised
  | .user => storeEgg v.text fun x => { e with userName := x }
  | .connection => storeEgg v.time fun x => { e with timeouts := { e.timeouts with connection := x } }
  | .writing => storeEgg v.time fun x => { e with timeouts := { e.timeouts with writing := x } }
  | .reading => storeEgg v.time fun x => { e with timeouts := { e.timeouts with reading := x } }
  | .endOfMessage => storeEgg v.time fun x => { e with timeouts := { e.timeouts with endOfMessage := x } }

/-- `applicable_conditions=` (1135-1160) -/
def assignConditions (conds : List Condition) (e : Egg) (names : List Bytes) : XmlLoader.Out Egg :=
  match XmlLoader.lookupConditions conds names with
  | .ub => .ub
  | .raised => .raised
  | .on cs => .on (cs.foldl Egg.addCondition (Egg.clearConditions e))

/-- `milter_manager_configuration_remove_applicable_condition_by_name` (configuration.c 1921-1942) -/
def removeCondition (name : Bytes) : List Condition → Option (List Condition)
  | [] => some []
  | c :: cs =>
    match c.name with
    | none => none
    | some n => if name = n then some cs else (removeCondition name cs).map (c :: ·)

/-- what a file is in the middle of: nothing, a condition, a milter, a list of conditions of a milter -/
inductive Mode where
  | top
  | condition (var : Bytes) (c : Condition)
  | egg (var : Bytes) (e : Egg)
  | list (var : Bytes) (e : Egg) (names : List Bytes)
deriving DecidableEq, Repr

/-- `ApplicableConditionConfigurationLoader#initialize` (1213-1228) -/
def openCondition (cs : List Condition) (name : Bytes) : Option Condition :=
  match XmlLoader.findCondition name cs with
  | none => none
  | some none => some { name := some name }
  | some (some old) => some (Egg.mergeCondition { name := some name } old)

/-- the setting of a milter a path names, through `method_missing` (1196-1202) -/
def eggKeyOf (var path : Bytes) : Option EggKey :=
  (eggKeys₁ ++ eggKeys₂).find? fun k => var ++ [0x2e] ++ k.name = path

/-- one statement.  Within a block only statements about the variable of the block are covered;
others count as exceptions. -/
def step (net : Net) (p : Process) (m : Mode) (s : Stmt) : XmlLoader.Out (Process × Mode) :=
  match m, s with
  | .top, .set path v =>
    match keyOf path with
    | none => .raised
    | some k =>
      match assign net p v k with
      | .on p => .on (p, .top)
      | .raised => .raised
      | .ub => .ub
  | .top, .begin_ function (.str name) var =>
    if function = ascii "define_milter" then -- 461-467
      match Egg.openEgg net p.conf.eggs name with
      | none => .ub
      | some none => .raised
      | some (some e) => .on (p, .egg var e)
    else if function = ascii "define_applicable_condition" then -- 474-479
      match openCondition p.conf.conditions name with
      | none => .ub
      | some c => .on (p, .condition var c)
    else .raised
  | .condition var c, .set path v =>
    if path = var ++ ascii ".description" then
      match v.text with
      | none => .raised
      | some d => .on (p, .condition var { c with description := d })
    else .raised
  | .condition _ c, .fin => -- `apply` (1285-1302)
    match c.name with
    | none => .ub
    | some n =>
      match removeCondition n p.conf.conditions with
      | none => .ub
      | some cs => .on ({ p with conf := { p.conf with conditions := cs ++ [c] } }, .top)
  | .egg var e, .set path v =>
    match eggKeyOf var path with
    | none => .raised
    | some k =>
      match assignEgg net e v k with
      | .on e => .on (p, .egg var e)
      | .raised => .raised
      | .ub => .ub
  | .egg var e, .emptyList path =>
    if path = var ++ ascii ".applicable_conditions" then
      match assignConditions p.conf.conditions e [] with
      | .on e => .on (p, .egg var e)
      | .raised => .raised
      | .ub => .ub
    else .raised
  | .egg var e, .openList path =>
    if path = var ++ ascii ".applicable_conditions" then .on (p, .list var e []) else .raised
  | .list var e names, .entry (.str n) => .on (p, .list var e (names ++ [n]))
  | .list var e names, .closeList =>
    match assignConditions p.conf.conditions e names with
    | .on e => .on (p, .egg var e)
    | .raised => .raised
    | .ub => .ub
  | .egg _ e, .fin => -- `apply` (1206-1209)
    match e.name with
    | none => .ub
    | some n =>
      match Egg.apply p.conf.eggs n e with
      | none => .ub
      | some es => .on ({ p with conf := { p.conf with eggs := es } }, .top)
  | _, _ => .raised

/-- the statements of a file one after the other (405-427).  The settings of syslog are copied to
the configuration at the end (500-508); here they are set at once. -/
def run (net : Net) (p : Process) (m : Mode) : List Stmt → XmlLoader.Out (Process × Mode)
  | [] => .on (p, m)
  | s :: ss =>
    match step net p m s with
    | .on (p, m) => run net p m ss
    | .raised => .raised
    | .ub => .ub

end Verif.Dump
