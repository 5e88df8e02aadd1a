import Verif.Manager.Configuration
/-
What is expected of reloading, of command line options, of saving a custom configuration and of
the controller, said without the functions that do it.
-/
namespace Verif.Spec.Configuration
open Verif Verif.Configuration

/-- the settings of a milter-manager that has read no file yet -/
def defaults (b : Build) (loadPaths : List Bytes) : Conf where
  loadPaths := loadPaths
  eggs := []
  conditions := []
  handlers := []
  privilegeMode := false
  controllerSpec := none
  controllerSocketGroup := none
  managerSpec := some b.spec
  daemon := false
  fallback := .accept
  fallbackAtDisconnect := .temporaryFailure
  maintenanceInterval := 10
  suspendTime := 5
  maxConnections := 0
  maxFileDescriptors := 0
  connectionCheckInterval := 0
  backend := .glib
  nWorkers := 0
  packetBufferSize := 0
  chunkSize := 65535
  maxPending := 0
  platform := b.platform
  options := b.options
  user := b.user
  group := b.group
  pidFile := b.pidFile
  customDirectory := none
  locations := []
  managerSocketGroup := b.socketGroup
  managerSocketMode := 0o660
  controllerSocketMode := 0o660
  removeManagerOnClose := true
  removeControllerOnClose := true
  removeManagerOnCreate := true
  removeControllerOnCreate := true
  useSyslog := true
  facility := none

/-- of the directories `ds`, in this order, the first that has a file `name` has `content` in it -/
def FirstIn (w : World) (fs : FS) (name : Bytes) (ds : List Bytes) (content : Bytes) : Prop :=
  ∃ pre d post, ds = pre ++ d :: post ∧ (∀ p ∈ pre, fs.file (w.join p name) = none) ∧
    fs.file (w.join d name) = some content

/-- none of the directories has a file `name` -/
def Absent (w : World) (fs : FS) (name : Bytes) (ds : List Bytes) : Prop :=
  ∀ d ∈ ds, fs.file (w.join d name) = none

/-- the configuration after these calls -/
def after (c : Conf) (calls : List Call) : Conf := calls.foldl call c

/-- `FromFiles w fs ds c ok`: a milter-manager that starts from nothing with the directories `ds`
to look for its files ends with the configuration `c`, and `ok` tells whether it could read its
files. -/
inductive FromFiles (w : World) (fs : FS) (ds : List Bytes) : Conf → Bool → Prop where
  /-- there is no configuration file -/
  | nothing : Absent w fs configFileName ds → FromFiles w fs ds (defaults w.build ds) false
  /-- there is one, but running it fails -/
  | failed {content calls} : FirstIn w fs configFileName ds content →
      w.run fs content (defaults w.build ds) = (calls, false) →
      FromFiles w fs ds (after (defaults w.build ds) calls) false
  /-- there is one and no custom configuration -/
  | plain {content calls} : FirstIn w fs configFileName ds content →
      w.run fs content (defaults w.build ds) = (calls, true) →
      Absent w fs customConfigFileName (after (defaults w.build ds) calls).loadPaths →
      FromFiles w fs ds (after (defaults w.build ds) calls) true
  /-- there are both -/
  | custom {content calls custom more ok} : FirstIn w fs configFileName ds content →
      w.run fs content (defaults w.build ds) = (calls, true) →
      FirstIn w fs customConfigFileName (after (defaults w.build ds) calls).loadPaths custom →
      w.runCustom fs custom (after (defaults w.build ds) calls) = (more, ok) →
      FromFiles w fs ds (after (after (defaults w.build ds) calls) more) ok

/-- the settings of the command line -/
inductive Setting where
  | spec | syslog | facility | daemon | user | group | socketGroup | socketMode | nWorkers
  | backend | packetBufferSize | pidFile | maxPending
deriving DecidableEq

/-- the setting an option is about -/
def setting : CliOption → Setting
  | .spec _ => .spec
  | .syslog => .syslog
  | .facility _ => .facility
  | .daemon => .daemon
  | .noDaemon => .daemon
  | .user _ => .user
  | .group _ => .group
  | .socketGroup _ => .socketGroup
  | .socketMode _ => .socketMode
  | .nWorkers _ => .nWorkers
  | .backend _ => .backend
  | .packetBufferSize _ => .packetBufferSize
  | .pidFile _ => .pidFile
  | .maxPending _ => .maxPending

/-- `o` is on the command line and no later option is about the same setting -/
def Given (opts : List CliOption) (o : CliOption) : Prop :=
  ∃ pre post, opts = pre ++ o :: post ∧ ∀ x ∈ post, setting x ≠ setting o

/-- the manager does what the option says -/
def InForce (m : Manager) : CliOption → Prop
  | .spec v => m.spec = some v
  | .syslog => m.own.syslog ≠ none
  | .facility v => m.own.facility = some v
  | .daemon => m.daemon = true
  | .noDaemon => m.daemon = false
  | .user v => m.user = some v
  | .group v => m.group = some v
  | .socketGroup v => m.socketGroup = some v
  | .socketMode v => m.socketMode = v
  | .nWorkers v => m.nWorkers = v
  | .backend v => m.backend = v
  | .packetBufferSize v => m.packetBufferSize = v
  | .pidFile v => m.pidFile = some v
  | .maxPending v => m.maxPending = v

/-- the controller is asked to reload -/
def asksReload : Event → Bool
  | .control .reload => true
  | _ => false

end Verif.Spec.Configuration
