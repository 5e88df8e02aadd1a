import Verif.Manager.Detector
/-
The detection of milters that systemd starts: binding/ruby/lib/milter/manager/systemd-detector.rb, redhat-systemd-detector.rb, debian-systemd-detector.rb, the choice between detectors in
debian-detector.rb, and rspamd-proxy-detector.rb.

Simplifications as in `Manager/Detector`: files are a function from paths to contents, a file that exists can be read; `Shellwords.split` is a parameter.
-/
namespace Verif.Detector
open Verif Verif.Conditions

/-! ### unit files -/

/-- `/\A\[(.+?)\]\z/` on a stripped line (systemd-detector.rb 77) -/
def sectionName (line : Bytes) : Option Bytes :=
  match line with
  | 0x5b :: rest =>
    if rest.getLast? = some 0x5d ∧ rest.dropLast ≠ [] then some rest.dropLast else none
  | _ => none

/-- a match of `\s*=\s*(.+?)\z` after the bytes `seen` (latest first) of the name, which are some -/
def equalsHere (seen s : Bytes) : Option (Bytes × Bytes) :=
  match lstrip s with
  | 0x3d :: v => if seen = [] ∨ lstrip v = [] then none else some (seen.reverse, lstrip v)
  | _ => none

/-- `/\A(.+?)\s*=\s*(.+?)\z/` on a stripped line (systemd-detector.rb 79), after the bytes `seen` (latest first) of the name -/
def nameAndValue (seen : Bytes) (s : Bytes) : Option (Bytes × Bytes) :=
  match equalsHere seen s with
  | some r => some r
  | none =>
    match s with
    | [] => none
    | c :: s => nameAndValue (c :: seen) s

/-- what has been read of a unit file: `section`, `@description`, `@exec` and `@variables` -/
structure UnitFile where
  inside : Option Bytes := none
  description : Option Bytes := none
  exec : Option Bytes := none
  vars : Vars := fun _ => none

/-- `value.gsub` (systemd-detector.rb 95): a dash at the beginning is left out -/
def undash : Bytes → Bytes
  | 0x2d :: s => s
  | s => s

/-- a setting (systemd-detector.rb 82-100) -/
def UnitFile.set (m : Machine) (u : UnitFile) (name value : Bytes) : UnitFile :=
  if u.inside = some (ascii "Unit") then
    if name = ascii "Description" then { u with description := some value } else u
  else if u.inside = some (ascii "Service") then
    if name = ascii "ExecStart" then { u with exec := some value }
    else if name = ascii "EnvironmentFile" then
      match m.file (undash value) with
      | some content => { u with vars := extract false none content u.vars }
      | none => u
    else u
  else u

/-- one turn of `parse_unit_file` (systemd-detector.rb 75-101) -/
def UnitFile.line (m : Machine) (u : UnitFile) (line : Bytes) : UnitFile :=
  match sectionName (strip line) with
  | some s => { u with inside := some s }
  | none =>
    match nameAndValue [] (strip line) with
    | some (name, value) => u.set m name value
    | none => u

/-- `parse_unit_file` (systemd-detector.rb 71-105) -/
def parseUnit (m : Machine) (content : Bytes) : UnitFile := (eachLine content).foldl (UnitFile.line m) {}

/-! ### the spec -/

/-- a kind of system: `system_dir` and the default paths (redhat-systemd-detector.rb 23-42, debian-systemd-detector.rb 23-37, systemd-detector.rb 139-141) -/
structure Kind where
  systemDir : Bytes
  clamavConf : Bytes
  greylistConf : Bytes

def redhatKind : Kind := ⟨ascii "/usr/lib/systemd/system/", ascii "/etc/mail/clamav-milter.conf", ascii "/etc/mail/greylist.conf"⟩
def debianKind : Kind := ⟨ascii "/lib/systemd/system/", ascii "/etc/clamav/clamav-milter.conf", ascii "/etc/milter-greylist/greylist.conf"⟩

/-- `clamav_milter_conf` -/
def clamavConf (m : Machine) (k : Kind) (u : UnitFile) : Bytes := (flag m u.exec "-c").getD k.clamavConf

/-- `guess_application_specific_spec` and `guess_spec` (systemd-detector.rb 107-125) -/
def unitSpec (m : Machine) (k : Kind) (script : Bytes) (u : UnitFile) (custom : Option (Option Bytes → Option Bytes)) : Option Bytes :=
  let clamavSpec :=
    if script = ascii "clamav-milter" then setting (parseKeywords (contentOf m (clamavConf m k u))) (ascii "MilterSocket") else none
  let greylistSpec :=
    if script = ascii "milter-greylist" then (parseGreylist (contentOf m ((flag m u.exec "-f").getD k.greylistConf))).socket else none
  let opendkimSpec :=
    if script = ascii "opendkim" then
      setting (parseKeywords (contentOf m ((flag m (some ((u.vars (ascii "OPTIONS")).getD [])) "-x").getD (ascii "/etc/opendkim.conf"))))
        (ascii "Socket")
    else none
  let rspamdSpec := if script = ascii "rspamd" then m.rspamd else none
  let spec := (((clamavSpec.or greylistSpec).or opendkimSpec).or rspamdSpec).or (normalizeSpec (u.vars (ascii "SOCKET")))
  match custom with
  | none => spec
  | some f => (normalizeSpec (f spec)).or spec

/-- what is detected: the milter's spec as `apply` hands it over, its description, whether it is enabled -/
structure Detected where
  spec : Option Bytes
  description : Option Bytes
  enabled : Bool
deriving DecidableEq

/-- `SystemdDetector` (systemd-detector.rb 22-41) with `apply` (detector.rb 33-51): nothing if there is no unit file; `clamav_milter_example?` is whether the keyword `Example` is there
(clamav-milter-config-parser.rb 31-33) -/
def systemd (m : Machine) (k : Kind) (script : Bytes) (custom : Option (Option Bytes → Option Bytes)) : Option Detected :=
  match m.file (k.systemDir ++ script ++ ascii ".service") with
  | none => none
  | some content =>
    let u := parseUnit m content
    let installed := (m.file (ascii "/etc/systemd/system/multi-user.target.wants/" ++ script ++ ascii ".service")).isSome
    let spec := unitSpec m k script u custom
    let example_ := decide (script = ascii "clamav-milter") && (parseKeywords (contentOf m (clamavConf m k u)) (ascii "Example")).isSome
    some ⟨spec.map finish, u.description, spec.isSome && installed && !example_⟩

/-- `DebianDetector#apply` (debian-detector.rb 28-34): systemd's if that is enabled, the init script's otherwise -/
def choose (systemd init : Option Detected) : Option Detected :=
  match systemd with
  | some d => if d.enabled then some d else init
  | none => init

/-- `command` and `command_options` of a systemd detector (detector.rb 57-75), given which commands exist; `none`: `run_command` is not defined, an exception -/
def startCommand (systemctl service : Option Bytes) (script : Bytes) : Option (List Bytes) :=
  match systemctl with
  | some c => some [c, ascii "start", script]
  | none =>
    match service with
    | some c => some [c, script, ascii "start"]
    | none => none

/-! ### rspamd -/

/-- the outcome of asking rspamadm -/
inductive Proxy where
  | nothing
  | spec (s : Bytes)
  /-- an exception -/
  | crash
deriving DecidableEq

/-- the spec for a `bind_socket` (rspamd-proxy-detector.rb 27-37) -/
def bindSpec (b : Bytes) : Bytes :=
  if b.head? = some 0x2f then ascii "unix:" ++ b.takeWhile (fun c => c ≠ 0x20 ∧ c ≠ 0x2c)
  else
    let host := b.takeWhile (· ≠ 0x3a)
    let port := (b.dropWhile (· ≠ 0x3a)).drop 1
    if host = ascii "*" then ascii "inet:" ++ port ++ ascii "@localhost" else ascii "inet:" ++ port ++ ascii "@" ++ host

/-- a worker: `none` if it is no proxy; a proxy has `milter` and `bind_socket` -/
abbrev Worker := Option (Bool × Bytes)

/-- `worker.key?("rspamd_proxy") && worker["rspamd_proxy"]["milter"]` -/
def isMilter : Worker → Bool
  | some (milter, _) => milter
  | none => false

/-- `RspamdProxyDetector#detect` (rspamd-proxy-detector.rb 9-38) with the workers of the configuration, `none` if rspamadm cannot be run, fails or tells of none -/
def rspamdProxy (workers : Option (List Worker)) : Proxy :=
  match workers with
  | none => .nothing
  | some ws =>
    match ws.find? isMilter with
    | some (some (_, b)) => .spec (bindSpec b)
    | _ => .crash

end Verif.Detector
