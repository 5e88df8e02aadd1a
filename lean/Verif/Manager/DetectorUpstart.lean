import Verif.Manager.DetectorRc
/-
The detection of milters that upstart starts (binding/ruby/lib/milter/manager/redhat-upstart-detector.rb), the choice
between detectors on Red Hat (redhat-detector.rb), and the detection of milters of pkgsrc (pkgsrc-rc-detector.rb).

Simplifications as in `Manager/Detector`: files are a function from paths to contents, a file that exists can be read,
`Shellwords.split` is a parameter.
-/
namespace Verif.Detector
open Verif Verif.Conditions

/-! ### upstart -/

/-- what `parse_upstart_script` gathers (redhat-upstart-detector.rb 68-81) -/
structure Job where
  description : Option Bytes := none
  enabled : Bool := false
  exec : Option Bytes := none
  /-- `first_comment_block` -/
  head : Bool := true
  /-- `first_comment_content` -/
  comments : List Bytes := []

/-- `join(' ')` -/
def joinSpace : List Bytes → Bytes
  | [] => []
  | [a] => a
  | a :: b => a ++ 0x20 :: joinSpace b

/-- the end of a turn (redhat-upstart-detector.rb 96-101); the list of comments is never `nil` -/
def Job.close (j : Job) : Job :=
  { j with description := if j.comments = [] then j.description else some (joinSpace j.comments), head := false }

/-- one turn of `parse_upstart_script` (redhat-upstart-detector.rb 83-102) -/
def Job.line (j : Job) (line : Bytes) : Job :=
  if (ascii "# ").isPrefixOf line then
    let comment := strip (line.drop 2)
    if j.head ∧ comment ≠ [] then { j with comments := j.comments ++ [comment] } else j.close
  else if (ascii "start on ").isPrefixOf line then { j with enabled := true }.close
  else if (ascii "exec ").isPrefixOf line then { j with exec := some (line.drop 5) }.close
  else j.close

/-- `parse_upstart_script` (redhat-upstart-detector.rb 76-105) -/
def parseJob (content : Bytes) : Job := (eachLine content).foldl Job.line {}

/-- `clamav_milter_conf` (redhat-upstart-detector.rb 107-110) -/
def jobClamavConf (m : Machine) (j : Job) : Bytes := (flag m j.exec "-c").getD (ascii "/etc/clamav-milter.conf")

/-- `guess_application_specific_spec` and `guess_spec` (redhat-upstart-detector.rb 117-131) -/
def jobSpec (m : Machine) (script : Bytes) (j : Job) (custom : Option (Option Bytes → Option Bytes)) : Option Bytes :=
  let clamavSpec :=
    if script = ascii "clamav-milter" then setting (parseKeywords (contentOf m (jobClamavConf m j))) (ascii "MilterSocket") else none
  let greylistSpec :=
    if script = ascii "milter-greylist" then
      (parseGreylist (contentOf m ((flag m j.exec "-f").getD (ascii "/etc/mail/greylist.conf")))).socket
    else none
  let spec := clamavSpec.or greylistSpec
  match custom with
  | none => spec
  | some f => (normalizeSpec (f spec)).or spec

/-- `RedHatUpstartDetector` (redhat-upstart-detector.rb 23-27, 53-56) with `apply` (detector.rb 33-51): nothing if there
is no job -/
def upstart (m : Machine) (script : Bytes) (custom : Option (Option Bytes → Option Bytes)) : Option Detected :=
  match m.file (ascii "/etc/event.d/" ++ script) with
  | none => none
  | some content =>
    let j := parseJob content
    let spec := jobSpec m script j custom
    let example_ := decide (script = ascii "clamav-milter") && (parseKeywords (contentOf m (jobClamavConf m j)) (ascii "Example")).isSome
    some ⟨spec.map finish, j.description, spec.isSome && j.enabled && !example_⟩

/-- `command` and `command_options` of an upstart detector (redhat-upstart-detector.rb 29-43 with detector.rb 67-75),
given which commands exist -/
def upstartCommand (systemctl service : Option Bytes) (script : Bytes) : List Bytes :=
  ascii "/sbin/start" ::
    if service.isSome then
      if systemctl.isSome then [ascii "start", script] else [script, ascii "start"]
    else [script]

/-- `RedHatDetector#apply` (redhat-detector.rb 32-40): systemd's if that is enabled, upstart's if that is, the init
script's otherwise.  A detector that has found nothing is not enabled (its spec may come from the configuration, but a
unit or a job that starts at boot does not). -/
def chooseRedHat (systemd upstart init : Option Detected) : Option Detected := choose systemd (choose upstart init)

/-! ### pkgsrc -/

/-- what `parse_rc_conf` gathers on pkgsrc: `@variables`, `@rcvar` and `@rcvar_value` -/
structure PkgConf where
  vars : Vars
  rcvar : Option Bytes := none
  value : Option Bytes := none

/-- one turn of `parse_rc_conf` (rcng-detector.rb 115-125) with `parse_rc_conf_unknown_line` (pkgsrc-rc-detector.rb
47-54), and `rcvar` (24-26) -/
def PkgConf.line (self : Option Bytes) (own : Bytes) (other : Vars) (s : PkgConf) (line : Bytes) : PkgConf :=
  match rcSetting own line with
  | some (n, v) => { s with vars := fun k => if k = n then rcNormalize self other s.vars v else s.vars k }
  | none =>
    match assigned (ascii "rcvar") line with
    | some v => { s with rcvar := rcNormalize self other s.vars v }
    | none =>
      match assigned (s.rcvar.getD own) line with
      | some v => { s with value := rcNormalize self other s.vars v }
      | none => s

/-- `parse_rc_conf` (rcng-detector.rb 111-126) on pkgsrc -/
def pkgConf (self : Option Bytes) (own : Bytes) (other : Vars) (content : Bytes) (s : PkgConf) : PkgConf :=
  (eachLine content).foldl (PkgConf.line self own other) s

/-- `detect` (rcng-detector.rb 47-56) after the name is known -/
def pkgRead (m : Machine) (name content : Bytes) : PkgConf × Option Bytes :=
  let other := (eachLine content).foldl (otherLine (some name)) fun _ => none
  let s := (eachLine content).foldl (Rc.line (some name) name other) {}
  let conf (path : Bytes) (s : PkgConf) : PkgConf := pkgConf (some name) name other (contentOf m path) s
  (conf (ascii "/etc/rc.conf.d/" ++ name) (conf (ascii "/etc/rc.conf.local") (conf (ascii "/etc/rc.conf") { vars := s.vars })), s.args)

/-- `package_options` (detector.rb 53-55), the two that matter here -/
structure PkgOptions where
  rcddir : Option Bytes := none
  pkgPrefix : Option Bytes := none

/-- `package_prefix` (pkgsrc-rc-detector.rb 60-62) -/
def PkgOptions.root (o : PkgOptions) : Bytes := o.pkgPrefix.getD (ascii "/usr/pkg/etc")

/-- `rc_d` (pkgsrc-rc-detector.rb 56-58) -/
def PkgOptions.rcd (o : PkgOptions) : Bytes := o.rcddir.getD (o.root ++ ascii "/rc.d")

/-- `guess_spec` (rcng-detector.rb 135-147) with `guess_application_specific_spec` of pkgsrc (pkgsrc-rc-detector.rb
32-40, 64-68) -/
def pkgSpec (m : Machine) (o : PkgOptions) (script name : Bytes) (vars : Vars) (args : Option Bytes)
    (custom : Option (Option Bytes → Option Bytes)) : Option Bytes :=
  let enmaSpec :=
    if script = ascii "enma" ∨ name = ascii "enma" then enma (contentOf m ((flag m args "-c").getD (o.root ++ ascii "/enma.conf"))) else none
  let spec :=
    ((((enmaSpec.or (normalizeSpec (vars (ascii "socket")))).or (normalizeSpec (vars (ascii "sockfile")))).or
      (normalizeSpec (vars (ascii "connection_spec")))).or (flag m (vars (ascii "flags")) "-p")).or (flag m args "-p")
  match custom with
  | none => spec
  | some f => (normalizeSpec (f spec)).or spec

/-- `PkgsrcRCDetector` with `apply` (rcng-detector.rb 47-70, detector.rb 33-51): nothing if there is no script or it sets
no name -/
def pkgsrc (m : Machine) (o : PkgOptions) (script : Bytes) (custom : Option (Option Bytes → Option Bytes)) : Option Detected :=
  match m.file (o.rcd ++ ascii "/" ++ script) with
  | none => none
  | some content =>
    match rcName content with
    | none => none
    | some name =>
      let (s, args) := pkgRead m name content
      some
        { spec := (pkgSpec m o script name s.vars args custom).map finish
          description := none
          enabled := isYes (s.value.getD (ascii "NO")) }

end Verif.Detector
