import Verif.Manager.Systemd
/-
The detection of milters on Debian without systemd
(binding/ruby/lib/milter/manager/debian-init-detector.rb) and on FreeBSD (rcng-detector.rb,
freebsd-rc-detector.rb).

Left out: the block of comments at the head of an init script (init-detector.rb 60-75) is a
parameter, and is read in Verif.Manager.InitInfo; files are bytes, while the code lets Ruby raise an exception for a file that is not
UTF-8; profiles of OpenDKIM end where the code raises an exception; the tarpit times of
milter-greylist are in Verif.Manager.Detector.
-/
namespace Verif.Detector
open Verif.Conditions

/-! ### Debian -/

/-- `content.gsub(/\A#!\s*\/bin\/sh\s*/m, '')` (debian-init-detector.rb 57) -/
def withoutShebang (content : Bytes) : Bytes :=
  if (ascii "#!").isPrefixOf content then
    let r := (content.drop 2).dropWhile isBlank
    if (ascii "/bin/sh").isPrefixOf r then (r.drop 7).dropWhile isBlank else content
  else content

/-- `/clamav-milter/ =~ s`: is there such a text? -/
def mentions (word : Bytes) : Bytes → Bool
  | [] => word.isPrefixOf []
  | c :: s => word.isPrefixOf (c :: s) || mentions word s

/-- what the block of comments at the head of an init script says: `@info` -/
abbrev Info := Bytes → Option Bytes

/-- `clamav_milter_0_95_or_later?` (debian-init-detector.rb 36-40) -/
def debianClamav (script : Bytes) (vars : Vars) : Bool :=
  script == ascii "clamav-milter" &&
    (mentions (ascii "clamav-milter") ((vars (ascii "CLAMAVCONF")).getD []) || (vars (ascii "CLAMAVMILTERCONF")).isSome)

/-- `clamav_milter_conf` (debian-init-detector.rb 71-75), read -/
def debianClamavSettings (m : Machine) (vars : Vars) : Settings :=
  parseKeywords (contentOf m (((vars (ascii "CLAMAVCONF")).or (vars (ascii "CLAMAVMILTERCONF"))).getD
    (ascii "/etc/clamav/clamav-milter.conf")))

/-- `guess_spec` (debian-init-detector.rb 81-105) -/
def debianSpec (m : Machine) (script : Bytes) (vars : Vars) (custom : Option (Option Bytes → Option Bytes)) : Option Bytes :=
  let clamav := if debianClamav script vars then setting (debianClamavSettings m vars) (ascii "MilterSocket") else none
  let opendkim :=
    if script = ascii "opendkim" then setting (parseKeywords (contentOf m (ascii "/etc/opendkim.conf"))) (ascii "Socket") else none
  let spec :=
    (((((((clamav.or opendkim).or (normalizeSpec (vars (ascii "SOCKET")))).or (normalizeSpec (vars (ascii "SOCKFILE")))).or
      (normalizeSpec (vars (ascii "CONNECTION_SPEC")))).or (flag m (vars (ascii "OPTARGS")) "-p")).or
      (flag m (vars (ascii "DAEMON_ARGS")) "-p")).or (flag m (vars (ascii "PARAMS")) "-p"))
  match custom with
  | none => spec
  | some f => (normalizeSpec (f spec)).or spec

/-- the variables after the init script and /etc/default have been read (init-detector.rb 23-29,
debian-init-detector.rb 51-69) -/
def debianVars (m : Machine) (script : Bytes) (info : Info) (init : Bytes) : Vars :=
  let vars := extract false none (withoutShebang init) fun _ => none
  let name := ((vars (ascii "NAME")).or (info (ascii "Provides"))).getD script
  match m.file (ascii "/etc/default/" ++ script) with
  | none => vars
  | some c => extract false (some name) c vars

/-- `DebianInitDetector` with `apply` (detector.rb 33-51): nothing if there is no init script -/
def debian (m : Machine) (script : Bytes) (info : Info) (custom : Option (Option Bytes → Option Bytes)) : Option Detected :=
  match m.file (ascii "/etc/init.d/" ++ script) with
  | none => none
  | some init =>
    let vars := debianVars m script info init
    some
      { spec := (debianSpec m script vars custom).map finish
        description := (info (ascii "Description")).or (vars (ascii "DESC"))
        enabled := vars (ascii "ENABLED") ≠ some (ascii "0") &&
          !(debianClamav script vars && (debianClamavSettings m vars (ascii "Example")).isSome) }

/-! ### FreeBSD -/

/-- `/\Akey=(.+)/` (rcng-detector.rb 86, 107) -/
def assigned (key line : Bytes) : Option Bytes :=
  if (key ++ [0x3d]).isPrefixOf line then
    let v := (line.drop (key.length + 1)).takeWhile (· ≠ 0x0a)
    if v = [] then none else some v
  else none

/-- `(.+)=(.+)` on the rest of a line: the last equals sign that has something on both sides; the
first argument is what has been passed, backwards -/
def splitLast : Bytes → Bytes → Option (Bytes × Bytes)
  | _, [] => none
  | seen, c :: s =>
    match splitLast (c :: seen) s with
    | some r => some r
    | none => if c = 0x3d ∧ seen ≠ [] ∧ s ≠ [] then some (seen.reverse, s) else none

/-- `/\Aprefix_(.+)=(.+)/` (rcng-detector.rb 119) -/
def rcSetting (own line : Bytes) : Option (Bytes × Bytes) :=
  if (own ++ [0x5f]).isPrefixOf line then splitLast [] ((line.drop (own.length + 1)).takeWhile (· ≠ 0x0a)) else none

/-- `(?::?-|=)` here: what comes after -/
def separator : Bytes → Option Bytes
  | 0x3a :: 0x2d :: r => some r
  | 0x2d :: r => some r
  | 0x3d :: r => some r
  | _ => none

/-- `(.+?)(?::?-|=)`: the shortest name, and what follows the separator; the first argument is what
has been passed, backwards -/
def defaultName : Bytes → Bytes → Option (Bytes × Bytes)
  | _, [] => none
  | taken, c :: s =>
    match (if taken = [] then none else separator (c :: s)) with
    | some r => some (taken.reverse, r)
    | none => defaultName (c :: taken) s

/-- `(.*)\}`: what is before the last closing brace -/
def beforeLast : Bytes → Option Bytes
  | [] => none
  | c :: s =>
    match beforeLast s with
    | some r => some (c :: r)
    | none => if c = 0x7d then some [] else none

/-- `/\$\{prefix_(.+?)(?::?-|=)(.*)\}/` here.  If no brace follows the first separator then none
follows a later one. -/
def defaultHere (own s : Bytes) : Option (Bytes × Bytes) :=
  if ([0x24, 0x7b] ++ own ++ [0x5f]).isPrefixOf s then
    (defaultName [] (s.drop (own.length + 3))).bind fun (n, r) => (beforeLast r).map fun v => (n, v)
  else none

/-- the first match of that in a line (rcng-detector.rb 102) -/
def rcDefault (own : Bytes) : Bytes → Option (Bytes × Bytes)
  | [] => none
  | c :: s =>
    match defaultHere own (c :: s) with
    | some r => some r
    | none => rcDefault own s

/-- `/\Aprefix_(.+?)=(.*)/` (rcng-detector.rb 104) -/
def rcAssignment (own line : Bytes) : Option (Bytes × Bytes) :=
  if (own ++ [0x5f]).isPrefixOf line then
    match (line.drop (own.length + 1)).takeWhile (· ≠ 0x0a) with
    | [] => none
    | c :: s =>
      let n := s.takeWhile (· ≠ 0x3d)
      if n.length < s.length then some (c :: n, s.drop (n.length + 1)) else none
  else none

/-- `normalize_variable_value` with the `expand_variable` of rcng-detector.rb 135-137 -/
def rcNormalize (self : Option Bytes) (other vars : Vars) (v : Bytes) : Option Bytes :=
  normalize ((other (ascii "name")).or self) (fun n => (other n).or (vars n)) v

/-- the name: the last line `name=` (rcng-detector.rb 85-89) -/
def rcName (content : Bytes) : Option Bytes :=
  (eachLine content).foldl (fun self line =>
    match assigned (ascii "name") line with
    | some v => rcNormalize self (fun _ => none) (fun _ => none) v
    | none => self) none

/-- one turn of `extract_variables` into `@other_variables` (rcng-detector.rb 92-93) -/
def otherLine (self : Option Bytes) (other : Vars) (line : Bytes) : Vars :=
  match definition true false (uncomment line) with
  | none => other
  | some (name, v) =>
    let new := (rcNormalize self other (fun _ => none) v).or (other name)
    fun n => if n = name then new else other n

/-- what `parse_rc_script` gathers in its second pass -/
structure Rc where
  before : Bool := true
  vars : Vars := fun _ => none
  args : Option Bytes := none

/-- one turn of the second pass (rcng-detector.rb 97-110) -/
def Rc.line (self : Option Bytes) (own : Bytes) (other : Vars) (s : Rc) (line : Bytes) : Rc :=
  let set (n v : Bytes) : Rc := { s with vars := fun k => if k = n then rcNormalize self other s.vars v else s.vars k }
  if (ascii "load_rc_conf ").isPrefixOf (line.dropWhile isBlank) then { s with before := false }
  else
    match rcDefault own (line.takeWhile (· ≠ 0x0a)) with
    | some (n, v) => set n v
    | none =>
      match rcAssignment own line with
      | some (n, v) => if s.before then set n v else s
      | none =>
        match assigned (ascii "command_args") line with
        | some v => { s with args := rcNormalize self other s.vars v }
        | none => s

/-- `parse_rc_conf` (rcng-detector.rb 113-130).  The lines FreeBSD looks at beside
(freebsd-rc-detector.rb 95-102) change nothing: one sets `@rcvar` to its default, and `@rcvar` is a
variable with the prefix, so a line that sets it is read above. -/
def rcConf (self : Option Bytes) (own : Bytes) (other : Vars) (content : Bytes) (vars : Vars) : Vars :=
  (eachLine content).foldl (fun vars line =>
    match rcSetting own line with
    | some (n, v) => fun k => if k = n then rcNormalize self other vars v else vars k
    | none => vars) vars

/-- `detect` (rcng-detector.rb 50-59) after the name is known: `@variables`, `@other_variables` and
`@command_args` -/
def rcRead (m : Machine) (name content : Bytes) : Vars × Vars × Option Bytes :=
  let other := (eachLine content).foldl (otherLine (some name)) fun _ => none
  let s := (eachLine content).foldl (Rc.line (some name) name other) {}
  let conf (path : Bytes) (vars : Vars) : Vars := rcConf (some name) name other (contentOf m path) vars
  (conf (ascii "/etc/rc.conf.d/" ++ name) (conf (ascii "/etc/rc.conf.local") (conf (ascii "/etc/rc.conf") s.vars)), other, s.args)

/-- `/\AYES\z/i` (rcng-detector.rb 68) -/
def isYes (v : Bytes) : Bool := downcase v == ascii "yes"

/-- `guess_application_specific_spec` of FreeBSD (freebsd-rc-detector.rb 34-93, 104-111) -/
def freebsdSpecial (m : Machine) (script name : Bytes) (vars other : Vars) (args : Option Bytes) : Option Bytes :=
  let enmaSpec :=
    if script = ascii "milter-enma" ∨ name = ascii "milterenma" then
      enma (contentOf m (((vars (ascii "cfgfile")).or (flag m args "-c")).getD (ascii "/usr/local/etc/enma.conf"))) else none
  let clamavSpec :=
    if script = ascii "clamav-milter" ∨ name = ascii "clamav_milter" then
      setting (parseKeywords (contentOf m (((other (ascii "conf_file")).or (flag m args "-c")).getD
        (ascii "/usr/local/etc/clamav-milter.conf")))) (ascii "MilterSocket") else none
  let opendkimSpec :=
    if script = ascii "milter-opendkim" ∨ name = ascii "milteropendkim" then
      setting (parseKeywords (contentOf m (((vars (ascii "cfgfile")).or (flag m args "-C")).getD
        (ascii "/usr/local/etc/opendkim.conf")))) (ascii "Socket") else none
  let rspamdSpec := if script = ascii "rspamd" ∨ name = ascii "rspamd" then m.rspamd else none
  ((enmaSpec.or clamavSpec).or opendkimSpec).or rspamdSpec

/-- `guess_spec` (rcng-detector.rb 139-152) -/
def freebsdSpec (m : Machine) (script name : Bytes) (vars other : Vars) (args : Option Bytes)
    (custom : Option (Option Bytes → Option Bytes)) : Option Bytes :=
  let spec :=
    (((((freebsdSpecial m script name vars other args).or (normalizeSpec (vars (ascii "socket")))).or
      (normalizeSpec (vars (ascii "sockfile")))).or (normalizeSpec (vars (ascii "connection_spec")))).or
      (flag m (vars (ascii "flags")) "-p")).or (flag m args "-p")
  match custom with
  | none => spec
  | some f => (normalizeSpec (f spec)).or spec

/-- what comes of a detection -/
inductive Outcome where
  | nothing
  | found (d : Detected)
  /-- an exception -/
  | raised
deriving DecidableEq

/-- `FreeBSDRCDetector` with `apply` (freebsd-rc-detector.rb 114-140, detector.rb 33-51): nothing if
there is no script or it sets no name.  For profiles of OpenDKIM another detector asks this one for
`rc_d` (171-173), which is private here (142-150): Ruby raises NoMethodError. -/
def freebsd (m : Machine) (script : Bytes) (custom : Option (Option Bytes → Option Bytes)) : Outcome :=
  match m.file (ascii "/usr/local/etc/rc.d/" ++ script) with
  | none => .nothing
  | some content =>
    match rcName content with
    | none => .nothing
    | some name =>
      let (vars, other, args) := rcRead m name content
      let profiles := (vars (ascii "profiles")).getD []
      if (script = ascii "milter-opendkim" ∨ name = ascii "milteropendkim") ∧ !profiles.all isBlank then .raised
      else
        .found
          { spec := (freebsdSpec m script name vars other args custom).map finish
            description := none
            enabled := isYes ((vars (ascii "enable")).getD (ascii "NO")) }

end Verif.Detector
