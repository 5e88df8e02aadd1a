import Verif.Manager.Shipped
/-
How the manager finds out where the milters of a system listen:
`binding/ruby/lib/milter/manager/detector.rb`, `init-detector.rb`, `redhat-init-detector.rb`,
`systemd-detector.rb`, `enma-socket-detector.rb`, `clamav-milter-config-parser.rb`,
`opendkim-config-parser.rb` and `milter-greylist-config-parser.rb`.

Regular expressions are written out as functions.  Simplifications: texts are ASCII as far as
`\b` is concerned; `Shellwords.split` (Ruby's library) and the question to rspamadm are parameters;
files are functions from paths to contents.
-/
namespace Verif.Detector
open Verif Verif.Conditions

/-- `String#each_line`: the lines with their line feeds -/
def eachLine : Bytes → List Bytes
  | [] => []
  | c :: s =>
    if c = 0x0a then [c] :: eachLine s
    else
      match eachLine s with
      | [] => [[c]]
      | l :: ls => (c :: l) :: ls

/-- `line.sub(/#.*/, '')` (detector.rb 164) -/
def uncomment (line : Bytes) : Bytes :=
  line.takeWhile (· ≠ 0x23) ++ (line.dropWhile (· ≠ 0x23)).dropWhile (· ≠ 0x0a)

/-- `[A-Za-z\d_]` or `[A-Z\d_]` (detector.rb 157-161) -/
def nameByte (lower : Bool) (c : UInt8) : Bool :=
  isDigit c || (0x41 ≤ c && c ≤ 0x5a) || c == 0x5f || (lower && (0x61 ≤ c && c ≤ 0x7a))

/-- `.*?"` after an opening quote: what is before the closing one -/
def closing (q : UInt8) (s : Bytes) : Option Bytes :=
  let t := s.takeWhile fun c => c ≠ q ∧ c ≠ 0x0a
  if (s.drop t.length).head? = some q then some t else none

/-- `(".*?"|'.*?'|\S*)` (detector.rb 158) -/
def value (s : Bytes) : Bytes :=
  match s.head? with
  | none => []
  | some q =>
    if q = 0x22 ∨ q = 0x27 then
      match closing q s.tail with
      | some t => q :: t ++ [q]
      | none => s.takeWhile (!isBlank ·)
    else s.takeWhile (!isBlank ·)

/-- the first match of `/\b([A-Za-z\d_]+)=(".*?"|'.*?'|\S*)/`; `word` if the byte before is one of a
word -/
def definition (lower word : Bool) : Bytes → Option (Bytes × Bytes)
  | [] => none
  | c :: s =>
    let name := (c :: s).takeWhile (nameByte lower)
    if word = false ∧ name ≠ [] ∧ ((c :: s).drop name.length).head? = some 0x3d then
      some (name, value ((c :: s).drop (name.length + 1)))
    else definition lower (isWordByte c) s

/-- `value.sub(/\A([\"\'])(.*)\1\z/, '\2')` (detector.rb 175) -/
def unquote (v : Bytes) : Bytes :=
  match v with
  | [] => []
  | q :: rest =>
    if (q = 0x22 ∨ q = 0x27) ∧ rest.getLast? = some q ∧ 0x0a ∉ rest.dropLast then rest.dropLast else v

/-- `/\A\$\d+\z/` (detector.rb 176) -/
def positional : Bytes → Bool
  | [] => false
  | c :: ds => c == 0x24 && ds ≠ [] && ds.all isDigit

/-- a match of `/\$(\{?)([a-zA-Z\d_]+)(\}?)/` after the dollar sign: what it is replaced with and how
many bytes after the dollar it takes (detector.rb 177-186) -/
def reference (lookup : Bytes → Option Bytes) (s : Bytes) : Option (Bytes × Nat) :=
  let left := s.head? = some 0x7b
  let after := if left then s.tail else s
  let name := after.takeWhile isWordByte
  let right := (after.drop name.length).head? = some 0x7d
  let n := (if left then 1 else 0) + name.length + (if right then 1 else 0)
  if name = [] then none
  else if decide left = decide right then some ((lookup name).getD (0x24 :: s.take n), n)
  else some (0x24 :: s.take n, n)

/-- `value.gsub(variable_expand_re)`; the number counts bytes that belong to a match -/
def expand (lookup : Bytes → Option Bytes) : Nat → Bytes → Bytes
  | _, [] => []
  | k + 1, _ :: s => expand lookup k s
  | 0, c :: s =>
    if c = 0x24 then
      match reference lookup s with
      | some (r, n) => r ++ expand lookup n s
      | none => c :: expand lookup 0 s
    else c :: expand lookup 0 s

/-- `@variables` -/
abbrev Vars := Bytes → Option Bytes

/-- `expand_variable` (detector.rb 189-195); `self` is `@name` -/
def lookup (self : Option Bytes) (vars : Vars) (name : Bytes) : Option Bytes :=
  if name = ascii "name" then self else vars name

/-- `normalize_variable_value` (detector.rb 174-187) -/
def normalize (self : Option Bytes) (vars : Vars) (v : Bytes) : Option Bytes :=
  let v := unquote v
  if positional v then none else some (expand (lookup self vars) 0 v)

/-- one turn of `extract_variables` (detector.rb 163-170) -/
def extractLine (lower : Bool) (self : Option Bytes) (vars : Vars) (line : Bytes) : Vars :=
  match definition lower false (uncomment line) with
  | none => vars
  | some (name, v) =>
    let new := (normalize self vars v).or (vars name)
    fun n => if n = name then new else vars n

/-- `extract_variables` (detector.rb 156-172); `@variables` is the output in all its uses -/
def extract (lower : Bool) (self : Option Bytes) (content : Bytes) (vars : Vars) : Vars :=
  (eachLine content).foldl (extractLine lower self) vars

/-- `shell_variable?` (detector.rb 209-211) -/
def shellVariable (s : Bytes) : Bool := s.head? = some 0x24

/-- the word after the last occurrence of an option: `options.rindex(option)` and
`options[option_index + 1]` (detector.rb 137-139); `none` if there is no such option -/
def afterLast (option : Bytes) : List Bytes → Option (Option Bytes)
  | [] => none
  | w :: ws =>
    match afterLast option ws with
    | some r => some r
    | none => if w = option then some ws.head? else none

/-- `extract_parameter_from_flags` (detector.rb 131-154) for flags split into words -/
def parameter (option : Bytes) (words : List Bytes) : Option Bytes :=
  match afterLast option words with
  | some p => p.filter (!shellVariable ·)
  | none =>
    words.foldl (fun found w =>
      if option.isPrefixOf w then
        let p := w.drop option.length
        let p := if p.head? = some 0x3d then p.tail else p
        if shellVariable p then found else some p
      else found) none

/-- `normalize_spec` (detector.rb 201-208) -/
def normalizeSpec (s : Option Bytes) : Option Bytes :=
  match s with
  | none => none
  | some s => if strip s = [] then none else some (strip s)

/-- `/\A\s*(\w+)(?:\s+(.+))?\s*\z/` on a line (clamav-milter-config-parser.rb 36-40,
opendkim-config-parser.rb 32-36): the keyword and the value -/
def keyword (line : Bytes) : Option (Bytes × Option Bytes) :=
  let r := line.dropWhile isBlank
  let w := r.takeWhile isWordByte
  let t := r.drop w.length
  if w = [] then none
  else if t.dropWhile isBlank = [] then
    -- only blanks: the greedy `\s+` leaves the last one to `.+`, if there are two before the line feed
    let v := t.takeWhile (· ≠ 0x0a)
    some (w, if 2 ≤ v.length then v.getLast?.map ([·]) else none)
  else if t.head?.any isBlank then some (w, some ((t.dropWhile isBlank).takeWhile (· ≠ 0x0a)))
  else none

/-- a configuration that has been read: `none` for keywords that do not occur, `some none` for those
without a value -/
abbrev Settings := Bytes → Option (Option Bytes)

/-- `parse` of both parsers -/
def parseKeywords (content : Bytes) : Settings :=
  (eachLine content).foldl (fun m line =>
    match keyword line with
    | none => m
    | some (k, v) => fun n => if n = k then some v else m n) fun _ => none

/-- `socket` and `milter_socket` -/
def setting (m : Settings) (key : Bytes) : Option Bytes := (m key).join

/-- `/\A\s*milter\.socket\s*:\s*(.+)/` (enma-socket-detector.rb 29-33) -/
def enmaLine (line : Bytes) : Option Bytes :=
  let r := line.dropWhile isBlank
  if (ascii "milter.socket").isPrefixOf r then
    let t := (r.drop (ascii "milter.socket").length).dropWhile isBlank
    if t.head? = some 0x3a then
      let u := t.tail.dropWhile isBlank
      if u ≠ [] then some (u.takeWhile (· ≠ 0x0a))
      else
        -- only blanks follow: the greedy `\s*` leaves the last one before the line feed to `.+`
        (t.tail.takeWhile (· ≠ 0x0a)).getLast?.map ([·])
    else none
  else none

/-- `EnmaSocketDetector#detect` -/
def enma (content : Bytes) : Option Bytes :=
  (eachLine content).foldl (fun spec line => (enmaLine line).or spec) none

/-! ### milter-greylist -/

/-- `String#chomp` -/
def chomp (s : Bytes) : Bytes :=
  match s.getLast? with
  | some c =>
    if c = 0x0a then (if s.dropLast.getLast? = some 0x0d then s.dropLast.dropLast else s.dropLast)
    else if c = 0x0d then s.dropLast else s
  | none => s

/-- `String#rstrip` -/
def rstrip (s : Bytes) : Bytes := (lstrip s.reverse).reverse

/-- `normalize_lines` (milter-greylist-config-parser.rb 61-80); the flag is `continued_line` -/
def normalizeLines : Bool → List Bytes → List Bytes → List Bytes
  | _, lines, [] => lines
  | continued, lines, l :: ls =>
    if (l.dropWhile isBlank).head? = some 0x23 then normalizeLines false lines ls
    else
      let joined := if continued then rstrip (lines.getLast?.getD []) ++ [0x20] ++ l else l
      let kept := if continued then lines.dropLast else lines
      normalizeLines (joined.getLast? = some 0x5c) (kept ++ [joined]) ls

/-- `/\A\s*r?acl\s+/` and `/\A\s*d?acl\s+/`: what comes after (lines 41-45) -/
def acl (letter : UInt8) (line : Bytes) : Option Bytes :=
  let r := line.dropWhile isBlank
  let r := if r.head? = some letter then r.tail else r
  if (ascii "acl").isPrefixOf r then
    let t := r.drop 3
    if t.head?.any isBlank then some (t.dropWhile isBlank) else none
  else none

/-- `resolve_time` (89-102) -/
def resolveTime (n : Nat) (unit : Option UInt8) : Nat :=
  match unit with
  | some c =>
    if c = 0x6d then n * 60
    else if c = 0x68 then n * 60 * 60
    else if c = 0x64 then n * 60 * 60 * 24
    else if c = 0x77 then n * 60 * 60 * 24 * 7
    else n
  | none => n

/-- `[smhdw]` -/
def unitByte (c : UInt8) : Bool := c == 0x73 || c == 0x6d || c == 0x68 || c == 0x64 || c == 0x77

/-- `tarpit\s+(\d+)([smhdw]?)\b` here -/
def tarpitHere (s : Bytes) : Option Nat :=
  if (ascii "tarpit").isPrefixOf s then
    let t := s.drop 6
    if t.head?.any isBlank then
      let u := t.dropWhile isBlank
      let ds := u.takeWhile isDigit
      let rest := u.drop ds.length
      if ds = [] then none
      else
        match rest with
        | c :: rest' =>
          if unitByte c then (if rest'.head?.any isWordByte then none else some (resolveTime (toI ds) (some c)))
          else if isWordByte c then none
          else some (resolveTime (toI ds) none)
        | [] => some (resolveTime (toI ds) none)
    else none
  else none

/-- the first match of `/\btarpit\s+(\d+)([smhdw]?)\b/` (82-87) -/
def tarpit (word : Bool) : Bytes → Option Nat
  | [] => none
  | c :: s =>
    match (if word then none else tarpitHere (c :: s)) with
    | some n => some n
    | none => tarpit (isWordByte c) s

/-- a value in quotes: `"(.+?)"\s*\z`, or `"(.+?)"\s*(\d+)\z` if `mode` (46-49); the argument is what
follows the opening quote, the first one is what has been taken -/
def quotedValue (mode : Bool) : Bytes → Bytes → Option Bytes
  | _, [] => none
  | taken, c :: s =>
    let r := s.dropWhile isBlank
    if c = 0x22 ∧ taken ≠ [] ∧ (if mode then r ≠ [] ∧ r.all isDigit = true else r = []) then some taken
    else if c = 0x0a then none
    else quotedValue mode (taken ++ [c]) s

/-- a line that is no acl: `([\w_]+)\s+` and what follows (46-52).  The access mode is not kept. -/
def greylistVariable (line : Bytes) : Option (Bytes × Bytes) :=
  let r := line.dropWhile isBlank
  let w := r.takeWhile isWordByte
  let t := r.drop w.length
  if w = [] ∨ !t.head?.any isBlank then none
  else
    let v := t.dropWhile isBlank
    if v.head? = some 0x22 then
      match quotedValue false [] v.tail with
      | some x => some (w, x)
      | none =>
        match quotedValue true [] v.tail with
        | some x => some (w, x)
        | none => some (w, v)
    else some (w, v)

structure Greylist where
  variables : Bytes → Option Bytes := fun _ => none
  maxTarpit : Option Nat := none

/-- one turn of `parse` (39-53) -/
def Greylist.line (g : Greylist) (line : Bytes) : Greylist :=
  let line := chomp line
  match acl 0x72 line with
  | some a =>
    match tarpit false a with
    | some n => { g with maxTarpit := some (max (g.maxTarpit.getD 0) n) }
    | none => g
  | none =>
    match acl 0x64 line with
    | some _ => g
    | none =>
      match greylistVariable line with
      | some (k, v) => { g with variables := fun n => if n = k then some v else g.variables n }
      | none => g

/-- `MilterGreylistConfigParser#parse` -/
def parseGreylist (content : Bytes) : Greylist :=
  (normalizeLines false [] (eachLine content)).foldl Greylist.line {}

/-- `socket` (29-35) -/
def Greylist.socket (g : Greylist) : Option Bytes := g.variables (ascii "socket")

/-- `apply` (56-61): a timeout of the milter -/
def Greylist.extend (g : Greylist) (timeout : Nat) : Nat := timeout + g.maxTarpit.getD 0

/-! ### the connection spec -/

/-- `spec.gsub(/\A(?:(unix|local):)+/, '\\1:')` (detector.rb 43); the first argument is the last
prefix that was passed -/
def collapse : Option Bytes → Bytes → Bytes
  | _, 0x75 :: 0x6e :: 0x69 :: 0x78 :: 0x3a :: rest => collapse (some (ascii "unix:")) rest
  | _, 0x6c :: 0x6f :: 0x63 :: 0x61 :: 0x6c :: 0x3a :: rest => collapse (some (ascii "local:")) rest
  | last, s => last.getD [] ++ s

/-- what `apply` (detector.rb 41-44) makes of the detected spec -/
def finish (spec : Bytes) : Bytes :=
  collapse none (if spec.head? = some 0x2f then ascii "unix:" ++ spec else spec)

/-- what is on the machine: the readable files, and what is asked of other programs -/
structure Machine where
  file : Bytes → Option Bytes
  /-- `Shellwords.split` -/
  words : Bytes → List Bytes
  /-- `RspamdProxyDetector#detect` -/
  rspamd : Option Bytes := none

def contentOf (m : Machine) (path : Bytes) : Bytes := (m.file path).getD []

/-- `extract_parameter_from_flags` -/
def flag (m : Machine) (flags : Option Bytes) (option : String) : Option Bytes :=
  flags.bind fun f => parameter (ascii option) (m.words f)

/-- `guess_spec` of redhat-init-detector.rb 138-173; `config` is `@info["config"]`, `custom` the
`@connection_spec_detector` of the configuration -/
def redhatSpec (m : Machine) (script : Bytes) (vars : Vars) (config : Option Bytes)
    (custom : Option (Option Bytes → Option Bytes)) : Option Bytes :=
  let enmaSpec :=
    if script = ascii "enma" then enma (contentOf m ((vars (ascii "CONF_FILE")).getD (ascii "/etc/enma.conf"))) else none
  let clamavConf :=
    ((flag m (vars (ascii "CLAMAV_FLAGS")) "--config-file").or (flag m (vars (ascii "CLAMAV_FLAGS")) "-c")).getD
      (ascii "/etc/clamav-milter.conf")
  let clamavSpec :=
    if script = ascii "clamav-milter" ∧ vars (ascii "SOCKET_ADDRESS") = none then
      setting (parseKeywords (contentOf m clamavConf)) (ascii "MilterSocket")
    else none
  let opendkimSpec :=
    if script = ascii "opendkim" then
      setting (parseKeywords (contentOf m ((vars (ascii "CONFIG")).getD (ascii "/etc/opendkim.conf")))) (ascii "Socket")
    else none
  let rspamdSpec := if script = ascii "rspamd" then m.rspamd else none
  let greylistConf := ((flag m (vars (ascii "OPTIONS")) "-f").or config).getD (ascii "/etc/mail/greylist.conf")
  let greylistSpec :=
    if script = ascii "milter-greylist" then (parseGreylist (contentOf m greylistConf)).socket else none
  let spec :=
    (((((((((enmaSpec.or clamavSpec).or opendkimSpec).or rspamdSpec).or (normalizeSpec (vars (ascii "SOCKET")))).or
      (normalizeSpec (vars (ascii "SOCKET_ADDRESS")))).or (normalizeSpec (vars (ascii "MILTER_SOCKET")))).or
      (normalizeSpec (vars (ascii "CONNECTION_SPEC")))).or (flag m (vars (ascii "OPTIONS")) "-p")).or greylistSpec)
  match custom with
  | none => spec
  | some f => (normalizeSpec (f spec)).or spec

/-- `RedHatInitDetector`: the init script and the file in /etc/sysconfig are read (72-84, 116-123),
then the spec is what `apply` gives the milter -/
def redhat (m : Machine) (script : Bytes) (config : Option Bytes) (custom : Option (Option Bytes → Option Bytes)) :
    Option Bytes :=
  match m.file (ascii "/etc/init.d/" ++ script) with
  | none => none
  | some init =>
    let vars := extract true none init fun _ => none
    let vars :=
      match m.file (ascii "/etc/sysconfig/" ++ script) with
      | none => vars
      | some c => extract true (some script) c vars
    (redhatSpec m script vars config custom).map finish

end Verif.Detector
