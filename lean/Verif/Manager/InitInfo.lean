import Verif.Manager.DetectorRc
/-
The comments at the head of an init script: `binding/ruby/lib/milter/manager/init-detector.rb` 54-75, read by
`redhat-init-detector.rb` 72-120 and `debian-init-detector.rb` 55-65.

Regular expressions are written out as functions on the lines of the text.  Where Ruby raises an exception the result is
`none`.
-/
namespace Verif.Detector
open Verif Verif.Conditions

/-- `content.split(/^[^#]/)[0] || ''` (init-detector.rb 56): the lines up to the first one that does not begin with `#` -/
def firstBlock (content : Bytes) : Bytes :=
  ((eachLine content).takeWhile fun l => l.head? = some 0x23).flatten

def beginLine : Bytes := ascii "### BEGIN INIT INFO\n"

def endMark : Bytes := ascii "### END INIT INFO"

/-- a line that `\n### END INIT INFO$` matches -/
def isEnd (l : Bytes) : Bool := l == endMark ++ [0x0a] || l == endMark

/-- `split(INIT_INFO_BLOCK_RE, 2)` (init-detector.rb 54, 57-59): what is before, in and after the block.  It begins at the
first line that says so and ends at the last one (`.+` is greedy) -/
def metaBlocks (block : Bytes) : Bytes × Option Bytes × Bytes :=
  let ls := eachLine block
  let before := ls.takeWhile (· ≠ beginLine)
  match ls.drop before.length with
  | [] => (block, none, [])
  | _ :: m =>
    let after := (m.reverse.takeWhile (!isEnd ·)).reverse
    match m.reverse.dropWhile (!isEnd ·) with
    | [] => (block, none, [])
    | e :: body =>
      if body = [] then (block, none, [])
      else (before.flatten, some body.reverse.flatten.dropLast, e.drop endMark.length ++ after.flatten)

/-- `gsub(/^# /, '')` -/
def withoutMarks (s : Bytes) : Bytes :=
  ((eachLine s).map fun l => if (ascii "# ").isPrefixOf l then l.drop 2 else l).flatten

/-- `[a-zA-Z\-]` -/
def isKeyByte (c : UInt8) : Bool := (0x41 ≤ c && c ≤ 0x5a) || (0x61 ≤ c && c ≤ 0x7a) || c == 0x2d

/-- `/([a-zA-Z\-]+):\s* /m` at the beginning of `s`: the keyword and what comes after the match -/
def keyHere (s : Bytes) : Option (Bytes × Bytes) :=
  let k := s.takeWhile isKeyByte
  if k ≠ [] ∧ (s.drop k.length).head? = some 0x3a then some (k, (s.drop (k.length + 1)).dropWhile isBlank) else none

/-- the first match: what is before it, the keyword and what comes after -/
def nextKey : Bytes → Option (Bytes × Bytes × Bytes)
  | [] => none
  | c :: s =>
    match keyHere (c :: s) with
    | some (k, r) => some ([], k, r)
    | none => (nextKey s).map fun x => (c :: x.1, x.2)

/-- the keywords and the texts between them, beginning after the keyword `k`; the number is not reached -/
def fieldsAfter : Nat → Bytes → Bytes → List (Bytes × Bytes)
  | 0, _, _ => []
  | n + 1, k, s =>
    match nextKey s with
    | none => [(k, s)]
    | some (v, k', r) => (k, v) :: fieldsAfter n k' r

/-- `gsub(/\s*\n\s* /, ' ')`; the first argument are the blanks that have been seen -/
def unfoldLines (blanks : Bytes) : Bytes → Bytes
  | [] => if 0x0a ∈ blanks then [0x20] else blanks
  | c :: s =>
    if isBlank c then unfoldLines (blanks ++ [c]) s
    else (if 0x0a ∈ blanks then [0x20] else blanks) ++ c :: unfoldLines [] s

/-- the keywords with the texts after them: `split(…)[1..-1]` -/
def fields (s : Bytes) : List (Bytes × Bytes) :=
  match nextKey s with
  | none => []
  | some (_, k, r) => fieldsAfter (r.length + 1) k r

/-- `parse_init_info` (init-detector.rb 63-69): the entries in the order in which they are stored.  An empty text is
split into nothing, and `[][1..-1].size` raises an exception -/
def initInfo (info : Bytes) : Option (List (Bytes × Bytes)) :=
  if withoutMarks info = [] then none
  else some ((fields (withoutMarks info)).map fun kv => (kv.1, strip (unfoldLines [] kv.2)))

/-- `@info[key] = value` -/
def Info.set (info : Info) (key value : Bytes) : Info := fun k => if k = key then some value else info k

def Info.setAll (info : Info) (entries : List (Bytes × Bytes)) : Info := entries.foldl (fun i kv => i.set kv.1 kv.2) info

/-- the tags of redhat-init-detector.rb 97 -/
def tags : List Bytes := ["chkconfig", "processname", "config", "pidfile", "probe"].map ascii

/-- `/\Atag:\s* /`: what comes after -/
def afterTag (tag line : Bytes) : Option Bytes :=
  if (tag ++ [0x3a]).isPrefixOf line then some ((line.drop (tag.length + 1)).dropWhile isBlank) else none

/-- `/\\\z/` -/
def continues (v : Bytes) : Bool := v.getLast? = some 0x5c

/-- `normalize_description` (redhat-init-detector.rb 108-115) -/
def normalizeDescription (v : Bytes) : Bytes := if continues (strip v) then (strip v).dropLast else strip v

/-- a line in `parse_tag_block` (redhat-init-detector.rb 88-105); the flag is `description_continue` -/
def tagLine (x : Bool × Info) (line : Bytes) : Bool × Info :=
  let description := ascii "description"
  if x.1 then (continues (strip line), x.2.set description ((x.2 description).getD [] ++ normalizeDescription (strip line)))
  else
    match tags.findSome? fun t => (afterTag t line).map fun v => (t, v) with
    | some (t, v) => (false, x.2.set t (strip v))
    | none =>
      match afterTag description line with
      | some v => (continues (strip v), x.2.set description (normalizeDescription (strip v)))
      | none => (false, x.2)

/-- `parse_tag_block` -/
def tagBlock (info : Info) (block : Bytes) : Info := ((eachLine (withoutMarks block)).foldl tagLine (false, info)).2

/-- `parse_init_info(init_info_content) if init_info_content` -/
def Info.read (info : Info) (block : Option Bytes) : Option Info :=
  match block with
  | none => some info
  | some b => (initInfo b).map info.setAll

/-- `@info` on Debian (debian-init-detector.rb 55-59) -/
def debianInfo (init : Bytes) : Option Info :=
  Info.read (fun _ => none) (metaBlocks (firstBlock (withoutShebang init))).2.1

/-- `@info` on Red Hat (redhat-init-detector.rb 72-78) -/
def redhatInfo (init : Bytes) : Option Info :=
  let b := metaBlocks (firstBlock init)
  (Info.read (tagBlock (fun _ => none) b.1) b.2.1).map fun info => tagBlock info b.2.2

/-- `DebianInitDetector` with the comments read; an exception is `none` -/
def debianRead (m : Machine) (script : Bytes) (custom : Option (Option Bytes → Option Bytes)) : Option (Option Detected) :=
  match m.file (ascii "/etc/init.d/" ++ script) with
  | none => some none
  | some init => (debianInfo init).map fun info => debian m script info custom

/-- `RedHatInitDetector` with the comments read; an exception is `none` -/
def redhatRead (m : Machine) (script : Bytes) (custom : Option (Option Bytes → Option Bytes)) : Option (Option Bytes) :=
  match m.file (ascii "/etc/init.d/" ++ script) with
  | none => some none
  | some init => (redhatInfo init).map fun info => redhat m script (info (ascii "config")) custom

end Verif.Detector
