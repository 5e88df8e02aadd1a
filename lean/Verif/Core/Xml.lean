import Verif.Core.Text
/-
Writing XML: `milter/core/milter-utils.c` 658-706 (indentation and text elements) and
`g_markup_escape_text` of GLib, whose contract is written down here byte by byte (GLib is not
part of the repository).
-/
namespace Verif.Xml

/-- a digit of `%x` -/
def hexDigit (n : UInt8) : UInt8 := if n < 10 then 0x30 + n else 0x57 + n

/-- `%x` of a number below 256 -/
def hex (c : UInt8) : Bytes := if c < 16 then [hexDigit c] else [hexDigit (c / 16), hexDigit (c % 16)]

/-- `&#x%x;` -/
def charRef (c : UInt8) : Bytes := ascii "&#x" ++ hex c ++ ascii ";"

/-- `g_markup_escape_text`: a byte on its own -/
def escapeByte (c : UInt8) : Bytes :=
  if c = 0x26 then ascii "&amp;"
  else if c = 0x3c then ascii "&lt;"
  else if c = 0x3e then ascii "&gt;"
  else if c = 0x27 then ascii "&apos;"
  else if c = 0x22 then ascii "&quot;"
  else if (1 ≤ c && c ≤ 8) || (0xb ≤ c && c ≤ 0xc) || (0xe ≤ c && c ≤ 0x1f) || c = 0x7f then charRef c
  else [c]

/-- the second byte of a control character of the C1 block that is escaped (U+0080 to U+0084
and U+0086 to U+009F) -/
def c1 (c : UInt8) : Bool := (0x80 ≤ c && c ≤ 0x84) || (0x86 ≤ c && c ≤ 0x9f)

/-- `g_markup_escape_text` -/
def escape : Bytes → Bytes
  | [] => []
  | [c] => escapeByte c
  | c :: d :: r => if c = 0xc2 && c1 d then charRef d ++ escape r else escapeByte c ++ escape (d :: r)

/-- `milter_utils_append_indent` (658-665) -/
def indent (n : Nat) : Bytes := List.replicate n 0x20

/-- `milter_utils_xml_append_text_element` (667-678): what it appends -/
def textElement (name content : Bytes) (n : Nat) : Bytes :=
  indent n ++ (0x3c :: name ++ [0x3e]) ++ escape content ++ (0x3c :: 0x2f :: name ++ [0x3e]) ++ [0x0a]

/-- `milter_utils_xml_append_boolean_element` (680-689) -/
def booleanElement (name : Bytes) (b : Bool) (n : Nat) : Bytes :=
  textElement name (if b then ascii "true" else ascii "false") n

/-- a start tag on a line of its own, as in configuration.c 2184-2185 -/
def openLine (name : Bytes) (n : Nat) : Bytes := indent n ++ (0x3c :: name ++ [0x3e]) ++ [0x0a]

/-- an end tag on a line of its own, as in configuration.c 2248-2249 -/
def closeLine (name : Bytes) (n : Nat) : Bytes := indent n ++ (0x3c :: 0x2f :: name ++ [0x3e]) ++ [0x0a]

end Verif.Xml
