import Verif.Core.Text
/-
Formatting of custom SMTP replies, core/milter-utils.c:376-413.
-/
namespace Verif.ReplyCode
open Verif

/-- core/milter-utils.c:401-406: a trailing CR of the line is dropped; a line that is
non-empty before that is preceded by a blank. -/
def stripCR (l : Bytes) : Bytes := if l.getLast? = some 0x0d then l.dropLast else l

/-- one line of the reply, core/milter-utils.c:397-406 -/
def formatLine (code : Nat) (ext : Option Bytes) (l : Bytes) : Bytes :=
  decimal3 code ++ (match ext with | none => [] | some e => 0x20 :: e) ++
    (if l = [] then [] else 0x20 :: stripCR l)

/-- `milter_utils_format_reply_code`, core/milter-utils.c:376-413. -/
def format (code : Nat) (ext msg : Option Bytes) : Option Bytes :=
  if code = 0 then none
  else some (joinWith [0x0d, 0x0a]
    ((strsplit 0x0a (msg.getD [0x0a])).map (formatLine code ext)))

end Verif.ReplyCode
