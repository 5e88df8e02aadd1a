import Verif.Tool.TestServer
/-
What milter-test-server prints in the end (tool/milter-test-server.c:1977-2308), and what the Ruby class that runs it makes of that: binding/ruby/lib/milter/server/testing.rb.

Left out: how the tool is found and started (42-61; options are passed on as they are), colours (they are turned off), `g_print`'s conversion to the character set of the locale and that of a body whose header names
a character set.  `elapsed-time` is a text.
-/
namespace Verif.Testing
open Verif Verif.TestServer

/-! ### What is printed -/

/-- `g_strsplit(text, "\n", -1)`: no lines for the empty text -/
def splitLines (text : Bytes) : List Bytes :=
  if text = [] then [] else text.foldr (fun b ls => match ls with
    | l :: ls => if b = 0x0a then [] :: l :: ls else (b :: l) :: ls
    | [] => []) [[]]

/-- the prefixes of lines -/
def markByte : Mark → UInt8
  | .same => 0x20
  | .minus => 0x2d
  | .plus => 0x2b

/-- `print_envelope_item`, milter-test-server.c:1977-1998 -/
def envelopeItem (label : Bytes) (x : Mark × Bytes) : Bytes := markByte x.1 :: 0x20 :: (label ++ 0x3a :: x.2 ++ [0x0a])

/-- the lines of `print_header`, milter-test-server.c:2066-2110, without the prefix -/
def headerLines (name value : Bytes) : List Bytes :=
  match splitLines value with
  | [] => [name ++ [0x3a]]
  | l :: ls => (name ++ [0x3a, 0x20] ++ l) :: ls

/-- `print_header`; a header without a value crashes: `g_strsplit(NULL, …)` returns NULL, which line 2086 reads -/
def header (x : Mark × Header) : Option Bytes :=
  x.2.value.map fun value => (headerLines x.2.name value).flatMap fun l => markByte x.1 :: 0x20 :: l ++ [0x0a]

/-- all headers -/
def headers : List (Mark × Header) → Option Bytes
  | [] => some []
  | x :: xs => (header x).bind fun a => (headers xs).map fun b => a ++ b

/-- what the tool knows in the end -/
structure Ended where
  /-- the name of the status -/
  status : Bytes
  /-- code, extended code and message of the reply, as texts -/
  reply : Option (Bytes × Bytes × Bytes) := none
  elapsed : Bytes
  quarantine : Option Bytes := none
  /-- before and after -/
  sender : Bytes × Bytes
  recipients : List Bytes × List Bytes
  headers : List Header × List Header
  body : Bytes × Bytes

/-- `print_status`, milter-test-server.c:2278-2287, without the end of the line -/
def statusText (e : Ended) : Bytes :=
  e.status ++ match e.reply with
    | some (code, ext, message) => ascii " [" ++ code ++ ascii "]<" ++ ext ++ ascii ">(" ++ message ++ ascii ")"
    | none => []

/-- `print_result` with `--output-message`, milter-test-server.c:2290-2308; the body ends at its first NUL.  `none`: it crashes. -/
def printed (e : Ended) : Option Bytes :=
  (headers (diffHeaders e.headers.1 e.headers.2)).map fun hs =>
    (ascii "status: " ++ statusText e ++ [0x0a]) ++
    (ascii "elapsed-time: " ++ e.elapsed ++ ascii " seconds" ++ [0x0a]) ++
    (match e.quarantine with
      | some reason => ascii "Quarantine reason: <" ++ reason ++ ascii ">" ++ [0x0a]
      | none => []) ++
    [0x0a] ++
    (ascii "Envelope:------------------------------" ++ [0x0a]) ++
    (diffFrom e.sender.1 e.sender.2).flatMap (envelopeItem (ascii "MAIL FROM")) ++
    (diffRecipients e.recipients.1 e.recipients.2).flatMap (envelopeItem (ascii "RCPT TO")) ++
    (ascii "Header:--------------------------------" ++ [0x0a]) ++
    hs ++
    (ascii "Body:----------------------------------" ++ [0x0a]) ++
    ((shownBody e.body.1 e.body.2).takeWhile (· ≠ 0) ++ [0x0a])

/-! ### What is read -/

/-- the lines `gets` reads, with their ends -/
def lines : Bytes → List Bytes
  | [] => []
  | b :: bs => if b = 0x0a then [b] :: lines bs else match lines bs with
    | l :: ls => (b :: l) :: ls
    | [] => [[b]]

/-- white space for `strip` -/
def white (b : UInt8) : Bool := b == 0 || b == 0x20 || (0x09 ≤ b && b ≤ 0x0d)

/-- `\s` -/
def space (b : UInt8) : Bool := b == 0x20 || (0x09 ≤ b && b ≤ 0x0d)

/-- `lstrip` -/
def lstrip (s : Bytes) : Bytes := s.dropWhile white

/-- `strip` -/
def strip (s : Bytes) : Bytes := ((lstrip s).reverse.dropWhile white).reverse

/-- `chomp`: "\r\n", "\n" or "\r" at the end -/
def chomp (s : Bytes) : Bytes :=
  match s.reverse with
  | [] => s
  | a :: r =>
    if a = 0x0a then (if r.head? = some 0x0d then (r.drop 1).reverse else r.reverse)
    else if a = 0x0d then r.reverse else s

/-- `split(/: /, 2)[1]` -/
def afterColon : Bytes → Option Bytes
  | [] => none
  | a :: r => if a = 0x3a ∧ r.head? = some 0x20 then some (r.drop 1) else afterColon r

/-- `split(/:/, 2)`: what comes before and after the first colon -/
def atColon (s : Bytes) : Option Bytes × Option Bytes :=
  if s = [] then (none, none)
  else if 0x3a ∈ s then (some (s.takeWhile (· ≠ 0x3a)), some ((s.dropWhile (· ≠ 0x3a)).drop 1))
  else (some s, none)

/-- `split[0]` -/
def firstWord (s : Bytes) : Option Bytes :=
  match (s.dropWhile white).takeWhile (fun b => !white b) with
  | [] => none
  | w => some w

/-- `TestServerResult`, testing.rb:104-116 -/
structure Result where
  status : Option Bytes := none
  elapsed : Option Bytes := none
  sender : Option Bytes := none
  recipients : List (Option Bytes) := []
  headers : List (Option Bytes × Option Bytes) := []
  body : Bytes := []
deriving DecidableEq, Repr

/-- `mode` -/
inductive Mode where
  | none_ | envelope | headers
deriving DecidableEq, Repr

/-- a line of the envelope, testing.rb:86-93 -/
def envelopeLine (r : Result) (line : Bytes) : Result :=
  if line.head? = some 0x2d then r
  else
    let t := atColon (strip (line.drop 1))
    if t.1 = some (ascii "MAIL FROM") then { r with sender := t.2 }
    else if t.1 = some (ascii "RCPT TO") then { r with recipients := r.recipients ++ [t.2] }
    else r

/-- a line of the headers, testing.rb:95-96: `split(/:\s*/, 2)` -/
def headerLine (r : Result) (line : Bytes) : Result :=
  let t := atColon (lstrip (chomp line))
  { r with headers := r.headers ++ [(t.1, t.2.map (·.dropWhile space))] }

/-- the loop over the lines and what comes after it, testing.rb:74-101 -/
def loop (r : Result) : Mode → List Bytes → Result
  | _, [] => { r with body := [] }
  | mode, line :: rest =>
    if (ascii "Envelope:").isPrefixOf line then loop r .envelope rest
    else if (ascii "Header:").isPrefixOf line then loop r .headers rest
    else if (ascii "Body:").isPrefixOf line then { r with body := rest.flatten }
    else match mode with
      | .none_ => loop r .none_ rest
      | .envelope => loop (envelopeLine r line) .envelope rest
      | .headers => loop (headerLine r line) .headers rest

/-- `parse`, testing.rb:63-102; `none`: it raises (`nil` has no `chomp` and no `split`) -/
def parse (output : Bytes) : Option Result :=
  match lines output with
  | first :: second :: rest =>
    (afterColon second).map fun time => loop { status := afterColon (chomp first), elapsed := firstWord time } .none_ (rest.drop 1)
  | _ => none

end Verif.Testing
