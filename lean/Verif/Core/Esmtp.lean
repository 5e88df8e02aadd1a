import Verif.Core.Bytes
import Verif.Core.Text
/-
ESMTP arguments: `milter/core/milter-esmtp.c`.

The parsers of the C code take the argument and an index and return how far they got.  Here
a parser takes the memory from the index on - the argument bytes, then the NUL - and returns
the memory after the parsed part.  Reading past the NUL is `ub`.  Error texts are not
modelled.  The out parameters `path` and `parameters` are taken as non-NULL.
-/
namespace Verif.Esmtp

/-- `g_ascii_isalnum` -/
def isAlnum (c : UInt8) : Bool :=
  (0x30 ≤ c && c ≤ 0x39) || (0x41 ≤ c && c ≤ 0x5a) || (0x61 ≤ c && c ≤ 0x7a)

/-- `g_ascii_isspace`: tab, line feed, form feed, carriage return, space -/
def isSpace (c : UInt8) : Bool := c == 9 || c == 10 || c == 12 || c == 13 || c == 32

/-- `g_ascii_iscntrl`; true for NUL -/
def isCntrl (c : UInt8) : Bool := c ≤ 0x1f || c == 0x7f

/-- `g_ascii_isgraph` -/
def isGraph (c : UInt8) : Bool := 0x21 ≤ c && c ≤ 0x7e

/-- `IS_ATOM_TEXT` (49-60) -/
def isAtomText (c : UInt8) : Bool :=
  isAlnum c || c == 0x21 || (0x23 ≤ c && c ≤ 0x27) || c == 0x2a || c == 0x2b || c == 0x2d ||
  c == 0x2f || c == 0x3d || c == 0x3f || (0x5e ≤ c && c ≤ 0x60) || (0x7b ≤ c && c ≤ 0x7e)

/-- `IS_TEXT` (71-75); bytes above 127 are negative `gchar`s -/
def isText (c : UInt8) : Bool :=
  (1 ≤ c && c ≤ 9) || c == 11 || c == 12 || (14 ≤ c && c ≤ 126)

/-- the loops over a domain literal (111-132) and over a quoted local part (189-208): up to
the byte that ends the loop -/
def litLoop (stop : UInt8 → Bool) : Bytes → HRes Bytes
  | [] => .ub
  | c :: s =>
    if stop c then .ok (c :: s)
    else if c = 0x5c then
      match s with
      | [] => .ub
      | d :: s' => if isText d then litLoop stop s' else .fail
    else if isSpace c then .ok (c :: s)
    else if isCntrl c || isGraph c then litLoop stop s
    else .ok (c :: s)

/-- the byte after a literal must be the terminator (133-136, 209-212) -/
def expect (t : UInt8) : Bytes → HRes Bytes
  | [] => .ub
  | c :: s => if c = t then .ok s else .fail

/-- a `while` loop that skips bytes of a class -/
def skip (p : UInt8 → Bool) (s : Bytes) : Bytes := s.dropWhile p

/-- the bytes the two nested loops of an unquoted domain skip (142-147): after the first
byte, letters, digits, hyphens and dots -/
def isDomainChar (c : UInt8) : Bool := isAlnum c || c == 0x2d || c == 0x2e

/-- `parse_domain` (102-153) -/
def parseDomain : Bytes → HRes Bytes
  | [] => .ub
  | c :: s =>
    if c = 0x5b then
      match litLoop (fun x => x == 0x5b || x == 0x5d) s with
      | .ok r => expect 0x5d r
      | .fail => .fail
      | .ub => .ub
    else if isAlnum c then .ok (skip isDomainChar s)
    else .fail

/-- `parse_source_route` (155-178), from the point where the next '@' may stand; `fuel`
bounds the number of domains (the length of the memory suffices) -/
def routeLoop : Nat → Bytes → HRes Bytes
  | 0, _ => .ub
  | _, [] => .ub
  | n + 1, c :: s =>
    if c ≠ 0x40 then .ok (c :: s)
    else match parseDomain s with
      | .fail => .fail
      | .ub => .ub
      | .ok [] => .ub
      | .ok (d :: r) => if d = 0x2c then routeLoop n r else .ok (d :: r)

/-- `parse_local_part` (180-227).  The loops of the unquoted case (215-222) skip atom
characters and dots. -/
def parseLocal : Bytes → HRes Bytes
  | [] => .ub
  | c :: s =>
    if c = 0x22 then
      match litLoop (fun x => x == 0x22) s with
      | .ok r => expect 0x22 r
      | .fail => .fail
      | .ub => .ub
    else .ok (skip (fun x => isAtomText x || x == 0x2e) (c :: s))

/-- `parse_mailbox` (229-255) -/
def parseMailbox (s : Bytes) : HRes Bytes :=
  match parseLocal s with
  | .fail => .fail
  | .ub => .ub
  | .ok r => match expect 0x40 r with
    | .fail => .fail
    | .ub => .ub
    | .ok [] => .ub
    | .ok (c :: d) =>
      if c = 0 then .fail
      else match d with
        | [] => .ub
        | e :: _ => if e = 0 then .fail else parseDomain (c :: d)

/-- "<Postmaster>" -/
def postmaster : Bytes := [0x3c, 0x50, 0x6f, 0x73, 0x74, 0x6d, 0x61, 0x73, 0x74, 0x65, 0x72, 0x3e]

/-- source route, mailbox and '>' of `parse_path` (278-307), after the '<' -/
def parsePathBody (s : Bytes) : HRes Bytes :=
  match routeLoop (s.length + 1) s with
  | .fail => .fail
  | .ub => .ub
  | .ok r =>
    -- a source route of length 0 is followed by the mailbox at once
    if r.length = s.length then
      match parseMailbox r with
      | .fail => .fail
      | .ub => .ub
      | .ok m => expect 0x3e m
    else match expect 0x3a r with
      | .fail => .fail
      | .ub => .ub
      | .ok r => match parseMailbox r with
        | .fail => .fail
        | .ub => .ub
        | .ok m => expect 0x3e m

/-- `parse_path` (257-312) for memory that starts with '<': the path (`none` is the NULL
left for "<>") and the rest -/
def parsePath (acceptPostmaster : Bool) (mem : Bytes) : HRes (Option Bytes × Bytes) :=
  match mem with
  | [] => .ub
  | _ :: s => match s with
    | [] => .ub
    | c :: s' =>
      if c = 0x3e then .ok (none, s')
      else if acceptPostmaster && postmaster.isPrefixOf mem then
        .ok (some postmaster, mem.drop postmaster.length)
      else match parsePathBody s with
        | .fail => .fail
        | .ub => .ub
        | .ok r => .ok (some (mem.take (mem.length - r.length)), r)

/-- bytes of a keyword after the first (340) -/
def isKeyChar (c : UInt8) : Bool := isAlnum c || c == 0x2d

/-- bytes of a value (349) -/
def isValueChar (c : UInt8) : Bool := isGraph c && c != 0x3d

/-- one turn of the loop of `parse_parameters` (320-364) after the blank: keyword, value
and rest -/
def parseParameter : Bytes → HRes ((Bytes × Option Bytes) × Bytes)
  | [] => .ub
  | c :: s =>
    if !isAlnum c then .fail
    else match s.dropWhile isKeyChar with
      | [] => .ub
      | d :: r =>
        if d = 0x3d then
          .ok ((c :: s.takeWhile isKeyChar, some (r.takeWhile isValueChar)), r.dropWhile isValueChar)
        else .ok ((c :: s.takeWhile isKeyChar, none), d :: r)

/-- `parse_parameters` (314-368): the insertions into the hash table in order, and the
rest.  `fuel` bounds the number of parameters (the length of the memory suffices). -/
def parseParameters : Nat → Bytes → HRes (List (Bytes × Option Bytes) × Bytes)
  | 0, _ => .ub
  | _, [] => .ub
  | n + 1, c :: s =>
    if c ≠ 0x20 then .ok ([], c :: s)
    else match parseParameter s with
      | .fail => .fail
      | .ub => .ub
      | .ok (p, r) => match parseParameters n r with
        | .fail => .fail
        | .ub => .ub
        | .ok (ps, r') => .ok (p :: ps, r')

/-- `milter_esmtp_parse_envelope_command_argument` (383-443): path and parameters.  When
the caller passes an existing parameter table and there are new parameters,
`merge_parameters` (370-381) copies the pointers and the unref frees the strings, so the
caller's table holds dangling pointers: `ub`. -/
def parse (acceptPostmaster : Bool) (existing : Bool) (argument : Bytes) :
    HRes (Option Bytes × List (Bytes × Option Bytes)) :=
  if argument.head? ≠ some 0x3c then .fail
  else match parsePath acceptPostmaster (argument ++ [0]) with
    | .fail => .fail
    | .ub => .ub
    | .ok (path, r) => match parseParameters (r.length + 1) r with
      | .fail => .fail
      | .ub => .ub
      | .ok (_, []) => .ub
      | .ok (ps, c :: _) =>
        if c ≠ 0 then .fail
        else if existing && !ps.isEmpty then .ub
        else .ok (path, ps)

/-- `milter_esmtp_parse_mail_from_argument` (445-452) -/
def parseMailFrom := parse false

/-- `milter_esmtp_parse_rcpt_to_argument` (454-461) -/
def parseRcptTo := parse true

end Verif.Esmtp
