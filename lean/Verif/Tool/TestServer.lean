import Verif.Core.Headers
import Verif.Server.Context
/-
tool/milter-test-server.c: the tool that plays the MTA for a milter under test.

Modelled: how a mail file and the options for the envelope are read (1018-1044, 1092-1115, 1137-1427, 1908-1953), in which order
the milter is told what (250-461, 770-838), what its replies do (462-703), and the differences that are printed (1978-2160).
Not modelled: reading the file, the event loop, timeouts and errors, colours, the conversion of the body's character set, threads.
-/
namespace Verif.TestServer
open Verif.Server (St)

/-! ### The mail file -/

/-- A string as C sees it: up to the first NUL. -/
def cstring (s : Bytes) : Bytes := s.takeWhile (· ≠ 0)

/-- `g_strsplit (s, c, -1)` for a string that is not empty -/
def pieces (c : UInt8) : Bytes → List Bytes
  | [] => [[]]
  | x :: s => if x = c then [] :: pieces c s
    else match pieces c s with
      | p :: ps => (x :: p) :: ps
      | [] => [[x]]

/-- `g_strsplit (s, c, -1)`: the empty string gives no piece at all -/
def strsplit (c : UInt8) (s : Bytes) : List Bytes := if s = [] then [] else pieces c s

/-- `g_strsplit (s, ":", 2)`, if there is a colon: what is before the first one and what is after it -/
def halves (s : Bytes) : Option (Bytes × Bytes) :=
  if 0x3a ∈ s then some (s.takeWhile (· ≠ 0x3a), (s.dropWhile (· ≠ 0x3a)).tail) else none

/-- `g_ascii_isspace` -/
def isSpace (c : UInt8) : Bool := c = 0x20 || c = 0x09 || c = 0x0a || c = 0x0c || c = 0x0d

/-- `g_ascii_isalnum` -/
def isAlnum (c : UInt8) : Bool :=
  (0x30 ≤ c && c ≤ 0x39) || (0x41 ≤ c && c ≤ 0x5a) || (0x61 ≤ c && c ≤ 0x7a)

/-- `g_strchug` -/
def chug (s : Bytes) : Bytes := s.dropWhile isSpace

/-- how reading a mail file may end -/
inductive Outcome (α : Type) where
  | ok (a : α)
  /-- the tool prints a message and exits -/
  | invalid
  /-- a NULL pointer is followed -/
  | crash
deriving DecidableEq, Repr

/-- `is_header` (1207-1216) -/
def isHeader (line : Bytes) : Bool := line.head?.any isAlnum && decide (0x3a ∈ line)

/-- the end of line `parse_mail_contents_header_part_collect_headers` takes off (1262-1266): the line and whether there was one -/
def uncr (line : Bytes) : Bytes × Bool :=
  if line.getLast? = some 0x0d then (line.dropLast, true) else (line, false)

/-- `append_header_value` (1231-1248): the last header gets another line.  Without a header
`milter_headers_get_nth_header (headers, 0)` is NULL. -/
def appendValue (hs : List Header) (newLine value : Bytes) : Option (List Header) :=
  match hs.getLast? with
  | none => none
  | some h => some (hs.dropLast ++ [{ h with value := h.value.map (· ++ newLine ++ value) }])

/-- `parse_mail_contents_header_part_collect_headers` (1250-1293): the headers and the lines of the body -/
def collect : List Bytes → List Header → Outcome (List Header × List Bytes)
  | [], hs => .ok (hs, [])
  | line :: lines, hs =>
    let (line, cr) := uncr line
    if line = [] then .ok (hs, lines)
    else if isHeader line then
      match halves line with
      | some (name, value) => collect lines (Headers.append hs name (some (chug value)))       -- append_header (1218-1229)
      | none => .crash
    else if line.head?.any isSpace then
      match appendValue hs (if cr then [0x0d, 0x0a] else [0x0a]) line with
      | some hs => collect lines hs
      | none => .crash
    else .invalid

/-- `extract_path_from_mail_address` (1146-1181); `none` is the error -/
def extractPath (address : Bytes) : Option Bytes :=
  if 0x3c ∈ address then
    let path := address.dropWhile (· ≠ 0x3c)
    if 0x3e ∈ path then some (path.takeWhile (· ≠ 0x3e) ++ [0x3e]) else none
  else some ([0x3c] ++ (address.dropWhile (· = 0x20)).takeWhile (· ≠ 0x20) ++ [0x3e])

/-- "From" -/
def from_ : Bytes := [0x46, 0x72, 0x6f, 0x6d]
/-- "To" -/
def to : Bytes := [0x54, 0x6f]

/-- the options of the command line as they are kept in the variables `option_headers`, `envelope_from`, `recipients` and `body_chunks` -/
structure Options where
  headers : List Header := []
  from_ : Option Bytes := none
  recipients : Option (List Bytes) := none
  body : Option (List Bytes) := none
deriving DecidableEq, Repr

/-- `parse_header` (1183-1205) for each header: the sender, the recipients; `none` is the error -/
def envelope : List Header → Option Bytes → List Bytes → Option (Option Bytes × List Bytes)
  | [], f, rs => some (f, rs)
  | h :: hs, f, rs =>
    if h.name = TestServer.from_ then (extractPath (h.value.getD [])).bind fun p => envelope hs (some p) rs
    else if h.name = to then (extractPath (h.value.getD [])).bind fun p => envelope hs f (rs ++ [p])
    else envelope hs f rs

/-- the loop of `parse_mail_contents_body_part` (1368-1382): chunks and what is kept; `size` is `MILTER_CHUNK_SIZE` -/
def chunked (size : Nat) : List Bytes → List Bytes → Bytes → List Bytes × Bytes
  | [], chunks, kept => (chunks, kept)
  | line :: lines, chunks, kept =>
    if kept.length + line.length + 1 > size then chunked size lines (chunks ++ [kept]) (line ++ [0x0a])
    else chunked size lines chunks (kept ++ line ++ [0x0a])

/-- `parse_mail_contents_body_part` (1358-1399).  The byte that is compared with '\r' (1388) is the one that ends the string, so that
only the line feed is taken off. -/
def bodyChunks (size : Nat) (lines : List Bytes) : List Bytes :=
  let (chunks, kept) := chunked size lines [] []
  if 0 < kept.length then chunks ++ [kept.take (kept.length - 1)] else chunks

/-- the first line of an mbox is left out (1409-1411) -/
def skipMbox : List Bytes → List Bytes
  | line :: rest => if (TestServer.from_ ++ [0x20]).isPrefixOf line then rest else line :: rest
  | [] => []

/-- `parse_mail_contents_header_part` (1327-1356) and `parse_mail_contents_body_part` -/
def parseLines (size : Nat) (o : Options) (lines : List Bytes) : Outcome Options :=
  match collect lines [] with
  | .invalid => .invalid
  | .crash => .crash
  | .ok (hs, rest) =>
    match envelope hs o.from_ [] with
    | none => .invalid
    | some (f, rs) => .ok {
        headers := hs.foldl (fun l h => Headers.append l h.name h.value) o.headers
        from_ := f
        recipients := if rs = [] then o.recipients else some rs
        body := some (bodyChunks size rest) }

/-- `parse_mail_contents` (1401-1427) -/
def parseMail (size : Nat) (o : Options) (contents : Bytes) : Outcome Options :=
  parseLines size o (skipMbox (strsplit 0x0a (cstring contents)))

/-- `parse_header_arg` (1091-1114) -/
def headerArg (o : Options) (arg : Bytes) : Option Options :=
  (halves arg).map fun (name, value) => { o with headers := Headers.add o.headers name (some value) }

/-- `normalize_envelope_address` (608-617) -/
def normalize (address : Bytes) : Bytes :=
  if address.head? = some 0x3c ∧ address.getLast? = some 0x3e then address else [0x3c] ++ address ++ [0x3e]

/-- what is sent: the options after `post_option_parse` (1908-1953) -/
structure Mail where
  from_ : Bytes
  recipients : List Bytes
  headers : List Header
  body : List Bytes
deriving DecidableEq, Repr

/-- `post_option_parse` (1908-1953); the arguments are the sender, the recipient and the body that are used if nothing was said -/
def finish (sender receiver text : Bytes) (o : Options) : Mail :=
  let f := normalize (o.from_.getD sender)
  let rs := (o.recipients.getD [receiver]).map normalize
  let hs := if (Headers.lookupByName o.headers TestServer.from_).isSome then o.headers else Headers.append o.headers TestServer.from_ (some f)
  let hs := if (Headers.lookupByName hs to).isSome then hs else Headers.append hs to rs.head?
  ⟨f, rs, hs, o.body.getD [text]⟩

/-! ### The conversation -/

/-- what does not change: `connect_host`, `connect_address`, `helo_host`, `envelope_from`, `recipients`, `unknown_command` and the option
the milter has replied with (`data->option`) -/
structure Config where
  host : Bytes
  address : Addr
  helo : Bytes
  from_ : Bytes
  recipients : List Bytes
  unknown : Option Bytes
  option : Opt
deriving DecidableEq, Repr

/-- `ProcessData` and `Message` (88-115) -/
structure Data where
  /-- `data->option_headers` -/
  headers : List Header
  /-- `data->current_recipient` -/
  current : Nat := 0
  /-- the chunks from `data->current_body_chunk` on -/
  chunks : List Bytes
  /-- `data->message->recipients` -/
  kept : List Bytes
  /-- `data->message->envelope_from` -/
  sender : Bytes
  /-- `data->message->headers` -/
  edited : List Header
  /-- `data->message->replaced_body_string` -/
  replaced : Bytes := []
  success : Bool := true
  code : Option (Nat × Bytes × Option Bytes) := none
  reason : Option Bytes := none
deriving DecidableEq, Repr

/-- a step the milter has asked to be left out -/
def Config.without (c : Config) (bit : UInt32) : Bool := c.option.step &&& bit ≠ 0

/-- a command that is sent and what is left -/
abbrev Sent := Option (Cmd × Data)

/-- `send_connect` (249-283) -/
def sendConnect (c : Config) (d : Data) : Sent := if c.without 0x1 then none else some (.connect c.host c.address, d)
/-- `send_helo` (285-294) -/
def sendHelo (c : Config) (d : Data) : Sent := if c.without 0x2 then none else some (.helo c.helo, d)
/-- `send_envelope_from` (296-306) -/
def sendFrom (c : Config) (d : Data) : Sent := if c.without 0x4 then none else some (.envelopeFrom c.from_, d)
/-- `send_envelope_recipient` (308-325) -/
def sendRecipient (c : Config) (d : Data) : Sent :=
  match c.recipients[d.current]? with
  | none => none
  | some r => if c.without 0x8 then none else some (.envelopeRecipient r, { d with current := d.current + 1 })
/-- `send_unknown` (327-340) -/
def sendUnknown (c : Config) (d : Data) : Sent :=
  if c.without 0x100 then none
  else match c.unknown with
    | none => none
    | some u => if c.option.version < 3 then none else some (.unknown u, d)
/-- `send_data` (342-354) -/
def sendData (c : Config) (d : Data) : Sent :=
  if c.without 0x200 then none else if c.option.version < 4 then none else some (.data, d)
/-- `send_header` (356-371).  Removing the first header (`milter_headers_remove`) removes the first one that is equal to it. -/
def sendHeader (c : Config) (d : Data) : Sent :=
  if c.without 0x20 then none
  else match Headers.getNth d.headers 1 with
    | none => none
    | some h => some (.header h.name (h.value.getD []), { d with headers := (Headers.remove d.headers h).2 })
/-- `send_end_of_header` (373-382) -/
def sendEndOfHeader (c : Config) (d : Data) : Sent := if c.without 0x40 then none else some (.endOfHeader, d)
/-- `send_body` (384-400) -/
def sendBody (c : Config) (d : Data) : Sent :=
  if c.without 0x10 then none
  else match d.chunks with
    | [] => none
    | b :: bs => some (.body b, { d with chunks := bs })
/-- `send_end_of_message` (402-408) -/
def sendEnd (d : Data) : Sent := some (.endOfMessage [], d)

/-- `cb_continue` (410-460): the case of the context's state and, where nothing is sent, the cases below it.  `none` is
the default: abort and quit. -/
def continueFrom (c : Config) (d : Data) : St → Sent
  | .negotiate => sendConnect c d <|> continueFrom c d .connect
  | .connect => sendHelo c d <|> continueFrom c d .helo
  | .helo => sendFrom c d <|> continueFrom c d .envelopeFrom
  | .envelopeFrom => sendRecipient c d <|> continueFrom c d .envelopeRecipient
  | .envelopeRecipient => sendRecipient c d <|> sendUnknown c d <|> continueFrom c d .unknown
  | .unknown => sendData c d <|> continueFrom c d .data
  | .data => sendHeader c d <|> continueFrom c d .header
  | .header => sendHeader c d <|> sendEndOfHeader c d <|> continueFrom c d .endOfHeader
  | .endOfHeader => sendBody c d <|> continueFrom c d .body
  | .body => sendBody c d <|> sendEnd d
  | .endOfMessage => some (.quit, d)
  | _ => none
termination_by st => match st with
  | .negotiate => 10 | .connect => 9 | .helo => 8 | .envelopeFrom => 7 | .envelopeRecipient => 6 | .unknown => 5
  | .data => 4 | .header => 3 | .endOfHeader => 2 | .body => 1 | _ => 0

/-- `cb_state_transited` (770-838): what is sent when the command of this state has gone out.  Each case first asks whether the milter
does not answer the command of that case. -/
def transited (c : Config) (d : Data) : St → Sent
  | .connect => if !c.without 0x1000 then none else sendHelo c d <|> transited c d .helo
  | .helo => if !c.without 0x2000 then none else sendFrom c d <|> transited c d .envelopeFrom
  | .envelopeFrom => if !c.without 0x4000 then none else sendRecipient c d <|> transited c d .envelopeRecipient
  | .envelopeRecipient => if !c.without 0x8000 then none
      else sendRecipient c d <|> sendUnknown c d <|> sendData c d <|> transited c d .unknown
  | .unknown => if !c.without 0x20000 then none else sendData c d <|> transited c d .data
  | .data => if !c.without 0x10000 then none else sendHeader c d <|> transited c d .header
  | .header => if !c.without 0x80 then none else sendHeader c d <|> sendEndOfHeader c d <|> transited c d .endOfHeader
  | .endOfHeader => if !c.without 0x40000 then none else sendBody c d <|> transited c d .body
  | .body => if !c.without 0x80000 then none else sendBody c d <|> sendEnd d
  | _ => none
termination_by st => match st with
  | .connect => 9 | .helo => 8 | .envelopeFrom => 7 | .envelopeRecipient => 6 | .unknown => 5
  | .data => 4 | .header => 3 | .endOfHeader => 2 | .body => 1 | _ => 0

/-- `remove_recipient` (133-146): the first one that is equal -/
def removeRecipient (rs : List Bytes) (r : Bytes) : List Bytes := rs.erase r

/-- what the tool does at a reply -/
inductive Does where
  /-- nothing is sent -/
  | nothing (d : Data)
  | sends (c : Cmd) (d : Data)
  /-- `send_abort` (155-160): abort, quit and the end of the connection -/
  | gives (d : Data)
deriving DecidableEq, Repr

def Does.ofSent (d : Data) : Sent → Does
  | none => .gives d
  | some (c, d') => .sends c d'

/-- `cb_temporary_failure` and `cb_reject` (481-525), which are the same -/
def refused (c : Config) (d : Data) (st : St) : Does :=
  if st = .envelopeRecipient then
    let d := { d with kept := removeRecipient d.kept (c.recipients.getD (d.current - 1) []) }
    if d.kept ≠ [] then Does.ofSent d (continueFrom c d st) else .gives { d with success := false }
  else .gives { d with success := false }

/-- the callbacks of `setup` (840-877) for the replies of the milter, the context being in state `st` -/
def replied (c : Config) (d : Data) (st : St) : Reply → Does
  | .cont => Does.ofSent d (continueFrom c d st)
  | .replyCode code ext message => refused c { d with code := some (code, ext, message) } st          -- 527-548
  | .temporaryFailure | .reject => refused c d st
  | .accept => .gives { d with success := true }                                                       -- 550-557
  | .discard => .gives { d with success := false }                                                     -- 559-566
  | .skip => let d := { d with chunks := [] }; Does.ofSent d (continueFrom c d st)                     -- 695-703
  | .connectionFailure | .shutdown => .gives d                                                         -- 679-693
  | .addHeader n v => .nothing { d with edited := Headers.add d.edited n (some v) }                    -- 568-576
  | .insertHeader i n v => .nothing { d with edited := Headers.insert d.edited i n v }                 -- 578-586
  | .changeHeader n i v => .nothing { d with edited := (Headers.change d.edited n i (some v)).2 }      -- 588-596
  | .deleteHeader n i => .nothing { d with edited := (Headers.delete d.edited n i).2 }                 -- 598-606
  | .changeFrom f _ => .nothing { d with sender := normalize f }                                       -- 619-629
  | .addRecipient r _ => .nothing { d with kept := d.kept ++ [normalize r] }                           -- 631-641
  | .deleteRecipient r => .nothing { d with kept := removeRecipient d.kept (normalize r) }             -- 643-653
  | .replaceBody b => .nothing { d with replaced := d.replaced ++ b }                                  -- 655-663
  | .progress => .nothing d
  | .quarantine r => .nothing { d with reason := some r }                                              -- 670-677
  | .negotiate _ _ => .gives d                                                                         -- 468-470: a second negotiation

/-- the state of the context when the command has gone out: that of the command (server/milter-server-context.c, see
`Server.Context`; for the parts of a message `Server.enter`) -/
def stateOf : Cmd → St
  | .negotiate _ => .negotiate
  | .defineMacro _ _ => .defineMacro
  | .connect _ _ => .connect
  | .helo _ => .helo
  | .envelopeFrom _ => .envelopeFrom
  | .envelopeRecipient _ => .envelopeRecipient
  | .data => .data
  | .header _ _ => .header
  | .endOfHeader => .endOfHeader
  | .body _ => .body
  | .endOfMessage _ => .endOfMessage
  | .abort => .abort
  | .quit => .quit
  | .unknown _ => .unknown

/-- whether the milter answers a command, by the option it has replied with: `milter_option` NO_REPLY steps, as
`milter_server_context_need_reply` -/
def Config.answers (c : Config) : Cmd → Bool
  | .connect _ _ => !c.without 0x1000
  | .helo _ => !c.without 0x2000
  | .envelopeFrom _ => !c.without 0x4000
  | .envelopeRecipient _ => !c.without 0x8000
  | .unknown _ => !c.without 0x20000
  | .data => !c.without 0x10000
  | .header _ _ => !c.without 0x80
  | .endOfHeader => !c.without 0x40000
  | .body _ => !c.without 0x80000
  | .endOfMessage _ => true
  | _ => false

/-- The conversation after a command has been sent.  When it has gone out, the context tells so
(`cb_state_transited`), and if the milter answers it, the answers come: `rs` are the replies of the milter in their order.  The result is what is sent,
and the data at the end.  The first argument bounds the number of steps. -/
def talk (c : Config) : Nat → Cmd → Data → List Reply → List Cmd × Data
  | 0, _, d, _ => ([], d)
  | n + 1, last, d, rs =>
    match transited c d (stateOf last) with
    | some (next, d') => let x := talk c n next d' rs; (next :: x.1, x.2)
    | none =>
      if c.answers last then
        match rs with
        | [] => ([], d)
        | r :: rs =>
          match replied c d (stateOf last) r with
          | .nothing d' => talk c n last d' rs
          | .gives d' => ([.abort, .quit], d')
          | .sends next d' => let x := talk c n next d' rs; (next :: x.1, x.2)
      else ([], d)

/-- the conversation from the milter's reply to the negotiation on (`cb_negotiate_reply`, 462-479) -/
def converse (c : Config) (n : Nat) (d : Data) (rs : List Reply) : List Cmd × Data :=
  match continueFrom c d .negotiate with
  | some (next, d') => let x := talk c n next d' rs; (next :: x.1, x.2)
  | none => ([.abort, .quit], d)

/-- `init_process_data` and `message_new` (1623-1694) -/
def Data.start (m : Mail) : Data :=
  { headers := m.headers, chunks := m.body, kept := m.recipients, sender := m.from_, edited := m.headers }

/-! ### Macros the milter asks for -/

/-- `set_macro` (162-173) for the macros a milter wants at a stage.  The loop goes on with `g_list_next (symbols)`, where `symbols` is the first
node: after the first turn always with the second node.  The argument of the result is the number of turns: `none` if
the loop is over, else the node it is at. -/
def setMacro (symbols : List Bytes) : Nat → Option (List Bytes)
  | 0 => if symbols = [] then none else some symbols
  | n + 1 => match setMacro symbols n with
    | none => none
    | some _ => if symbols.tail = [] then none else some symbols.tail

/-! ### What is printed -/

/-- the mark before a line -/
inductive Mark where
  | same | minus | plus
deriving DecidableEq, Repr

/-- `print_headers` (2112-2159) -/
def diffHeaders : List Header → List Header → List (Mark × Header)
  | [], rs => rs.map fun h => (.plus, h)
  | os, [] => os.map fun h => (.minus, h)
  | o :: os, r :: rs =>
    if o = r then (.same, o) :: diffHeaders os rs
    else if r ∉ o :: os then (.plus, r) :: diffHeaders (o :: os) rs
    else if o ∉ r :: rs then (.minus, o) :: diffHeaders os (r :: rs)
    else if o.name = r.name then (.minus, o) :: (.plus, r) :: diffHeaders os rs
    else (.plus, r) :: diffHeaders (o :: os) rs
termination_by os rs => os.length + rs.length

/-- `print_envelope_recipients` (2016-2057): the third and the fourth case are never reached -/
def diffRecipients : List Bytes → List Bytes → List (Mark × Bytes)
  | [], rs => rs.map fun r => (.plus, r)
  | os, [] => os.map fun r => (.minus, r)
  | o :: os, r :: rs => if o = r then (.same, o) :: diffRecipients os rs else (.minus, o) :: (.plus, r) :: diffRecipients os rs

/-- `print_envelope_from` (2000-2014) -/
def diffFrom (o r : Bytes) : List (Mark × Bytes) := if o = r then [(.same, o)] else [(.minus, o), (.plus, r)]

/-- the body `print_body` prints (2207-2213) -/
def shownBody (original replaced : Bytes) : Bytes := if 0 < replaced.length then replaced else original

end Verif.TestServer
