import Verif.Tool.Testing
/-!
milter-performance-check: the envelope of a mail (`tool/milter-performance-check`).  How the text is split into headers
is not modelled: a mail is the list of its headers.  Values have no line feeds (milter-performance-check:999).
-/
namespace Verif.Tool.PerformanceEnvelope

open Verif
open Verif.Testing (space)

/-- Names and values in their order. -/
abbrev Headers := List (Bytes × Bytes)

/-- `headers[name]` (milter-performance-check:1001): the last counts. -/
def header (hs : Headers) (name : Bytes) : Option Bytes := hs.reverse.lookup name

/-- `/<(.+?)>/` (milter-performance-check:1030): what stands between the brackets. -/
def angle : Bytes → Option Bytes
  | [] => none
  | b :: bs =>
    if b = 0x3c then
      match bs with
      | [] => none
      | c :: cs => if 0x3e ∈ cs then some (c :: cs.takeWhile (· ≠ 0x3e)) else angle (c :: cs)
    else angle bs

/-- `gsub(/\(.*?\)/, '')` (milter-performance-check:1033); the first argument: inside of brackets. -/
def uncomment : Bool → Bytes → Bytes
  | _, [] => []
  | true, b :: bs => if b = 0x29 then uncomment false bs else uncomment true bs
  | false, b :: bs => if b = 0x28 ∧ 0x29 ∈ bs then uncomment true bs else b :: uncomment false bs

/-- `strip`: white space at both ends, NULs at the second. -/
def strip (s : Bytes) : Bytes :=
  ((s.reverse.dropWhile fun b => space b || b == 0).reverse).dropWhile space

/-- `extract_mail_address` (milter-performance-check:1028-1035). -/
def address (s : Bytes) : Bytes := match angle s with
  | some a => a
  | none => strip (uncomment false s)

/-- The pieces between commas. -/
def pieces : Bytes → List Bytes
  | [] => [[]]
  | b :: bs => if b = 0x2c then [] :: pieces bs else match pieces bs with
    | p :: ps => (b :: p) :: ps
    | [] => [[b]]

/-- Without the white space around commas; `first`: nothing stands before. -/
def trimmed (first : Bool) : List Bytes → List Bytes
  | [] => []
  | p :: ps =>
    let q := if first then p else p.dropWhile space
    (if ps = [] then q else (q.reverse.dropWhile space).reverse) :: trimmed false ps

/-- `parse_recipient_header` (milter-performance-check:1014-1017): `split(/\s*,\s*/)`, which drops empty strings at the
end. -/
def recipientsOf : Option Bytes → List Bytes
  | none => []
  | some s => ((trimmed true (pieces s)).reverse.dropWhile (· = [])).reverse

/-- `"From"` -/
def fromName : Bytes := [0x46, 0x72, 0x6f, 0x6d]
/-- `"To"` -/
def toName : Bytes := [0x54, 0x6f]
/-- `"Cc"` -/
def ccName : Bytes := [0x43, 0x63]

/-- `parse_mail_source` (milter-performance-check:991-1012) without the greeting: the sender and the recipients.  The
result of `recipients.collect` (1007-1009) is not used. -/
def parse (hs : Headers) : Option Bytes × Option (List Bytes) :=
  let rs := recipientsOf (header hs toName) ++ recipientsOf (header hs ccName)
  ((header hs fromName).map address, if rs = [] then none else some rs)

/-- The options (milter-performance-check:321-327). -/
structure Options where
  defaultFrom : Bytes
  froms : List Bytes
  recipients : List Bytes
  forceFrom : Option Bytes
  forceRecipients : Option (List Bytes)

/-- `next_from` (milter-performance-check:833-843), under a mutex: the sender and the next index. -/
def nextFrom (o : Options) (i : Nat) : Bytes × Nat :=
  if o.froms = [] then (o.defaultFrom, i) else ((o.froms[i]?).getD [], (i + 1) % o.froms.length)

/-- `prepare_send_mail` (milter-performance-check:845-866): sender, recipients, and the next index. -/
def prepare (o : Options) (i : Nat) (hs : Headers) : Bytes × List Bytes × Nat :=
  let (f, rs) := parse hs
  let (from', i) := match f with
    | some a => (a, i)
    | none => nextFrom o i
  (o.forceFrom.getD from', o.forceRecipients.getD (rs.getD o.recipients), i)

/-- Mails one after the other: the envelopes. -/
def envelopes (o : Options) : Nat → List Headers → List (Bytes × List Bytes)
  | _, [] => []
  | i, hs :: rest => ((prepare o i hs).1, (prepare o i hs).2.1) :: envelopes o (prepare o i hs).2.2 rest

end Verif.Tool.PerformanceEnvelope
