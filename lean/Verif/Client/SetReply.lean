import Verif.Core.Text
import Verif.Core.ReplyCode
/-
Custom SMTP replies: `milter/client/milter-client-context.c` 2378-2626.

A C string is the list of its bytes before the terminating NUL, so "`current_point[i]` is
not NUL" is "the list is not exhausted".  Error texts are not modelled, only failure.
The `atoi` values of subject and detail are never used by the caller and are dropped.
-/
namespace Verif.SetReply

/-- The loop of `extended_code_parse_class` (2385-2426) from index `i`; `first` is the byte
at index 0 (whose `atoi` is the class).  Result: class and the rest of the string. -/
def parseClass (i : Nat) (first : UInt8) : Bytes → Option (Nat × Bytes)
  | [] => if i = 0 then none else some (0, [])
  | c :: s =>
    if c = 0x2e then (if i = 0 then none else some (first.toNat - 48, s))
    else if 1 ≤ i then none
    else if !(c == 0x32 || c == 0x34 || c == 0x35) then none
    else parseClass (i + 1) c s

/-- The loop of `extended_code_parse_subject` (2436-2480) from index `i`. -/
def parseSubject (i : Nat) : Bytes → Option Bytes
  | [] => if i = 0 then none else some []
  | c :: s =>
    if c = 0x2e then (if i = 0 then none else some s)
    else if 3 ≤ i then none
    else if !isDigit c then none
    else parseSubject (i + 1) s

/-- The loop of `extended_code_parse_detail` (2490-2523) from index `i`. -/
def parseDetail (i : Nat) : Bytes → Option Bytes
  | [] => if i = 0 then none else some []
  | c :: s =>
    if 3 ≤ i then none
    else if !isDigit c then none
    else parseDetail (i + 1) s

/-- `extended_code_parse` (2526-2566): the class on success. -/
def parse (e : Bytes) : Option Nat :=
  match parseClass 0 0 e with
  | none => none
  | some (k, s) =>
    if s = [] then none
    else match parseSubject 0 s with
      | none => none
      | some s' =>
        if s' = [] then none
        else match parseDetail 0 s' with
          | none => none
          | some _ => some k

/-- `priv->reply_code`, `priv->extended_reply_code`, `priv->reply_message` (0 and NULL
until a reply is set, init of the context). -/
structure Custom where
  code : Nat := 0
  ext : Option Bytes := none
  message : Option Bytes := none
deriving DecidableEq, Repr

/-- the enhanced code check of `milter_client_context_set_reply` (2587-2603) -/
def extOk (code : Nat) : Option Bytes → Bool
  | none => true
  | some e => match parse e with
    | none => false
    | some k => k == code / 100

/-- `milter_client_context_set_reply` (2568-2614) -/
def setReply (s : Custom) (code : Nat) (ext message : Option Bytes) : Bool × Custom :=
  if !(400 ≤ code && code < 600) then (false, s)
  else if !extOk code ext then (false, s)
  else (true, ⟨code, ext, message⟩)

end Verif.SetReply
