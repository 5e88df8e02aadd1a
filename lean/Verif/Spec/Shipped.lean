import Verif.Manager.Shipped
import Verif.Spec.Pointwise
/-
What the conditions "Trust", "Stress Notify", "No Stress", "DNSBL Listed", "Not DNSBL Listed" and "Sendmail Compatible" are to mean.  No function of the model but
the decimal digits of a number is used.
-/
namespace Verif.Spec.Shipped
open Verif Verif.Conditions Verif.Macros

/-- the same letter, or the capital of it -/
def SameLetter (a b : UInt8) : Prop := a = b ∨ (0x41 ≤ a ∧ a ≤ 0x5a ∧ b = a + 0x20) ∨ (0x41 ≤ b ∧ b ≤ 0x5a ∧ a = b + 0x20)

/-- the same but for capitals -/
def SameText : Bytes → Bytes → Prop := Pointwise SameLetter

/-- no capitals -/
def Small (s : Bytes) : Prop := ∀ c ∈ s, ¬ (0x41 ≤ c ∧ c ≤ 0x5a)

/-- the sender of a message as the MTA gives it: `<user@domain>` -/
structure Mailbox (sender user domain : Bytes) : Prop where
  form : sender = [0x3c] ++ user ++ [0x40] ++ domain ++ [0x3e]
  hasUser : user ≠ []
  hasDomain : domain ≠ []
  line : 0x0a ∉ user ∧ 0x0a ∉ domain
  /-- the domain is what comes after the last "@" -/
  last : 0x40 ∉ domain

/-- a domain is trusted: it is listed, in whatever case, or one of the expressions or blocks takes it -/
def Trusted (domains : List Matcher) (domain : Bytes) : Prop :=
  (∃ d, Matcher.literal d ∈ domains ∧ SameText d domain) ∨
  (∃ f small, Matcher.test f ∈ domains ∧ SameText small domain ∧ Small small ∧ f small = true)

/-- blanks of a line -/
def Blanks (s : Bytes) : Prop := ∀ c ∈ s, c = 0x20 ∨ 0x09 ≤ c ∧ c ≤ 0x0d

/-- not a blank -/
def Solid (s : Bytes) : Prop := s ≠ [] ∧ ∀ c ∈ s, ¬ (c = 0x20 ∨ 0x09 ≤ c ∧ c ≤ 0x0d)

/-- the MTA has as many sessions as it may have before it is under stress; 0 is no limit -/
def Stress (threshold sessions : Nat) : Prop := 0 < threshold ∧ threshold ≤ sessions

/-- an entry of Postfix's master.cf: eight fields with blanks between them -/
structure Entry where
  service : Bytes
  type : Bytes
  priv : Bytes
  unpriv : Bytes
  chroot : Bytes
  wakeup : Bytes
  maxproc : Bytes
  command : Bytes

/-- a line of master.cf that holds an entry -/
def Entry.Line (e : Entry) (line : Bytes) : Prop :=
  ∃ b1 b2 b3 b4 b5 b6 b7 : Bytes, (∀ b ∈ [b1, b2, b3, b4, b5, b6, b7], b ≠ [] ∧ Blanks b) ∧
    (∀ f ∈ [e.service, e.type, e.priv, e.unpriv, e.chroot, e.wakeup, e.maxproc], Solid f) ∧
    (∃ c s, e.command = c :: s ∧ Solid [c]) ∧ e.service.head? ≠ some 0x23 ∧
    line = e.service ++ b1 ++ e.type ++ b2 ++ e.priv ++ b3 ++ e.unpriv ++ b4 ++ e.chroot ++ b5 ++ e.wakeup ++ b6 ++ e.maxproc ++ b7 ++ e.command

/-- the name a list is asked about: the four numbers of the address backwards, then the name of the list -/
def questionFor (a b c d : Nat) (list : Bytes) : Bytes :=
  decimal d ++ [0x2e] ++ decimal c ++ [0x2e] ++ decimal b ++ [0x2e] ++ decimal a ++ [0x2e] ++ list

/-- a list has an address: it answers, and with what is expected if something is -/
def OnList (resolve : Bytes → Option Address) (s : Service) (question : Bytes) : Prop :=
  ∃ x, resolve question = some x ∧ ∀ n, s.expected = some n → n.includes x = true

/-- the macros that can be seen in a stage -/
def seen (a : Agent) (stage : Context) : Table := (a.setContext stage).getAvailable.1

/-- the MTA calls itself Postfix: the word is in the text, in whatever case, and not part of a longer word -/
def SaysPostfix (text : Bytes) : Prop :=
  ∃ before word after, text = before ++ word ++ after ∧ SameText word (ascii "postfix") ∧
    (∀ c, before.getLast? = some c → isWordByte c = false) ∧ (∀ c, after.head? = some c → isWordByte c = false)

end Verif.Spec.Shipped
