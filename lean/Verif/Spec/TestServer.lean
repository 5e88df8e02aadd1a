import Verif.Tool.TestServer
import Verif.Spec.Pointwise
/-
What milter-test-server is for: mail files, the order of an SMTP session, differences.
-/
namespace Verif.Spec.TestServer
open Verif Verif.TestServer

/-! ### Mail files -/

/-- a header as it is written: name, colon, blanks, first line, further lines -/
structure Field where
  name : Bytes
  blanks : Bytes
  first : Bytes
  folds : List Bytes

/-- a byte within a line -/
def inLine (c : UInt8) : Prop := c ≠ 0 ∧ c ≠ 0x0a ∧ c ≠ 0x0d

structure Field.Legal (f : Field) : Prop where
  starts : ∃ c, f.name.head? = some c ∧ isAlnum c = true
  name : ∀ c ∈ f.name, inLine c ∧ c ≠ 0x3a ∧ c ≠ 0x20
  blanks : ∀ c ∈ f.blanks, c = 0x20 ∨ c = 0x09
  first : ∀ c ∈ f.first, inLine c
  text : ∀ c, f.first.head? = some c → c ≠ 0x20 ∧ c ≠ 0x09 ∧ c ≠ 0x0c
  folds : ∀ l ∈ f.folds, (l.head? = some 0x20 ∨ l.head? = some 0x09) ∧ ∀ c ∈ l, inLine c

/-- its lines -/
def Field.lines (f : Field) : List Bytes := (f.name ++ [0x3a] ++ f.blanks ++ f.first) :: f.folds

/-- its value, `newline` being between the lines -/
def Field.value (newline : Bytes) (f : Field) : Bytes := f.first ++ f.folds.flatMap fun l => newline ++ l

/-- the text of a mail: the headers, an empty line, the body -/
def text (newline : Bytes) (fields : List Field) (body : Bytes) : Bytes :=
  (fields.flatMap Field.lines).flatMap (· ++ newline) ++ newline ++ body

/-- the address a header names: the one in angle brackets, or the first word -/
inductive Names : Bytes → Bytes → Prop where
  | bracket {before path after : Bytes} (first : 0x3c ∉ before) (inner : 0x3e ∉ path) :
      Names (before ++ [0x3c] ++ path ++ [0x3e] ++ after) ([0x3c] ++ path ++ [0x3e])
  | word {k : Nat} {word after : Bytes} (there : word ≠ []) (whole : 0x20 ∉ word) (ends : after = [] ∨ after.head? = some 0x20)
      (plain : 0x3c ∉ word ++ after) : Names (List.replicate k 0x20 ++ word ++ after) ([0x3c] ++ word ++ [0x3e])

/-- the values of the headers of a name -/
def valuesOf (name newline : Bytes) (fields : List Field) : List Bytes :=
  (fields.filter fun f => f.name = name).map (Field.value newline)

/-! ### The conversation -/

/-- what a milter that has not asked to leave out `bit` is told -/
def stage (c : Config) (bit : UInt32) (cs : List Cmd) : List Cmd := if c.option.step &&& bit = 0 then cs else []

/-- the unknown command, if there is one to be sent -/
def unknowns (c : Config) : List Cmd :=
  match c.unknown with
  | none => []
  | some u => if 3 ≤ c.option.version then stage c 0x100 [.unknown u] else []

def datas (c : Config) : List Cmd := if 4 ≤ c.option.version then stage c 0x200 [.data] else []

/-- what the milter is to be told after the header, the recipients and everything -/
def fromBody (c : Config) (chunks : List Bytes) : List Cmd := stage c 0x10 (chunks.map .body) ++ [.endOfMessage [], .quit]

def fromHeader (c : Config) (headers : List Header) (chunks : List Bytes) : List Cmd :=
  stage c 0x20 (headers.map fun h => .header h.name (h.value.getD [])) ++ stage c 0x40 [.endOfHeader] ++ fromBody c chunks

def fromRecipient (c : Config) (recipients : List Bytes) (headers : List Header) (chunks : List Bytes) : List Cmd :=
  stage c 0x8 (recipients.map .envelopeRecipient) ++ unknowns c ++ datas c ++ fromHeader c headers chunks

def script (c : Config) (headers : List Header) (chunks : List Bytes) : List Cmd :=
  stage c 0x1 [.connect c.host c.address] ++ stage c 0x2 [.helo c.helo] ++ stage c 0x4 [.envelopeFrom c.from_] ++
    fromRecipient c c.recipients headers chunks

/-- the commands a milter with this option answers -/
def answered (c : Config) : Cmd → Bool
  | .connect _ _ => c.option.step &&& 0x1000 = 0
  | .helo _ => c.option.step &&& 0x2000 = 0
  | .envelopeFrom _ => c.option.step &&& 0x4000 = 0
  | .envelopeRecipient _ => c.option.step &&& 0x8000 = 0
  | .unknown _ => c.option.step &&& 0x20000 = 0
  | .data => c.option.step &&& 0x10000 = 0
  | .header _ _ => c.option.step &&& 0x80 = 0
  | .endOfHeader => c.option.step &&& 0x40000 = 0
  | .body _ => c.option.step &&& 0x80000 = 0
  | .endOfMessage _ => true
  | _ => false

def isRefusal : Reply → Bool
  | .reject | .temporaryFailure | .replyCode _ _ _ => true
  | _ => false

/-- an answer after which the session goes on: continue, or the refusal of a recipient -/
def goesOn : Cmd → Reply → Prop
  | .envelopeRecipient _, r => r = .cont ∨ isRefusal r = true
  | _, r => r = .cont

/-- an answer after which nothing more is asked -/
def stops : Cmd → Reply → Prop
  | .envelopeRecipient _, r => r = .accept ∨ r = .discard
  | _, r => r = .accept ∨ r = .discard ∨ isRefusal r = true

/-- the recipient a command is about -/
def addressee : Cmd → Option Bytes
  | .envelopeRecipient r => some r
  | _ => none

/-- the recipients that have been refused -/
def turnedAway (asked : List (Cmd × Reply)) : List Bytes := (asked.filter fun p => isRefusal p.2).filterMap fun p => addressee p.1

/-- a modification or a report of progress -/
def isChange : Reply → Bool
  | .addHeader _ _ | .insertHeader _ _ _ | .changeHeader _ _ _ | .deleteHeader _ _ | .changeFrom _ _ | .addRecipient _ _
  | .deleteRecipient _ | .replaceBody _ | .progress | .quarantine _ => true
  | _ => false

/-- Where the milter does not answer and the next stage is empty, it does not answer that stage either. -/
structure Flows (c : Config) (headers : List Header) (chunks : List Bytes) : Prop where
  helo : c.option.step &&& 0x2 ≠ 0 → c.option.step &&& 0x2000 ≠ 0
  from_ : c.option.step &&& 0x4 ≠ 0 → c.option.step &&& 0x4000 ≠ 0
  recipient : c.option.step &&& 0x8 ≠ 0 ∨ c.recipients = [] → c.option.step &&& 0x8000 ≠ 0
  unknown : unknowns c = [] → datas c = [] → c.option.step &&& 0x20000 ≠ 0
  data : datas c = [] → c.option.step &&& 0x10000 ≠ 0
  header : c.option.step &&& 0x20 ≠ 0 ∨ headers = [] → c.option.step &&& 0x80 ≠ 0
  endOfHeader : c.option.step &&& 0x40 ≠ 0 → c.option.step &&& 0x40000 ≠ 0
  body : c.option.step &&& 0x10 ≠ 0 ∨ chunks = [] → c.option.step &&& 0x80000 ≠ 0

/-! ### Differences -/

/-- the lines of the original -/
def original {α : Type} (l : List (Mark × α)) : List α := (l.filter fun p => p.1 ≠ .plus).map (·.2)

/-- the lines of the result -/
def result {α : Type} (l : List (Mark × α)) : List α := (l.filter fun p => p.1 ≠ .minus).map (·.2)

/-! ### What the changes a milter asks for come to -/

/-- an address in angle brackets -/
def Bracketed (a : Bytes) : Prop := ∃ inner, a = [0x3c] ++ inner ++ [0x3e]

/-- `b` is the address `a` in angle brackets, which it may have had before -/
def Brackets (a b : Bytes) : Prop := (Bracketed a ∧ b = a) ∨ (¬ Bracketed a ∧ b = [0x3c] ++ a ++ [0x3e])

/-- the senders asked for -/
def senders (mods : List Reply) : List Bytes := mods.filterMap fun | .changeFrom f _ => some f | _ => none

/-- the body asked for -/
def bodies (mods : List Reply) : List Bytes := mods.filterMap fun | .replaceBody b => some b | _ => none

/-- the reasons for a quarantine -/
def reasons (mods : List Reply) : List Bytes := mods.filterMap fun | .quarantine r => some r | _ => none

/-- the recipients after the changes -/
inductive Recipients : List Reply → List Bytes → List Bytes → Prop where
  | done {rs : List Bytes} : Recipients [] rs rs
  | add {r b : Bytes} {params : Option Bytes} {mods : List Reply} {rs rs' : List Bytes} (brackets : Brackets r b) (next : Recipients mods (rs ++ [b]) rs') :
      Recipients (.addRecipient r params :: mods) rs rs'
  | delete {r b : Bytes} {mods : List Reply} {before after rs' : List Bytes} (brackets : Brackets r b) (first : b ∉ before)
      (next : Recipients mods (before ++ after) rs') : Recipients (.deleteRecipient r :: mods) (before ++ b :: after) rs'
  | deleteNobody {r b : Bytes} {mods : List Reply} {rs rs' : List Bytes} (brackets : Brackets r b) (nobody : b ∉ rs)
      (next : Recipients mods rs rs') : Recipients (.deleteRecipient r :: mods) rs rs'
  | other {r : Reply} {mods : List Reply} {rs rs' : List Bytes} (add : ∀ a p, r ≠ .addRecipient a p) (delete : ∀ a, r ≠ .deleteRecipient a)
      (next : Recipients mods rs rs') : Recipients (r :: mods) rs rs'

/-- the headers after a change, as the milter's own library has it (C12) -/
def headersAfter (hs : List Header) : Reply → List Header
  | .addHeader n v => Headers.add hs n (some v)
  | .insertHeader i n v => Headers.insert hs i n v
  | .changeHeader n i v => (Headers.change hs n i (some v)).2
  | .deleteHeader n i => (Headers.delete hs n i).2
  | _ => hs

end Verif.Spec.TestServer
