import Verif.Client.LibMilter
import Verif.Spec.Client
import Verif.Spec.Macros
/-
What a filter written for libmilter relies on.
-/
namespace Verif.Spec.LibMilter
open Verif Verif.LibMilter

/-! ### The commands of the MTA -/

/-- has a message begun, and not ended -/
def next (begun : Bool) : Cmd → Bool
  | .envelopeFrom _ => true
  | .endOfMessage _ | .abort | .quit => false
  | _ => begun

/-- the order of commands in SMTP: the sender begins a message, what belongs to a message comes inside of one, nothing comes after the last -/
def orderly (begun : Bool) : List Cmd → Bool
  | [] => true
  | c :: cs => (match c with
      | .negotiate _ | .connect _ _ | .helo _ | .envelopeFrom _ => !begun
      | .envelopeRecipient _ | .data | .header _ _ | .endOfHeader | .body _ | .endOfMessage _ | .unknown _ => begun
      | .quit => cs.isEmpty
      | .defineMacro _ _ | .abort => true) && orderly (next begun c) cs

/-- The callbacks due for a command, with the arguments of the command, if they are set.  What comes with the end of the message belongs to the body; if
the filter rejects, discards, accepts or puts off the message when it gets that, `xxfi_eom` is left out.  `xxfi_abort` is only for a message that has begun. -/
def Due (f : Filter) (begun : Bool) (c : Cmd) (said : List Said) : Prop :=
  let when {α} (x : Option α) (l : Callback) : List Callback := if x.isSome then [l] else []
  let calls := said.map (·.what)
  match c with
  | .negotiate o => calls = when f.negotiate (.negotiate o.action o.step)
  | .connect host address => calls = when f.connect (.connect host address)
  | .helo fqdn => calls = when f.helo (.helo fqdn)
  | .envelopeFrom a => calls = when f.envfrom (.envfrom [a])
  | .envelopeRecipient a => calls = when f.envrcpt (.envrcpt [a])
  | .data => calls = when f.data .data
  | .unknown command => calls = when f.unknown (.unknown command)
  | .header name value => calls = when f.header (.header name value)
  | .endOfHeader => calls = when f.eoh .eoh
  | .body chunk => calls = when f.body (.body chunk)
  | .endOfMessage [] => calls = when f.eom .eom
  | .endOfMessage chunk => calls = when f.body (.body chunk) ++
      if said.any (fun x => x.what = .body chunk ∧ x.returned ∈ [1, 2, 3, 4]) then [] else when f.eom .eom
  | .abort => calls = if begun then when f.abort .abort else []
  | .quit => calls = when f.close .close
  | .defineMacro _ _ => calls = []

/-- one group of callbacks for each command -/
inductive AllDue (f : Filter) : Bool → List Cmd → List (List Said) → Prop
  | nil (begun) : AllDue f begun [] []
  | cons (begun c cs group groups) : Due f begun c group → AllDue f (next begun c) cs groups → AllDue f begun (c :: cs) (group :: groups)

/-- the part of the body in a command -/
def bodyPart : Cmd → Bytes
  | .body chunk | .endOfMessage chunk => chunk
  | _ => []

/-- the part of the body a callback gets -/
def bodyGiven : Callback → Bytes
  | .body chunk => chunk
  | _ => []

/-! ### Replies -/

/-- the decision a returned value stands for (milter.org: SMFIS_CONTINUE 0, SMFIS_REJECT 1, …) -/
def decisions : List (Int × Status) :=
  [(0, .continue_), (1, .reject), (2, .discard), (3, .accept), (4, .temporaryFailure), (7, .noReply), (8, .skip), (10, .allOptions)]

/-- what the callbacks called for a command decide: the last one does; no callback, or a value that means nothing, lets the message go on -/
def decision (said : List Said) : Status :=
  match said.getLast? with
  | none => .continue_
  | some x => ((decisions.find? (fun d => d.1 = x.returned)).map (·.2)).getD .continue_

/-- the text of a reply of several lines -/
def text (lines : List Bytes) : Bytes := List.intercalate [0x0a] lines

/-- the lines a reply may have: no longer than 980 bytes and without a carriage return -/
def fit (lines : List Bytes) : Bool := lines.all fun l => l.length ≤ 980 && !l.contains 0x0d

/-- the number a code of a reply stands for: what the C library makes of it, as an unsigned 32-bit integer (three digits: `C70_digits`) -/
def number (code : Bytes) : Nat := (atoi code % 2 ^ 32).toNat

/-- the calls of the client context (C09, C10, C40) a call of the library stands for; numbers are taken as unsigned 32-bit integers -/
def means : Request → List Client.Call
  | .setReply code ext message => [.setReply (number code) ext message]
  | .setMultiLineReply code ext lines =>
    if fit lines && text lines != [] then [.setReply (number code) ext (some (text lines))] else []
  | .addHeader name value => [.addHeader name value]
  | .changeHeader name index value => [.changeHeader name (index % 2 ^ 32).toNat value]
  | .insertHeader index name value => [.insertHeader (index % 2 ^ 32).toNat name value]
  | .changeFrom mail arguments => [.changeFrom mail arguments]
  | .addRecipient recipient => [.addRecipient recipient none]
  | .addRecipientWith recipient arguments => [.addRecipient recipient arguments]
  | .deleteRecipient recipient => [.deleteRecipient recipient]
  | .progress => [.progress]
  | .replaceBody body => [.replaceBody body]
  | .quarantine reason => [.quarantine reason]
  | .setSymbols _ _ => []

/-- those of some callbacks, in order -/
def doings (said : List Said) : List Client.Call := said.flatMap fun x => x.made.flatMap fun m => means m.1

/-- everything the filter may do in a callback satisfies `p` -/
def Only (p : Request → Bool) : Prog → Prop
  | .done _ => True
  | .ask r k => p r = true ∧ ∀ b, Only p (k b)
  | .symbol _ k => ∀ v, Only p (k v)
  | .setPriv _ k => Only p k
  | .getPriv k => ∀ v, Only p (k v)

/-- everything the filter may do satisfies `p` -/
structure Keeps (p : Request → Bool) (f : Filter) : Prop where
  connect : ∀ g, f.connect = some g → ∀ host address, Only p (g host address)
  helo : ∀ g, f.helo = some g → ∀ fqdn, Only p (g fqdn)
  envfrom : ∀ g, f.envfrom = some g → ∀ a, Only p (g a)
  envrcpt : ∀ g, f.envrcpt = some g → ∀ a, Only p (g a)
  data : ∀ g, f.data = some g → Only p g
  unknown : ∀ g, f.unknown = some g → ∀ command, Only p (g command)
  header : ∀ g, f.header = some g → ∀ name value, Only p (g name value)
  eoh : ∀ g, f.eoh = some g → Only p g
  body : ∀ g, f.body = some g → ∀ chunk, Only p (g chunk)
  eom : ∀ g, f.eom = some g → Only p g
  abort : ∀ g, f.abort = some g → Only p g
  close : ∀ g, f.close = some g → Only p g

/-- replies with an enhanced code, and recipients without parameters (see C09 and C40 for others) -/
def plain : Request → Bool
  | .setReply _ ext _ | .setMultiLineReply _ ext _ => ext.isSome
  | .addRecipientWith _ arguments => arguments.isNone
  | _ => true

/-- the end of a message -/
def isEnd : Cmd → Bool
  | .endOfMessage _ => true
  | _ => false

/-- Whether a call of the library is to succeed.  A reply must be legal (C10); a reply of several lines must consist of lines that fit, and no text at all
is no reply.  A modification must be made at the end of a message, with its arguments, and the MTA must have agreed to it in the negotiation (C39). -/
def Right (o : Option Opt) (atEnd : Bool) (r : Request) (ok : Bool) : Prop :=
  match r with
  | .setReply code ext _ => ok = true ↔ LegalReply (number code) ext
  | .setMultiLineReply code ext lines => ok = true ↔ fit lines = true ∧ (text lines = [] ∨ LegalReply (number code) ext)
  | .progress | .quarantine _ | .setSymbols _ _ => True
  | _ => ok = true ↔ atEnd = true ∧ ∀ c ∈ means r, Client.accepted o c = true

/-- what the MTA is to be told in answer to its offer, if anything -/
def answer (f : Filter) (o : Opt) : Option Reply :=
  match f.negotiate with
  | none => some (.negotiate o (some []))
  | some g => match g o.action o.step with
    | .usesContext => none
    | .answers status action step =>
      if status = 0 then some (.negotiate { o with action := action, step := step } (some []))
      else if status = 1 then some .reject
      else if status = 10 then some (.negotiate o (some []))
      else none

/-- `xxfi_negotiate` does not use its context, which in this library is none (C69) -/
def LeavesContext (f : Filter) : Prop := ∀ g, f.negotiate = some g → ∀ action step, g action step ≠ .usesContext

/-- the steps an MTA leaves out on request: no connect, helo, mail, rcpt, body, header, end of header, unknown, data
(core/milter-option.h) -/
def leftOut (step : UInt32) : Cmd → Bool
  | .connect _ _ => step &&& 0x01 != 0
  | .helo _ => step &&& 0x02 != 0
  | .envelopeFrom _ => step &&& 0x04 != 0
  | .envelopeRecipient _ => step &&& 0x08 != 0
  | .body _ => step &&& 0x10 != 0
  | .header _ _ => step &&& 0x20 != 0
  | .endOfHeader => step &&& 0x40 != 0
  | .unknown _ => step &&& 0x100 != 0
  | .data => step &&& 0x200 != 0
  | _ => false

/-! ### What a callback sees -/

/-- the callback the filter set for a call, with the arguments of the call -/
def program (f : Filter) : Callback → Option Prog
  | .connect host address => f.connect.map (· host address)
  | .helo fqdn => f.helo.map (· fqdn)
  | .envfrom arguments => f.envfrom.map (· arguments)
  | .envrcpt arguments => f.envrcpt.map (· arguments)
  | .data => f.data
  | .unknown command => f.unknown.map (· command)
  | .header name value => f.header.map (· name value)
  | .eoh => f.eoh
  | .body chunk => f.body.map (· chunk)
  | .eom => f.eom
  | .abort => f.abort
  | .close => f.close
  | .negotiate _ _ | .undefined => none

/-- `Path known prog before made after result`: with the private data `before`, the program makes the calls `made` and is told of each what is noted there,
leaves the private data `after`, and returns `result`.  `known name value` says what it is told about a macro. -/
inductive Path (known : Bytes → Option Bytes → Prop) : Prog → Option Nat → List (Request × Bool) → Option Nat → Int → Prop
  | done (result p) : Path known (.done result) p [] p result
  | ask (r k ok p made p' result) : Path known (k ok) p made p' result → Path known (.ask r k) p ((r, ok) :: made) p' result
  | symbol (name k value p made p' result) : known name value → Path known (k value) p made p' result → Path known (.symbol name k) p made p' result
  | setPriv (v k p made p' result) : Path known k v made p' result → Path known (.setPriv v k) p made p' result
  | getPriv (k p made p' result) : Path known (k p) p made p' result → Path known (.getPriv k) p made p' result

/-- some callbacks, one after the other; each finds the private data the one before it left -/
inductive Chain (f : Filter) (known : Bytes → Option Bytes → Prop) : Option Nat → List Said → Option Nat → Prop
  | nil (p) : Chain f known p [] p
  | cons (x prog p p' rest p'') : program f x.what = some prog → Path known prog p x.made p' x.returned → Chain f known p' rest p'' →
      Chain f known p (x :: rest) p''
  | negotiate (g action step status a b p) : f.negotiate = some g → g action step = .answers status a b →
      Chain f known p [⟨.negotiate action step, [], status⟩] p

/-- what a command means for the macros (C16): the MTA defines those of a stage, a command begins its stage, an abort forgets those of the message -/
def macroCalls : Cmd → List Macros.Call
  | .defineMacro stage table => [.setTable stage fun name => (table.lookup name).getD none]
  | .connect _ _ => [.setContext 0x43]
  | .helo _ => [.setContext 0x48]
  | .envelopeFrom _ => [.setContext 0x4d]
  | .envelopeRecipient _ => [.setContext 0x52]
  | .data => [.setContext 0x54]
  | .header _ _ => [.setContext 0x4c]
  | .endOfHeader => [.setContext 0x4e]
  | .body _ => [.setContext 0x42]
  | .endOfMessage _ => [.setContext 0x45]
  | .abort => [.clearMessage]
  | .negotiate _ | .unknown _ | .quit => []

/-- the macro calls up to the callbacks for an event, newest first; `xxfi_abort` still sees the macros of its message -/
def macrosAt (before : List Macros.Call) : Event → List Macros.Call
  | .command .abort => before
  | .command c => macroCalls c ++ before
  | _ => before

/-- and after it -/
def macrosAfter (before : List Macros.Call) : Event → List Macros.Call
  | .command c => macroCalls c ++ before
  | _ => before

/-- the callbacks of a session, a group for each event: the private data goes from one to the next, and each is told of the macros as they are then -/
inductive Chained (f : Filter) : List Macros.Call → Option Nat → List Event → List (List Said) → Prop
  | nil (h p) : Chained f h p [] []
  | cons (h p e es group groups p') : Chain f (Macros.Result (macrosAt h e)) p group p' → Chained f (macrosAfter h e) p' es groups →
      Chained f h p (e :: es) (group :: groups)

/-! ### Settings -/

/-- the last of some calls that sets something, or else the default -/
def latest {α : Type} (sets : Setting → Option α) (default : α) (calls : List Setting) : α := (calls.reverse.findSome? sets).getD default

/-- the time to wait for the MTA -/
def setsTimeout : Setting → Option Nat
  | .setTimeout t => some (t % 2 ^ 32).toNat
  | .reset => some 7210
  | _ => none

/-- the length of the queue of connections, which must be positive -/
def setsBacklog : Setting → Option Int
  | .setBacklog b => if 0 < b then some b else none
  | .reset => some (-1)
  | _ => none

/-- a place to listen at: a path alone means a socket of that name -/
def place (p : Bytes) : Bytes := if 0x3a ∈ p then p else ascii "unix:" ++ p

/-- where to listen; a place that cannot be read (C19) is refused -/
def setsPlace (net : Connection.Net) : Setting → Option (Option Bytes)
  | .setConnection (some p) => if Connection.parseSpec net (place p) = .fail then none else some (some (place p))
  | .reset => some none
  | _ => none

/-- the filter; its version must be one of Sendmail's 8.14 and before -/
def setsFilter : Setting → Option (Option (Bytes × Filter))
  | .register version name f => if version ∈ [0x01000001, 2, 3, 4] then some (some (name.getD (ascii "Unknown"), f)) else none
  | .reset => some none
  | _ => none

def setsDebug : Setting → Option (Option Int)
  | .setDebug level => some (some level)
  | _ => none

/-- critical, error, warning, message, info, debug -/
def severities : List UInt32 := [0x02, 0x04, 0x08, 0x10, 0x20, 0x40]

end Verif.Spec.LibMilter
