import Verif.Spec.Phase
import Verif.Spec.Severity
import Verif.Spec.Early
/-
One command after the other: a session with its messages.
-/
namespace Verif.Spec.Phase
open Verif Verif.Children Verif.Spec.Children
open Verif.Server (St)

/-- the decisions a milter can be configured to stand for when it fails -/
def isFallback (v : Status) : Bool :=
  decide (v = .continue_) || decide (v = .accept) || decide (v = .reject) || decide (v = .temporaryFailure) ||
    decide (v = .discard)

/-- nothing is under way with the milter, and it answers every command that goes to all milters -/
structure Resting (k : Kid) : Prop where
  linked : k.linked = true
  retry : k.tryRetry = none
  nextStates : k.ctx.nextStates = []
  timer : k.ctx.timer = none
  option : ∃ o, k.ctx.option = some o ∧ ∀ e cmd st, asks e = some (cmd, st) → o.step &&& Server.noReplyFlag st = 0
  fallback : isFallback k.fallback = true
  body : MsgBlank k.ctx

/-- the manager waits for a command of the MTA: nothing is under way with any milter that takes part, and no
message is stored -/
structure AtRest (s : Sys) : Prop where
  oracle : s.oracle = []
  pending : s.pending = none
  running : s.allExpired = false
  blank : Blank s
  milters : ∀ i < s.count, isAlive (s.kids i) = true → Resting (s.kids i)

/-- what happens from one command of the MTA to the next one, or from the first header of a message to its end; `out`
are the milters whose last packets then go out -/
inductive Turn where
  /-- a command, and everything up to the manager's reply -/
  | ask (command : Event) (talk : List Event) (out : List Nat)
  /-- the MTA gives up the message -/
  | abort (out : List Nat)
  /-- a message, which all milters, first `i` and then `order`, let pass; bodies are handed on in pieces of `size` -/
  | message (m : Message) (role : Nat → Role) (size i : Nat) (order : List Nat)
  /-- a message, which the last one of these milters refuses by `answer` -/
  | refused (m : Message) (role : Nat → Role) (size i : Nat) (order : List Nat) (answer : Reply) (out : List Nat)
  /-- a message, which some milters leave while it is read (`reading`) and the others, `j` and then `order`, let pass -/
  | early (m : Message) (reading : List Event) (role : Nat → Role) (size j : Nat) (order : List Nat)
  /-- a message, which some milters leave while it is read and the last one of the others refuses at its end -/
  | earlyRefused (m : Message) (reading : List Event) (role : Nat → Role) (size j : Nat) (order : List Nat) (answer : Reply) (out : List Nat)
  /-- a message, which milter `k` refuses before its end -/
  | turnedDown (reading : List Event) (k : Nat) (answer : Reply) (out : List Nat)

/-- which commands the milters get for a message -/
def handed (m : Message) (role : Nat → Role) (size i : Nat) (order : List Nat) : List (Nat × List Cmd) :=
  (i, m.first (role i).convert) ::
    deliveries (pieces size) (decide (m.headers ≠ [])) (decide (m.chunks ≠ [])) m.last role
      (m.draft.after (role i).convert (role i).effective) order

def Turn.opening : Turn → List Event
  | .ask command talk _ => command :: talk
  | .abort _ => [.abort]
  | .message m role size i order =>
    m.arrives i ++ (finishes i (role i) ++
      (handed m role size i order).tail.flatMap fun x => turn x.1 (x.2.length - 1) (role x.1))
  | .refused m role size i order answer _ =>
    let k := (i :: order).getLastD 0
    m.arrives i ++ (passing role i (handed m role size i order).tail ++ (role k).requests.map (.reply k ·) ++ [.reply k answer])
  | .early m reading role size j order =>
    reading ++ [.endOfMessage m.last, .flushed j] ++ (finishes j (role j) ++
      (handed m role size j order).tail.flatMap fun x => turn x.1 (x.2.length - 1) (role x.1))
  | .earlyRefused m reading role size j order answer _ =>
    let k := (j :: order).getLastD 0
    reading ++ [.endOfMessage m.last, .flushed j] ++
      (passing role j (handed m role size j order).tail ++ (role k).requests.map (.reply k ·) ++ [.reply k answer])
  | .turnedDown reading k answer _ => reading ++ [.reply k answer]

def Turn.closing : Turn → List Event
  | .ask _ _ out => out.map .flushed
  | .abort out => out.map .flushed
  | .message .. => []
  | .refused _ _ _ _ _ _ out => out.map .flushed
  | .early .. => []
  | .earlyRefused _ _ _ _ _ _ _ out => out.map .flushed
  | .turnedDown _ _ _ out => out.map .flushed

/-- The message `m` comes when everybody has answered DATA; the milters `i :: order`, and perhaps more after them
(`later`), have it to see.  `role` says what those do that see it. -/
structure Posting (s : Sys) (m : Message) (role : Nat → Role) (size i : Nat) (order later : List Nat) : Prop where
  followers : ((List.range s.count).filter fun j => inMessage (s.kids j)) = i :: (order ++ later)
  recipients : ∀ j ∈ i :: (order ++ later), Server.hasAcceptedRecipient (s.kids j).ctx = true
  /-- they want all of a message and answer to everything -/
  wants : ∀ j ∈ i :: (order ++ later), ∃ o, (s.kids j).ctx.option = some o ∧ wantsMessage o
  /-- the last command was not a recipient, that is, DATA has come -/
  begun : s.state ≠ .envelopeRecipient
  /-- nothing is left over from another message (C30) -/
  traceless : Traceless s
  verdict : Props.Passing (s.statuses .endOfMessage)
  chunk : size = s.chunkSize
  sizePos : 0 < size
  sizeMax : size ≤ 65535
  lengths : ∀ c ∈ m.chunks, c.length ≤ 65535
  negotiated : ∃ o, s.option = some o
  roles : ∀ j ∈ i :: order, (role j).convert = converts s j ∧ (role j).counts = !(s.kids j).evaluation ∧
    ∀ r ∈ (role j).requests, isModification r = true
  /-- nobody removes all headers or the whole body -/
  remains : ∀ x ∈ relay role (m.draft.after (role i).convert (role i).effective) order,
    (m.headers ≠ [] → x.2.headers ≠ []) ∧ (m.chunks ≠ [] → x.2.body ≠ [])
  /-- a body is replaced only if there is one -/
  replaces : m.chunks = [] → ∀ j ∈ i :: order, ∀ r ∈ (role j).requests, replacement r = none

/-- A message comes when everybody has answered DATA; the milters `i :: rest` have it to see. -/
structure Followed (s : Sys) (size i : Nat) (rest : List Nat) : Prop where
  followers : ((List.range s.count).filter fun j => inMessage (s.kids j)) = i :: rest
  recipients : ∀ j ∈ i :: rest, Server.hasAcceptedRecipient (s.kids j).ctx = true
  wants : ∀ j ∈ i :: rest, ∃ o, (s.kids j).ctx.option = some o ∧ wantsMessage o
  begun : s.state ≠ .envelopeRecipient
  traceless : Traceless s
  chunk : size = s.chunkSize
  sizePos : 0 < size
  sizeMax : size ≤ 65535
  negotiated : ∃ o, s.option = some o

/-- what those do that see the message `m` to its end, first `j` and then `order` -/
structure Acting (s : Sys) (m : Message) (role : Nat → Role) (j : Nat) (order : List Nat) : Prop where
  verdict : Props.Passing (s.statuses .endOfMessage)
  roles : ∀ k ∈ j :: order, (role k).convert = converts s k ∧ (role k).counts = !(s.kids k).evaluation ∧
    ∀ r ∈ (role k).requests, isModification r = true
  /-- nobody removes all headers or the whole body -/
  remains : ∀ x ∈ relay role (m.draft.after (role j).convert (role j).effective) order,
    (m.headers ≠ [] → x.2.headers ≠ []) ∧ (m.chunks ≠ [] → x.2.body ≠ [])
  /-- a body is replaced only if there is one -/
  replaces : m.chunks = [] → ∀ k ∈ j :: order, ∀ r ∈ (role k).requests, replacement r = none

/-- what the MTA is told about a message before the last word: to continue after each of its commands; recipients
as the milters add and remove them; at the end what else has changed -/
def reports (m : Message) (role : Nat → Role) (size i : Nat) (order : List Nat) : List Emit :=
  List.replicate ((m.first (role i).convert).length - 1) (.reply .cont) ++
    (i :: order).flatMap (fun j => ((role j).effective.filter isRecipientEdit).map .reply) ++
    changes m.draft.headers (pieces size (outcome role m.draft (i :: order)).body) (outcome role m.draft (i :: order))

/-- every packet that has not gone out yet does so -/
structure Clears (s : Sys) (out : List Nat) : Prop where
  all : ∀ i < s.count, isAlive (s.kids i) = true → (s.kids i).ctx.nextStates ≠ [] → i ∈ out
  alive : ∀ i ∈ out, i < s.count ∧ isAlive (s.kids i) = true

/-- the decision of all milters together: one of theirs, and none of theirs is more severe -/
def IsVerdict (votes : List Status) (v : Status) : Prop := v ∈ votes ∧ ∀ w ∈ votes, Props.severity w ≤ Props.severity v

/-- not one of the commands by which a milter is told that the message or the session is over -/
def goesOn (p : Nat × Cmd) : Bool := decide (p.2 ≠ .abort) && decide (p.2 ≠ .quit)

/-- who is asked -/
def asked (s : Sys) (e : Event) (cmd : Cmd) (st : St) : List (Nat × Cmd) :=
  ((addressees s e).filter fun i => !declines (s.kids i) st).map (·, cmd)

/-- The course of a session, turn by turn.  `told` is what the MTA is to be told, `sent` the commands the
milters are to be sent apart from those by which they are told that it is over. -/
inductive Course (n : Nat) : Sys → List Turn → List Emit → List (Nat × Cmd) → Prop where
  | done {s : Sys} : Course n s [] [] []
  /-- a command goes to all milters it is meant for, and everybody answers or fails -/
  | ask {s : Sys} {e : Event} {talk : List Event} {out : List Nat} {rest : List Turn} {told : List Emit} {sent : List (Nat × Cmd)}
      {cmd : Cmd} {st : St} {t : Talk} {v : Status}
      (command : asks e = some (cmd, st)) (somebody : addressees s e ≠ [])
      (talks : (Talk.start s (addressees s e) st).moves s (addressees s e) st talk = some t)
      (over : t.isOpen (addressees s e) = false) (verdict : IsVerdict t.votes v)
      (clears : ∀ s', run n s (quietly (e :: talk)) = some s' → Clears s' out)
      (next : ∀ s', run n s (quietly (e :: talk ++ out.map .flushed)) = some s' → Course n s' rest told sent) :
      Course n s (.ask e talk out :: rest) (.reply (report v t.code) :: told) (asked s e cmd st ++ sent)
  /-- nobody is there for the command: the MTA is told of an error -/
  | nobody {s : Sys} {e : Event} {rest : List Turn} {told : List Emit} {sent : List (Nat × Cmd)} {cmd : Cmd} {st : St}
      (command : asks e = some (cmd, st)) (gone : addressees s e = []) (gone' : abandoned s e = [])
      (next : ∀ s', run n s (quietly [e]) = some s' → Course n s' rest told sent) :
      Course n s (.ask e [] [] :: rest) (.error true :: told) sent
  /-- nobody wants the message when DATA comes: the MTA is told nothing -/
  | deserted {s : Sys} {out : List Nat} {rest : List Turn} {told : List Emit} {sent : List (Nat × Cmd)}
      (gone : addressees s .data = []) (somebody : abandoned s .data ≠ [])
      (clears : ∀ s', run n s (quietly [.data]) = some s' → Clears s' out)
      (next : ∀ s', run n s (quietly (.data :: out.map .flushed)) = some s' → Course n s' rest told sent) :
      Course n s (.ask .data [] out :: rest) told sent
  /-- the MTA gives up the message -/
  | abort {s : Sys} {out : List Nat} {rest : List Turn} {told : List Emit} {sent : List (Nat × Cmd)}
      (clears : ∀ s', run n s (quietly [.abort]) = some s' → Clears s' out)
      (next : ∀ s', run n s (quietly (.abort :: out.map .flushed)) = some s' → Course n s' rest told sent) :
      Course n s (.abort out :: rest) told sent
  /-- everybody lets a message pass -/
  | message {s : Sys} {m : Message} {role : Nat → Role} {size i : Nat} {order : List Nat} {rest : List Turn} {told : List Emit}
      {sent : List (Nat × Cmd)} (posting : Posting s m role size i order [])
      (next : ∀ s', run n s (quietly (Turn.opening (.message m role size i order))) = some s' → Course n s' rest told sent) :
      Course n s (.message m role size i order :: rest)
        (reports m role size i order ++ .reply (Spec.Children.verdict (s.statuses .endOfMessage) role (i :: order)) :: told)
        ((handed m role size i order).flatMap (fun x => x.2.map (x.1, ·)) ++ sent)
  /-- one of them refuses it -/
  | refused {s : Sys} {m : Message} {role : Nat → Role} {size i : Nat} {order later : List Nat} {answer : Reply} {out : List Nat}
      {rest : List Turn} {told : List Emit} {sent : List (Nat × Cmd)} (posting : Posting s m role size i order later)
      (refusal : (refusing answer).isSome = true) (counts : (s.kids ((i :: order).getLastD 0)).evaluation = false)
      (code : s.code = none ∨ ∃ a b c, answer = .replyCode a b c)
      (clears : ∀ s', run n s (quietly (Turn.opening (.refused m role size i order answer out))) = some s' → Clears s' out)
      (next : ∀ s', run n s (quietly (Turn.opening (.refused m role size i order answer out) ++ out.map .flushed)) = some s' →
        Course n s' rest told sent) :
      Course n s (.refused m role size i order answer out :: rest) (reports m role size i order ++ .reply answer :: told)
        ((handed m role size i order).flatMap (fun x => x.2.map (x.1, ·)) ++ sent)

  /-- some leave a message before its end, the others let it pass -/
  | early {s : Sys} {m : Message} {role : Nat → Role} {size i j : Nat} {all order : List Nat} {es : List Event} {cs : List (Nat × Cmd)}
      {rest : List Turn} {told : List Emit} {sent : List (Nat × Cmd)} (followed : Followed s size i all)
      (reads : Early.Reads (converts s) (pieces size) {} i all (Early.parts m) es cs j order) (acting : Acting s m role j order)
      (next : ∀ s', run n s (quietly (Turn.opening (.early m es role size j order))) = some s' → Course n s' rest told sent) :
      Course n s (.early m es role size j order :: rest)
        (reports m role size j order ++ .reply (Spec.Children.verdict (s.statuses .endOfMessage) role (j :: order)) :: told)
        (cs ++ [(j, .endOfMessage m.last)] ++ (handed m role size j order).tail.flatMap (fun x => x.2.map (x.1, ·)) ++ sent)
  /-- some leave a message before its end, one of the others refuses it at its end -/
  | earlyRefused {s : Sys} {m : Message} {role : Nat → Role} {size i j : Nat} {all order later : List Nat} {es : List Event}
      {cs : List (Nat × Cmd)} {answer : Reply} {out : List Nat}
      {rest : List Turn} {told : List Emit} {sent : List (Nat × Cmd)} (followed : Followed s size i all)
      (reads : Early.Reads (converts s) (pieces size) {} i all (Early.parts m) es cs j (order ++ later)) (acting : Acting s m role j order)
      (refusal : (refusing answer).isSome = true) (counts : (s.kids ((j :: order).getLastD 0)).evaluation = false)
      (code : s.code = none ∨ ∃ a b c, answer = .replyCode a b c)
      (clears : ∀ s', run n s (quietly (Turn.opening (.earlyRefused m es role size j order answer out))) = some s' → Clears s' out)
      (next : ∀ s', run n s (quietly (Turn.opening (.earlyRefused m es role size j order answer out) ++ out.map .flushed)) = some s' →
        Course n s' rest told sent) :
      Course n s (.earlyRefused m es role size j order answer out :: rest) (reports m role size j order ++ .reply answer :: told)
        (cs ++ [(j, .endOfMessage m.last)] ++ (handed m role size j order).tail.flatMap (fun x => x.2.map (x.1, ·)) ++ sent)
  /-- one refuses a message before its end, when the part `p` has come -/
  | turnedDown {s : Sys} {size i j k : Nat} {all rest' later : List Nat} {ps : List Early.Part} {p : Early.Part} {es es' : List Event}
      {cs cs' : List (Nat × Cmd)} {answer : Reply} {out : List Nat}
      {rest : List Turn} {told : List Emit} {sent : List (Nat × Cmd)} (followed : Followed s size i all)
      (reads : Early.Reads (converts s) (pieces size) {} i all ps es cs j rest')
      (allowed : (ps.foldl Early.Arrived.add {}).allows p)
      (reaches : Early.Reaches (converts s) (pieces size) ((ps.foldl Early.Arrived.add {}).add p) j rest' es' cs' k later)
      (refusal : (refusing answer).isSome = true) (counts : (s.kids k).evaluation = false)
      (fresh : ∀ st, s.statuses st ≠ .reject ∧ s.statuses st ≠ .temporaryFailure ∧ s.statuses st ≠ .discard)
      (code : s.code = none ∨ ∃ a b c, answer = .replyCode a b c)
      (clears : ∀ s', run n s (quietly (Turn.opening (.turnedDown (es ++ [p.event, .flushed j] ++ es') k answer out))) = some s' → Clears s' out)
      (next : ∀ s', run n s (quietly (Turn.opening (.turnedDown (es ++ [p.event, .flushed j] ++ es') k answer out) ++ out.map .flushed)) = some s' →
        Course n s' rest told sent) :
      Course n s (.turnedDown (es ++ [p.event, .flushed j] ++ es') k answer out :: rest)
        (List.replicate ps.length (.reply .cont) ++ .reply answer :: told)
        (cs ++ [(j, p.command (converts s j))] ++ cs' ++ sent)

def Turn.events (t : Turn) : List Event := t.opening ++ t.closing

end Verif.Spec.Phase
