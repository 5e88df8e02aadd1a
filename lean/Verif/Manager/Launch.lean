import Verif.Core.Types
/-
How the manager gets at its milters at the beginning of a session:
`milter/manager/milter-manager-children.c` 809-860, 2519-2605, 2711-2960 and 3099-3155, with
launching (`Manager/Children.lean` has the same functions without it, together with everything that
comes after).

What the milters and the operating system do are the arguments of the events: whether `connect`
fails at once, what becomes of a connection attempt that does not, whether the launcher can be
written to.  The events may come in any order; the server context (`Server/Context.lean`) allows
fewer orders.  Left out: logging, the option and the macro requests, and the end of the session
(`priv->finished` is FALSE throughout).
-/
namespace Verif.Launch

/-- what the configuration says: the number of milters, `privilege_mode`, whether there is a
launcher (`priv->launcher_writer`), and which milters have a command (`milter_manager_child_
get_command_line_string`, milter-manager-child.c 271-284) -/
structure Setup where
  count : Nat
  privileged : Bool := false
  launcher : Bool := false
  command : Nat → Bool := fun _ => false

/-- `NegotiateData` (114-124) in `priv->try_negotiate_ids`, in the order in which its handlers were
connected; `timer` if there is a `NegotiateTimeoutID` -/
structure Try where
  milter : Nat
  retry : Bool
  timer : Bool
deriving DecidableEq, Repr

/-- what can be seen from outside -/
inductive Out where
  /-- a connection to milter `i` is attempted -/
  | attempt (i : Nat)
  /-- the launcher is told to launch milter `i` -/
  | launch (i : Nat)
  /-- an error is reported -/
  | error
  /-- milter `i` gets the offer -/
  | offer (i : Nat)
  /-- milter `i` answered the offer -/
  | accepted (i : Nat)
  /-- milter `i` does without this session, `expire_child` -/
  | gone (i : Nat)
  /-- the MTA gets the answer to its offer -/
  | answer
deriving DecidableEq, Repr

structure State where
  /-- `priv->reply_queue` -/
  queue : List Nat := []
  tries : List Try := []
  /-- whether the handlers of `setup_server_context_signals` are connected to milter `i` -/
  linked : Nat → Bool := fun _ => false
  /-- `priv->lazy_reply_negotiate_id` -/
  lazy : Bool := false
  out : List Out := []

def say (o : Out) (s : State) : State := { s with out := s.out ++ [o] }

/-- `remove_queue_in_negotiate` (2711-2727), `reply_negotiate` (2680-2708) -/
def settle (i : Nat) (s : State) : State :=
  let s := { s with queue := s.queue.erase i }
  if s.queue = [] then say .answer s else s

/-- `expire_child` (914-920) -/
def expire (i : Nat) (s : State) : State :=
  say (.gone i) { s with linked := fun j => if j = i then false else s.linked j }

/-- `clear_try_negotiate_data` (2729-2739), the removal from the table apart -/
def clear (i : Nat) (s : State) : State := expire i (settle i s)

def push (t : Try) (s : State) : State := { s with tries := s.tries ++ [t] }

/-- `milter_manager_children_start_child` (2536-2613) with the check for privileges of its callers
(2781-2790, 3150); `written` if neither writing nor flushing fails -/
def start (c : Setup) (i : Nat) (written : Bool) (s : State) : Bool × State :=
  if c.privileged ∧ c.launcher ∧ c.command i then
    if written then (true, say (.launch i) s) else (false, say .error s)
  else (false, s)

/-- `child_establish_connection` (2923-2958); `ok` unless connecting fails at once -/
def establish (i : Nat) (retry ok : Bool) (s : State) : State :=
  let s := say (.attempt i) s
  if ok then push ⟨i, retry, false⟩ s
  else
    let s := say .error s
    if retry then expire i (settle i s) else push ⟨i, true, true⟩ s

/-- the loop of `milter_manager_children_negotiate` (3146-3155) -/
def establishAll (c : Setup) (results : Nat → Bool × Bool) : List Nat → State → State
  | [], s => s
  | i :: rest, s =>
    let s := establish i false (results i).1 s
    let s :=
      if (results i).1 then s
      else
        match start c i (results i).2 s with
        | (true, s) => push ⟨i, false, true⟩ s
        | (false, s) => s
    establishAll c results rest s

/-- `milter_manager_children_negotiate` (3099-3158) -/
def negotiate (c : Setup) (results : Nat → Bool × Bool) : State :=
  if c.count = 0 then { lazy := true }
  else establishAll c results (List.range c.count) { queue := List.range c.count }

/-- `cb_ready` (809-825) -/
def ready (i : Nat) (s : State) : State :=
  say (.offer i) { s with linked := fun j => if j = i then true else s.linked j }

/-- `cb_connection_error` (2755-2802); `own` if the domain of the error is
MILTER_SERVER_CONTEXT_ERROR -/
def failed (c : Setup) (own written : Bool) (t : Try) (s : State) : State :=
  if ¬own ∨ t.retry then clear t.milter (say .error s)
  else
    match start c t.milter written s with
    | (true, s) => push ⟨t.milter, true, true⟩ s
    | (false, s) => clear t.milter s

/-- a signal of milter `i`: every handler connected for it runs, in the order of connection, and
each takes its own `NegotiateData` out of the table; handlers connected meanwhile do not run -/
def signal (i : Nat) (handler : Try → State → State) (s : State) : State :=
  let mine := s.tries.filter (·.milter = i)
  mine.foldl (fun s t => handler t s) { s with tries := s.tries.filter (·.milter ≠ i) }

inductive Event where
  /-- `cb_idle_reply_negotiate_on_no_child` (3090-3097) -/
  | idle
  /-- the `k`-th timer goes off, `retry_establish_connection` (2519-2534); `ok` unless connecting
  fails at once -/
  | timer (k : Nat) (ok : Bool)
  /-- milter `i` is connected -/
  | ready (i : Nat)
  /-- milter `i` cannot be connected to -/
  | failed (i : Nat) (own written : Bool)
  /-- `cb_connection_timeout` (2741-2753) -/
  | timeout (i : Nat)
  /-- milter `i` answers the offer, `cb_negotiate_reply` (827-860) -/
  | accepts (i : Nat)
  /-- the connection to milter `i` ends, `cb_finished` (2374-2435) -/
  | leaves (i : Nat)
deriving DecidableEq, Repr

def step (c : Setup) (s : State) : Event → State
  | .idle => if s.lazy then say .answer { s with lazy := false } else s
  | .timer k ok =>
    match s.tries[k]? with
    | some t => if t.timer then establish t.milter true ok { s with tries := s.tries.eraseIdx k } else s
    | none => s
  | .ready i => signal i (fun t => ready t.milter) s
  | .failed i own written => signal i (failed c own written) s
  | .timeout i => signal i (fun t => clear t.milter) s
  | .accepts i => if s.linked i then settle i (say (.accepted i) s) else s
  | .leaves i => if s.linked i then settle i (expire i s) else s

/-- a session up to its first command: the offer of the MTA and what happens then -/
def run (c : Setup) (results : Nat → Bool × Bool) (es : List Event) : State :=
  es.foldl (step c) (negotiate c results)

end Verif.Launch
