import Verif.Manager.ChildrenLogic
import Verif.Server.StepFacts
import Verif.Props.Server
/-
Every execution of `Manager/Children.lean` is a sequence of the elementary changes `Op`, each with
the circumstances under which the code makes it.  Properties of all executions are then shown by
looking at the elementary changes only.
-/
namespace Verif.Children
open Verif
open Verif.Server (St stopState)

/-- commands sent to all milters at once -/
def isParallel : Cmd → Bool
  | .connect _ _ | .helo _ | .envelopeFrom _ | .envelopeRecipient _ | .data | .unknown _ => true
  | _ => false

/-- nothing but bookkeeping changed -/
structure Same (s s' : Sys) : Prop where
  count : s'.count = s.count
  kids : s'.kids = s.kids
  chunkSize : s'.chunkSize = s.chunkSize
  replyQueue : s'.replyQueue = s.replyQueue
  pending : s'.pending = s.pending
  body : s'.body = s.body
  file : s'.bodyFile.map (·.1) = s.bodyFile.map (·.1)
  eomChunk : s'.eomChunk = s.eomChunk
  option : s'.option = s.option
  initialYes : s'.initialYes = s.initialYes
  requestedYes : s'.requestedYes = s.requestedYes
  statuses : s'.statuses = s.statuses
  originalHeaders : s'.originalHeaders = s.originalHeaders
  headers : s'.headers = s.headers
  replaced : s'.replaced = s.replaced
  changeFrom : s'.changeFrom = s.changeFrom
  quarantine : s'.quarantine = s.quarantine
  code : s'.code = s.code
  out : s'.out = s.out
  finished : s'.finished = s.finished

/-- what never changes about a milter, and what changes in one direction only -/
structure KidOk (k k' : Kid) : Prop where
  fallback : k'.fallback = k.fallback
  evaluation : k'.evaluation = k.evaluation
  quitted : k.ctx.quitted = true → k'.ctx.quitted = true

/-- the status a refusing reply stands for -/
def refusal : Reply → Option Status
  | .temporaryFailure => some .temporaryFailure
  | .reject => some .reject
  | .discard => some .discard
  | .replyCode c _ _ => some (if c / 100 = 4 then .temporaryFailure else .reject)
  | _ => none

/-- where a status may come from, in a step with the event `e0` -/
def VoteOk (e0 : Event) (s : Sys) (v : Status) : Prop :=
  v = .continue_ ∨ v = .accept ∨ v = .skip ∨ (∃ i, v = (s.kids i).fallback) ∨
  ∃ i r, e0 = .reply i r ∧ (s.kids i).evaluation = false ∧ refusal r = some v

/-- a request of a milter that is to be carried out -/
structure ModOk (e0 : Event) (s : Sys) (i : Nat) (r : Reply) : Prop where
  event : e0 = .reply i r
  eom : (s.kids i).ctx.state = .endOfMessage
  evaluation : (s.kids i).evaluation = false

/-- what `emitStatusOf` emits: the reply code if it fits, else the status if there is one -/
def decision (s : Sys) (st : St) : List Reply :=
  match s.code with
  | some (c, x, m) =>
    if (c / 100 = 4 ∧ s.statuses st = .temporaryFailure) ∨ (c / 100 = 5 ∧ s.statuses st = .reject)
    then [.replyCode c x m]
    else if s.statuses st ≠ .notChange then [statusReply (s.statuses st)] else []
  | none => if s.statuses st ≠ .notChange then [statusReply (s.statuses st)] else []

/-- a code that was used is forgotten -/
def codeLeft (s : Sys) (st : St) : Option (Nat × Bytes × Option Bytes) :=
  match s.code with
  | some (c, x, m) =>
    if (c / 100 = 4 ∧ s.statuses st = .temporaryFailure) ∨ (c / 100 = 5 ∧ s.statuses st = .reject)
    then none else some (c, x, m)
  | none => none

/-- the state `emitStatusOf` leaves -/
def decided (s : Sys) (st : St) : Sys :=
  let s' := { s with
    out := s.out ++ (decision s st).map fun r => .emit (.reply r)
    code := codeLeft s st }
  if st = .endOfMessage then messageDisposed s' else s'

/-- the message command an event brings -/
def pendingOf : Event → Option Pending
  | .header n v => some (.header n v)
  | .endOfHeader => some .endOfHeader
  | .body b => some (.body b)
  | .endOfMessage b => some (.endOfMessage b)
  | _ => none

/-- a message command of the MTA that is being carried out: it comes with the event, or was kept -/
def Given (s0 : Sys) (e0 : Event) (p : Pending) : Prop := pendingOf e0 = some p ∨ s0.pending = some p

/-- the milter is given up on such a signal -/
def isFailure : Server.Signal → Bool
  | .writingTimeout | .readingTimeout | .endOfMessageTimeout | .error _ => true
  | _ => false

def expired (k : Kid) : Kid := { k with ctx := { k.ctx with quitted := true }, linked := false }

def voted (s : Sys) (st : St) (v : Status) : Sys :=
  { s with statuses := setStatusOf s.statuses st (Status.compile (s.statuses st) v) }

/-- the headers after a request to change them -/
def edited (c : Bool) (hs : List Header) : Reply → Option (List Header)
  | .addHeader n v => some (Headers.add hs n (normalized c (some v)))
  | .insertHeader p n v => some (Headers.insert hs p n (normalized c v))
  | .changeHeader n p v => some (Headers.change hs n p (normalized c (some v))).2
  | .deleteHeader n p => some (Headers.delete hs n p).2
  | _ => none

def logged (s : Sys) (o : Out) : Sys := { s with out := s.out ++ [o] }

/-- a piece of a replacement: the first one of a milter displaces what is stored -/
def bodyReplaced (s : Sys) (chunk : Bytes) : Sys :=
  { bodyWritten (if s.replacedForEach then s else bodyDisposed s) chunk with
    replacedForEach := true, replaced := true }

/-- the option the MTA's offer is cut down to -/
def capped (o : Opt) : Opt := if maxVersion < o.version then { o with version := maxVersion } else o

/-- milters that had not quitted when the step started (a negotiation starts anew) -/
def Fresh (s0 : Sys) (e0 : Event) (l : List Nat) : Prop :=
  (∃ o, e0 = .negotiate o) ∨ ∀ i ∈ l, (s0.kids i).ctx.quitted = false

/-- the elementary changes in a step with the event `e0` starting in `s0` -/
inductive Op (s0 : Sys) (e0 : Event) (s : Sys) : Sys → Prop
  | quiet (s' : Sys) (h : Same s s') : Op s0 e0 s s'
  | queue (q : List Nat) (h : (∀ i ∈ q, i ∈ s.replyQueue) ∨ Fresh s0 e0 q) :
    Op s0 e0 s { s with replyQueue := q }
  | pend (p : Pending) (h : Given s0 e0 p) : Op s0 e0 s { s with pending := some p }
  | unpend : Op s0 e0 s { s with pending := none }
  | dispose : Op s0 e0 s (messageDisposed s)
  | kid (i : Nat) (k : Kid) (h : KidOk (s.kids i) k) : Op s0 e0 s { s with kids := updKid s.kids i k }
  | sent (i : Nat) (c : Cmd) (h : isParallel c = true → Fresh s0 e0 [i]) :
    Op s0 e0 s (logged s (.sent i c))
  | heard (i : Nat) (sig : Server.Signal) (hf : isFailure sig = false)
    (h : ∀ r, sig = .reply r → r = .cont ∨ r = .skip ∨ e0 = .reply i r) : Op s0 e0 s (logged s (.heard i sig))
  | failed (i : Nat) (sig : Server.Signal) (hf : isFailure sig = true) :
    Op s0 e0 s { voted (logged s (.heard i sig)) (s.kids i).ctx.state (s.kids i).fallback with
      kids := updKid s.kids i (expired (s.kids i)) }
  | closed (i : Nat) : Op s0 e0 s (logged s (.closed i))
  | ub : Op s0 e0 s (logged s .ub)
  | vote (st : St) (v : Status) (h : VoteOk e0 s v) : Op s0 e0 s (voted s st v)
  | clearVote (st : St) : Op s0 e0 s { s with statuses := setStatusOf s.statuses st .notChange }
  | decide (st : St) : Op s0 e0 s (decided s st)
  | bare (v : Status) (h : v = .notChange ∨ ∃ i, v = (s0.kids i).fallback) :
    Op s0 e0 s (logged s (.emit (.reply (statusReply v))))
  | forward (i : Nat) (r : Reply) (hr : r = .progress ∨ r = .connectionFailure ∨ r = .shutdown)
    (h : e0 = .reply i r) (hs : r = .progress → (s.kids i).ctx.state = .endOfMessage) :
    Op s0 e0 s (logged s (.emit (.reply r)))
  | note (e : Emit) (h : e = .abort ∨ ∃ own, e = .error own) : Op s0 e0 s (logged s (.emit e))
  | announce (hq : e0 = .quit) (h : s.finished = false) :
    Op s0 e0 s { s with finished := true, out := s.out ++ [.emit .finished] }
  | setCode (i : Nat) (c : Nat) (x : Bytes) (m : Option Bytes)
    (h : e0 = .reply i (.replyCode c x m)) : Op s0 e0 s { s with code := some (c, x, m) }
  | eom : Op s0 e0 s { s with out := s.out ++ (eomEmits s).map .emit }
  | recipient (i : Nat) (r : Reply) (h : ModOk e0 s i r)
    (hr : (∃ a p, r = .addRecipient a p) ∨ ∃ a, r = .deleteRecipient a) :
    Op s0 e0 s (logged s (.emit (.reply r)))
  | changeFrom (i : Nat) (f : Bytes) (p : Option Bytes) (h : ModOk e0 s i (.changeFrom f p)) :
    Op s0 e0 s { s with changeFrom := some (f, p) }
  | quarantine (i : Nat) (q : Bytes) (h : ModOk e0 s i (.quarantine q)) :
    Op s0 e0 s { s with quarantine := some q }
  | edit (i : Nat) (r : Reply) (c : Bool) (hs hs' : List Header) (h : ModOk e0 s i r)
    (hh : s.headers = some hs) (he : edited c hs r = some hs') : Op s0 e0 s { s with headers := some hs' }
  | replace (i : Nat) (chunk : Bytes) (h : ModOk e0 s i (.replaceBody chunk)) :
    Op s0 e0 s (bodyReplaced s chunk)
  | mtaHeader (n v : Bytes) (h : Given s0 e0 (.header n v)) :
    Op s0 e0 s { s with headers := some (Headers.append (s.headers.getD []) n (some v)) }
  | mtaBody (chunk : Bytes) (h : Given s0 e0 (.body chunk)) : Op s0 e0 s (bodyWritten s chunk)
  | mtaEnd (chunk : Bytes) (h : Given s0 e0 (.endOfMessage chunk)) : Op s0 e0 s { s with
      headers := some (s.headers.getD [])
      originalHeaders := some (s.originalHeaders.getD (s.headers.getD []))
      eomChunk := chunk }
  | negotiate (o : Opt) (h : e0 = .negotiate o) :
    Op s0 e0 s { s with option := some (capped o), initialYes := (capped o).step &&& Opt.yesMask }
  | merge (i : Nat) (o mine : Opt) (req : Option Requests) (hm : s.option = some mine)
    (h : e0 = .reply i (.negotiate o req)) :
    Op s0 e0 s { s with
      option := some (Opt.merge mine o).2
      requestedYes := s.requestedYes ||| (o.step &&& Opt.yesMask)
      negotiated := true }
  | offer (o : Opt) (h : s.option = some o) (hf : s.finished = false ∨ e0 = .idleReply) :
    Op s0 e0 s { s with
      option := some (offered s o)
      out := s.out ++ [.emit (.negotiateReply (offered s o))] }

/-- the states reached from `t` by elementary changes -/
inductive Steps (s0 : Sys) (e0 : Event) (t : Sys) : Sys → Prop
  | start : Steps s0 e0 t t
  | step {s s' : Sys} (h : Steps s0 e0 t s) (op : Op s0 e0 s s') : Steps s0 e0 t s'

theorem Steps.trans {s0 : Sys} {e0 : Event} {a b c : Sys} (h : Steps s0 e0 a b) (h' : Steps s0 e0 b c) :
    Steps s0 e0 a c := by
  induction h' with
  | start => exact h
  | step _ op ih => exact ih.step op

/-- the states a step that has come to `t` may go through -/
structure Path (s0 : Sys) (e0 : Event) (t s : Sys) : Prop where
  pre : Steps s0 e0 s0 t
  post : Steps s0 e0 t s

theorem Path.all {s0 : Sys} {e0 : Event} {t s : Sys} (h : Path s0 e0 t s) : Steps s0 e0 s0 s :=
  h.pre.trans h.post

theorem Path.step {s0 : Sys} {e0 : Event} {t s s' : Sys} (h : Path s0 e0 t s) (op : Op s0 e0 s s') :
    Path s0 e0 t s' := ⟨h.pre, h.post.step op⟩

/-- start watching here -/
theorem Path.here {s0 : Sys} {e0 : Event} {t s : Sys} (h : Path s0 e0 t s) : Path s0 e0 s s :=
  ⟨h.all, .start⟩

theorem Path.trans {s0 : Sys} {e0 : Event} {t s u : Sys} (h : Path s0 e0 t s) (h' : Path s0 e0 s u) :
    Path s0 e0 t u := ⟨h.pre, h.post.trans h'.post⟩

theorem Path.quiet {s0 : Sys} {e0 : Event} {t s s' : Sys} (h : Path s0 e0 t s) (q : Same s s') :
    Path s0 e0 t s' := h.step (.quiet _ q)

theorem KidOk.refl (k : Kid) : KidOk k k := ⟨rfl, rfl, id⟩

/-- everything but the stored body is as before -/
structure SameButBody (s s' : Sys) : Prop where
  count : s'.count = s.count
  kids : s'.kids = s.kids
  replyQueue : s'.replyQueue = s.replyQueue
  pending : s'.pending = s.pending
  eomChunk : s'.eomChunk = s.eomChunk
  option : s'.option = s.option
  initialYes : s'.initialYes = s.initialYes
  requestedYes : s'.requestedYes = s.requestedYes
  statuses : s'.statuses = s.statuses
  originalHeaders : s'.originalHeaders = s.originalHeaders
  headers : s'.headers = s.headers
  changeFrom : s'.changeFrom = s.changeFrom
  quarantine : s'.quarantine = s.quarantine
  code : s'.code = s.code
  out : s'.out = s.out
  finished : s'.finished = s.finished

theorem bodyWritten_same (s : Sys) (chunk : Bytes) : SameButBody s (bodyWritten s chunk) := by
  unfold bodyWritten
  split
  · exact ⟨rfl, rfl, rfl, rfl, rfl, rfl, rfl, rfl, rfl, rfl, rfl, rfl, rfl, rfl, rfl, rfl⟩
  · simp only []
    split
    all_goals exact ⟨rfl, rfl, rfl, rfl, rfl, rfl, rfl, rfl, rfl, rfl, rfl, rfl, rfl, rfl, rfl, rfl⟩

theorem bodyReplaced_same (s : Sys) (chunk : Bytes) : SameButBody s (bodyReplaced s chunk) := by
  have h := bodyWritten_same (if s.replacedForEach then s else bodyDisposed s) chunk
  have e : SameButBody s (if s.replacedForEach then s else bodyDisposed s) := by
    split
    all_goals exact ⟨rfl, rfl, rfl, rfl, rfl, rfl, rfl, rfl, rfl, rfl, rfl, rfl, rfl, rfl, rfl, rfl⟩
  exact ⟨h.count.trans e.count, h.kids.trans e.kids, h.replyQueue.trans e.replyQueue,
    h.pending.trans e.pending, h.eomChunk.trans e.eomChunk, h.option.trans e.option,
    h.initialYes.trans e.initialYes, h.requestedYes.trans e.requestedYes, h.statuses.trans e.statuses,
    h.originalHeaders.trans e.originalHeaders, h.headers.trans e.headers, h.changeFrom.trans e.changeFrom,
    h.quarantine.trans e.quarantine, h.code.trans e.code, h.out.trans e.out,
    h.finished.trans e.finished⟩

theorem decided_kids (s : Sys) (st : St) : (decided s st).kids = s.kids := by
  simp only [decided]; split <;> rfl

theorem decided_out (s : Sys) (st : St) :
    (decided s st).out = s.out ++ (decision s st).map fun r => .emit (.reply r) := by
  simp only [decided]; split <;> rfl

theorem decided_replyQueue (s : Sys) (st : St) : (decided s st).replyQueue = s.replyQueue := by
  simp only [decided]; split <;> rfl

/-- facts about a milter that are settled at the start of the step -/
theorem Steps.quitted {s0 : Sys} {e0 : Event} {t s : Sys} (h : Steps s0 e0 t s) (i : Nat)
    (hq : (t.kids i).ctx.quitted = true) : (s.kids i).ctx.quitted = true := by
  induction h with
  | start => exact hq
  | step _ op ih =>
    cases op
    case quiet hs => rw [hs.kids]; exact ih
    case kid j k hk =>
      simp only [updKid]
      split
      · subst_vars; exact hk.quitted ih
      · exact ih
    case failed j sig hf =>
      simp only [updKid]
      split
      · rfl
      · exact ih
    case decide st => rw [decided_kids]; exact ih
    case mtaBody chunk hm => rw [(bodyWritten_same _ chunk).kids]; exact ih
    case replace j chunk hm => rw [(bodyReplaced_same _ chunk).kids]; exact ih
    all_goals exact ih

theorem Steps.config {s0 : Sys} {e0 : Event} {t s : Sys} (h : Steps s0 e0 t s) (i : Nat) :
    (s.kids i).fallback = (t.kids i).fallback ∧ (s.kids i).evaluation = (t.kids i).evaluation := by
  induction h with
  | start => exact ⟨rfl, rfl⟩
  | step _ op ih =>
    cases op
    case quiet hs => rw [hs.kids]; exact ih
    case kid j k hk =>
      simp only [updKid]
      split
      · subst_vars; rw [hk.fallback, hk.evaluation]; exact ih
      · exact ih
    case failed j sig hf =>
      simp only [updKid]
      split
      · subst_vars; exact ih
      · exact ih
    case decide st => rw [decided_kids]; exact ih
    case mtaBody chunk hm => rw [(bodyWritten_same _ chunk).kids]; exact ih
    case replace j chunk hm => rw [(bodyReplaced_same _ chunk).kids]; exact ih
    all_goals exact ih

/-- the queue of awaited milters has only milters that had not quitted at the start of the step,
once it was so -/
theorem Steps.fresh {s0 : Sys} {e0 : Event} {t s : Sys} (h : Steps s0 e0 t s)
    (hf : Fresh s0 e0 t.replyQueue) : Fresh s0 e0 s.replyQueue := by
  induction h with
  | start => exact hf
  | step _ op ih =>
    cases op
    case quiet hs => rw [hs.replyQueue]; exact ih
    case queue q hq =>
      rcases hq with hq | hq
      · exact ih.imp id fun ih i hi => ih i (hq i hi)
      · exact hq
    case decide st => rw [decided_replyQueue]; exact ih
    case mtaBody chunk hm => rw [(bodyWritten_same _ chunk).replyQueue]; exact ih
    case replace j chunk hm => rw [(bodyReplaced_same _ chunk).replyQueue]; exact ih
    all_goals exact ih

theorem decided_pending (s : Sys) (st : St) :
    (decided s st).pending = if st = .endOfMessage then none else s.pending := by
  simp only [decided]; split <;> rfl

/-- a message command is kept only if it came with the event or was kept before -/
theorem Steps.given {s0 : Sys} {e0 : Event} {s : Sys} (h : Steps s0 e0 s0 s) (p : Pending)
    (hp : s.pending = some p) : Given s0 e0 p := by
  induction h with
  | start => exact .inr hp
  | step _ op ih =>
    cases op
    case quiet hs => exact ih (hs.pending ▸ hp)
    case pend q hq => cases hp; exact hq
    case unpend => cases hp
    case dispose => cases hp
    case decide st =>
      rw [decided_pending] at hp
      split at hp
      · cases hp
      · exact ih hp
    case mtaBody chunk hm => exact ih ((bodyWritten_same _ chunk).pending ▸ hp)
    case replace j chunk hm => exact ih ((bodyReplaced_same _ chunk).pending ▸ hp)
    all_goals exact ih hp

/-- what a function that sends something returns -/
def Ret (s0 : Sys) (v : Status) : Prop :=
  v = .progress ∨ v = .notChange ∨ ∃ i, v = (s0.kids i).fallback

theorem Ret.fallback {s0 : Sys} {e0 : Event} {t s : Sys} (h : Path s0 e0 t s) (i : Nat) : Ret s0 (s.kids i).fallback :=
  .inr (.inr ⟨i, (h.all.config i).1⟩)

/-- what may be asked of somebody else -/
def JobOk (e0 : Event) (s : Sys) : Job → Prop
  | .signal i (.reply r) => r = .cont ∨ r = .skip ∨ e0 = .reply i r
  | .signal i .stopped => stopState (s.kids i).ctx.state = true
  | _ => True

/-- whoever does what is asked goes through elementary changes -/
def DOk (s0 : Sys) (e0 : Event) (d : Dispatch) : Prop :=
  ∀ t job s, Path s0 e0 t s → JobOk e0 s job → wp (d job) (fun _ => Path s0 e0 t) s

/-! ## Tactics -/

macro "wuse" t:term : tactic => `(tactic| with_reducible refine wp_mono $t fun _ _ _ => ?_)

theorem wp_mono2 {α : Type} {m : M α} {P R Q : α → Sys → Prop} {s : Sys} (h : wp m (fun a s => P a s ∧ R a s) s)
    (hq : ∀ a s', P a s' → R a s' → Q a s') : wp m Q s :=
  wp_mono h fun a s' h => hq a s' h.1 h.2

macro "wuse2" t:term : tactic => `(tactic| with_reducible refine wp_mono2 $t fun _ _ _ _ => ?_)

/-- the value returned -/
macro "wret" : tactic => `(tactic| first
  | assumption
  | with_unfolding_all exact .inl rfl
  | with_unfolding_all exact .inr (.inl rfl)
  | exact Ret.fallback (by assumption) _)

syntax "wcall" : tactic
macro_rules | `(tactic| wcall) => `(tactic| fail)

/-- `Same` by inspection -/
macro "samestep" : tactic =>
  `(tactic| with_unfolding_all exact ⟨rfl, rfl, rfl, rfl, rfl, rfl, by first | rfl | simp [*], rfl, rfl, rfl, rfl, rfl, rfl, rfl, rfl, rfl, rfl, rfl, rfl, rfl⟩)

theorem wp_quiet {s0 : Sys} {e0 : Event} {f : Sys → Sys} {t s : Sys} (hp : Path s0 e0 t s) (hf : Same s (f s)) :
    wp (modify f : M PUnit) (fun _ => Path s0 e0 t) s :=
  (wp_modify _ _ _).mpr (hp.quiet hf)

macro "wstep" : tactic => `(tactic| first
  | assumption
  | exact ⟨by assumption, by wret⟩
  | with_reducible apply (wp_bind _ _ _ _).mpr
  | with_reducible apply (wp_pure _ _ _).mpr
  | with_reducible apply (wp_get _ _).mpr
  | wcall
  | wuse (wp_quiet (by assumption) (by samestep))
  | (with_reducible apply (wp_ite _ _ _ _ _).mpr; split)
  | dsimp only)

macro "wauto" : tactic => `(tactic| repeat' wstep)

variable {s0 : Sys} {e0 : Event} {d : Dispatch} {t s : Sys}

/-! ## Contexts -/

theorem log_path {o : Out} (hp : Path s0 e0 t s) (h : Op s0 e0 s (logged s o)) :
    wp (log o) (fun _ => Path s0 e0 t) s := (wp_modify _ _ _).mpr (hp.step h)

theorem ub_path (hp : Path s0 e0 t s) : wp (log .ub) (fun _ => Path s0 e0 t) s := log_path hp .ub
macro_rules | `(tactic| wcall) => `(tactic| wuse (ub_path (by assumption)))

theorem error_path {own : Bool} (hp : Path s0 e0 t s) : wp (emit (.error own)) (fun _ => Path s0 e0 t) s :=
  log_path hp (.note _ (by simp))
macro_rules | `(tactic| wcall) => `(tactic| wuse (error_path (by assumption)))

theorem cont_path (hp : Path s0 e0 t s) : wp (emit (.reply .cont)) (fun _ => Path s0 e0 t) s :=
  log_path hp (.bare .notChange (.inl rfl))
macro_rules | `(tactic| wcall) => `(tactic| wuse (cont_path (by assumption)))

theorem modifyKid_path {i : Nat} {f : Kid → Kid} (hp : Path s0 e0 t s) (hf : KidOk (s.kids i) (f (s.kids i))) :
    wp (modifyKid i f) (fun _ => Path s0 e0 t) s :=
  (wp_modify _ _ _).mpr (hp.step (.kid i _ hf))
macro_rules | `(tactic| wcall) => `(tactic| wuse (modifyKid_path (by assumption) ⟨rfl, rfl, id⟩))

theorem modifyCtx_path {i : Nat} {f : Server.State → Server.State} (hp : Path s0 e0 t s)
    (hf : (s.kids i).ctx.quitted = true → (f (s.kids i).ctx).quitted = true) :
    wp (modifyCtx i f) (fun _ => Path s0 e0 t) s :=
  modifyKid_path hp ⟨rfl, rfl, hf⟩
macro_rules | `(tactic| wcall) => `(tactic| wuse (modifyCtx_path (by assumption) id))

theorem expire_path {i : Nat} (hp : Path s0 e0 t s) : wp (expire i) (fun _ => Path s0 e0 t) s :=
  modifyKid_path hp ⟨rfl, rfl, fun _ => rfl⟩
macro_rules | `(tactic| wcall) => `(tactic| wuse (expire_path (by assumption)))

theorem getCtx_path {i : Nat} {Q : Server.State → Sys → Prop} (h : Q (s.kids i).ctx s) : wp (getCtx i) Q s := by
  unfold getCtx
  wauto
macro_rules | `(tactic| wcall) => `(tactic| with_reducible apply getCtx_path)

theorem ask_path (hp : Path s0 e0 t s) : wp ask (fun _ => Path s0 e0 t) s := by
  unfold ask
  wauto
  split
  · wauto
  · wauto
    apply (wp_set _ _ _).mpr
    apply (wp_pure _ _ _).mpr
    exact hp.quiet (by samestep)
macro_rules | `(tactic| wcall) => `(tactic| wuse (ask_path (by assumption)))

theorem needReply_path {i : Nat} {st : St} (hp : Path s0 e0 t s) :
    wp (needReply i st) (fun _ => Path s0 e0 t) s := by
  unfold needReply
  wauto
  split <;> wauto
macro_rules | `(tactic| wcall) => `(tactic| wuse (needReply_path (by assumption)))

theorem drive_path (hd : DOk s0 e0 d) (i : Nat) (items : List Server.Item) (hp : Path s0 e0 t s)
    (one : (items.filter Server.isEmit).length ≤ 1)
    (hw : ∀ c, Server.Item.wrote c ∈ items → isParallel c = true → Fresh s0 e0 [i])
    (hj : ∀ sig, Server.Item.emit sig ∈ items → JobOk e0 s (.signal i sig)) :
    wp (drive d i items) (fun _ => Path s0 e0 t) s := by
  induction items generalizing s with
  | nil => unfold drive; wauto
  | cons x rest ih =>
    have hw' : ∀ c, Server.Item.wrote c ∈ rest → isParallel c = true → Fresh s0 e0 [i] :=
      fun c hc => hw c (List.mem_cons_of_mem _ hc)
    cases x with
    | wrote c =>
      unfold drive
      apply (wp_bind _ _ _ _).mpr
      refine (wp_modify _ _ _).mpr ?_
      exact ih (hp.step (.sent i c (hw c (by simp)))) one hw'
        fun sig hs => hj sig (List.mem_cons_of_mem _ hs)
    | emit sig =>
      have none : rest.filter Server.isEmit = [] := by
        simp only [List.filter, Server.isEmit, List.length_cons] at one
        exact List.length_eq_zero_iff.mp (by omega)
      unfold drive
      apply (wp_bind _ _ _ _).mpr
      refine wp_mono (hd _ _ _ hp (hj sig (by simp))) fun _ s hp => ?_
      apply (wp_bind _ _ _ _).mpr
      refine wp_mono (hd _ _ _ hp trivial) fun _ s hp => ?_
      refine ih hp (by rw [none]; simp) hw' fun sig hs => ?_
      have := List.filter_eq_nil_iff.mp none _ hs
      exact absurd rfl this
    | ret b =>
      unfold drive
      apply (wp_bind _ _ _ _).mpr
      refine wp_mono (ih hp one hw'
        fun sig hs => hj sig (List.mem_cons_of_mem _ hs)) fun _ s hp => ?_
      wauto
    | shutdown =>
      unfold drive
      apply (wp_bind _ _ _ _).mpr
      refine (wp_modify _ _ _).mpr ?_
      exact ih (hp.step (.closed i)) one hw'
        fun sig hs => hj sig (List.mem_cons_of_mem _ hs)
    | ub =>
      unfold drive
      apply (wp_bind _ _ _ _).mpr
      refine (wp_modify _ _ _).mpr ?_
      exact ih (hp.step .ub) one hw'
        fun sig hs => hj sig (List.mem_cons_of_mem _ hs)

theorem stepCtx_path (hd : DOk s0 e0 d) (i : Nat) (e : Server.Event) (hp : Path s0 e0 t s)
    (hq : e ≠ .setQuitted false)
    (hc : ∀ c stop ok, e = .command c stop ok → isParallel c = true → Fresh s0 e0 [i])
    (hr : ∀ r ok, e = .reply r ok → e0 = .reply i r) :
    wp (stepCtx d i e) (fun _ => Path s0 e0 t) s := by
  unfold stepCtx
  apply (wp_bind _ _ _ _).mpr
  apply getCtx_path
  apply (wp_bind _ _ _ _).mpr
  refine (wp_modify _ _ _).mpr ?_
  have f := Server.step_facts (s.kids i).ctx e
  refine drive_path hd i _ (hp.step (.kid i _ ⟨rfl, rfl, ?_⟩)) f.one ?_ ?_
  · intro h; exact (Verif.Props.ServerLemmas.step_quitted _ e h hq).1
  · intro c hw hpar
    rcases f.wrote c hw with ⟨b, h⟩ | ⟨stop, ok, h⟩
    · subst h; simp [isParallel] at hpar
    · exact hc c stop ok h hpar
  · intro sig hs
    cases sig <;> simp only [JobOk]
    case reply r =>
      rcases f.reply r hs with h | h | ⟨ok, h⟩
      · exact .inl h
      · exact .inr (.inl h)
      · exact .inr (.inr (hr r ok h))
    case stopped =>
      simpa [updKid] using f.stopped hs

theorem call_path (hd : DOk s0 e0 d) (i : Nat) (c : Cmd) (hp : Path s0 e0 t s)
    (h : isParallel c = true → Fresh s0 e0 [i]) :
    wp (call d i c) (fun _ => Path s0 e0 t) s := by
  unfold call
  wauto
  refine stepCtx_path hd i _ (by assumption) (by simp) ?_ (by simp)
  intro c' stop ok he
  cases he; exact h
macro_rules | `(tactic| wcall) => `(tactic| wuse (call_path (by assumption) _ _ (by assumption) (by simp [isParallel])))

theorem cont_signal_path (hd : DOk s0 e0 d) (i : Nat) (hp : Path s0 e0 t s) :
    wp (d (.signal i (.reply .cont))) (fun _ => Path s0 e0 t) s := hd _ _ _ hp (.inl rfl)
macro_rules | `(tactic| wcall) => `(tactic| wuse (cont_signal_path (by assumption) _ (by assumption)))

/-! ## Statuses -/

theorem compile_path {st : St} {v : Status} (hp : Path s0 e0 t s) (h : VoteOk e0 s v) :
    wp (compile st v) (fun _ => Path s0 e0 t) s := (wp_modify _ _ _).mpr (hp.step (.vote st v h))
macro_rules | `(tactic| wcall) => `(tactic| wuse (compile_path (by assumption) (by simp [VoteOk])))

theorem emitStatusOf_eq (st : St) (s : Sys) : emitStatusOf st s = some ((), decided s st) := by
  have tail : ∀ s' : Sys, (do if st = .endOfMessage then modify messageDisposed : M Unit) s' =
      some ((), if st = .endOfMessage then messageDisposed s' else s') := by
    intro s'
    by_cases he : st = .endOfMessage
    · simp only [he, if_true]; rfl
    · simp only [he, if_false]; rfl
  unfold emitStatusOf
  show (match s.code with
    | some (code, extended, message) => _
    | none => _ : M Unit) s = _
  unfold decided decision codeLeft
  cases hc : s.code with
  | none =>
    by_cases h : s.statuses st = .notChange
    · simp only [h, ne_eq, not_true_eq_false, if_false]
      refine (tail s).trans ?_
      simp [← hc]
    · simp only [h, ne_eq, not_false_eq_true, if_true]
      refine (tail (logged s _)).trans ?_
      simp [logged, ← hc]
  | some p =>
    obtain ⟨c, x, m⟩ := p
    by_cases hp : (c / 100 = 4 ∧ s.statuses st = .temporaryFailure) ∨ (c / 100 = 5 ∧ s.statuses st = .reject)
    · simp only [if_pos hp]
      exact (tail _)
    · simp only [if_neg hp]
      by_cases h : s.statuses st = .notChange
      · simp only [h, ne_eq, not_true_eq_false, if_false]
        refine (tail s).trans ?_
        simp [← hc]
      · simp only [h, ne_eq, not_false_eq_true, if_true]
        refine (tail (logged s _)).trans ?_
        simp [logged, ← hc]

theorem emitStatusOf_path {st : St} (hp : Path s0 e0 t s) :
    wp (emitStatusOf st) (fun _ => Path s0 e0 t) s := by
  refine ⟨fun a s' h => ?_⟩
  rw [emitStatusOf_eq] at h
  cases h
  exact hp.step (.decide st)
macro_rules | `(tactic| wcall) => `(tactic| wuse (emitStatusOf_path (by assumption)))

/-! ## Sending message commands to one milter -/

theorem needConversion_path {u : Sys} {i : Nat} (hp : Path s0 e0 t s) :
    wp (needConversion u i) (fun _ => Path s0 e0 t) s := by
  unfold needConversion
  wauto
  split <;> wauto
macro_rules | `(tactic| wcall) => `(tactic| wuse (needConversion_path (by assumption)))

theorem sendNextHeader_path {i : Nat} (hd : DOk s0 e0 d) (hp : Path s0 e0 t s) :
    wp (sendNextHeader d i) (fun v s => Path s0 e0 t s ∧ Ret s0 v) s := by
  unfold sendNextHeader
  wauto
  split
  · wauto
  · split
    · wauto
    · wauto
macro_rules | `(tactic| wcall) => `(tactic| wuse2 (sendNextHeader_path (by assumption) (by assumption)))

theorem initWaitingLoop_path (hd : DOk s0 e0 d) (l : List Nat) (hp : Path s0 e0 t s) :
    wp (initWaitingLoop d l) (fun _ => Path s0 e0 t) s := by
  induction l generalizing s with
  | nil => unfold initWaitingLoop; wauto
  | cons i rest ih =>
    unfold initWaitingLoop
    wauto
    all_goals exact ih (by assumption)
macro_rules | `(tactic| wcall) => `(tactic| wuse (initWaitingLoop_path (by assumption) _ (by assumption)))

theorem initWaitingQueue_path {c : St} (hd : DOk s0 e0 d) (hp : Path s0 e0 t s) :
    wp (initWaitingQueue d c) (fun _ => Path s0 e0 t) s := by
  unfold initWaitingQueue
  wauto
macro_rules | `(tactic| wcall) => `(tactic| wuse (initWaitingQueue_path (by assumption) (by assumption)))

theorem sendBodyString_path {i : Nat} {b : Bytes} (hd : DOk s0 e0 d) (hp : Path s0 e0 t s) :
    wp (sendBodyString d i b) (fun v s => Path s0 e0 t s ∧ Ret s0 v) s := by
  unfold sendBodyString
  wauto
macro_rules | `(tactic| wcall) => `(tactic| wuse2 (sendBodyString_path (by assumption) (by assumption)))

theorem sendBodyFile_path {i : Nat} (hd : DOk s0 e0 d) (hp : Path s0 e0 t s) :
    wp (sendBodyFile d i) (fun v s => Path s0 e0 t s ∧ Ret s0 v) s := by
  unfold sendBodyFile
  wauto
  split
  · wauto
  · wauto
macro_rules | `(tactic| wcall) => `(tactic| wuse2 (sendBodyFile_path (by assumption) (by assumption)))

theorem sendBody_path {i : Nat} (hd : DOk s0 e0 d) (hp : Path s0 e0 t s) :
    wp (sendBody d i) (fun v s => Path s0 e0 t s ∧ Ret s0 v) s := by
  unfold sendBody
  wauto
  split <;> wauto
macro_rules | `(tactic| wcall) => `(tactic| wuse2 (sendBody_path (by assumption) (by assumption)))

theorem sendCommand_path {i : Nat} {c : St} (hd : DOk s0 e0 d) (hp : Path s0 e0 t s) :
    wp (sendCommand d i c) (fun v s => Path s0 e0 t s ∧ Ret s0 v) s := by
  unfold sendCommand
  wauto
  split <;> wauto
macro_rules | `(tactic| wcall) => `(tactic| wuse2 (sendCommand_path (by assumption) (by assumption)))

theorem initBody_path (hp : Path s0 e0 t s) : wp initBody (fun _ => Path s0 e0 t) s := by
  unfold initBody
  refine (wp_modify _ _ _).mpr ?_
  split
  · exact hp.quiet (by samestep)
  · refine hp.quiet ?_
    refine ⟨rfl, rfl, rfl, rfl, rfl, rfl, ?_, rfl, rfl, rfl, rfl, rfl, rfl, rfl, rfl, rfl, rfl, rfl, rfl, rfl⟩
    cases s.bodyFile <;> rfl
macro_rules | `(tactic| wcall) => `(tactic| wuse (initBody_path (by assumption)))

theorem sendNextCommand_path {i : Nat} {st : St} (hd : DOk s0 e0 d) (hp : Path s0 e0 t s) :
    wp (sendNextCommand d i st) (fun v s => Path s0 e0 t s ∧ Ret s0 v) s := by
  unfold sendNextCommand
  wauto
  split <;> wauto
macro_rules | `(tactic| wcall) => `(tactic| wuse2 (sendNextCommand_path (by assumption) (by assumption)))

/-! ## Answers of milters -/

theorem emitReplyForMessage_path {st : St} (hp : Path s0 e0 t s) :
    wp (emitReplyForMessage st) (fun _ => Path s0 e0 t) s := by
  unfold emitReplyForMessage
  wauto
  rename_i hp' _
  exact (wp_modify _ _ _).mpr (emitStatusOf_path (hp'.step .eom))
macro_rules | `(tactic| wcall) => `(tactic| wuse (emitReplyForMessage_path (by assumption)))

theorem sendFirstToNext_path {i : Nat} (hd : DOk s0 e0 d) (hp : Path s0 e0 t s) :
    wp (sendFirstToNext d i) (fun _ => Path s0 e0 t) s := by
  unfold sendFirstToNext
  wauto
  split
  · wauto
  · split
    · wauto
    · wauto
macro_rules | `(tactic| wcall) => `(tactic| wuse (sendFirstToNext_path (by assumption) (by assumption)))

theorem handleStatus_path {v : Status} (hp : Path s0 e0 t s) (h : Ret s0 v) :
    wp (handleStatus v) (fun _ => Path s0 e0 t) s := by
  unfold handleStatus
  wauto
  rename_i hn
  exact log_path hp (.bare v (h.resolve_left hn))
macro_rules | `(tactic| wcall) => `(tactic| wuse (handleStatus_path (by assumption) (by wret)))

theorem abortLoop_path (hd : DOk s0 e0 d) (l : List Nat) (hp : Path s0 e0 t s) :
    wp (abortLoop d l) (fun _ => Path s0 e0 t) s := by
  induction l generalizing s with
  | nil => unfold abortLoop; wauto
  | cons i rest ih =>
    unfold abortLoop
    wauto
    all_goals exact ih (by assumption)
macro_rules | `(tactic| wcall) => `(tactic| wuse (abortLoop_path (by assumption) _ (by assumption)))

theorem resetLoop_path (l : List Nat) (hp : Path s0 e0 t s) :
    wp (resetLoop l) (fun _ => Path s0 e0 t) s := by
  induction l generalizing s with
  | nil => unfold resetLoop; wauto
  | cons i rest ih =>
    unfold resetLoop
    wauto
    all_goals exact ih (by assumption)
macro_rules | `(tactic| wcall) => `(tactic| wuse (resetLoop_path _ (by assumption)))

theorem dispose_path (hp : Path s0 e0 t s) : wp (modify messageDisposed) (fun _ => Path s0 e0 t) s :=
  (wp_modify _ _ _).mpr (hp.step .dispose)
macro_rules | `(tactic| wcall) => `(tactic| wuse (dispose_path (by assumption)))

theorem abortAll_path (hd : DOk s0 e0 d) (hp : Path s0 e0 t s) :
    wp (abortAll d) (fun _ => Path s0 e0 t) s := by
  unfold abortAll
  wauto
macro_rules | `(tactic| wcall) => `(tactic| wuse (abortAll_path (by assumption) (by assumption)))

/-! ## Commands of the MTA -/

theorem checkAlive_path (hp : Path s0 e0 t s) : wp checkAlive (fun _ => Path s0 e0 t) s := by
  unfold checkAlive
  wauto
macro_rules | `(tactic| wcall) => `(tactic| wuse (checkAlive_path (by assumption)))

theorem checkProcessing_path (hp : Path s0 e0 t s) : wp checkProcessing (fun _ => Path s0 e0 t) s := by
  unfold checkProcessing
  wauto
macro_rules | `(tactic| wcall) => `(tactic| wuse (checkProcessing_path (by assumption)))

theorem initReplyQueue_path {st : St} (hp : Path s0 e0 t s) :
    wp (initReplyQueue st) (fun _ s => Path s0 e0 t s ∧ Fresh s0 e0 s.replyQueue) s := by
  unfold initReplyQueue
  have hf : Fresh s0 e0 [] := .inr (by simp)
  refine (wp_modify _ _ _).mpr ⟨?_, hf⟩
  exact ((hp.step (.clearVote st)).step (.queue [] (.inr hf))).quiet (by samestep)
macro_rules | `(tactic| wcall) => `(tactic| wuse2 (initReplyQueue_path (by assumption)))

theorem needEmulation_path {u : Sys} (hp : Path s0 e0 t s) :
    wp (needEmulation u) (fun _ => Path s0 e0 t) s := by
  unfold needEmulation
  wauto
  split <;> wauto
macro_rules | `(tactic| wcall) => `(tactic| wuse (needEmulation_path (by assumption)))

theorem Fresh.sub {s0 : Sys} {e0 : Event} {l l' : List Nat} (h : Fresh s0 e0 l) (hs : ∀ i ∈ l', i ∈ l) :
    Fresh s0 e0 l' := h.imp id fun h i hi => h i (hs i hi)

theorem callLoop_path (hd : DOk s0 e0 d) (c : Cmd) (l : List Nat) (hp : Path s0 e0 t s)
    (h : Fresh s0 e0 l) :
    wp (callLoop d c l) (fun _ => Path s0 e0 t) s := by
  induction l generalizing s with
  | nil => unfold callLoop; wauto
  | cons i rest ih =>
    unfold callLoop
    with_reducible apply (wp_bind _ _ _ _).mpr
    refine wp_mono (call_path hd i c hp fun _ => h.sub (by simp)) fun _ s hp => ?_
    with_reducible apply (wp_bind _ _ _ _).mpr
    refine wp_mono (ih hp (h.sub fun j hj => List.mem_cons_of_mem _ hj)) fun _ s hp => ?_
    wauto

theorem again_path (hd : DOk s0 e0 d) (i : Nat) (hp : Path s0 e0 t s) :
    wp (d (.again i)) (fun _ => Path s0 e0 t) s := hd _ _ _ hp trivial
macro_rules | `(tactic| wcall) => `(tactic| wuse (again_path (by assumption) _ (by assumption)))

theorem noReplyLoop_path {st : St} (hd : DOk s0 e0 d) (l : List Nat) (hp : Path s0 e0 t s) :
    wp (noReplyLoop d st l) (fun _ => Path s0 e0 t) s := by
  induction l generalizing s with
  | nil => unfold noReplyLoop; wauto
  | cons i rest ih =>
    unfold noReplyLoop
    wauto
    all_goals exact ih (by assumption)
macro_rules | `(tactic| wcall) => `(tactic| wuse (noReplyLoop_path (by assumption) _ (by assumption)))

theorem Path.fresh (hp : Path s0 e0 t s) {i : Nat} (h : (s.kids i).ctx.quitted = false) :
    (s0.kids i).ctx.quitted = false := by
  cases hq : (s0.kids i).ctx.quitted with
  | false => rfl
  | true => rw [hp.all.quitted i hq] at h; cases h

theorem alive_fresh {s : Sys} {i : Nat} (h : isQuitted s i = false) : (s.kids i).ctx.quitted = false := by
  unfold isQuitted Server.isQuitted at h
  split at h
  · cases h
  · exact h

theorem processing_fresh {s : Sys} {i : Nat} (h : isProcessingMessage s i = true) :
    (s.kids i).ctx.quitted = false := by
  unfold isProcessingMessage Server.isProcessingMessage at h
  split at h
  · cases h
  · split at h
    · cases h
    · simpa using ‹¬(s.kids i).ctx.quitted = true›

theorem queueAlive_path (hp : Path s0 e0 t s) :
    wp queueAlive (fun _ s => Path s0 e0 t s ∧ Fresh s0 e0 s.replyQueue) s := by
  unfold queueAlive
  have hf : Fresh s0 e0 ((milters s).filter fun i => !isQuitted s i) := by
    refine .inr fun i hi => ?_
    simp only [List.mem_filter, Bool.not_eq_true'] at hi
    exact hp.fresh (alive_fresh hi.2)
  exact (wp_modify _ _ _).mpr ⟨hp.step (.queue _ (.inr hf)), hf⟩

theorem queueProcessing_path (hp : Path s0 e0 t s) :
    wp queueProcessing (fun _ s => Path s0 e0 t s ∧ Fresh s0 e0 s.replyQueue) s := by
  unfold queueProcessing
  have hf : Fresh s0 e0 ((milters s).filter fun i => isProcessingMessage s i) := by
    refine .inr fun i hi => ?_
    simp only [List.mem_filter] at hi
    exact hp.fresh (processing_fresh hi.2)
  exact (wp_modify _ _ _).mpr ⟨hp.step (.queue _ (.inr hf)), hf⟩

theorem queueAccepted_path (hd : DOk s0 e0 d) (l : List Nat) (hp : Path s0 e0 t s)
    (hf : Fresh s0 e0 s.replyQueue) :
    wp (queueAccepted d l) (fun _ s => Path s0 e0 t s ∧ Fresh s0 e0 s.replyQueue) s := by
  induction l generalizing s with
  | nil => unfold queueAccepted; exact (wp_pure _ _ _).mpr ⟨hp, hf⟩
  | cons i rest ih =>
    unfold queueAccepted
    with_reducible apply (wp_bind _ _ _ _).mpr
    with_reducible apply (wp_get _ _).mpr
    dsimp only
    with_reducible apply (wp_ite _ _ _ _ _).mpr
    split
    · rename_i hpm
      with_reducible apply (wp_ite _ _ _ _ _).mpr
      split
      · with_reducible apply (wp_bind _ _ _ _).mpr
        have hf' : Fresh s0 e0 (s.replyQueue ++ [i]) := by
          refine hf.imp id fun hf j hj => ?_
          rcases List.mem_append.mp hj with h | h
          · exact hf j h
          · rw [List.mem_singleton.mp h]; exact hp.fresh (processing_fresh hpm)
        refine (wp_modify _ _ _).mpr ?_
        exact ih (hp.step (.queue _ (.inr hf'))) hf'
      · with_reducible apply (wp_bind _ _ _ _).mpr
        refine wp_mono (call_path hd i .abort hp.here (by simp [isParallel])) fun _ s' hp' => ?_
        exact ih (hp.trans hp') (hp'.post.fresh hf)
    · exact ih hp hf

theorem toAll_path {check : M Bool} {fill : M Unit} {st : St} {c : Cmd} (hd : DOk s0 e0 d) (hp : Path s0 e0 t s)
    (hc : ∀ s, Path s0 e0 t s → wp check (fun _ => Path s0 e0 t) s)
    (hf : ∀ s, Path s0 e0 t s → Fresh s0 e0 s.replyQueue →
      wp fill (fun _ s => Path s0 e0 t s ∧ Fresh s0 e0 s.replyQueue) s) :
    wp (toAll d check fill st c) (fun _ => Path s0 e0 t) s := by
  unfold toAll
  with_reducible apply (wp_bind _ _ _ _).mpr
  refine wp_mono (hc s hp) fun b s hp => ?_
  with_reducible apply (wp_ite _ _ _ _ _).mpr
  split
  · wauto
  · with_reducible apply (wp_bind _ _ _ _).mpr
    refine wp_mono (initReplyQueue_path hp) fun b s h => ?_
    with_reducible apply (wp_bind _ _ _ _).mpr
    refine wp_mono (hf s h.1 h.2) fun b s h => ?_
    have hp := h.1
    with_reducible apply (wp_bind _ _ _ _).mpr
    with_reducible apply (wp_get _ _).mpr
    dsimp only
    with_reducible apply (wp_bind _ _ _ _).mpr
    refine wp_mono (callLoop_path hd c _ hp h.2) fun b s hp => ?_
    wauto

theorem data_path (hd : DOk s0 e0 d) (hp : Path s0 e0 t s) : wp (data d) (fun _ => Path s0 e0 t) s := by
  unfold data
  with_reducible apply (wp_bind _ _ _ _).mpr
  with_reducible apply (wp_get _ _).mpr
  exact toAll_path hd hp (fun s hp => checkProcessing_path hp) fun s hp hf => queueAccepted_path hd _ hp hf
macro_rules | `(tactic| wcall) => `(tactic| wuse (data_path (by assumption) (by assumption)))

theorem keep_path {p : Pending} (hd : DOk s0 e0 d) (hp : Path s0 e0 t s) (h : Given s0 e0 p) :
    wp (keep d p) (fun _ => Path s0 e0 t) s := by
  unfold keep
  wauto
  rename_i hp _
  refine (wp_modify _ _ _).mpr ((wp_pure _ _ _).mpr ?_)
  exact hp.step (.pend p h)
macro_rules | `(tactic| wcall) => `(tactic| wuse (keep_path (by assumption) (by assumption) (by assumption)))

theorem sendToFirst_path {c : St} (hd : DOk s0 e0 d) (hp : Path s0 e0 t s) :
    wp (sendToFirst d c) (fun _ => Path s0 e0 t) s := by
  unfold sendToFirst
  wauto
  split <;> wauto
macro_rules | `(tactic| wcall) => `(tactic| wuse (sendToFirst_path (by assumption) (by assumption)))

theorem header_path {n v : Bytes} (hd : DOk s0 e0 d) (hp : Path s0 e0 t s) (hg : Given s0 e0 (.header n v)) :
    wp (header d n v) (fun _ => Path s0 e0 t) s := by
  unfold header
  wauto
  rename_i s hp _
  refine (wp_modify _ _ _).mpr ?_
  have hp := (hp.step (.mtaHeader n v hg)).quiet (s' := { s with
        state := .header, processingState := .header
        headers := some (Headers.append (s.headers.getD []) n (some v)) }) (by samestep)
  wauto
macro_rules | `(tactic| wcall) => `(tactic| wuse (header_path (by assumption) (by assumption) (by assumption)))

theorem endOfHeader_path (hd : DOk s0 e0 d) (hp : Path s0 e0 t s) (hg : Given s0 e0 .endOfHeader) :
    wp (endOfHeader d) (fun _ => Path s0 e0 t) s := by
  unfold endOfHeader
  wauto
macro_rules | `(tactic| wcall) => `(tactic| wuse (endOfHeader_path (by assumption) (by assumption) (by assumption)))

theorem bodyWritten_path {chunk : Bytes} (hp : Path s0 e0 t s) (hg : Given s0 e0 (.body chunk)) :
    wp (modify fun s => bodyWritten s chunk) (fun _ => Path s0 e0 t) s :=
  (wp_modify _ _ _).mpr (hp.step (.mtaBody chunk hg))
macro_rules | `(tactic| wcall) => `(tactic| wuse (bodyWritten_path (by assumption) (by assumption)))

theorem body_path {chunk : Bytes} (hd : DOk s0 e0 d) (hp : Path s0 e0 t s) (hg : Given s0 e0 (.body chunk)) :
    wp (body d chunk) (fun _ => Path s0 e0 t) s := by
  unfold body
  wauto
  split <;> wauto
macro_rules | `(tactic| wcall) => `(tactic| wuse (body_path (by assumption) (by assumption) (by assumption)))

theorem endOfMessage_path {chunk : Bytes} (hd : DOk s0 e0 d) (hp : Path s0 e0 t s)
    (hg : Given s0 e0 (.endOfMessage chunk)) :
    wp (endOfMessage d chunk) (fun _ => Path s0 e0 t) s := by
  unfold endOfMessage
  wauto
  rename_i s hp
  refine (wp_modify _ _ _).mpr ?_
  have hp := (hp.step (.mtaEnd chunk hg)).quiet (s' := { s with
        headerIndex := 0
        headers := some (s.headers.getD [])
        originalHeaders := some (s.originalHeaders.getD (s.headers.getD []))
        eomChunk := chunk
        bodyFile := s.bodyFile.map fun f => (f.1, 0)
        state := .endOfMessage
        processingState := .endOfMessage })
    ⟨rfl, rfl, rfl, rfl, rfl, rfl, by cases s.bodyFile <;> rfl, rfl, rfl, rfl, rfl, rfl, rfl, rfl, rfl, rfl, rfl, rfl, rfl, rfl⟩
  wauto
macro_rules | `(tactic| wcall) => `(tactic| wuse (endOfMessage_path (by assumption) (by assumption) (by assumption)))

theorem processPending_path (hd : DOk s0 e0 d) (p : Pending) (hp : Path s0 e0 t s) (hg : Given s0 e0 p) :
    wp (processPending d p) (fun _ => Path s0 e0 t) s := by
  cases p <;> unfold processPending <;> wauto
macro_rules | `(tactic| wcall) => `(tactic| wuse (processPending_path (by assumption) _ (by assumption) (by assumption)))

theorem erase_path {i : Nat} (hp : Path s0 e0 t s) :
    wp (modify fun s : Sys => { s with replyQueue := s.replyQueue.erase i } : M PUnit) (fun _ => Path s0 e0 t) s :=
  (wp_modify _ _ _).mpr (hp.step (.queue _ (.inl fun _ h => List.mem_of_mem_erase h)))
macro_rules | `(tactic| wcall) => `(tactic| wuse (erase_path (by assumption)))

theorem disposePending_path (hp : Path s0 e0 t s) : wp disposePending (fun _ => Path s0 e0 t) s :=
  (wp_modify _ _ _).mpr (hp.step .unpend)
macro_rules | `(tactic| wcall) => `(tactic| wuse (disposePending_path (by assumption)))

theorem finish_path {v : Status} (hd : DOk s0 e0 d) (hp : Path s0 e0 t s) :
    wp (removeFromQueue.finish d v) (fun _ => Path s0 e0 t) s := by
  unfold removeFromQueue.finish
  wauto
  split <;> wauto
macro_rules | `(tactic| wcall) => `(tactic| wuse (finish_path (by assumption) (by assumption)))

theorem removeFromQueue_path {i : Nat} (hd : DOk s0 e0 d) (hp : Path s0 e0 t s) :
    wp (removeFromQueue d i) (fun _ => Path s0 e0 t) s := by
  unfold removeFromQueue
  wauto
  split
  · rename_i hp _ _ p hpend
    have hg := hp.all.given p hpend
    wauto
  · wauto
macro_rules | `(tactic| wcall) => `(tactic| wuse (removeFromQueue_path (by assumption) (by assumption)))

theorem cbContinue_path {i : Nat} (hd : DOk s0 e0 d) (hp : Path s0 e0 t s) :
    wp (cbContinue d i) (fun _ => Path s0 e0 t) s := by
  unfold cbContinue
  wauto
  split <;> wauto
  split <;> wauto
macro_rules | `(tactic| wcall) => `(tactic| wuse (cbContinue_path (by assumption) (by assumption)))

theorem notProcessing_path {i : Nat} (hp : Path s0 e0 t s) : wp (notProcessing i) (fun _ => Path s0 e0 t) s := by
  unfold notProcessing
  wauto
macro_rules | `(tactic| wcall) => `(tactic| wuse (notProcessing_path (by assumption)))

/-- what a handler of a refusing reply knows -/
def Refused (e0 : Event) (i : Nat) (v : Status) : Prop :=
  ∃ r, e0 = .reply i r ∧ refusal r = some v

theorem cbRefuse_path {i : Nat} {v : Status} (hd : DOk s0 e0 d) (hp : Path s0 e0 t s)
    (h : Refused e0 i v) : wp (cbRefuse d i v) (fun _ => Path s0 e0 t) s := by
  unfold cbRefuse
  with_reducible apply (wp_bind _ _ _ _).mpr
  with_reducible apply (wp_get _ _).mpr
  dsimp only
  with_reducible apply (wp_bind _ _ _ _).mpr
  refine wp_mono (compile_path hp ?_) fun _ s hp => ?_
  · obtain ⟨r, hh, hr⟩ := h
    cases he : (s.kids i).evaluation with
    | true => exact .inr (.inl rfl)
    | false => exact .inr (.inr (.inr (.inr ⟨i, r, hh, he, hr⟩)))
  split <;> wauto

theorem cbReplyCode_path {i c : Nat} {x : Bytes} {m : Option Bytes} (hd : DOk s0 e0 d) (hp : Path s0 e0 t s)
    (h : e0 = .reply i (.replyCode c x m)) :
    wp (cbReplyCode d i c x m) (fun _ => Path s0 e0 t) s := by
  unfold cbReplyCode
  with_reducible apply (wp_bind _ _ _ _).mpr
  refine (wp_modify _ _ _).mpr ?_
  exact cbRefuse_path hd (hp.step (.setCode i c x m h)) ⟨_, h, rfl⟩

theorem cbAccept_path {i : Nat} (hd : DOk s0 e0 d) (hp : Path s0 e0 t s) :
    wp (cbAccept d i) (fun _ => Path s0 e0 t) s := by
  unfold cbAccept
  wauto
  split <;> wauto

theorem cbSkip_path {i : Nat} (hd : DOk s0 e0 d) (hp : Path s0 e0 t s) :
    wp (cbSkip d i) (fun _ => Path s0 e0 t) s := by
  unfold cbSkip
  wauto

theorem cbModify_path {i : Nat} {r : Reply} {act : Sys → M Unit} (hd : DOk s0 e0 d) (hp : Path s0 e0 t s)
    (h : e0 = .reply i r)
    (ha : ModOk e0 s i r → wp (act s) (fun _ => Path s0 e0 t) s) :
    wp (cbModify d i act) (fun _ => Path s0 e0 t) s := by
  unfold cbModify
  with_reducible apply (wp_bind _ _ _ _).mpr
  with_reducible apply (wp_get _ _).mpr
  with_reducible apply (wp_ite _ _ _ _ _).mpr
  split
  · wauto
  · rename_i hst
    with_reducible apply (wp_ite _ _ _ _ _).mpr
    split
    · wauto
    · rename_i he
      exact ha ⟨h, Classical.not_not.mp hst, by simpa using he⟩

theorem editHeaders_path {i : Nat} {r : Reply} {f : List Header → List Header} {c : Bool} (hp : Path s0 e0 t s)
    (h : ModOk e0 s i r) (hf : ∀ hs, edited c hs r = some (f hs)) :
    wp (editHeaders s f) (fun _ => Path s0 e0 t) s := by
  unfold editHeaders
  split
  · wauto
  · rename_i hs hh
    exact (wp_modify _ _ _).mpr (hp.step (.edit i r c hs (f hs) h hh (hf hs)))

theorem needConversion_value {u : Sys} {i : Nat} {Q : Bool → Sys → Prop} (h : ∀ b, Q b s) (h' : ∀ b, Q b (logged s .ub)) :
    wp (needConversion u i) Q s := by
  unfold needConversion
  with_reducible apply (wp_ite _ _ _ _ _).mpr
  split
  · exact (wp_pure _ _ _).mpr (h _)
  · split
    · exact (wp_pure _ _ _).mpr (h _)
    · with_reducible apply (wp_bind _ _ _ _).mpr
      exact (wp_modify _ _ _).mpr ((wp_pure _ _ _).mpr (h' _))

theorem cbProgress_path {i : Nat} (hd : DOk s0 e0 d) (hp : Path s0 e0 t s)
    (h : e0 = .reply i .progress) : wp (cbProgress d i) (fun _ => Path s0 e0 t) s := by
  unfold cbProgress
  wauto
  exact log_path hp (.forward i _ (by simp) h fun _ => Classical.byContradiction (by assumption))

theorem cbStopped_path {i : Nat} (hd : DOk s0 e0 d) (hp : Path s0 e0 t s)
    (h : stopState (s.kids i).ctx.state = true) : wp (cbStopped d i) (fun _ => Path s0 e0 t) s := by
  unfold cbStopped
  with_reducible apply (wp_bind _ _ _ _).mpr
  with_reducible apply getCtx_path
  dsimp only
  split
  · wauto
  · wauto
  · wauto
  · wauto
  · wauto
  · wauto
  · wauto
  · wauto
  · wauto
  · rename_i h1 h2 h3 h4 h5 h6 h7 h8 h9
    exfalso
    revert h h1 h2 h3 h4 h5 h6 h7 h8 h9
    generalize (s.kids i).ctx.state = st
    cases st <;> simp [stopState]

theorem cbFailed_path {i : Nat} {sig : Server.Signal} (hd : DOk s0 e0 d) (hp : Path s0 e0 t s)
    (hf : isFailure sig = true) : wp (do log (.heard i sig); cbFailed d i) (fun _ => Path s0 e0 t) s := by
  unfold cbFailed expire modifyKid compile
  with_reducible apply (wp_bind _ _ _ _).mpr
  refine (wp_modify _ _ _).mpr ?_
  with_reducible apply (wp_bind _ _ _ _).mpr
  with_reducible apply (wp_get _ _).mpr
  dsimp only
  with_reducible apply (wp_bind _ _ _ _).mpr
  refine (wp_modify _ _ _).mpr ?_
  with_reducible apply (wp_bind _ _ _ _).mpr
  refine (wp_modify _ _ _).mpr ?_
  exact removeFromQueue_path hd (hp.step (.failed i sig hf))

/-! ## Negotiation -/

theorem expireAll_path (l : List Nat) (hp : Path s0 e0 t s) : wp (expireAll l) (fun _ => Path s0 e0 t) s := by
  induction l generalizing s with
  | nil => unfold expireAll; wauto
  | cons i rest ih =>
    unfold expireAll
    wauto
    all_goals exact ih (by assumption)
macro_rules | `(tactic| wcall) => `(tactic| wuse (expireAll_path _ (by assumption)))

theorem checkFallback_path (hp : Path s0 e0 t s) : wp checkFallback (fun _ => Path s0 e0 t) s := by
  unfold checkFallback
  wauto
  split <;> wauto
macro_rules | `(tactic| wcall) => `(tactic| wuse (checkFallback_path (by assumption)))

theorem replyNegotiate_path (hp : Path s0 e0 t s) (hf : s.finished = false ∨ e0 = .idleReply) :
    wp replyNegotiate (fun _ => Path s0 e0 t) s := by
  unfold replyNegotiate
  with_reducible apply (wp_bind _ _ _ _).mpr
  with_reducible apply (wp_get _ _).mpr
  split
  · exact log_path hp (.note _ (by simp))
  · rename_i o ho
    with_reducible apply (wp_bind _ _ _ _).mpr
    refine (wp_set _ _ _).mpr ?_
    with_reducible apply (wp_bind _ _ _ _).mpr
    refine (wp_modify _ _ _).mpr ?_
    have hp := hp.step (.offer o ho hf)
    exact checkFallback_path hp

theorem removeInNegotiate_path {i : Nat} (hp : Path s0 e0 t s) :
    wp (removeInNegotiate i) (fun _ => Path s0 e0 t) s := by
  unfold removeInNegotiate
  with_reducible apply (wp_bind _ _ _ _).mpr
  refine (wp_modify _ _ _).mpr ?_
  have hp := hp.step (.queue (s.replyQueue.erase i) (.inl fun _ h => List.mem_of_mem_erase h))
  with_reducible apply (wp_bind _ _ _ _).mpr
  with_reducible apply (wp_get _ _).mpr
  with_reducible apply (wp_ite _ _ _ _ _).mpr
  split
  case isTrue h => exact replyNegotiate_path hp (.inl (by simpa using h.1))
  case isFalse => exact (wp_pure _ _ _).mpr hp
macro_rules | `(tactic| wcall) => `(tactic| wuse (removeInNegotiate_path (by assumption)))

theorem cbNegotiateReply_path {i : Nat} {o : Opt} {req : Option Requests} (hp : Path s0 e0 t s)
    (h : e0 = .reply i (.negotiate o req)) :
    wp (cbNegotiateReply i o) (fun _ => Path s0 e0 t) s := by
  unfold cbNegotiateReply
  with_reducible apply (wp_bind _ _ _ _).mpr
  with_reducible apply (wp_get _ _).mpr
  dsimp only
  split
  · rename_i mine hm
    with_reducible apply (wp_bind _ _ _ _).mpr
    refine (wp_set _ _ _).mpr ?_
    have hp := hp.step (.merge i o mine req hm h)
    exact removeInNegotiate_path hp
  · wauto

theorem clearTry_path {i : Nat} (hp : Path s0 e0 t s) : wp (clearTry i) (fun _ => Path s0 e0 t) s := by
  unfold clearTry
  wauto
macro_rules | `(tactic| wcall) => `(tactic| wuse (clearTry_path (by assumption)))

theorem establish_path {i : Nat} {retry : Bool} (hd : DOk s0 e0 d) (hp : Path s0 e0 t s) :
    wp (establish d i retry) (fun _ => Path s0 e0 t) s := by
  unfold establish
  wauto
  refine wp_mono (stepCtx_path hd i _ (by assumption) (by simp) (by simp) (by simp)) fun _ _ _ => ?_
  wauto
macro_rules | `(tactic| wcall) => `(tactic| wuse (establish_path (by assumption) (by assumption)))

theorem establishLoop_path (hd : DOk s0 e0 d) (l : List Nat) (hp : Path s0 e0 t s) :
    wp (establishLoop d l) (fun _ => Path s0 e0 t) s := by
  induction l generalizing s with
  | nil => unfold establishLoop; wauto
  | cons i rest ih =>
    unfold establishLoop
    wauto
    exact ih (by assumption)

theorem negotiate_path {o : Opt} (hd : DOk s0 e0 d) (hp : Path s0 e0 t s) (he : e0 = .negotiate o) :
    wp (negotiate d o) (fun _ => Path s0 e0 t) s := by
  unfold negotiate
  dsimp only
  with_reducible apply (wp_bind _ _ _ _).mpr
  refine (wp_modify _ _ _).mpr ?_
  have hp := hp.step (.negotiate o he)
  revert hp
  unfold capped
  generalize ({ s with
    option := some (if maxVersion < o.version then { o with version := maxVersion } else o)
    initialYes := (if maxVersion < o.version then { o with version := maxVersion } else o).step &&& Opt.yesMask } : Sys) = s'
  intro hp
  wauto
  rename_i hp _
  refine (wp_modify _ _ _).mpr ?_
  exact establishLoop_path hd _ (Path.step hp (.queue _ (.inr (.inl ⟨o, he⟩))))

theorem tryHandler_path {i : Nat} {sig : Server.Signal} (hd : DOk s0 e0 d) (hp : Path s0 e0 t s) :
    wp (tryHandler d i sig) (fun _ => Path s0 e0 t) s := by
  unfold tryHandler
  wauto
  split
  · wauto
    split <;> wauto
  · wauto
  · wauto
  · wauto

/-! ## Signals -/

theorem handle_path {i : Nat} {sig : Server.Signal} (hd : DOk s0 e0 d) (hp : Path s0 e0 t s)
    (h : ∀ r, sig = .reply r → r = .cont ∨ r = .skip ∨ e0 = .reply i r) (hn : isFailure sig = false)
    (hs : sig = .stopped → stopState (s.kids i).ctx.state = true) :
    wp (handle d i sig) (fun _ => Path s0 e0 t) s := by
  have hconv : ∀ (r : Reply) (f : Bool → List Header → List Header),
      (∀ c hs, edited c hs r = some (f c hs)) → ModOk e0 s i r →
      wp (do let c ← needConversion s i; editHeaders s (f c)) (fun _ => Path s0 e0 t) s := by
    intro r f hf hm
    with_reducible apply (wp_bind _ _ _ _).mpr
    refine needConversion_value ?_ ?_
    · intro b; exact editHeaders_path hp hm (hf b)
    · intro b
      unfold editHeaders
      have hp := hp.step .ub
      split
      · wauto
      · rename_i hs hh
        exact (wp_modify _ _ _).mpr (hp.step (.edit i r b hs (f b hs) ⟨hm.event, hm.eom, hm.evaluation⟩ hh (hf b hs)))
  cases sig
  case reply r =>
    replace h := h r rfl
    cases r <;> simp only [handle] <;> simp only [reduceCtorEq, false_or] at h
    case negotiate o req => exact cbNegotiateReply_path hp h
    case cont => wauto
    case replyCode c x m => exact cbReplyCode_path hd hp h
    case temporaryFailure => exact cbRefuse_path hd hp ⟨_, h, rfl⟩
    case reject => exact cbRefuse_path hd hp ⟨_, h, rfl⟩
    case discard => exact cbRefuse_path hd hp ⟨_, h, rfl⟩
    case accept => exact cbAccept_path hd hp
    case addHeader n v => exact cbModify_path hd hp h (hconv _ _ fun c hs => rfl)
    case insertHeader p n v => exact cbModify_path hd hp h (hconv _ _ fun c hs => rfl)
    case changeHeader n p v => exact cbModify_path hd hp h (hconv _ _ fun c hs => rfl)
    case deleteHeader n p => exact cbModify_path hd hp h fun hm => editHeaders_path (c := true) hp hm fun hs => rfl
    case changeFrom f p =>
      exact cbModify_path hd hp h fun hm => (wp_modify _ _ _).mpr (hp.step (.changeFrom i f p hm))
    case addRecipient r p =>
      exact cbModify_path hd hp h fun hm => log_path hp (.recipient i _ hm (.inl ⟨_, _, rfl⟩))
    case deleteRecipient r =>
      exact cbModify_path hd hp h fun hm => log_path hp (.recipient i _ hm (.inr ⟨_, rfl⟩))
    case replaceBody chunk =>
      refine cbModify_path hd hp h fun hm => ?_
      with_reducible apply (wp_bind _ _ _ _).mpr
      with_reducible apply (wp_get _ _).mpr
      have hr := hp.step (.replace i chunk hm)
      unfold bodyReplaced at hr
      with_reducible apply (wp_ite _ _ _ _ _).mpr
      split
      · rename_i hrep
        with_reducible apply (wp_bind _ _ _ _).mpr
        refine (wp_modify _ _ _).mpr ((wp_modify _ _ _).mpr ?_)
        rw [if_neg (by simpa using hrep)] at hr
        exact hr
      · rename_i hrep
        refine (wp_modify _ _ _).mpr ?_
        rw [if_pos (by simpa using hrep)] at hr
        exact hr
    case progress => exact cbProgress_path hd hp h
    case quarantine q =>
      exact cbModify_path hd hp h fun hm => (wp_modify _ _ _).mpr (hp.step (.quarantine i q hm))
    case connectionFailure => exact log_path hp (.forward i _ (by simp) h (by simp))
    case shutdown => exact log_path hp (.forward i _ (by simp) h (by simp))
    case skip => exact cbSkip_path hd hp
  case stopped => exact cbStopped_path hd hp (hs rfl)
  case writingTimeout => cases hn
  case readingTimeout => cases hn
  case endOfMessageTimeout => cases hn
  case error => cases hn
  all_goals simp only [handle]; wauto

theorem cbFinished_path {i : Nat} (hd : DOk s0 e0 d) (hp : Path s0 e0 t s) :
    wp (cbFinished d i) (fun _ => Path s0 e0 t) s := by
  have rest : ∀ s, Path s0 e0 t s → wp (do
      expire i
      let s ← get
      match s.processingState with
      | .negotiate => removeInNegotiate i
      | .header | .endOfHeader | .body | .endOfMessage =>
        if s.emittedReply = false ∧ isProcessing s i = true then sendFirstToNext d i
      | _ => removeFromQueue d i) (fun _ => Path s0 e0 t) s := by
    intro s hp
    wauto
    split <;> wauto
  unfold cbFinished
  with_reducible apply (wp_bind _ _ _ _).mpr
  with_reducible apply (wp_get _ _).mpr
  dsimp only
  with_reducible apply (wp_ite _ _ _ _ _).mpr
  split
  · with_reducible apply (wp_bind _ _ _ _).mpr
    refine wp_mono (modifyCtx_path hp.here id) fun _ s' hp' => ?_
    with_reducible apply (wp_bind _ _ _ _).mpr
    refine wp_mono (compile_path (hp.trans hp') (.inr (.inr (.inr (.inl ⟨i, ?_⟩))))) fun _ s hp => ?_
    · exact ((hp'.post.config i).1).symm
    · exact rest s hp
  · exact rest s hp

theorem dispatch_path (n : Nat) : DOk s0 e0 (dispatch n) := by
  induction n with
  | zero =>
    intro t job s _ _
    exact (wp_failure _ _).mpr trivial
  | succ n hd =>
    intro t job s hp hj
    unfold dispatch
    cases job with
    | signal i sig =>
      dsimp only
      by_cases hs : sig = .stopped
      · subst hs
        have : tryHandler (dispatch n) i .stopped = (do let _ ← get; return ()) := by
          unfold tryHandler
          congr 1
          funext s
          cases (s.kids i).tryRetry <;> rfl
        rw [this]
        wsimp
        split
        · exact handle_path hd (hp.step (.heard i _ rfl (by simp))) (by simp) rfl fun _ => hj
        · exact hp
      · with_reducible apply (wp_bind _ _ _ _).mpr
        refine wp_mono (tryHandler_path hd hp) fun _ s hp => ?_
        with_reducible apply (wp_bind _ _ _ _).mpr
        with_reducible apply (wp_get _ _).mpr
        with_reducible apply (wp_ite _ _ _ _ _).mpr
        split
        · cases hf : isFailure sig with
          | true =>
            have : handle (dispatch n) i sig = cbFailed (dispatch n) i := by
              cases sig <;> first | rfl | cases hf
            rw [this]
            exact cbFailed_path hd hp hf
          | false =>
            with_reducible apply (wp_bind _ _ _ _).mpr
            refine (wp_modify _ _ _).mpr ?_
            have hr : ∀ r, sig = .reply r → r = .cont ∨ r = .skip ∨ e0 = .reply i r := by
              intro r hr
              subst hr
              exact hj
            exact handle_path hd (hp.step (.heard i sig hf hr)) hr hf fun h => absurd h hs
        · wauto
    | finished i =>
      dsimp only
      wauto
      exact cbFinished_path hd hp
    | resume i =>
      dsimp only
      wauto
      refine wp_mono (stepCtx_path hd i _ (by assumption) (by simp) (by simp) (by simp)) fun _ _ _ => ?_
      wauto
    | again i =>
      dsimp only
      wauto

theorem quitLoop_path (hd : DOk s0 e0 d) (l : List Nat) (hp : Path s0 e0 t s) :
    wp (quitLoop d l) (fun _ => Path s0 e0 t) s := by
  induction l generalizing s with
  | nil => unfold quitLoop; wauto
  | cons i rest ih =>
    unfold quitLoop
    wauto
    all_goals exact ih (by assumption)
macro_rules | `(tactic| wcall) => `(tactic| wuse (quitLoop_path (by assumption) _ (by assumption)))

theorem quit_path (hd : DOk s0 e0 d) (hp : Path s0 e0 t s) (hq : e0 = .quit) : wp (quit d) (fun _ => Path s0 e0 t) s := by
  unfold quit
  with_reducible apply (wp_bind _ _ _ _).mpr
  wuse (wp_quiet (by assumption) (by samestep))
  with_reducible apply (wp_bind _ _ _ _).mpr
  with_reducible apply (wp_get _ _).mpr
  with_reducible apply (wp_bind _ _ _ _).mpr
  wuse (quitLoop_path (by assumption) _ (by assumption))
  with_reducible apply (wp_bind _ _ _ _).mpr
  with_reducible apply (wp_get _ _).mpr
  with_reducible apply (wp_ite _ _ _ _ _).mpr
  split
  case isTrue h =>
    with_reducible apply (wp_bind _ _ _ _).mpr
    refine (wp_modify _ _ _).mpr ((wp_modify _ _ _).mpr ?_)
    rename_i hp'
    exact hp'.step (.announce hq (by simpa using h))
  case isFalse => wauto

/-- one event is a sequence of elementary changes -/
theorem step_path (hd : DOk s0 e0 d) (hp : Path s0 e0 t s) : wp (step d e0) (fun _ => Path s0 e0 t) s := by
  have hall : ∀ st c, wp (do let _ ← toAll d checkAlive queueAlive st c) (fun _ => Path s0 e0 t) s := by
    intro st c
    with_reducible apply (wp_bind _ _ _ _).mpr
    refine wp_mono (toAll_path hd hp (fun s hp => checkAlive_path hp) fun s hp _ => queueAlive_path hp) fun _ _ _ => ?_
    wauto
  have hctx : ∀ i e, e ≠ Server.Event.setQuitted false → (∀ c stop ok, e ≠ .command c stop ok) →
      (∀ r ok, e = .reply r ok → e0 = .reply i r) → ∀ s, Path s0 e0 t s →
      wp (do let _ ← stepCtx d i e) (fun _ => Path s0 e0 t) s := by
    intro i e h1 h2 h3 s hp
    with_reducible apply (wp_bind _ _ _ _).mpr
    refine wp_mono (stepCtx_path hd i e hp h1 (fun c stop ok h => absurd h (h2 c stop ok)) h3) fun _ _ _ => ?_
    wauto
  cases he : e0 <;> simp only [step]
  case negotiate o => subst he; exact negotiate_path hd hp rfl
  case idleReply =>
    subst he
    wauto
    exact replyNegotiate_path hp (.inr rfl)
  case connect h a => subst he; exact hall _ _
  case helo f => subst he; exact hall _ _
  case envelopeFrom f => subst he; exact hall _ _
  case unknown c => subst he; exact hall _ _
  case envelopeRecipient r =>
    subst he
    with_reducible apply (wp_bind _ _ _ _).mpr
    refine wp_mono (toAll_path hd hp (fun s hp => checkProcessing_path hp) fun s hp _ => queueProcessing_path hp)
      fun _ _ _ => ?_
    wauto
  case quit => subst he; exact quit_path hd hp rfl
  case reply i r =>
    subst he
    with_reducible apply (wp_bind _ _ _ _).mpr
    refine wp_mono (ask_path hp) fun a s hp => ?_
    exact hctx i _ (by simp) (by simp) (by intro r' ok h; cases h; rfl) s hp
  case flushed i =>
    subst he
    with_reducible apply (wp_bind _ _ _ _).mpr
    refine wp_mono (ask_path hp) fun a s hp => ?_
    exact hctx i _ (by simp) (by simp) (by simp) s hp
  case timeout i => subst he; exact hctx i _ (by simp) (by simp) (by simp) s hp
  case connected i ok => subst he; exact hctx i _ (by simp) (by simp) (by simp) s hp
  case header n v => subst he; have hg : Given s0 (.header n v) (.header n v) := .inl rfl; wauto
  case endOfHeader => subst he; have hg : Given s0 .endOfHeader .endOfHeader := .inl rfl; wauto
  case body b => subst he; have hg : Given s0 (.body b) (.body b) := .inl rfl; wauto
  case endOfMessage b => subst he; have hg : Given s0 (.endOfMessage b) (.endOfMessage b) := .inl rfl; wauto
  case error i => subst he; exact hd t (.signal i (.error .ioError)) s hp trivial
  case finished i => subst he; exact hd t (.finished i) s hp trivial
  all_goals subst he; wauto

/-- what an event leads to -/
theorem next_steps {n : Nat} {s s' : Sys} {e : Event} {answers : List (Bool × Bool)}
    (h : next n s e answers = some s') :
    Steps { s with oracle := answers } e { s with oracle := answers } s' := by
  unfold next at h
  cases hm : step (dispatch n) e { s with oracle := answers } with
  | none => rw [hm] at h; cases h
  | some p =>
    rw [hm] at h
    cases h
    exact ((step_path (dispatch_path n) ⟨.start, .start⟩).elim p.1 p.2 hm).post

end Verif.Children
