import Verif.Manager.ChildrenReplay
import Verif.Spec.Chain
/-
A message on its way through all milters.
-/
namespace Verif.Children
open Verif
open Verif.Server (St)
open Verif.Spec.Children

theorem run_append' (n : Nat) (s : Sys) (h h' : History) :
    run n s (h ++ h') = (run n s h).bind fun s => run n s h' := by
  induction h generalizing s with
  | nil => rfl
  | cons x h ih =>
    obtain ⟨e, a⟩ := x
    simp only [List.cons_append, run]
    cases next n s e a with
    | none => rfl
    | some s' => exact ih s'

theorem run_trans {n : Nat} {s s' s'' : Sys} {h h' : History} (h1 : run n s h = some s') (h2 : run n s' h' = some s'') :
    run n s (h ++ h') = some s'' := by
  rw [run_append', h1]
  exact h2

theorem run_one {n : Nat} {s s' : Sys} {e : Event} (h : next n s e [] = some s') : run n s (quietly [e]) = some s' := by
  simp only [quietly, List.map, run, h]

theorem quietly_append (a b : List Event) : quietly (a ++ b) = quietly a ++ quietly b := List.map_append

theorem commands_append (a b : List Out) : commands (a ++ b) = commands a ++ commands b := List.filterMap_append
theorem told_append (a b : List Out) : told (a ++ b) = told a ++ told b := List.filterMap_append

theorem cmdState_content (c : Cmd) : inContent (cmdState c) := by
  cases c <;> simp [cmdState, inContent]

/-- when nothing is left, the milter has got as far as the MTA -/
theorem base_last {s : Sys} {i : Nat} {st : St} (h : Base s i) (hin : st ∈ s.commandQueue) (hrem : remaining s i st = []) :
    st = s.state := by
  obtain ⟨hh, hb, hq⟩ := h.queue
  have hne : ∀ {b : Bytes}, b ≠ [] → (pieces s.chunkSize b).map Cmd.body ≠ [] := by
    intro b hb
    rw [pieces_cons h.chunkPos hb]
    simp
  have hcont := h.content
  rcases h.state with e | e | e | e
  · rw [hq, e] at hin
    rw [e]
    cases st <;> revert hin <;> simp [queueUpTo]
  · rw [hq, e] at hin
    rw [e]
    cases st <;> first | rfl | (cases hh <;> revert hin <;> simp [queueUpTo]; done) | skip
    simp only [remaining, afterHeaders] at hrem
    rw [if_pos (by rw [hq, e]; simp [queueUpTo])] at hrem
    simp at hrem
  · rw [hq, e] at hin
    rw [e]
    have hbin : St.body ∈ s.commandQueue := by rw [hq, e]; simp [queueUpTo]
    cases st <;> first | rfl | (cases hh <;> revert hin <;> simp [queueUpTo]; done) | skip
    · simp only [remaining, afterHeaders] at hrem
      rw [if_pos (by rw [hq, e]; simp [queueUpTo])] at hrem
      simp at hrem
    · simp only [remaining, bodyCmds, if_pos hbin] at hrem
      exact absurd (List.append_eq_nil_iff.mp hrem).1 (hne (hcont hbin))
  · have hein : St.endOfMessage ∈ s.commandQueue := by rw [hq, e]; simp [queueUpTo, queueOf]
    rw [hq, e] at hin
    rw [e]
    cases st <;> first | rfl | (cases hh <;> cases hb <;> revert hin <;> simp [queueUpTo, queueOf]; done) | skip
    · simp only [remaining, afterHeaders] at hrem
      rw [if_pos (by rw [hq, e]; simp [queueUpTo, queueOf])] at hrem
      simp at hrem
    · simp only [remaining, endCmds, if_pos hein] at hrem
      simp at hrem
    · simp only [remaining, endCmds, if_pos hein] at hrem
      simp at hrem

theorem turn_last {s : Sys} {i : Nat} {st : St} (h : Turn s i st) (hrem : remaining s i st = []) : st = s.state :=
  base_last h.base h.queued hrem

/-- some of what is left of the message is sent to milter `i` -/
theorem replay_part {n i : Nat} {cs ds : List Cmd} : ∀ {s : Sys} {st : St}, Turn s i st → inContent st →
    remaining s i st = cs ++ ds →
    ∃ s' st', run (n + 1) s (quietly (List.replicate cs.length [.flushed i, .reply i .cont]).flatten) = some s' ∧
      Turn s' i st' ∧ inContent st' ∧ remaining s' i st' = ds ∧ commands s'.out = commands s.out ++ cs.map (i, ·) ∧
      told s'.out = told s.out ∧ carried s' = carried s ∧ SameRoles s s' ∧ (∀ j, j ≠ i → s'.kids j = s.kids j) ∧
      (attending (s.kids i).ctx → attending (s'.kids i).ctx) := by
  induction cs with
  | nil =>
    intro s st h hst hrem
    exact ⟨s, st, rfl, h, hst, hrem, by simp, rfl, rfl, .refl s, fun _ _ => rfl, id⟩
  | cons c rest ih =>
    intro s st h hst hrem
    obtain ⟨s1, e1, g1, r1, o1, c1, q1, k1, m1⟩ := flushed_event (n := n) h hst
    obtain ⟨s2, e2, t2, r2, o2, c2, q2, k2, m2⟩ := reply_event (n := n) g1 (r1.trans hrem)
    obtain ⟨s3, st3, e3, t3, i3, r3, l3, d3, c3, q3, k3, m3⟩ := ih t2 (cmdState_content c) r2
    refine ⟨s3, st3, ?_, t3, i3, r3, ?_, ?_, by rw [c3, c2, c1], (q1.trans q2).trans q3,
      fun j hj => by rw [k3 j hj, k2 j hj, k1 j hj], fun hm => m3 (m2 (m1 hm))⟩
    · simp only [List.length_cons, List.replicate_succ, List.flatten_cons]
      rw [show ([Event.flushed i, .reply i .cont] : List Event) = [.flushed i] ++ [.reply i .cont] from rfl,
        quietly_append, quietly_append]
      exact run_trans (run_trans (run_one e1) (run_one e2)) e3
    · rw [l3, o2, commands_append, o1, commands_append]
      simp [commands]
    · rw [d3, o2, told_append, o1, told_append]
      simp [told]

/-- all that is left of the message is sent to milter `i` -/
theorem replay {n i : Nat} {cs : List Cmd} {s : Sys} {st : St} (h : Turn s i st) (hst : inContent st) (hrem : remaining s i st = cs) :
    ∃ s', run (n + 1) s (quietly (List.replicate cs.length [.flushed i, .reply i .cont]).flatten) = some s' ∧
      Turn s' i s.state ∧ commands s'.out = commands s.out ++ cs.map (i, ·) ∧ told s'.out = told s.out ∧
      carried s' = carried s ∧ SameRoles s s' ∧ (∀ j, j ≠ i → s'.kids j = s.kids j) ∧ remaining s' i s.state = [] ∧
      (attending (s.kids i).ctx → attending (s'.kids i).ctx) := by
  obtain ⟨s', st', e, t, _, r, c, d, k, q, o, m⟩ := replay_part (n := n) (cs := cs) (ds := []) h hst (by rw [hrem]; simp)
  have hst' := turn_last t r
  have est : s'.state = s.state := by injection k
  rw [hst', est] at t r
  exact ⟨s', e, t, c, d, k, q, o, r, m⟩

/-! ## The requests of a milter -/

/-- milter `i` has got the end of the message; `rest` are still to come -/
structure Closing (s : Sys) (i : Nat) (rest : List Nat) : Prop where
  oracle : s.oracle = []
  linked : (s.kids i).linked = true
  at' : At (s.kids i).ctx .endOfMessage
  state : s.state = .endOfMessage
  waiting : s.waitingQueue = i :: rest
  nodup : (i :: rest).Nodup
  chunkPos : 0 < s.chunkSize
  chunkMax : s.chunkSize ≤ Enc.chunkSize
  option : ∃ o, s.option = some o
  headers : ∃ hs, s.headers = some hs
  queue : ∃ hh hb, s.commandQueue = queueOf hh hb
  tail : s.replacedForEach = true → ∀ f, s.bodyFile = some f → s.body = none ∧ f.2 = f.1.length
  emitted : s.emittedReply = false
  others : ∀ j ∈ rest, (s.kids j).linked = true ∧ Ready (s.kids j).ctx

/-- the draft, and whether the milter whose turn it is has begun to replace the body -/
def draft (s : Sys) : Draft := ⟨s.headers.getD [], stored s, s.replaced, s.changeFrom, s.quarantine⟩

/-- a request is carried out -/
def applied (s : Sys) (i : Nat) : Reply → Sys
  | .addHeader n v => { s with headers := some (Headers.add (s.headers.getD []) n (normalized (converts s i) (some v))) }
  | .insertHeader p n v => { s with headers := some (Headers.insert (s.headers.getD []) p n (normalized (converts s i) v)) }
  | .changeHeader n p v =>
    { s with headers := some (Headers.change (s.headers.getD []) n p (normalized (converts s i) (some v))).2 }
  | .deleteHeader n p => { s with headers := some (Headers.delete (s.headers.getD []) n p).2 }
  | .changeFrom f p => { s with changeFrom := some (f, p) }
  | .addRecipient r p => logged s (.emit (.reply (.addRecipient r p)))
  | .deleteRecipient r => logged s (.emit (.reply (.deleteRecipient r)))
  | .replaceBody b => bodyReplaced s b
  | .quarantine r => { s with quarantine := some r }
  | _ => s

theorem modify_cb {d : Dispatch} {i : Nat} {act : Sys → M Unit} {u v : Sys} (hst : (u.kids i).ctx.state = .endOfMessage)
    (h : (u.kids i).evaluation = false → act u u = some ((), v)) :
    cbModify d i act u = some ((), if (u.kids i).evaluation then u else v) := by
  unfold cbModify
  rw [get_bind, if_neg (by rw [hst]; simp)]
  cases he : (u.kids i).evaluation with
  | true => rfl
  | false => rw [if_neg (by simp)]; exact h he

theorem handle_request {d : Dispatch} {i : Nat} {u : Sys} {r : Reply} (hm : isModification r = true)
    (hst : (u.kids i).ctx.state = .endOfMessage) (ho : ∃ o, u.option = some o) (hh : ∃ hs, u.headers = some hs) :
    handle d i (.reply r) u = some ((), if (u.kids i).evaluation then u else applied u i r) := by
  obtain ⟨hs, hh⟩ := hh
  have hg : u.headers.getD [] = hs := by rw [hh]; rfl
  cases r <;> first | (cases hm; done) | skip
  · refine modify_cb hst fun _ => ?_
    rw [bind_eq (conversion_eq ho)]
    unfold editHeaders applied
    rw [hh]
    rfl
  · refine modify_cb hst fun _ => ?_
    rw [bind_eq (conversion_eq ho)]
    unfold editHeaders applied
    rw [hh]
    rfl
  · refine modify_cb hst fun _ => ?_
    rw [bind_eq (conversion_eq ho)]
    unfold editHeaders applied
    rw [hh]
    rfl
  · refine modify_cb hst fun _ => ?_
    unfold editHeaders applied
    rw [hh]
    rfl
  · exact modify_cb hst fun _ => rfl
  · exact modify_cb hst fun _ => rfl
  · exact modify_cb hst fun _ => rfl
  · refine modify_cb hst fun _ => ?_
    rw [get_bind]
    unfold applied bodyReplaced
    cases he : u.replacedForEach <;> rfl
  · exact modify_cb hst fun _ => rfl

/-- the context only passes a request on -/
theorem request_ctx {c : Server.State} {r : Reply} (h : At c .endOfMessage) (hm : isModification r = true) :
    ∃ c' f, Server.reply c r true = ({ c' with stack := f :: c.stack }, [.emit (.reply r)]) ∧
      (∀ x : Server.State, ∃ y, Server.exec x true f = (y, []) ∧ y.stack = x.stack ∧ (At x .endOfMessage → At y .endOfMessage) ∧
        y.option = x.option) ∧
      At c' .endOfMessage ∧ c'.option = c.option := by
  have hs := h.state
  have hq := h.quitted
  have a : ∀ v : Status, At { c with status := v } .endOfMessage := fun v =>
    ⟨h.state, h.quitted, h.nextStates, h.body, h.queue, h.count, h.sentEom, h.skip, h.option⟩
  have e0 : ∀ x : Server.State, ∃ y, Server.exec x true [] = (y, []) ∧ y.stack = x.stack ∧
      (At x .endOfMessage → At y .endOfMessage) ∧ y.option = x.option := fun x => ⟨x, rfl, rfl, id, rfl⟩
  have e1 : ∀ r, ∀ x : Server.State, ∃ y, Server.exec x true [.record r] = (y, []) ∧ y.stack = x.stack ∧
      (At x .endOfMessage → At y .endOfMessage) ∧ y.option = x.option := fun r x =>
    ⟨Server.ensureResult x (Server.Result.noted r), rfl, rfl,
      fun h => ⟨h.state, h.quitted, h.nextStates, h.body, h.queue, h.count, h.sentEom, h.skip, h.option⟩, rfl⟩
  obtain ⟨R, hR⟩ : ∃ R, R = r := ⟨r, rfl⟩
  cases r <;> first | (cases hm; done) | skip
  case quarantine =>
    refine ⟨{ c with status := .quarantine }, [.record R], ?_, e1 R, a _, rfl⟩
    simp [Server.reply, Server.modification, hs, Server.report, hq, Server.andThen, Server.pause, hR]
  case addHeader | insertHeader | changeHeader | deleteHeader =>
    refine ⟨c, [.record R], ?_, e1 R, h, rfl⟩
    simp [Server.reply, Server.modification, hs, Server.report, hq, Server.andThen, Server.pause, hR]
  all_goals
    refine ⟨c, [], ?_, e0, h, rfl⟩
    simp [Server.reply, Server.modification, hs, Server.report, hq, Server.andThen, Server.pause]

/-- what a request does to the draft; `begun`: the milter has already sent a piece of a new body -/
def requested (convert : Bool) (begun : Bool) (d : Draft) (r : Reply) : Draft :=
  { headers := headersAfter convert d.headers r
    body := match replacement r with
      | some b => if begun then d.body ++ b else b
      | none => d.body
    replaced := d.replaced || (replacement r).isSome
    sender := (newSender r).or d.sender
    quarantine := (newQuarantine r).or d.quarantine }

theorem normalized_some (c : Bool) (v : Bytes) : normalized c (some v) = some (spaced c v) := by
  cases v with
  | nil => cases c <;> simp [normalized, spaced]
  | cons b v =>
    cases c
    · simp [normalized, spaced]
    · by_cases h : b = 0x20 <;> simp [normalized, spaced, h]

theorem normalized_map (c : Bool) (v : Option Bytes) : normalized c v = v.map (spaced c) := by
  cases v with
  | none => rfl
  | some v => exact normalized_some c v

theorem stored_written {s : Sys} {b : Bytes} (h : ∀ f, s.bodyFile = some f → s.body = none ∧ f.2 = f.1.length) :
    stored (bodyWritten s b) = stored s ++ b := by
  cases hf : s.bodyFile with
  | some f =>
    obtain ⟨content, pos⟩ := f
    obtain ⟨h1, h2⟩ := h _ hf
    dsimp only at h2
    subst h2
    have e : bodyWritten s b = { s with bodyFile := some (writeAt content content.length b, content.length + b.length) } := by
      unfold bodyWritten; rw [hf]
    rw [e]
    unfold stored
    simp only [h1, hf]
    simp [writeAt]
  | none =>
    have e : stored s = s.body.getD [] := by
      unfold stored
      cases s.body <;> simp [hf]
    rw [e]
    have e2 : bodyWritten s b = if maxOnMemory < (s.body.getD [] ++ b).length then
        { s with body := none, bodyFile := some (s.body.getD [] ++ b, (s.body.getD [] ++ b).length) }
      else { s with body := some (s.body.getD [] ++ b) } := by
      unfold bodyWritten; rw [hf]
    rw [e2]
    split <;> rfl

theorem tail_written {s : Sys} {b : Bytes} (h : ∀ f, s.bodyFile = some f → s.body = none ∧ f.2 = f.1.length) :
    ∀ f, (bodyWritten s b).bodyFile = some f → (bodyWritten s b).body = none ∧ f.2 = f.1.length := by
  cases hf : s.bodyFile with
  | some f =>
    obtain ⟨content, pos⟩ := f
    obtain ⟨h1, h2⟩ := h _ hf
    dsimp only at h2
    subst h2
    have e : bodyWritten s b = { s with bodyFile := some (writeAt content content.length b, content.length + b.length) } := by
      unfold bodyWritten; rw [hf]
    rw [e]
    intro f he
    cases he
    exact ⟨h1, by simp [writeAt]⟩
  | none =>
    have e2 : bodyWritten s b = if maxOnMemory < (s.body.getD [] ++ b).length then
        { s with body := none, bodyFile := some (s.body.getD [] ++ b, (s.body.getD [] ++ b).length) }
      else { s with body := some (s.body.getD [] ++ b) } := by
      unfold bodyWritten; rw [hf]
    rw [e2]
    split
    · intro f he; cases he; exact ⟨rfl, rfl⟩
    · intro f he; simp only [hf] at he; cases he

theorem bodyReplaced_eq (s : Sys) (b : Bytes) :
    ∃ x f, bodyReplaced s b = { s with
      body := x, bodyFile := f, replacedForEach := true, replaced := true
      emittedReply := if s.replacedForEach then s.emittedReply else false } := by
  have hw : ∀ u : Sys, ∃ x f, bodyWritten u b = { u with body := x, bodyFile := f } := by
    intro u
    unfold bodyWritten
    split
    · exact ⟨u.body, _, rfl⟩
    · dsimp only
      split
      · exact ⟨none, _, rfl⟩
      · exact ⟨_, u.bodyFile, rfl⟩
  unfold bodyReplaced
  cases s.replacedForEach with
  | true =>
    rw [if_pos rfl, if_pos rfl]
    obtain ⟨x, f, e⟩ := hw s
    exact ⟨x, f, by rw [e]⟩
  | false =>
    rw [if_neg (by simp), if_neg (by simp)]
    obtain ⟨x, f, e⟩ := hw (bodyDisposed s)
    exact ⟨x, f, by rw [e]; rfl⟩

theorem stored_replaced {s : Sys} {b : Bytes}
    (ht : s.replacedForEach = true → ∀ f, s.bodyFile = some f → s.body = none ∧ f.2 = f.1.length) :
    stored (bodyReplaced s b) = (if s.replacedForEach then stored s ++ b else b) ∧
    ∀ f, (bodyReplaced s b).bodyFile = some f → (bodyReplaced s b).body = none ∧ f.2 = f.1.length := by
  unfold bodyReplaced
  cases hr : s.replacedForEach with
  | true =>
    rw [if_pos rfl, if_pos rfl]
    exact ⟨stored_written (ht hr), tail_written (ht hr)⟩
  | false =>
    rw [if_neg (by simp), if_neg (by simp)]
    have h0 : ∀ f, (bodyDisposed s).bodyFile = some f → (bodyDisposed s).body = none ∧ f.2 = f.1.length := fun f h => by cases h
    exact ⟨(stored_written h0).trans rfl, tail_written h0⟩

theorem applied_draft {s : Sys} {i : Nat} {r : Reply} (hh : ∃ hs, s.headers = some hs)
    (ht : s.replacedForEach = true → ∀ f, s.bodyFile = some f → s.body = none ∧ f.2 = f.1.length) :
    draft (applied s i r) = requested (converts s i) s.replacedForEach (draft s) r := by
  obtain ⟨hs, hh⟩ := hh
  cases r <;> first
    | (simp [applied, draft, requested, headersAfter, replacement, newSender, newQuarantine, normalized_map, stored, logged]; done)
    | skip
  case replaceBody b =>
    have e1 := (stored_replaced (b := b) ht).1
    obtain ⟨x, f, e2⟩ := bodyReplaced_eq s b
    show Draft.mk ((bodyReplaced s b).headers.getD []) (stored (bodyReplaced s b)) (bodyReplaced s b).replaced
      (bodyReplaced s b).changeFrom (bodyReplaced s b).quarantine = _
    rw [e1, e2]
    simp [requested, headersAfter, replacement, newSender, newQuarantine, draft]

/-- what a request does not touch -/
structure Fixed where
  oracle : List (Bool × Bool)
  kids : Nat → Kid
  state : St
  waitingQueue : List Nat
  commandQueue : List St
  chunkSize : Nat
  option : Option Opt
  eomChunk : Bytes
  originalHeaders : Option (List Header)
  code : Option (Nat × Bytes × Option Bytes)
  statuses : St → Status
  count : Nat
  apart : Option Pending × Bool × Nat

def fixed (s : Sys) : Fixed :=
  ⟨s.oracle, s.kids, s.state, s.waitingQueue, s.commandQueue, s.chunkSize, s.option, s.eomChunk, s.originalHeaders, s.code,
    s.statuses, s.count, (s.pending, s.allExpired, s.count)⟩

theorem applied_fixed (s : Sys) (i : Nat) (r : Reply) : fixed (applied s i r) = fixed s := by
  cases r <;> first | rfl | skip
  case replaceBody b =>
    obtain ⟨x, f, e⟩ := bodyReplaced_eq s b
    show fixed (bodyReplaced s b) = _
    rw [e]
    rfl

theorem applied_begun (s : Sys) (i : Nat) (r : Reply) :
    (applied s i r).replacedForEach = (s.replacedForEach || (replacement r).isSome) := by
  cases r <;> first | (simp [applied, replacement, logged]; done) | skip
  case replaceBody b =>
    obtain ⟨x, f, e⟩ := bodyReplaced_eq s b
    show (bodyReplaced s b).replacedForEach = _
    rw [e]
    simp [replacement]

theorem applied_emitted (s : Sys) (i : Nat) (r : Reply) (h : s.emittedReply = false) : (applied s i r).emittedReply = false := by
  cases r <;> first | exact h | skip
  case replaceBody b =>
    obtain ⟨x, f, e⟩ := bodyReplaced_eq s b
    show (bodyReplaced s b).emittedReply = _
    rw [e]
    simp [h]

theorem applied_headers (s : Sys) (i : Nat) (r : Reply) (h : ∃ hs, s.headers = some hs) :
    ∃ hs, (applied s i r).headers = some hs := by
  cases r <;> first | exact ⟨_, rfl⟩ | exact h | skip
  case replaceBody b =>
    obtain ⟨x, f, e⟩ := bodyReplaced_eq s b
    show ∃ hs, (bodyReplaced s b).headers = some hs
    rw [e]
    exact h

theorem applied_tail (s : Sys) (i : Nat) (r : Reply)
    (ht : s.replacedForEach = true → ∀ f, s.bodyFile = some f → s.body = none ∧ f.2 = f.1.length) :
    (applied s i r).replacedForEach = true → ∀ f, (applied s i r).bodyFile = some f →
      (applied s i r).body = none ∧ f.2 = f.1.length := by
  cases r <;> first | exact ht | skip
  case replaceBody b => exact fun _ => (stored_replaced (b := b) ht).2

theorem applied_out (s : Sys) (i : Nat) (r : Reply) :
    (applied s i r).out = s.out ++ if isRecipientEdit r then [.emit (.reply r)] else [] := by
  cases r <;> first | (simp [applied, isRecipientEdit, logged]; done) | skip
  case replaceBody b =>
    obtain ⟨x, f, e⟩ := bodyReplaced_eq s b
    show (bodyReplaced s b).out = _
    rw [e]
    simp [isRecipientEdit]

/-- nothing but the message and the milter's context changes -/
theorem closing_of {s u : Sys} {i : Nat} {rest : List Nat} (h : Closing s i rest) (hf : fixed u = fixed s)
    (hh : ∃ hs, u.headers = some hs)
    (ht : u.replacedForEach = true → ∀ f, u.bodyFile = some f → u.body = none ∧ f.2 = f.1.length)
    (he : u.emittedReply = false) : Closing u i rest := by
  injection hf with e1 e2 e3 e4 e5 e6 e7 e8 e9 e10 e11
  exact ⟨by rw [e1]; exact h.oracle, by rw [e2]; exact h.linked, by rw [e2]; exact h.at', by rw [e3]; exact h.state,
    by rw [e4]; exact h.waiting, h.nodup, by rw [e6]; exact h.chunkPos, by rw [e6]; exact h.chunkMax, by rw [e7]; exact h.option,
    hh, by rw [e5]; exact h.queue, ht, he, by rw [e2]; exact h.others⟩

theorem closing_ctx {s : Sys} {i : Nat} {rest : List Nat} {c : Server.State} (h : Closing s i rest) (hc : At c .endOfMessage) :
    Closing (withCtx s i c) i rest :=
  ⟨h.oracle, by rw [withCtx_kid]; exact h.linked, by rw [withCtx_ctx]; exact hc, h.state, h.waiting, h.nodup, h.chunkPos,
    h.chunkMax, h.option, h.headers, h.queue, h.tail, h.emitted, fun j hj => by
      have : j ≠ i := by
        rintro rfl
        exact (List.nodup_cons.mp h.nodup).1 hj
      rw [withCtx_other _ _ _ _ this]
      exact h.others j hj⟩

theorem closing_logged {s : Sys} {i : Nat} {rest : List Nat} {o : Out} (h : Closing s i rest) : Closing (logged s o) i rest :=
  ⟨h.oracle, h.linked, h.at', h.state, h.waiting, h.nodup, h.chunkPos, h.chunkMax, h.option, h.headers, h.queue, h.tail,
    h.emitted, h.others⟩

/-- one request of milter `i` at the end of the message -/
theorem request_event {n i : Nat} {s : Sys} {rest : List Nat} {r : Reply} (h : Closing s i rest) (hm : isModification r = true) :
    ∃ s', next (n + 1) s (.reply i r) [] = some s' ∧ Closing s' i rest ∧
      draft s' = (if (s.kids i).evaluation then draft s else requested (converts s i) s.replacedForEach (draft s) r) ∧
      s'.replacedForEach = (if (s.kids i).evaluation then s.replacedForEach else s.replacedForEach || (replacement r).isSome) ∧
      commands s'.out = commands s.out ∧
      told s'.out = told s.out ++ (if (s.kids i).evaluation = false ∧ isRecipientEdit r = true then [.reply r] else []) ∧
      s'.originalHeaders = s.originalHeaders ∧ s'.code = s.code ∧ s'.statuses = s.statuses ∧ s'.chunkSize = s.chunkSize ∧
      s'.eomChunk = s.eomChunk ∧ s'.commandQueue = s.commandQueue ∧ SameRoles s s' ∧ s'.count = s.count ∧
      ∀ k, k ≠ i → s'.kids k = s.kids k := by
  obtain ⟨c', f, h1, hf, h2, h3⟩ := request_ctx h.at' hm
  obtain ⟨u1, hu1⟩ : ∃ u1, u1 = withCtx s i { c' with stack := f :: (s.kids i).ctx.stack } := ⟨_, rfl⟩
  obtain ⟨u2, hu2⟩ : ∃ u2, u2 = logged u1 (.heard i (.reply r)) := ⟨_, rfl⟩
  have a1 : At { c' with stack := f :: (s.kids i).ctx.stack } .endOfMessage :=
    ⟨h2.state, h2.quitted, h2.nextStates, h2.body, h2.queue, h2.count, h2.sentEom, h2.skip, h2.option⟩
  have cl2 : Closing u2 i rest := by rw [hu2, hu1]; exact closing_logged (closing_ctx h a1)
  have k2 : (u2.kids i).ctx = { c' with stack := f :: (s.kids i).ctx.stack } := by
    rw [hu2, hu1]; exact withCtx_ctx _ _ _
  have ev2 : (u2.kids i).evaluation = (s.kids i).evaluation := by
    rw [hu2, hu1]
    show ((withCtx s i _).kids i).evaluation = _
    rw [withCtx_kid]
  have cv2 : converts u2 i = converts s i := converts_eq (by rw [hu2, hu1]; rfl) (by rw [k2]; exact h3)
  have l1 : (u1.kids i).linked = true := by rw [hu1, withCtx_kid]; exact h.linked
  have hh := handle_request (d := dispatch n) hm cl2.at'.state cl2.option cl2.headers
  obtain ⟨u3, hu3⟩ : ∃ u3, u3 = if (u2.kids i).evaluation then u2 else applied u2 i r := ⟨_, rfl⟩
  rw [← hu3] at hh
  have f3 : fixed u3 = fixed u2 := by
    rw [hu3]; split
    · rfl
    · exact applied_fixed _ _ _
  have cl3 : Closing u3 i rest := by
    refine closing_of cl2 f3 ?_ ?_ ?_
    · rw [hu3]; split
      · exact cl2.headers
      · exact applied_headers _ _ _ cl2.headers
    · rw [hu3]; split
      · exact cl2.tail
      · exact applied_tail _ _ _ cl2.tail
    · rw [hu3]; split
      · exact cl2.emitted
      · exact applied_emitted _ _ _ cl2.emitted
  have k3 : (u3.kids i).ctx = { c' with stack := f :: (s.kids i).ctx.stack } := by
    rw [show u3.kids = u2.kids by injection f3, k2]
  obtain ⟨y, hy1, hy2, hy3, hy4⟩ := hf { c' with stack := (s.kids i).ctx.stack }
  have a4 : At y .endOfMessage :=
    hy3 ⟨h2.state, h2.quitted, h2.nextStates, h2.body, h2.queue, h2.count, h2.sentEom, h2.skip, h2.option⟩
  have sr : SameRoles s (withCtx u3 i y) := by
    have r1 : SameRoles s u2 := by
      rw [hu2, hu1]
      exact (sameRoles_ctx (s := s) (i := i) (c := { c' with stack := f :: (s.kids i).ctx.stack }) h3).trans ⟨rfl, fun _ => rfl, fun _ => rfl, rfl⟩
    have r2 : SameRoles u2 u3 := by
      injection f3 with e1 e2 e3 e4 e5 e6 e7 e8 e9 e10 e11 e12 e13
      exact ⟨e7, fun j => by rw [e2], fun j => by rw [e2], e13⟩
    refine (r1.trans r2).trans (sameRoles_ctx ?_)
    rw [k3, hy4]
  have f2 : u2.originalHeaders = s.originalHeaders ∧ u2.code = s.code ∧ u2.statuses = s.statuses ∧
      u2.chunkSize = s.chunkSize ∧ u2.eomChunk = s.eomChunk ∧ u2.commandQueue = s.commandQueue ∧ u2.count = s.count := by
    rw [hu2, hu1]; exact ⟨rfl, rfl, rfl, rfl, rfl, rfl, rfl⟩
  have b2 : u2.replacedForEach = s.replacedForEach := by rw [hu2, hu1]; rfl
  have d2 : draft u2 = draft s := by rw [hu2, hu1]; rfl
  injection f3 with e1 e2 e3 e4 e5 e6 e7 e8 e9 e10 e11 e12
  refine ⟨withCtx u3 i y, next_eq h.oracle ?_, closing_ctx cl3 a4, ?_, ?_, ?_, ?_, ?_, ?_, ?_, ?_, ?_, ?_, sr, ?_, ?_⟩
  · rw [reply_step h.oracle]
    have : stepCtx (dispatch (n + 1)) i (.reply r true) s = some (true, withCtx u3 i y) := by
      rw [stepCtx_eq]
      simp only [Server.step, h1]
      rw [← hu1]
      refine drive_emit (s1 := u3) ?_ ?_
      · rw [signal_reply l1, ← hu2]
        exact hh
      · refine resume_eq (f := f) (stack := (s.kids i).ctx.stack) cl3.oracle (by rw [k3]) ?_
        rw [k3]
        exact hy1
    rw [bind_eq this]
    rfl
  · show draft u3 = _
    rw [hu3, ev2]
    split
    · exact d2
    · rw [applied_draft cl2.headers cl2.tail, cv2, b2, d2]
  · show u3.replacedForEach = _
    rw [hu3, ev2]
    split
    · exact b2
    · rw [applied_begun, b2]
  · show commands u3.out = _
    have e0 : commands u2.out = commands s.out := by
      rw [hu2, hu1]
      show commands (s.out ++ _) = _
      rw [commands_append]
      simp [commands]
    rw [hu3]
    split
    · exact e0
    · rw [applied_out, commands_append, e0]
      split <;> simp [commands]
  · show told u3.out = _
    have e0 : told u2.out = told s.out := by
      rw [hu2, hu1]
      show told (s.out ++ _) = _
      rw [told_append]
      simp [told]
    rw [hu3, ev2]
    cases (s.kids i).evaluation with
    | true => simp [e0]
    | false =>
      simp only [Bool.false_eq_true, if_false, true_and]
      rw [applied_out, told_append, e0]
      split <;> simp [told]
  · exact e9.trans f2.1
  · exact e10.trans f2.2.1
  · exact e11.trans f2.2.2.1
  · exact e6.trans f2.2.2.2.1
  · exact e8.trans f2.2.2.2.2.1
  · exact e5.trans f2.2.2.2.2.2.1
  · exact e12.trans f2.2.2.2.2.2.2
  · intro k hk
    rw [withCtx_other _ _ _ _ hk, e2, hu2, hu1]
    exact withCtx_other _ _ _ _ hk

def requestedAll (convert : Bool) : Bool → Draft → List Reply → Draft
  | _, d, [] => d
  | begun, d, r :: rs => requestedAll convert (begun || (replacement r).isSome) (requested convert begun d r) rs

theorem or_last {α : Type} (x y : Option α) (l : List α) :
    (l.getLast?).or (x.or y) = ((x.toList ++ l).getLast?).or y := by
  cases x with
  | none => simp
  | some x =>
    cases h : l.getLast? with
    | none => simp [List.getLast?_eq_none_iff.mp h]
    | some z =>
      rw [List.getLast?_append]
      simp [h]

theorem filterMap_cons_toList {α β : Type} (f : α → Option β) (x : α) (l : List α) :
    (x :: l).filterMap f = (f x).toList ++ l.filterMap f := by
  rw [List.filterMap_cons]
  cases f x <;> rfl

theorem requestedAll_eq (convert : Bool) (rs : List Reply) : ∀ (begun : Bool) (d : Draft),
    requestedAll convert begun d rs =
      { d.after convert rs with
        body := if begun then d.body ++ (rs.filterMap replacement).flatten else (d.after convert rs).body } := by
  induction rs with
  | nil => intro begun d; cases begun <;> simp [requestedAll, Draft.after]
  | cons r rs ih =>
    intro begun d
    rw [requestedAll, ih]
    unfold Draft.after requested
    simp only [filterMap_cons_toList, List.foldl_cons]
    rw [or_last, or_last]
    congr 1
    · cases hr : replacement r with
      | none => simp
      | some b => cases begun <;> simp
    · cases replacement r <;> simp

theorem requestedAll_false (convert : Bool) (rs : List Reply) (d : Draft) :
    requestedAll convert false d rs = d.after convert rs := by
  rw [requestedAll_eq]
  rfl

/-- what stays over the requests of a milter -/
structure Kept' (i : Nat) (s s' : Sys) : Prop where
  originalHeaders : s'.originalHeaders = s.originalHeaders
  code : s'.code = s.code
  status : s'.statuses .endOfMessage = s.statuses .endOfMessage
  chunkSize : s'.chunkSize = s.chunkSize
  eomChunk : s'.eomChunk = s.eomChunk
  commandQueue : s'.commandQueue = s.commandQueue
  roles : SameRoles s s'
  count : s'.count = s.count
  others : ∀ k, k ≠ i → s'.kids k = s.kids k

theorem Kept'.refl (i : Nat) (s : Sys) : Kept' i s s := ⟨rfl, rfl, rfl, rfl, rfl, rfl, .refl s, rfl, fun _ _ => rfl⟩

theorem Kept'.trans {i : Nat} {a b c : Sys} (h1 : Kept' i a b) (h2 : Kept' i b c) : Kept' i a c :=
  ⟨h2.1.trans h1.1, h2.2.trans h1.2, h2.3.trans h1.3, h2.4.trans h1.4, h2.5.trans h1.5, h2.6.trans h1.6, h1.7.trans h2.7,
    h2.8.trans h1.8, fun k hk => (h2.9 k hk).trans (h1.9 k hk)⟩

/-- all requests of milter `i` -/
theorem requests_run {n i : Nat} {rest : List Nat} {rs : List Reply} : ∀ {s : Sys}, Closing s i rest →
    (∀ r ∈ rs, isModification r = true) →
    ∃ s', run (n + 1) s (quietly (rs.map (.reply i ·))) = some s' ∧ Closing s' i rest ∧
      draft s' = (if (s.kids i).evaluation then draft s else requestedAll (converts s i) s.replacedForEach (draft s) rs) ∧
      commands s'.out = commands s.out ∧
      told s'.out = told s.out ++ (if (s.kids i).evaluation then [] else (rs.filter isRecipientEdit).map .reply) ∧
      (s.replacedForEach = false → (∀ r ∈ rs, replacement r = none) → s'.replacedForEach = false) ∧
      Kept' i s s' := by
  induction rs with
  | nil =>
    intro s h _
    refine ⟨s, rfl, h, ?_, rfl, ?_, fun h _ => h, .refl i s⟩
    · split <;> rfl
    · split <;> simp
  | cons r rs ih =>
    intro s h hm
    obtain ⟨s1, e1, c1, d1, b1, m1, t1, k1, k2, k3, k4, k5, k6, k7, k8, k9⟩ := request_event (n := n) h (hm r (by simp))
    obtain ⟨s2, e2, c2, d2, m2, t2, b2, kk⟩ := ih c1 fun x hx => hm x (by simp [hx])
    have ev : (s1.kids i).evaluation = (s.kids i).evaluation := k7.evaluation i
    have cv : converts s1 i = converts s i := k7.converts i
    refine ⟨s2, ?_, c2, ?_, by rw [m2, m1], ?_, ?_, Kept'.trans ⟨k1, k2, by rw [k3], k4, k5, k6, k7, k8, k9⟩ kk⟩
    · rw [List.map_cons, show Event.reply i r :: rs.map (.reply i ·) = [.reply i r] ++ rs.map (.reply i ·) from rfl, quietly_append]
      exact run_trans (run_one e1) e2
    · rw [d2, ev, d1, b1, cv]
      split <;> rfl
    · rw [t2, t1, ev]
      cases (s.kids i).evaluation with
      | true => simp
      | false => cases hr : isRecipientEdit r <;> simp [hr]
    · intro hb hall
      refine b2 ?_ fun x hx => hall x (by simp [hx])
      rw [b1, hb, hall r (by simp)]
      simp

/-! ## The last word of a milter -/

theorem turn_other {s : Sys} {i j : Nat} {st : St} {c : Server.State} (h : Turn s j st) (hne : j ≠ i) :
    Turn (withCtx s i c) j st := by
  have hb := h.base
  have e := withCtx_other s i j c hne
  exact ⟨⟨hb.oracle, by rw [e]; exact hb.linked, hb.state, hb.waiting, hb.chunkPos, hb.chunkMax, hb.option, hb.headers, hb.queue,
    hb.content, hb.file⟩, by rw [e]; exact h.wait, h.queued, h.sending, h.fresh, h.index⟩

theorem turn_logged {s : Sys} {j : Nat} {st : St} {o : Out} (h : Turn s j st) : Turn (logged s o) j st :=
  ⟨base_logged h.base, h.wait, h.queued, h.sending, h.fresh, h.index⟩

theorem remaining_other {s : Sys} {i j : Nat} {st : St} {c : Server.State} (hne : j ≠ i) :
    remaining (withCtx s i c) j st = remaining s j st := by
  have e1 : converts (withCtx s i c) j = converts s j := converts_eq rfl (by rw [withCtx_other _ _ _ _ hne])
  cases st <;> first | rfl | (simp only [remaining]; rw [e1]; rfl)

theorem remaining_logged {s : Sys} {j : Nat} {st : St} {o : Out} : remaining (logged s o) j st = remaining s j st := by
  cases st <;> rfl

/-- the answer with which a milter is done with a message: accept or continue -/
def voteOf (b : Bool) : Status := if b then .accept else .continue_

/-- the rest of the function that reports the answer -/
def frameOf (b : Bool) : List Server.Action := if b then [.processed .inMessage, .clearIfBody] else [.processed .atEndOfMessage]

def statusOf (b : Bool) (v : Status) : Status := if b then .accept else v

/-- a milter that accepts has nothing to do with the message any more -/
def leave (b : Bool) (c : Server.State) : Server.State := { c with processingMessage := c.processingMessage && !b }

theorem final_ctx {c : Server.State} {st : St} (b : Bool) (h : At c st) (hst : inContent st) (hb : b = true ∨ st = .endOfMessage) :
    Server.reply c (lastReply b) true = ({ c with status := statusOf b c.status, timer := none, stack := frameOf b :: c.stack },
      [.emit (.reply (lastReply b))]) := by
  have hs := h.state
  rcases hb with rfl | rfl
  · rcases hst with rfl | rfl | rfl | rfl <;>
      simp [lastReply, statusOf, frameOf, Server.reply, hs, Server.answerable, Server.report, h.quitted, Server.andThen, Server.pause]
  · cases b <;>
      simp [lastReply, statusOf, frameOf, Server.reply, hs, Server.answerable, Server.report, h.quitted, Server.andThen, Server.pause]

theorem withCtx_same (s : Sys) (i : Nat) : withCtx s i (s.kids i).ctx = s := by
  unfold withCtx
  have : updKid s.kids i { s.kids i with ctx := (s.kids i).ctx } = s.kids := by
    funext j
    unfold updKid
    split
    · rename_i h; rw [h]
    · rfl
  rw [this]

theorem final_handled {d : Dispatch} {i : Nat} {s : Sys} {st : St} (b : Bool) (h : (s.kids i).ctx.state = st)
    (hst : inContent st) (hb : b = true ∨ st = .endOfMessage) :
    handle d i (.reply (lastReply b)) s =
      sendFirstToNext d i (voted (withCtx s i (leave b (s.kids i).ctx)) st (voteOf b)) := by
  cases b with
  | false =>
    obtain rfl := hb.resolve_left (by simp)
    have e : leave false (s.kids i).ctx = (s.kids i).ctx := by simp [leave]
    rw [e, withCtx_same]
    have : handle d i (.reply (lastReply false)) s = afterContinue d i (s.kids i).ctx.state (voted s (s.kids i).ctx.state .continue_) := rfl
    rw [this, h]
    rfl
  | true =>
    show cbAccept d i s = _
    have e : leave true (s.kids i).ctx = { (s.kids i).ctx with processingMessage := false } := by simp [leave]
    rw [e]
    unfold cbAccept
    show (do
      compile (s.kids i).ctx.state .accept
      match (s.kids i).ctx.state with
      | .envelopeFrom | .data | .envelopeRecipient => notProcessing i; removeFromQueue d i
      | .header | .endOfHeader | .body | .endOfMessage => notProcessing i; sendFirstToNext d i
      | _ => let _ ← call d i .quit : M Unit) s = _
    rw [h]
    rcases hst with rfl | rfl | rfl | rfl <;> rfl

/-- the context after `clearIfBody` -/
theorem cleared_ready {c : Server.State} {st : St} (b : Bool) (h : At c st) (ht : c.timer = none) (hb : b = true ∨ st = .endOfMessage) :
    Ready (if b = true ∧ c.state = .body then Server.clearBody c else c) := by
  by_cases hbody : st = .body
  · have hb' : b = true := by
      rcases hb with hb | hb
      · exact hb
      · rw [hbody] at hb; cases hb
    rw [if_pos ⟨hb', by rw [h.state]; exact hbody⟩]
    unfold Server.clearBody
    simp only [h.sentEom]
    exact ⟨h.quitted, h.nextStates, ht, h.body, rfl, h.count, rfl, h.skip, h.option⟩
  · rw [if_neg (by rw [h.state]; exact fun x => hbody x.2)]
    exact ⟨h.quitted, h.nextStates, ht, h.body, by rw [h.queue, if_neg hbody], h.count, h.sentEom, h.skip, h.option⟩

/-- the context reports that the message is done -/
theorem done_resume {n i : Nat} {u : Sys} {st : St} {stk : List (List Server.Action)} (b : Bool) (ho : u.oracle = []) (hl : (u.kids i).linked = true)
    (hs : (u.kids i).ctx.stack = frameOf b :: stk) (ha : At (u.kids i).ctx st) (ht : (u.kids i).ctx.timer = none)
    (hst : inContent st) (hb : b = true ∨ st = .endOfMessage) :
    ∃ y v, dispatch (n + 2) (.resume i) u = some ((), v) ∧ y.option = (u.kids i).ctx.option ∧
      (v = withCtx u i y ∨ ∃ sig, v = logged (withCtx u i y) (.heard i sig)) ∧ Ready y ∧
      y.negotiated = (u.kids i).ctx.negotiated ∧ y.processingMessage = (u.kids i).ctx.processingMessage ∧ y.state = st := by
  have he := ha.state
  have hrank : St.envelopeFrom.rank ≤ st.rank ∧ st.rank ≤ St.endOfMessage.rank := by
    rcases hst with rfl | rfl | rfl | rfl <;> decide
  have cl : ∀ c : Server.State, c.option = (u.kids i).ctx.option → c.negotiated = (u.kids i).ctx.negotiated →
      c.processingMessage = (u.kids i).ctx.processingMessage → c.state = st → c.sentEom = false →
      (if b = true ∧ c.state = .body then Server.clearBody c else c).option = (u.kids i).ctx.option ∧
      (if b = true ∧ c.state = .body then Server.clearBody c else c).negotiated = (u.kids i).ctx.negotiated ∧
      (if b = true ∧ c.state = .body then Server.clearBody c else c).processingMessage = (u.kids i).ctx.processingMessage ∧
      (if b = true ∧ c.state = .body then Server.clearBody c else c).state = st := by
    intro c h1 h2 h3 h4 h5
    split
    · unfold Server.clearBody
      simp only [h5]
      exact ⟨h1, h2, h3, h4⟩
    · exact ⟨h1, h2, h3, h4⟩
  cases hr : (u.kids i).ctx.result with
  | none =>
    have a0 : At { (u.kids i).ctx with stack := stk } st :=
      ⟨ha.state, ha.quitted, ha.nextStates, ha.body, ha.queue, ha.count, ha.sentEom, ha.skip, ha.option⟩
    obtain ⟨c1, c2, c3, c4⟩ := cl { (u.kids i).ctx with stack := stk } rfl rfl rfl he ha.sentEom
    refine ⟨_, _, resume_eq ho hs ?_, c1, Or.inl rfl, cleared_ready b a0 ht hb, c2, c3, c4⟩
    cases b with
    | true => simp [frameOf, Server.exec, Server.act, Server.Cond.holds, he, hr, Server.go, hrank]
    | false =>
      obtain rfl := hb.resolve_left (by simp)
      simp [frameOf, Server.exec, Server.act, Server.Cond.holds, he, hr, Server.go]
  | some r =>
    obtain ⟨g, hg⟩ : ∃ g : List Server.Action, g = if b then [.dropResult, .clearIfBody] else [.dropResult] := ⟨_, rfl⟩
    obtain ⟨u1, hu1⟩ : ∃ u1, u1 = withCtx u i { (u.kids i).ctx with stack := g :: stk } := ⟨_, rfl⟩
    have k1 : (u1.kids i).ctx = { (u.kids i).ctx with stack := g :: stk } := by rw [hu1]; exact withCtx_ctx _ _ _
    have l1 : (u1.kids i).linked = true := by rw [hu1, withCtx_kid]; exact hl
    obtain ⟨sig, hsig⟩ : ∃ sig, sig = Server.Signal.messageProcessed (u.kids i).ctx.status (r.reported (u.kids i).ctx.state) := ⟨_, rfl⟩
    have e : Server.exec { (u.kids i).ctx with stack := stk } true (frameOf b) =
        ({ (u.kids i).ctx with stack := g :: stk }, [.emit sig]) := by
      rw [hsig, hg]
      cases b with
      | true => simp [frameOf, Server.exec, Server.act, Server.Cond.holds, he, hr, Server.pause, hrank]
      | false =>
        obtain rfl := hb.resolve_left (by simp)
        simp [frameOf, Server.exec, Server.act, Server.Cond.holds, he, hr, Server.pause]
    have a0 : At { (u.kids i).ctx with stack := stk, result := none } st :=
      ⟨ha.state, ha.quitted, ha.nextStates, ha.body, ha.queue, ha.count, ha.sentEom, ha.skip, ha.option⟩
    obtain ⟨y, hy⟩ : ∃ y, y = if b = true ∧ ({ (u.kids i).ctx with stack := stk, result := none } : Server.State).state = .body then
      Server.clearBody { (u.kids i).ctx with stack := stk, result := none } else { (u.kids i).ctx with stack := stk, result := none } := ⟨_, rfl⟩
    have e2 : dispatch (n + 1) (.resume i) (logged u1 (.heard i sig)) =
        some ((), withCtx (logged u1 (.heard i sig)) i y) := by
      refine resume_eq (f := g) (stack := stk) (by rw [hu1]; exact ho) ?_ ?_
      · show ((u1.kids i).ctx).stack = _
        rw [k1]
      · show Server.exec { (u1.kids i).ctx with stack := stk } true _ = _
        rw [k1, hg, hy]
        cases b with
        | false => simp [Server.exec, Server.act, Server.go]
        | true =>
          show Server.exec _ true [.dropResult, .clearIfBody] = _
          by_cases hbd : (u.kids i).ctx.state = .body <;> simp [Server.exec, Server.act, Server.go, hbd]
    obtain ⟨c1, c2, c3, c4⟩ := cl { (u.kids i).ctx with stack := stk, result := none } rfl rfl rfl he ha.sentEom
    rw [← hy] at c1 c2 c3 c4
    refine ⟨y, _, ?_, c1, Or.inr ⟨sig, rfl⟩, by rw [hy]; exact cleared_ready b a0 ht hb, c2, c3, c4⟩
    unfold dispatch
    dsimp only
    rw [bind_eq (ask_eq ho)]
    show (stepCtx (dispatch (n + 1)) i (.handlerReturns true) >>= fun _ => pure ()) u = _
    have : stepCtx (dispatch (n + 1)) i (.handlerReturns true) u =
        some (true, withCtx (logged u1 (.heard i sig)) i y) := by
      rw [stepCtx_eq]
      simp only [Server.step, hs, e]
      rw [← hu1]
      exact drive_emit (signal_ignored l1 (Or.inr ⟨_, _, hsig⟩)) e2
    rw [bind_eq this]
    show some ((), withCtx (logged u1 (.heard i sig)) i _) = _
    rw [hu1]
    show some ((), logged (withCtx (withCtx u i _) i _) _) = _
    rw [withCtx_twice]

/-- milter `i` is at a point where it may leave the message; `rest` are still to come -/
structure Giving (s : Sys) (i : Nat) (st : St) (rest : List Nat) : Prop where
  oracle : s.oracle = []
  linked : (s.kids i).linked = true
  at' : At (s.kids i).ctx st
  content : inContent st
  state : inContent s.state
  waiting : s.waitingQueue = i :: rest
  nodup : (i :: rest).Nodup
  chunkPos : 0 < s.chunkSize
  chunkMax : s.chunkSize ≤ Enc.chunkSize
  option : ∃ o, s.option = some o
  headers : St.header ∈ s.commandQueue → ∃ hs, s.headers = some hs
  queue : ∃ hh hb, s.commandQueue = queueUpTo hh hb s.state
  file : s.state ≠ .endOfMessage → ∀ f, s.bodyFile = some f →
    s.body = none ∧ f.2 ≤ f.1.length ∧ (St.body ∉ s.commandQueue → f.2 = f.1.length)
  emitted : s.emittedReply = false
  others : ∀ j ∈ rest, (s.kids j).linked = true ∧ Ready (s.kids j).ctx

theorem Closing.giving {s : Sys} {i : Nat} {rest : List Nat} (h : Closing s i rest) : Giving s i .endOfMessage rest :=
  ⟨h.oracle, h.linked, h.at', Or.inr (Or.inr (Or.inr rfl)), Or.inr (Or.inr (Or.inr h.state)), h.waiting, h.nodup, h.chunkPos,
    h.chunkMax, h.option, fun _ => h.headers, by rw [h.state]; exact h.queue, fun hn => absurd h.state hn, h.emitted, h.others⟩

/-- the commands by which the message as it stands is handed to milter `j`, as far as it has come -/
def plan (s : Sys) (j : Nat) : List Cmd :=
  (if St.header ∈ s.commandQueue then (s.headers.getD []).map (headerCmd (converts s j)) else []) ++ afterHeaders s

/-- milter `i` has finished: milter `j` gets the first command -/
theorem handover' {n i j : Nat} {rest : List Nat} {s : Sys} {st : St} (b : Bool) (h : Giving s i st (j :: rest))
    (hlast : b = true ∨ st = .endOfMessage) (hb : St.body ∈ s.commandQueue ∨ s.replacedForEach = false)
    (hh : St.header ∈ s.commandQueue → s.headers ≠ some []) (hc : St.body ∈ s.commandQueue → stored s ≠ []) :
    ∃ c cs s', plan s j = c :: cs ∧ next (n + 2) s (.reply i (lastReply b)) [] = some s' ∧ Turn s' j (cmdState c) ∧
      remaining s' j (cmdState c) = cs ∧ commands s'.out = commands s.out ++ [(j, c)] ∧ told s'.out = told s.out ∧
      s'.waitingQueue = j :: rest ∧ s'.emittedReply = false ∧
      ((∀ k, k ≠ i → k ≠ j → s'.kids k = s.kids k) ∧ Ready (s'.kids i).ctx) ∧
      draft s' = draft s ∧ s'.originalHeaders = s.originalHeaders ∧ s'.code = s.code ∧
      s'.statuses .endOfMessage = (if st = .endOfMessage then Status.compile (s.statuses .endOfMessage) (voteOf b) else s.statuses .endOfMessage) ∧
      s'.chunkSize = s.chunkSize ∧
      s'.eomChunk = s.eomChunk ∧ s'.commandQueue = s.commandQueue ∧ SameRoles s s' ∧ s'.count = s.count ∧ s'.state = s.state ∧ s'.headers = s.headers ∧
      (attending (s.kids j).ctx → attending (s'.kids j).ctx) ∧
      ((s'.kids i).ctx.negotiated = (s.kids i).ctx.negotiated ∧
        (s'.kids i).ctx.processingMessage = ((s.kids i).ctx.processingMessage && !b)) ∧ refused s' = refused s := by
  have hnd := List.nodup_cons.mp h.nodup
  have hji : j ≠ i := by rintro rfl; exact hnd.1 (by simp)
  obtain ⟨u1, hu1⟩ : ∃ u1, u1 = withCtx s i { (s.kids i).ctx with status := statusOf b (s.kids i).ctx.status, timer := none, stack := frameOf b :: (s.kids i).ctx.stack } := ⟨_, rfl⟩
  obtain ⟨u2, hu2⟩ : ∃ u2, u2 = logged u1 (.heard i (.reply (lastReply b))) := ⟨_, rfl⟩
  have k2 : (u2.kids i).ctx = { (s.kids i).ctx with status := statusOf b (s.kids i).ctx.status, timer := none, stack := frameOf b :: (s.kids i).ctx.stack } := by
    rw [hu2, hu1]; exact withCtx_ctx _ _ _
  have l1 : (u1.kids i).linked = true := by rw [hu1, withCtx_kid]; exact h.linked
  have o2 : ∀ k, k ≠ i → u2.kids k = s.kids k := fun k hk => by rw [hu2, hu1]; exact withCtx_other _ _ _ _ hk
  have r2 : SameRoles s u2 := by
    rw [hu2, hu1]
    exact (sameRoles_ctx (s := s) (i := i) (c := { (s.kids i).ctx with status := statusOf b (s.kids i).ctx.status, timer := none, stack := frameOf b :: (s.kids i).ctx.stack }) rfl).trans
      ⟨rfl, fun _ => rfl, fun _ => rfl, rfl⟩
  -- the turn passes on
  obtain ⟨u3, hu3⟩ : ∃ u3 : Sys, u3 = { voted (withCtx u2 i (leave b (u2.kids i).ctx)) st (voteOf b) with headerIndex := 0, waitingQueue := j :: rest } := ⟨_, rfl⟩
  have k3 : ∀ k, k ≠ i → u3.kids k = u2.kids k := fun k hk => by rw [hu3]; exact withCtx_other _ _ _ _ hk
  have k3i : (u3.kids i).ctx = leave b (u2.kids i).ctx := by rw [hu3]; exact withCtx_ctx _ _ _
  have l3i : (u3.kids i).linked = (u2.kids i).linked := by
    rw [hu3]
    show ((withCtx u2 i _).kids i).linked = _
    rw [withCtx_kid]
  have hj := h.others j (by simp)
  have b3 : Base u3 j := by
    rw [hu3, hu2, hu1]
    refine ⟨h.oracle, ?_, h.state, by simp, h.chunkPos, h.chunkMax, h.option, h.headers, h.queue, hc, h.file⟩
    show ((withCtx (withCtx s i _) i _).kids j).linked = true
    rw [withCtx_other _ _ _ _ hji, withCtx_other _ _ _ _ hji]
    exact hj.1
  have rd3 : Ready (u3.kids j).ctx := by rw [k3 j hji, o2 j hji]; exact hj.2
  have cv3 : converts u3 j = converts s j := by
    rw [← r2.converts j]
    exact converts_eq (by rw [hu3]; rfl) (by rw [k3 j hji])
  have bc3 : bodyCmds u3 = bodyCmds s := bodyCmds_eq (by rw [hu3, hu2, hu1]; rfl) (by rw [hu3, hu2, hu1]; rfl) (by rw [hu3, hu2, hu1]; rfl)
  have q3 : u3.commandQueue = s.commandQueue := by rw [hu3, hu2, hu1]; rfl
  have f3 : St.body ∈ u3.commandQueue ∨ u3.replacedForEach = false := by
    rw [hu3, hu2, hu1]; exact hb
  have ch3 : u3.eomChunk = s.eomChunk := by rw [hu3, hu2, hu1]; rfl
  have first : ∃ c cs u4, plan s j = c :: cs ∧ (handle (dispatch (n + 1)) i (.reply (lastReply b)) u2 = some ((), u4)) ∧ Sent u3 u4 j c cs := by
    have start : handle (dispatch (n + 1)) i (.reply (lastReply b)) u2 = (match u3.commandQueue with
        | [] => emit (.reply .cont)
        | c :: _ => do let _ ← sendCommand (dispatch (n + 1)) j c : M Unit) u3 := by
      rw [final_handled b (by rw [k2]; exact h.at'.state) h.content hlast]
      unfold sendFirstToNext
      rw [modify_bind, get_bind]
      have e : ({ voted (withCtx u2 i (leave b (u2.kids i).ctx)) st (voteOf b) with
          headerIndex := 0, waitingQueue := (voted (withCtx u2 i (leave b (u2.kids i).ctx)) st (voteOf b)).waitingQueue.erase i } : Sys) = u3 := by
        have e0 : (voted (withCtx u2 i (leave b (u2.kids i).ctx)) st (voteOf b)).waitingQueue = i :: j :: rest := by rw [hu2, hu1]; exact h.waiting
        rw [e0, hu3, List.erase_cons_head]
      rw [e, show u3.waitingQueue = j :: rest by rw [hu3]]
      rfl
    have ah3 : afterHeaders u3 = afterHeaders s :=
      afterHeaders_eq q3 (by rw [hu3, hu2, hu1]; rfl) (by rw [hu3, hu2, hu1]; rfl) ch3
    have en3 : endCmds u3 = endCmds s := endCmds_eq q3 ch3
    rw [start, q3]
    have hqs := h.queue
    by_cases hin : St.header ∈ s.commandQueue
    · obtain ⟨hs, hhs⟩ := h.headers hin
      have h3 : u3.headers = some hs := by rw [hu3, hu2, hu1]; exact hhs
      have hq : ∃ t, s.commandQueue = .header :: t := by
        obtain ⟨hhd, hbd, hq⟩ := hqs
        rw [hq] at hin ⊢
        rcases h.state with e | e | e | e <;> rw [e] at hin ⊢ <;> cases hhd <;> cases hbd <;>
          first | exact ⟨_, rfl⟩ | exact absurd hin (by decide)
      obtain ⟨t, hq⟩ := hq
      rw [hq]
      cases hs with
      | nil => exact absurd hhs (hh hin)
      | cons x xs =>
        obtain ⟨u4, e1, e2⟩ := send_header (d := dispatch (n + 1)) b3 rd3 f3 (by rw [q3]; exact hin) h3 (h := x)
          (by rw [show u3.headerIndex = 0 by rw [hu3]]; rfl)
        rw [show u3.headerIndex = 0 by rw [hu3], cv3, ah3] at e2
        refine ⟨_, _, u4, ?_, ?_, e2⟩
        · unfold plan
          rw [if_pos hin, hhs]
          rfl
        · show (sendCommand (dispatch (n + 1)) j .header >>= fun _ => pure ()) u3 = _
          have : sendCommand (dispatch (n + 1)) j .header u3 = some (.progress, u4) := e1
          rw [bind_eq this]
          rfl
    · have hq : ∃ t, s.commandQueue = .endOfHeader :: t := by
        obtain ⟨hhd, hbd, hq⟩ := hqs
        rw [hq] at hin ⊢
        rcases h.state with e | e | e | e <;> rw [e] at hin ⊢ <;> cases hhd <;> cases hbd <;>
          first | exact ⟨_, rfl⟩ | exact absurd hin (by decide)
      obtain ⟨t, hq⟩ := hq
      have hqe : St.endOfHeader ∈ s.commandQueue := by rw [hq]; simp
      obtain ⟨u4, e1, e2⟩ := send_endOfHeader (d := dispatch (n + 1)) b3 rd3 f3 (by rw [q3]; exact hqe)
      rw [bc3, en3] at e2
      rw [hq]
      refine ⟨_, _, u4, ?_, ?_, e2⟩
      · unfold plan afterHeaders
        rw [if_neg hin, if_pos hqe]
        rfl
      · show (sendCommand (dispatch (n + 1)) j .endOfHeader >>= fun _ => pure ()) u3 = _
        rw [bind_eq e1]
        rfl
  obtain ⟨c, cs, u4, hplan, h6, h7⟩ := first
  have k4 : (u4.kids i).ctx = leave b { (s.kids i).ctx with status := statusOf b (s.kids i).ctx.status, timer := none, stack := frameOf b :: (s.kids i).ctx.stack } := by
    rw [h7.others i (Ne.symm hji), k3i, k2]
  have l4 : (u4.kids i).linked = true := by
    rw [h7.others i (Ne.symm hji), l3i, hu2]
    exact l1
  have a4 : At (u4.kids i).ctx st := by
    have a := h.at'
    rw [k4]
    exact ⟨a.state, a.quitted, a.nextStates, a.body, a.queue, a.count, a.sentEom, a.skip, a.option⟩
  obtain ⟨y, v, e1, e2, e3, e4, e5, e6, e7⟩ := done_resume (n := n) (u := u4) (i := i) b h7.turn.base.oracle l4 (by rw [k4]; rfl) a4
    (by rw [k4]; rfl) h.content hlast
  obtain ⟨ex, hex, hcm, htl⟩ : ∃ ex : List Out, v = { withCtx u4 i y with out := u4.out ++ ex } ∧ commands ex = [] ∧ told ex = [] := by
    rcases e3 with rfl | ⟨sig, rfl⟩
    · refine ⟨[], ?_, rfl, rfl⟩
      simp [withCtx]
    · exact ⟨[.heard i sig], rfl, rfl, rfl⟩
  have c4 : carried v = carried u3 := by rw [hex]; exact h7.same
  have r4 : SameRoles s v := by
    have x1 : SameRoles u2 u3 := by
      rw [hu3]
      exact (sameRoles_ctx (s := u2) (i := i) (c := leave b (u2.kids i).ctx) rfl).trans ⟨rfl, fun _ => rfl, fun _ => rfl, rfl⟩
    have x2 : SameRoles u3 u4 := h7.roles
    have x3 : SameRoles u4 v := by
      rw [hex]
      exact (sameRoles_ctx e2).trans ⟨rfl, fun _ => rfl, fun _ => rfl, rfl⟩
    exact ((r2.trans x1).trans x2).trans x3
  injection c4 with c1 c2 c3 c4 c5 c6 c7 c8 c9 c10 c11 c12 c13 c14 c15 c16 c17 c18
  refine ⟨c, cs, v, hplan, next_eq h.oracle ?_, ?_, ?_, ?_, ?_, ?_, ?_, ?_, ?_, ?_, ?_, ?_, ?_, ?_, ?_, r4, ?_, ?_, ?_, ?_, ?_, ?_⟩
  · rw [reply_step h.oracle]
    have : stepCtx (dispatch (n + 2)) i (.reply (lastReply b) true) s = some (true, v) := by
      rw [stepCtx_eq]
      simp only [Server.step, final_ctx b h.at' h.content hlast]
      rw [← hu1]
      refine drive_emit (s1 := u4) ?_ e1
      rw [signal_reply l1, ← hu2]
      exact h6
    rw [bind_eq this]
    rfl
  · rcases e3 with rfl | ⟨sig, rfl⟩
    · exact turn_other h7.turn hji
    · exact turn_logged (turn_other h7.turn hji)
  · rw [← h7.rest]
    rcases e3 with rfl | ⟨sig, rfl⟩
    · exact remaining_other hji
    · exact remaining_logged.trans (remaining_other hji)
  · rw [hex]
    show commands (u4.out ++ ex) = _
    rw [commands_append, hcm, h7.out, hu3, hu2, hu1]
    show commands ((s.out ++ _) ++ _) ++ _ = _
    simp [commands]
  · rw [hex]
    show told (u4.out ++ ex) = _
    rw [told_append, htl, h7.out, hu3, hu2, hu1]
    show told ((s.out ++ _) ++ _) ++ _ = _
    simp [told]
  · rw [c1, hu3]
  · rw [c12, hu3, hu2, hu1]; exact h.emitted
  · refine ⟨fun k hki hkj => ?_, ?_⟩
    · rw [hex]
      show (withCtx u4 i y).kids k = _
      rw [withCtx_other _ _ _ _ hki, h7.others k hkj, k3 k hki, o2 k hki]
    · rw [hex]
      show Ready ((withCtx u4 i y).kids i).ctx
      rw [withCtx_ctx]
      exact e4
  · unfold draft
    rw [c3, c5, c11, c9, c10, hu3, hu2, hu1]
    rfl
  · rw [c4, hu3, hu2, hu1]; rfl
  · rw [c13, hu3, hu2, hu1]; rfl
  · rw [c14, hu3, hu2, hu1]
    show setStatusOf s.statuses st (Status.compile (s.statuses st) (voteOf b)) .endOfMessage = _
    unfold setStatusOf
    by_cases hst : st = .endOfMessage
    · subst hst; simp
    · rw [if_neg (Ne.symm hst), if_neg hst]
  · rw [c6, hu3, hu2, hu1]; rfl
  · rw [c8, hu3, hu2, hu1]; rfl
  · rw [c2, hu3, hu2, hu1]; rfl
  · rw [c16, hu3, hu2, hu1]; rfl
  · rw [c15, hu3, hu2, hu1]; rfl
  · rw [c3, hu3, hu2, hu1]; rfl
  · intro hm
    have ej : v.kids j = u4.kids j := by
      rw [hex]
      exact withCtx_other _ _ _ _ hji
    have k7 := h7.keeps
    rw [k3 j hji, o2 j hji] at k7
    rw [ej]
    exact ⟨k7.1.trans hm.1, k7.2.trans hm.2⟩
  · rw [hex]
    show ((withCtx u4 i y).kids i).ctx.negotiated = _ ∧ ((withCtx u4 i y).kids i).ctx.processingMessage = _
    rw [withCtx_ctx, e5, e6, k4]
    exact ⟨rfl, rfl⟩
  · rw [c18, hu3, hu2, hu1]
    exact refused_set _ _ _ (by cases b <;> simp [voteOf])

/-- milter `i` has finished at the end of the message: milter `j` gets the first command -/
theorem handover {n i j : Nat} {rest : List Nat} {s : Sys} (b : Bool) (h : Closing s i (j :: rest)) (hb : St.body ∈ s.commandQueue ∨ s.replacedForEach = false)
    (hh : St.header ∈ s.commandQueue → s.headers ≠ some []) (hc : St.body ∈ s.commandQueue → stored s ≠ []) :
    ∃ c cs s', plan s j = c :: cs ∧ next (n + 2) s (.reply i (lastReply b)) [] = some s' ∧ Turn s' j (cmdState c) ∧
      remaining s' j (cmdState c) = cs ∧ commands s'.out = commands s.out ++ [(j, c)] ∧ told s'.out = told s.out ∧
      s'.waitingQueue = j :: rest ∧ s'.emittedReply = false ∧
      ((∀ k, k ≠ i → k ≠ j → s'.kids k = s.kids k) ∧ Ready (s'.kids i).ctx) ∧
      draft s' = draft s ∧ s'.originalHeaders = s.originalHeaders ∧ s'.code = s.code ∧
      s'.statuses .endOfMessage = Status.compile (s.statuses .endOfMessage) (voteOf b) ∧ s'.chunkSize = s.chunkSize ∧
      s'.eomChunk = s.eomChunk ∧ s'.commandQueue = s.commandQueue ∧ SameRoles s s' ∧ s'.count = s.count ∧ s'.state = s.state ∧
      s'.headers = s.headers := by
  have := handover' (n := n) b h.giving (Or.inr rfl) hb hh hc
  rw [if_pos rfl] at this
  obtain ⟨c, cs, s', h1, h2, h3, h4, h5, h6, h7, h8, h9, h10, h11, h12, h13, h14, h15, h16, h17, h18, h19, h20, _⟩ := this
  exact ⟨c, cs, s', h1, h2, h3, h4, h5, h6, h7, h8, h9, h10, h11, h12, h13, h14, h15, h16, h17, h18, h19, h20⟩

theorem eomEmits_eq {s : Sys} {original : List Header} (h : s.originalHeaders = some original) :
    eomEmits s = changes original (pieces s.chunkSize (stored s)) (draft s) := by
  have e : replaceBodyEmits s = (pieces s.chunkSize (stored s)).map fun b => .reply (.replaceBody b) := by
    unfold replaceBodyEmits stored
    cases s.body with
    | some b => rfl
    | none => cases s.bodyFile with
      | some f => rfl
      | none => simp [pieces_nil]
  unfold eomEmits changes
  rw [e, h]
  unfold draft
  congr 1
  · congr 1
    cases s.changeFrom <;> rfl
  · cases s.quarantine <;> rfl

theorem status_lets {s : Sys} (b : Bool) (h : s.statuses .endOfMessage = voteOf b) :
    emitStatusOf .endOfMessage s = some ((), messageDisposed (logged s (.emit (.reply (lastReply b))))) := by
  unfold emitStatusOf
  rw [get_bind]
  cases b <;> simp only [h, voteOf]
  all_goals
    cases hc : s.code with
    | none => rfl
    | some x =>
      obtain ⟨a, b, c⟩ := x
      dsimp only
      rw [if_neg (by simp)]
      rfl

/-- the last milter has finished: the MTA gets the changes and the verdict -/
theorem conclusion {n i : Nat} {s : Sys} {original : List Header} (b w : Bool) (h : Closing s i []) (ho : s.originalHeaders = some original)
    (hv : Status.compile (s.statuses .endOfMessage) (voteOf b) = voteOf w) :
    ∃ s', next (n + 2) s (.reply i (lastReply b)) [] = some s' ∧ commands s'.out = commands s.out ∧
      told s'.out = told s.out ++ changes original (pieces s.chunkSize (stored s)) (draft s) ++ [.reply (lastReply w)] ∧
      (∀ k, k ≠ i → s'.kids k = s.kids k) ∧ Ready (s'.kids i).ctx ∧ shell (s'.kids i) = shell (s.kids i) ∧
      (s'.kids i).ctx.option = (s.kids i).ctx.option ∧
      s' = { messageDisposed s with kids := s'.kids, out := s'.out, statuses := s'.statuses, headerIndex := 0 } := by
  obtain ⟨u1, hu1⟩ : ∃ u1, u1 = withCtx s i { (s.kids i).ctx with status := statusOf b (s.kids i).ctx.status, timer := none, stack := frameOf b :: (s.kids i).ctx.stack } := ⟨_, rfl⟩
  obtain ⟨u2, hu2⟩ : ∃ u2, u2 = logged u1 (.heard i (.reply (lastReply b))) := ⟨_, rfl⟩
  have k2 : (u2.kids i).ctx = { (s.kids i).ctx with status := statusOf b (s.kids i).ctx.status, timer := none, stack := frameOf b :: (s.kids i).ctx.stack } := by
    rw [hu2, hu1]; exact withCtx_ctx _ _ _
  have l1 : (u1.kids i).linked = true := by rw [hu1, withCtx_kid]; exact h.linked
  obtain ⟨u3, hu3⟩ : ∃ u3 : Sys, u3 = { voted (withCtx u2 i (leave b (u2.kids i).ctx)) .endOfMessage (voteOf b) with headerIndex := 0, waitingQueue := [] } := ⟨_, rfl⟩
  obtain ⟨u4, hu4⟩ : ∃ u4 : Sys, u4 = { u3 with emittedReply := true } := ⟨_, rfl⟩
  obtain ⟨u5, hu5⟩ : ∃ u5 : Sys, u5 = { u4 with out := u4.out ++ (eomEmits u4).map .emit } := ⟨_, rfl⟩
  obtain ⟨u6, hu6⟩ : ∃ u6 : Sys, u6 = messageDisposed (logged u5 (.emit (.reply (lastReply w)))) := ⟨_, rfl⟩
  have st5 : u5.statuses .endOfMessage = voteOf w := by
    rw [hu5, hu4, hu3, hu2, hu1]
    show setStatusOf s.statuses .endOfMessage (Status.compile (s.statuses .endOfMessage) (voteOf b)) .endOfMessage = _
    simp [setStatusOf, hv]
  have h6 : handle (dispatch (n + 1)) i (.reply (lastReply b)) u2 = some ((), u6) := by
    rw [final_handled b (by rw [k2]; exact h.at'.state) (Or.inr (Or.inr (Or.inr rfl))) (Or.inr rfl)]
    unfold sendFirstToNext
    rw [modify_bind, get_bind]
    have e : ({ voted (withCtx u2 i (leave b (u2.kids i).ctx)) .endOfMessage (voteOf b) with
        headerIndex := 0, waitingQueue := (voted (withCtx u2 i (leave b (u2.kids i).ctx)) .endOfMessage (voteOf b)).waitingQueue.erase i } : Sys) = u3 := by
      have e0 : (voted (withCtx u2 i (leave b (u2.kids i).ctx)) .endOfMessage (voteOf b)).waitingQueue = [i] := by rw [hu2, hu1]; exact h.waiting
      rw [e0, hu3, List.erase_cons_head]
    rw [e, show u3.waitingQueue = [] by rw [hu3]]
    show emitReplyForMessage u3.state u3 = _
    have e2 : u3.state = .endOfMessage := by rw [hu3, hu2, hu1]; exact h.state
    have e3 : u3.emittedReply = false := by rw [hu3, hu2, hu1]; exact h.emitted
    rw [e2]
    unfold emitReplyForMessage
    rw [get_bind, e3, if_neg (by simp), modify_bind, ← hu4, if_pos rfl, modify_bind, ← hu5]
    show emitStatusOf .endOfMessage u5 = _
    rw [status_lets w st5, hu6]
  have k6 : (u6.kids i).ctx = leave b (u2.kids i).ctx := by rw [hu6, hu5, hu4, hu3]; exact withCtx_ctx _ _ _
  have l6 : (u6.kids i).linked = (u2.kids i).linked := by
    rw [hu6, hu5, hu4, hu3]
    show ((withCtx u2 i _).kids i).linked = _
    rw [withCtx_kid]
  have a6 : At (u6.kids i).ctx .endOfMessage := by
    have a := h.at'
    rw [k6, k2]
    exact ⟨a.state, a.quitted, a.nextStates, a.body, a.queue, a.count, a.sentEom, a.skip, a.option⟩
  obtain ⟨y, v, e1, e2, e3, e4, _⟩ := done_resume (n := n) (u := u6) (i := i) b (stk := (s.kids i).ctx.stack)
    (by rw [hu6, hu5, hu4, hu3, hu2, hu1]; exact h.oracle)
    (by rw [l6, hu2]; exact l1) (by rw [k6, k2]; rfl) a6 (by rw [k6, k2]; rfl) (Or.inr (Or.inr (Or.inr rfl))) (Or.inr rfl)
  obtain ⟨ex, hex, hcm, htl⟩ : ∃ ex : List Out, v.out = u6.out ++ ex ∧ commands ex = [] ∧ told ex = [] := by
    rcases e3 with rfl | ⟨sig, rfl⟩
    · exact ⟨[], by simp [withCtx], rfl, rfl⟩
    · exact ⟨[.heard i sig], rfl, rfl, rfl⟩
  have o6 : u6.out = s.out ++ [.heard i (.reply (lastReply b))] ++
      (changes original (pieces s.chunkSize (stored s)) (draft s)).map .emit ++ [.emit (.reply (lastReply w))] := by
    have e : eomEmits u4 = changes original (pieces s.chunkSize (stored s)) (draft s) := by
      have := eomEmits_eq (s := u4) (original := original) (by rw [hu4, hu3, hu2, hu1]; exact ho)
      rw [this, hu4, hu3, hu2, hu1]
      rfl
    rw [hu6]
    show u5.out ++ _ = _
    rw [hu5]
    show (u4.out ++ _) ++ _ = _
    rw [e, hu4, hu3, hu2, hu1]
    rfl
  have kv : v.kids = (withCtx u6 i y).kids := by
    rcases e3 with rfl | ⟨sig, rfl⟩ <;> rfl
  have k6' : ∀ k, k ≠ i → u6.kids k = s.kids k := by
    intro k hk
    rw [hu6, hu5, hu4, hu3]
    show (withCtx u2 i _).kids k = _
    rw [withCtx_other _ _ _ _ hk, hu2, hu1]
    exact withCtx_other _ _ _ _ hk
  have sh6 : shell (u6.kids i) = shell (s.kids i) := by
    rw [hu6, hu5, hu4, hu3]
    show shell ((withCtx u2 i _).kids i) = _
    rw [withCtx_kid, hu2, hu1]
    show shell { (withCtx s i _).kids i with ctx := _ } = _
    rw [withCtx_kid]
    rfl
  refine ⟨v, next_eq h.oracle ?_, ?_, ?_, fun k hk => ?_, ?_, ?_, ?_, ?_⟩
  · rw [reply_step h.oracle]
    have : stepCtx (dispatch (n + 2)) i (.reply (lastReply b) true) s = some (true, v) := by
      rw [stepCtx_eq]
      simp only [Server.step, final_ctx b h.at' (Or.inr (Or.inr (Or.inr rfl))) (Or.inr rfl)]
      rw [← hu1]
      refine drive_emit (s1 := u6) ?_ e1
      rw [signal_reply l1, ← hu2]
      exact h6
    rw [bind_eq this]
    rfl
  · rw [hex, commands_append, hcm, o6, commands_append, commands_append, commands_append]
    simp [commands, List.filterMap_map, Function.comp_def]
  · rw [hex, told_append, htl, o6, told_append, told_append, told_append]
    simp [told, List.filterMap_map, Function.comp_def]
  · rw [kv, withCtx_other _ _ _ _ hk]
    exact k6' k hk
  · rw [kv, withCtx_ctx]
    exact e4
  · rw [kv, withCtx_kid]
    exact sh6
  · rw [kv, withCtx_ctx, e2, k6, k2]
    rfl
  · rcases e3 with rfl | ⟨sig, rfl⟩
    · rw [hu6, hu5, hu4, hu3, hu2, hu1]; rfl
    · rw [hu6, hu5, hu4, hu3, hu2, hu1]; rfl

/-! ## All milters -/

/-- the milter after the handover gets the rest of the message -/
theorem delivery {n i j : Nat} {rest : List Nat} {s : Sys} (b : Bool) (h : Closing s i (j :: rest))
    (hb : St.body ∈ s.commandQueue ∨ s.replacedForEach = false)
    (hh : St.header ∈ s.commandQueue → s.headers ≠ some []) (hc : St.body ∈ s.commandQueue → stored s ≠ []) :
    ∃ s', run (n + 2) s (quietly (.reply i (lastReply b) ::
        ((List.replicate ((plan s j).length - 1) [.flushed j, .reply j .cont]).flatten ++ [.flushed j]))) = some s' ∧
      Closing s' j rest ∧ s'.replacedForEach = false ∧
      commands s'.out = commands s.out ++ (plan s j).map (j, ·) ∧ told s'.out = told s.out ∧ draft s' = draft s ∧
      s'.originalHeaders = s.originalHeaders ∧
      s'.statuses .endOfMessage = Status.compile (s.statuses .endOfMessage) (voteOf b) ∧ s'.chunkSize = s.chunkSize ∧
      s'.eomChunk = s.eomChunk ∧ s'.commandQueue = s.commandQueue ∧ SameRoles s s' ∧ s'.code = s.code ∧
      s'.count = s.count ∧ (∀ k, k ≠ i → k ≠ j → s'.kids k = s.kids k) ∧ Ready (s'.kids i).ctx := by
  obtain ⟨c, cs, s1, p1, e1, t1, r1, m1, d1, w1, em1, ⟨k1, rd1⟩, dr1, o1, co1, st1, ch1, eo1, q1, sr1, cn1, ss1, hd1⟩ := handover (n := n) b h hb hh hc
  obtain ⟨s2, e2, t2, m2, d2, c2, sr2, k2, _⟩ := replay (n := n + 1) t1 (cmdState_content c) r1
  rw [ss1, h.state] at t2
  obtain ⟨s3, e3, g3, r3, o3, c3, sr3, k3, _⟩ := flushed_event (n := n + 1) t2 (Or.inr (Or.inr (Or.inr rfl)))
  have hnd := List.nodup_cons.mp h.nodup
  have hkj : ∀ k ∈ rest, k ≠ j := by rintro k hk rfl; exact (List.nodup_cons.mp hnd.2).1 hk
  have hki : ∀ k ∈ rest, k ≠ i := by rintro k hk rfl; exact hnd.1 (by simp [hk])
  have hij : i ≠ j := by rintro rfl; exact hnd.1 (by simp)
  have cc : carried s3 = carried s1 := c3.trans c2
  injection cc with c1' c2' c3' c4' c5' c6' c7' c8' c9' c10' c11' c12' c13' c14' c15' c16'
  have b3 := g3.base
  have f3 : s3.replacedForEach = false := g3.fresh.resolve_left (by simp)
  refine ⟨s3, ?_, ?_, f3, ?_, ?_, ?_, ?_, ?_, ?_, ?_, ?_, (sr1.trans sr2).trans sr3, ?_, ?_, ?_, ?_⟩
  · rw [p1, List.length_cons, Nat.add_sub_cancel,
      show (Event.reply i (lastReply b) :: ((List.replicate cs.length [.flushed j, .reply j .cont]).flatten ++ [.flushed j])) =
        [.reply i (lastReply b)] ++ (List.replicate cs.length [Event.flushed j, .reply j .cont]).flatten ++ [.flushed j] from by simp,
      quietly_append, quietly_append]
    exact run_trans (run_trans (run_one e1) e2) (run_one e3)
  · have st3 : s3.state = .endOfMessage := by rw [c15', ss1, h.state]
    refine ⟨b3.oracle, b3.linked, g3.at', st3, c1'.trans w1, hnd.2, b3.chunkPos, b3.chunkMax, b3.option, (by rw [c3', hd1]; exact h.headers), (by have := b3.queue; rw [st3] at this; exact this),
      (fun hx => by rw [f3] at hx; cases hx), c12'.trans em1, fun k hk => by
        rw [k3 k (hkj k hk), k2 k (hkj k hk), k1 k (hki k hk) (hkj k hk)]
        exact h.others k (by simp [hk])⟩
  · rw [o3, commands_append, m2, m1, p1]
    simp [commands]
  · rw [o3, told_append, d2, d1]
    simp [told]
  · rw [← dr1]
    unfold draft
    rw [c3', c5', c11', c9', c10']
  · rw [c4', o1]
  · rw [c14', st1]
  · rw [c6', ch1]
  · rw [c8', eo1]
  · rw [c2', q1]
  · rw [c13', co1]
  · rw [c16', cn1]
  · intro k hki hkj
    rw [k3 k hkj, k2 k hkj, k1 k hki hkj]
  · rw [k3 i hij, k2 i hij]
    exact rd1

theorem unspaced_eq (c : Bool) (v : Option Bytes) : sentValue c v = unspaced c (v.getD []) := by
  cases v with
  | none => simp [sentValue, unspaced]
  | some v =>
    cases v with
    | nil => simp [sentValue, unspaced]
    | cons b v => simp [sentValue, unspaced]

theorem plan_eq (s : Sys) (j : Nat) (hq : ∃ hh hb, s.commandQueue = queueOf hh hb) :
    plan s j = chain (converts s j) (decide (St.header ∈ s.commandQueue)) (decide (St.body ∈ s.commandQueue))
      (draft s).headers (pieces s.chunkSize (stored s)) s.eomChunk := by
  have h1 : St.endOfHeader ∈ s.commandQueue := by obtain ⟨hh, hb, hq⟩ := hq; rw [hq]; simp [queueOf]
  have h2 : St.endOfMessage ∈ s.commandQueue := by obtain ⟨hh, hb, hq⟩ := hq; rw [hq]; simp [queueOf]
  unfold plan chain afterHeaders endCmds bodyCmds
  rw [if_pos h1, if_pos h2]
  simp only [decide_eq_true_eq]
  have e : headerCmd (converts s j) = fun h : Header => Cmd.header h.name (unspaced (converts s j) (h.value.getD [])) := by
    funext h
    unfold headerCmd
    rw [unspaced_eq]
  rw [e]
  rfl

end Verif.Children
