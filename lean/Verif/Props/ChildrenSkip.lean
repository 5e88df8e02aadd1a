import Verif.Manager.ChildrenSkip
import Verif.Props.ChildrenEnd

/-!
# C102: a milter that skips the rest of the body

A milter may answer a piece of the body with `skip`: it wants no more of this body, but it is still to be asked at the
end of the message.  The milters behind it and the following messages are not concerned.
-/

namespace Verif.Props
open Verif Verif.Children Verif.Spec.Children Cases

/-- the situation: milter `i` is the first of the queue, belongs to the session and to the message, has got a piece of the body
(its context is in the state of the body) and is to answer; nothing is on the way to it -/
theorem C102_situation (s : Sys) (i : Nat) (rest : List Nat) :
    HasPiece s i rest ↔ s.oracle = [] ∧ (s.kids i).linked = true ∧ i < s.count ∧
      ((s.kids i).ctx.negotiated = true ∧ (s.kids i).ctx.processingMessage = true) ∧ (s.kids i).ctx.quitted = false ∧
      (s.kids i).ctx.state = .body ∧ (s.kids i).ctx.nextStates = [] ∧ (s.kids i).ctx.sentEom = false ∧
      s.waitingQueue = i :: rest :=
  ⟨fun h => ⟨h.oracle, h.linked, h.known, h.message, h.quitted, h.state, h.idle, h.sentEom, h.waiting⟩,
    fun ⟨a, b, c, d, e, f, g, k, l⟩ => ⟨a, b, c, d, e, f, g, k, l⟩⟩

theorem skipping_pieces {n i : Nat} {rest : List Nat} {q : List Server.St} (pieces : List Bytes) :
    ∀ {s : Sys} {b : Bytes}, Skipping s i rest q b →
      ∃ s', run (n + 1) s (plain (pieces.map .body)) = some s' ∧ Skipping s' i rest q (b ++ pieces.flatten) ∧
        commands s'.out = commands s.out ∧ told s'.out = told s.out ++ List.replicate pieces.length (.reply .cont) ∧
        ∀ j, j ≠ i → s'.kids j = s.kids j := by
  induction pieces with
  | nil => intro s b h; exact ⟨s, rfl, by simpa using h, rfl, by simp, fun _ _ => rfl⟩
  | cons p ps ih =>
    intro s b h
    obtain ⟨s1, h1, h2, h3, h4, h5⟩ := skipping_piece (n := n) h p
    obtain ⟨s2, g1, g2, g3, g4, g5⟩ := ih h2
    refine ⟨s2, ?_, by simpa [List.append_assoc] using g2, g3.trans h3, ?_, fun j hj => (g5 j hj).trans (h5 j hj)⟩
    · show (match next (n + 1) s (.body p) [] with
        | some s' => run (n + 1) s' (plain (ps.map .body))
        | none => none) = _
      rw [h1]
      exact g1
    · rw [g4, h4, List.append_assoc]
      congr 1

/-- **C102**: the first milter skips while the body comes in.  The MTA is told to continue.  Whatever pieces of the body follow, each
is answered with "continue" and kept for the other milters, and nothing is sent to any milter; at the end of the message
exactly the end of the message, with what the MTA sent along with it, is sent to the milter that skipped. -/
theorem C102_skip_partial (n i : Nat) (rest : List Nat) (q : List Server.St) (s : Sys) (h : HasPiece s i rest)
    (hst : s.state = .body) (hq : s.commandQueue = q ++ [.body]) (hq' : Server.St.body ∉ q ∧ Server.St.endOfMessage ∉ q)
    (hf : ∀ f, s.bodyFile = some f → s.body = none ∧ f.2 = f.1.length) (pieces : List Bytes) (last : Bytes) :
    ∃ s1, run (n + 1) s (plain (.reply i .skip :: pieces.map .body)) = some s1 ∧
      commands s1.out = commands s.out ∧
      told s1.out = told s.out ++ List.replicate (pieces.length + 1) (.reply .cont) ∧
      stored s1 = stored s ++ pieces.flatten ∧ (∀ j, j ≠ i → s1.kids j = s.kids j) ∧
      ∃ s2, run (n + 1) s1 (plain [.endOfMessage last]) = some s2 ∧
        commands s2.out = commands s.out ++ [(i, .endOfMessage last)] ∧ told s2.out = told s1.out ∧
        stored s2 = stored s ++ pieces.flatten ∧ ∀ j, j ≠ i → s2.kids j = s.kids j := by
  obtain ⟨s0, a1, a2, a3, a4, _, a6⟩ := skip_intake (n := n) h hst hq hq' rfl hf
  obtain ⟨s1, b1, b2, b3, b4, b5⟩ := skipping_pieces (n := n) pieces a2
  obtain ⟨s2, c1, c2, c3, c4, c5⟩ := skipping_end (n := n) b2 last
  refine ⟨s1, ?_, b3.trans a3, ?_, b2.stored, fun j hj => (b5 j hj).trans (a6 j hj), s2, ?_, ?_, c3, c4,
    fun j hj => (c5 j hj).trans ((b5 j hj).trans (a6 j hj))⟩
  · show (match next (n + 1) s (.reply i .skip) [] with
      | some s' => run (n + 1) s' (plain (pieces.map .body))
      | none => none) = _
    rw [a1]
    exact b1
  · rw [b4, a4, List.append_assoc]
    congr 1
  · show (match next (n + 1) s1 (.endOfMessage last) [] with
      | some s' => run (n + 1) s' []
      | none => none) = _
    rw [c1]
    rfl
  · rw [c2, b3, a3]

/-- **C102**: a milter behind the first skips while the message is replayed to it: whatever is left of the body, the next
and only command it gets is the end of the message, as the MTA sent it; the MTA is told nothing; the message and the other milters
stay as they are. -/
theorem C102_replay_partial (n i : Nat) (rest : List Nat) (q : List Server.St) (s : Sys) (h : HasPiece s i rest)
    (hst : s.state = .endOfMessage) (hq : s.commandQueue = q ++ [.body, .endOfMessage]) (hq' : Server.St.body ∉ q) :
    ∃ s', next (n + 1) s (.reply i .skip) [] = some s' ∧
      commands s'.out = commands s.out ++ [(i, .endOfMessage s.eomChunk)] ∧ told s'.out = told s.out ∧
      s'.waitingQueue = s.waitingQueue ∧ stored s' = stored s ∧ s'.headers = s.headers ∧
      ∀ j, j ≠ i → s'.kids j = s.kids j := by
  obtain ⟨s', a1, a2, a3, a4, _, a6, a7, _, _, a8⟩ := skip_replay (n := n) h hst hq hq'
  exact ⟨s', a1, a2, a3, a4, a6, a7, a8⟩

namespace Cases

/-- milter `i` gets the command and says continue -/
def yes (i : Nat) : List Event := [.flushed i, .reply i .cont]

/-- a message of one header, up to the first piece of the body, for the first milter -/
def opening : List Event := [.header [3] [4]] ++ yes 0 ++ [.endOfHeader] ++ yes 0 ++ [.body [7]]

/-- a further transaction of a session with two milters that say continue -/
def again (n : Nat) : List Event :=
  let all := ((List.range n).map yes).flatten
  [.envelopeFrom [1]] ++ all ++ [.envelopeRecipient [2]] ++ all ++ [.data] ++ all

end Cases

/-- the first of two milters skips after the first piece of the body -/
example : ((run 20 (init [{}, {}] 4) (plain (upToData 2 ++ opening ++ [.flushed 0]))).any fun s =>
    decide (s.oracle = []) && (s.kids 0).linked && decide (0 < s.count) && (s.kids 0).ctx.negotiated &&
    (s.kids 0).ctx.processingMessage && !(s.kids 0).ctx.quitted && decide ((s.kids 0).ctx.state = .body) &&
    decide ((s.kids 0).ctx.nextStates = []) && !(s.kids 0).ctx.sentEom && decide (s.waitingQueue = [0, 1]) &&
    decide (s.state = .body) && decide (s.commandQueue = [.header, .endOfHeader] ++ [.body]) && decide (s.bodyFile = none)) = true := by
  decide +kernel

/-- ... and the second one, which is sent the whole body in pieces of one byte, skips after its first piece -/
example : ((run 20 (init [{}, {}] 1) (plain (upToData 2 ++ opening ++ [.flushed 0, .reply 0 .skip, .body [8], .endOfMessage [9]] ++ yes 0 ++
      yes 1 ++ yes 1 ++ [.flushed 1]))).any fun s =>
    decide (s.oracle = []) && (s.kids 1).linked && decide (1 < s.count) && (s.kids 1).ctx.negotiated &&
    (s.kids 1).ctx.processingMessage && !(s.kids 1).ctx.quitted && decide ((s.kids 1).ctx.state = .body) &&
    decide ((s.kids 1).ctx.nextStates = []) && !(s.kids 1).ctx.sentEom && decide (s.waitingQueue = [1]) &&
    decide (s.state = .endOfMessage) && decide (s.commandQueue = [.header, .endOfHeader] ++ [.body, .endOfMessage]) &&
    decide (((commands s.out).drop ((commands s.out).length - 4)) =
      [(0, .endOfMessage [9]), (1, .header [3] [4]), (1, .endOfHeader), (1, .body [7])])) = true := by
  decide +kernel

/-- **C102**, where it fails: the mark that a milter has skipped the body is only taken away when the MTA aborts.  In the next message
of the same session the milter is not sent the body, although it has said nothing but "continue". -/
theorem C102_next_message_violated :
    ((run 20 (init [{}] 4) (plain (upToData 1 ++ opening ++ [.flushed 0, .reply 0 .skip, .endOfMessage []] ++ yes 0))).any fun s =>
      (run 20 s (plain (again 1 ++ opening ++ [.endOfMessage []] ++ yes 0))).any fun s2 =>
        decide (told s2.out = told s.out ++ List.replicate 7 (.reply .cont)) &&
        decide (commands s2.out = commands s.out ++ [(0, .envelopeFrom [1]), (0, .envelopeRecipient [2]), (0, .data),
          (0, .header [3] [4]), (0, .endOfHeader), (0, .endOfMessage [])])) = true := by
  decide +kernel

/-- **C102**, where it fails: if the milter that skipped is not the first one, the next message of the session passes although this
milter has not been shown the body and has not been asked at its end. -/
theorem C102_not_asked_violated :
    ((run 20 (init [{}, {}] 4) (plain (upToData 2 ++ opening ++ yes 0 ++ [.endOfMessage []] ++ yes 0 ++
        yes 1 ++ yes 1 ++ [.flushed 1, .reply 1 .skip] ++ yes 1))).any fun s =>
      (run 20 s (plain (again 2 ++ opening ++ yes 0))).any fun s1 =>
      (run 20 s1 (plain ([.endOfMessage []] ++ yes 0 ++ yes 1 ++ yes 1))).any fun s2 =>
        decide (told s2.out = told s1.out ++ [.reply .cont]) &&
        decide (commands s2.out = commands s1.out ++ [(0, .endOfMessage []), (1, .header [3] [4]), (1, .endOfHeader)])) = true := by
  decide +kernel

end Verif.Props
