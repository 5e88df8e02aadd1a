import Verif.Manager.ChildrenEarlyRefusal
import Verif.Props.ChildrenRounds
/-
C99: milters that make up their mind before the end of a message.
-/
namespace Verif.Props
open Verif Verif.Children Verif.Spec.Children Verif.Spec.Early
open Verif.Server (St)

theorem aside_out {s : Sys} {k : Nat} (h : Aside s k) : Spec.Phase.inMessage (s.kids k) = false := by
  unfold Spec.Phase.inMessage
  rw [h.2]
  simp

/-- **C99**, reading: in the state `s` the answers to DATA are in, milter `i` is the first one and `rest` are the others that take
part in the message.  Whatever parts of a message arrive, and whoever accepts when: every part is answered by one "continue" to the
MTA, the milter that is reading gets each part as it comes, a milter whose predecessor has accepted gets all that has arrived so far
first, in the order of its arrival, and who has accepted has nothing to do with the message any more. -/
theorem C99_reading_partial (n : Nat) (s : Sys) (i : Nat) (rest : List Nat) (h : Opening s i rest)
    (hcrew : ∀ k ∈ rest, k < s.count ∧ (s.kids k).ctx.negotiated = true ∧ (s.kids k).ctx.processingMessage = true) :
    ∃ cut : Bytes → List Bytes, (∀ b, IsCut s.chunkSize b (cut b)) ∧
    ∀ ps es cs j later, Reads (converts s) cut {} i rest ps es cs j later →
    ∃ s', run (n + 2) s (quietly es) = some s' ∧
      commands s'.out = commands s.out ++ cs ∧
      told s'.out = told s.out ++ List.replicate ps.length (.reply .cont) ∧
      (∀ k ∈ i :: rest, k ∉ j :: later → Spec.Phase.inMessage (s'.kids k) = false) ∧
      (∀ k, k ∉ i :: rest → s'.kids k = s.kids k) ∧ ∀ k ∈ later, s'.kids k = s.kids k := by
  refine ⟨pieces s.chunkSize, pieces_cut s.chunkSize h.taking.chunkPos, fun ps es cs j later hr => ?_⟩
  obtain ⟨s', e, _, _, c, t, _, k, a, l⟩ := reads_run (n := n) hr (h.reading hcrew) rfl rfl
  exact ⟨s', e, c, t, fun x hx hx' => aside_out (a x hx hx'), k, l⟩

/-- **C99**, a whole message: some milters accept before its end, `j` and the ones of `later` see it to its end, each with whatever
requests.  What they get and what the MTA is told is as if those that have left had not been there. -/
theorem C99_message_partial (n : Nat) (role : Nat → Role) (s : Sys) (i : Nat) (rest : List Nat) (m : Message)
    (h : Opening s i rest) (hst : Passing (s.statuses .endOfMessage))
    (hcrew : ∀ k ∈ rest, k < s.count ∧ (s.kids k).ctx.negotiated = true ∧ (s.kids k).ctx.processingMessage = true)
    (hrole : ∀ k ∈ i :: rest, (role k).convert = converts s k ∧ (role k).counts = !(s.kids k).evaluation ∧
      ∀ r ∈ (role k).requests, isModification r = true) :
    ∃ cut : Bytes → List Bytes, (∀ b, IsCut s.chunkSize b (cut b)) ∧
    ∀ es cs j later, Reads (converts s) cut {} i rest (parts m) es cs j later →
    -- nobody removes all headers or the whole body
    (∀ x ∈ relay role (m.draft.after (role j).convert (role j).effective) later,
      (m.headers ≠ [] → x.2.headers ≠ []) ∧ (m.chunks ≠ [] → x.2.body ≠ [])) →
    -- a body is replaced only if there is one
    (m.chunks = [] → ∀ k ∈ j :: later, ∀ r ∈ (role k).requests, replacement r = none) →
    let to := deliveries cut (decide (m.headers ≠ [])) (decide (m.chunks ≠ [])) m.last role
      (m.draft.after (role j).convert (role j).effective) later
    let result := outcome role m.draft (j :: later)
    ∃ s', run (n + 2) s (quietly (es ++ [.endOfMessage m.last, .flushed j] ++ finishes j (role j) ++
        to.flatMap fun x => turn x.1 (x.2.length - 1) (role x.1))) = some s' ∧
      commands s'.out = commands s.out ++ cs ++ [(j, .endOfMessage m.last)] ++ to.flatMap (fun x => x.2.map (x.1, ·)) ∧
      told s'.out = told s.out ++ List.replicate (parts m).length (.reply .cont) ++
        (j :: later).flatMap (fun k => ((role k).effective.filter isRecipientEdit).map .reply) ++
        changes m.draft.headers (cut result.body) result ++ [.reply (verdict (s.statuses .endOfMessage) role (j :: later))] := by
  refine ⟨pieces s.chunkSize, pieces_cut s.chunkSize h.taking.chunkPos, fun es cs j later hr hne hnob => ?_⟩
  obtain ⟨s1, e1, c1, mv, d1, o1, l1, f1, qh, qb, m1, t1, _, ⟨front, hf⟩, -⟩ := early_intake (n := n) (m := m) h hcrew hr
  have e3 : decide (St.header ∈ s1.commandQueue) = decide (m.headers ≠ []) := by simp only [qh]
  have e4 : decide (St.body ∈ s1.commandQueue) = decide (m.chunks ≠ []) := by simp only [qb]
  obtain ⟨s2, e2, m2, t2, -⟩ := chain_runs n role m.draft.headers later s1 j c1 f1 o1
    (by rw [mv.status]; exact hst)
    (by
      intro k hk
      rw [mv.roles.converts, mv.roles.evaluation]
      exact hrole k (by rw [hf]; exact List.mem_append_right _ hk))
    (by
      intro x hx
      rw [d1] at hx
      rw [qh, qb]
      exact hne x hx)
    (by
      intro hb
      exact hnob (by rw [qb] at hb; simpa using hb))
  rw [d1, l1, e3, e4, mv.chunkSize] at e2 m2
  rw [d1, mv.status, mv.chunkSize] at t2
  refine ⟨s2, ?_, ?_, ?_⟩
  · have := run_trans e1 e2
    rw [← quietly_append] at this
    simpa using this
  · rw [m2, m1]
  · rw [t2, t1]

/-- **C99**, a refusal before the end: parts of a message are read; then another part comes, some milters accept, and milter `k`, which
has got some or all of what has arrived, refuses the message.  The MTA is told the refusal in answer to this part; nobody gets anything more of the message, those who were to come are
told that it is over. -/
theorem C99_refusal_partial (n : Nat) (s : Sys) (i : Nat) (rest : List Nat) (answer : Reply) (h : Opening s i rest)
    (hcrew : ∀ k ∈ rest, k < s.count ∧ (s.kids k).ctx.negotiated = true ∧ (s.kids k).ctx.processingMessage = true)
    (hans : (refusing answer).isSome = true)
    -- no refusal and no code is left over
    (hst : ∀ st, s.statuses st ≠ .reject ∧ s.statuses st ≠ .temporaryFailure ∧ s.statuses st ≠ .discard)
    (hcode : s.code = none ∨ ∃ a b c, answer = .replyCode a b c) :
    ∃ cut : Bytes → List Bytes, (∀ b, IsCut s.chunkSize b (cut b)) ∧
    ∀ ps es cs j rest' p es' cs' k later, Reads (converts s) cut {} i rest ps es cs j rest' →
    (ps.foldl Arrived.add {}).allows p →
    Reaches (converts s) cut ((ps.foldl Arrived.add {}).add p) j rest' es' cs' k later →
    -- the one that refuses counts
    (s.kids k).evaluation = false →
    ∃ s' aborts, run (n + 2) s (quietly (es ++ [p.event, .flushed j] ++ es' ++ [.reply k answer])) = some s' ∧
      commands s'.out = commands s.out ++ cs ++ [(j, p.command (converts s j))] ++ cs' ++ aborts ∧
      (∀ x ∈ aborts, x.2 = .abort) ∧
      (∀ x ∈ later, Spec.Phase.inMessage (s.kids x) = true → (x, .abort) ∈ aborts) ∧
      (∀ x < s.count, Spec.Phase.inMessage (s'.kids x) = false) ∧
      told s'.out = told s.out ++ List.replicate ps.length (.reply .cont) ++ [.reply answer] := by
  refine ⟨pieces s.chunkSize, pieces_cut s.chunkSize h.taking.chunkPos, fun ps es cs j rest' p es' cs' k later hr hp hl he => ?_⟩
  obtain ⟨s', x, h1, h2, h3, h4, h5, h6, -⟩ := early_refusal (n := n) (answer := answer) h hcrew hr hp hl hans
    (fun st => by
      obtain ⟨a, b, c⟩ := hst st
      revert a b c
      cases s.statuses st <;> simp [isRefused]) he hcode
  exact ⟨s', x, h1, h2, h3, h4, h5, h6⟩

open Cases

namespace EarlyCases

/-- three milters, the second one knowing about leading spaces: what the milter that gets the header again sees -/
def session : List Event := spacedSession

/-- the first milter says continue to the first header and accepts at the end of the headers, the second one gets the header and
accepts, the third one gets the header and the end of the headers and reads on -/
def events : List Event :=
  [.header [3] [0x20, 4], .flushed 0, .reply 0 .cont] ++
  ([.endOfHeader, .flushed 0] ++ (.reply 0 .accept :: receives 1 0 ++ (.reply 1 .accept :: receives 2 1 ++ [.reply 2 .cont])) ++
    ([.body [9, 9], .flushed 2, .reply 2 .cont] ++ []))

def sent : List (Nat × Cmd) :=
  (0, .header [3] [4]) :: ((0, .endOfHeader) :: ([.header [3] [0x20, 4]].map (1, ·) ++
    ([.header [3] [4], .endOfHeader].map (2, ·))) ++ [(2, .body [9, 9])])

def memo : Message := ⟨[([3], [0x20, 4])], [[9, 9]], [7]⟩

end EarlyCases

open EarlyCases

/-- a course as the theorems speak of, with any way to cut bodies that leaves the empty one alone -/
theorem early_case (convert : Nat → Bool) (cut : Bytes → List Bytes) (h0 : cut [] = []) (hc : convert 0 = true ∧ convert 1 = false ∧ convert 2 = true) :
    Reads convert cut {} 0 [1, 2] (parts memo) events sent 2 [] := by
  have e : parts memo = [.header [3] [0x20, 4], .endOfHeader, .body [9, 9]] := rfl
  rw [e]
  have r1 : Reads convert cut ((({} : Arrived).add (.header [3] [0x20, 4])).add .endOfHeader) 2 [] [.body [9, 9]]
      ([.body [9, 9], .flushed 2, .reply 2 .cont] ++ []) [(2, .body [9, 9])] 2 [] :=
    .continues (p := .body [9, 9]) ⟨rfl, by simp, by rw [Enc.chunkSize_eq]; decide⟩ .nothing
  have l2 : Leaves convert cut ((({} : Arrived).add (.header [3] [0x20, 4])).add .endOfHeader) 1 [2]
      (.reply 1 .accept :: receives 2 1 ++ [.reply 2 .cont]) ([.header [3] [4], .endOfHeader].map (2, ·)) 2 [] := by
    have := Leaves.reads (convert := convert) (cut := cut) (a := (({} : Arrived).add (.header [3] [0x20, 4])).add .endOfHeader)
      (i := 1) (j := 2) (later := [])
    simpa [Arrived.again, Arrived.add, h0, hc.2.2, unspaced] using this
  have l1 : Leaves convert cut ((({} : Arrived).add (.header [3] [0x20, 4])).add .endOfHeader) 0 [1, 2]
      (.reply 0 .accept :: receives 1 0 ++ (.reply 1 .accept :: receives 2 1 ++ [.reply 2 .cont]))
      ([.header [3] [0x20, 4]].map (1, ·) ++ [.header [3] [4], .endOfHeader].map (2, ·)) 2 [] :=
    .leaves (some := [.header [3] [0x20, 4]]) (others := [.endOfHeader])
      (by simp [Arrived.again, Arrived.add, h0, hc.2.1, unspaced]) (by simp) l2
  have r2 := Reads.accepts (a := ({} : Arrived).add (.header [3] [0x20, 4])) (p := .endOfHeader) (show _ = false from rfl) l1 r1
  have r3 := Reads.continues (a := {}) (p := .header [3] [0x20, 4]) (show _ = false from rfl) r2
  have e1 : Part.command (convert 0) (.header [3] [0x20, 4]) = .header [3] [4] := by rw [hc.1]; rfl
  rw [e1] at r3
  exact r3

/-- the hypotheses of the three theorems are met -/
example : ((run 20 (init [{}, {}, {}] 4) (plain session)).any fun s =>
    openingB s 0 [1, 2] && decide (s.statuses .endOfMessage = .notChange) &&
    [1, 2].all (fun k => decide (k < s.count) && (s.kids k).ctx.negotiated && (s.kids k).ctx.processingMessage) &&
    decide (converts s 0 = true ∧ converts s 1 = false ∧ converts s 2 = true) && decide (s.code = none) &&
    [St.invalid, .start, .defineMacro, .negotiate, .connect, .helo, .envelopeFrom, .envelopeRecipient, .data, .unknown, .header,
      .endOfHeader, .body, .endOfMessage, .quit, .abort].all
      (fun st => decide (s.statuses st ≠ .reject ∧ s.statuses st ≠ .temporaryFailure ∧ s.statuses st ≠ .discard)) &&
    !(s.kids 1).evaluation) = true := by
  decide +kernel

/-- what happens: the second milter is not sent the end of the headers, the third one gets everything, the MTA is told "continue" three times -/
example : ((run 20 (init [{}, {}, {}] 4) (plain session)).any fun s => (run 20 s (plain events)).any fun s' =>
    decide (commands (s'.out.drop s.out.length) = [(0, .header [3] [4]), (0, .endOfHeader), (1, .header [3] [0x20, 4]),
      (2, .header [3] [4]), (2, .endOfHeader), (2, .body [9, 9])]) &&
    decide (told (s'.out.drop s.out.length) = [.reply .cont, .reply .cont, .reply .cont])) = true := by
  decide +kernel

/-- a refusal: the first milter accepts at the end of the headers, the second one refuses when it has the header; the third one, which
has seen nothing, is told to abort -/
example : ((run 20 (init [{}, {}, {}] 4) (plain session)).any fun s =>
    (run 20 s (plain ([.header [3] [0x20, 4], .flushed 0, .reply 0 .cont] ++ [.endOfHeader, .flushed 0] ++
      (.reply 0 .accept :: receives 1 0 ++ []) ++ [.reply 1 .reject]))).any fun s' =>
    decide (commands (s'.out.drop s.out.length) = [(0, .header [3] [4]), (0, .endOfHeader), (1, .header [3] [0x20, 4]), (2, .abort)]) &&
    decide (told (s'.out.drop s.out.length) = [.reply .cont, .reply .reject])) = true ∧
    ∀ (convert : Nat → Bool) (cut : Bytes → List Bytes), cut [] = [] → convert 1 = false →
      Reaches convert cut (([.header [3] [0x20, 4]].foldl Arrived.add {}).add .endOfHeader) 0 [1, 2]
        (.reply 0 .accept :: receives 1 0 ++ []) ([.header [3] [0x20, 4]].map (1, ·) ++ []) 1 [2] := by
  refine ⟨by decide +kernel, fun convert cut h0 h1 => ?_⟩
  exact .leaves (some := [.header [3] [0x20, 4]]) (others := [.endOfHeader])
    (by simp [Arrived.again, Arrived.add, h0, h1, unspaced]) (by simp) .here

/-- turns of a session (C97) in which a milter leaves early or refuses early: courses of the kind C97 speaks of -/
example (n : Nat) (s : Sys) (hf : followedB s 4 0 [1, 2] = true)
    (hc : converts s 0 = true ∧ converts s 1 = false ∧ converts s 2 = true)
    (hst : s.statuses .endOfMessage = .notChange) (he : ∀ k, (s.kids k).evaluation = false) :
    Spec.Phase.Course n s [.early memo events (fun k => ⟨converts s k, true, [.addHeader [5] [6]], false⟩) 4 2 []]
      (Spec.Phase.reports memo (fun k => ⟨converts s k, true, [.addHeader [5] [6]], false⟩) 4 2 [] ++ [.reply .cont])
      (sent ++ [(2, .endOfMessage [7])]) := by
  have h := Spec.Phase.Course.early (n := n) (rest := []) (told := []) (sent := []) (role := fun k => ⟨converts s k, true, [.addHeader [5] [6]], false⟩)
    (followedB_followed hf) (early_case (converts s) (pieces 4) (by simp [pieces]) hc)
    ⟨.inl hst, fun k _ => ⟨rfl, by simp [he], by simp [isModification]⟩, fun x hx => by simp [relay] at hx, fun hx => by simp [memo] at hx⟩
    (fun _ _ => .done)
  have e : Spec.Phase.handed memo (fun k => ⟨converts s k, true, [.addHeader [5] [6]], false⟩) 4 2 [] =
    [(2, memo.first (converts s 2))] := rfl
  rw [e, hst] at h
  simpa [memo, Spec.Children.verdict, lastReply, voteOf] using h

example (n : Nat) (s : Sys) (out : List Nat) (hf : followedB s 4 0 [1, 2] = true) (hc : converts s 0 = true ∧ converts s 1 = false)
    (he : (s.kids 1).evaluation = false) (hcode : s.code = none)
    (hst : ∀ st, s.statuses st ≠ .reject ∧ s.statuses st ≠ .temporaryFailure ∧ s.statuses st ≠ .discard)
    (hcl : ∀ s', run n s (quietly (Spec.Phase.Turn.opening (.turnedDown ([.header [3] [0x20, 4], .flushed 0, .reply 0 .cont] ++
      [.endOfHeader, .flushed 0] ++ (.reply 0 .accept :: receives 1 0)) 1 .reject out))) = some s' → Spec.Phase.Clears s' out) :
    Spec.Phase.Course n s [.turnedDown ([.header [3] [0x20, 4], .flushed 0, .reply 0 .cont] ++ [.endOfHeader, .flushed 0] ++
        (.reply 0 .accept :: receives 1 0)) 1 .reject out]
      [.reply .cont, .reply .reject] [(0, .header [3] [4]), (0, .endOfHeader), (1, .header [3] [0x20, 4])] := by
  have r : Reads (converts s) (pieces 4) {} 0 [1, 2] [.header [3] [0x20, 4]] ([.header [3] [0x20, 4], .flushed 0, .reply 0 .cont] ++ [])
      [(0, .header [3] [4])] 0 [1, 2] := by
    have := Reads.continues (convert := converts s) (cut := pieces 4) (a := {}) (p := .header [3] [0x20, 4]) (i := 0) (rest := [1, 2]) (show _ = false from rfl) .nothing
    have e1 : Part.command (converts s 0) (.header [3] [0x20, 4]) = .header [3] [4] := by rw [hc.1]; rfl
    rw [e1] at this
    exact this
  have l : Reaches (converts s) (pieces 4) (([.header [3] [0x20, 4]].foldl Arrived.add {}).add .endOfHeader) 0 [1, 2]
      (.reply 0 .accept :: receives 1 0 ++ []) ([.header [3] [0x20, 4]].map (1, ·) ++ []) 1 [2] :=
    .leaves (some := [.header [3] [0x20, 4]]) (others := [.endOfHeader])
      (by simp [Arrived.again, Arrived.add, pieces, hc.2, unspaced]) (by simp) .here
  rw [List.append_nil] at r l
  have h := Spec.Phase.Course.turnedDown (n := n) (rest := []) (told := []) (sent := []) (followedB_followed hf) r
    (p := .endOfHeader) (show _ = false from rfl) l (answer := .reject) (out := out) rfl he hst (.inl hcode) hcl (fun _ _ => .done)
  exact h

/-- and there are such sessions -/
example : ((run 20 (init [{}, {}, {}] 4) (plain session)).any fun s => atRestB s && followedB s 4 0 [1, 2] &&
    decide (s.statuses .endOfMessage = .notChange) && decide (s.code = none) &&
    (run 20 s (plain ([.header [3] [0x20, 4], .flushed 0, .reply 0 .cont] ++
      [.endOfHeader, .flushed 0] ++ (.reply 0 .accept :: receives 1 0) ++ [.reply 1 .reject]))).any fun s' => clearsB s' [2]) = true := by
  decide +kernel

/-! ## Where the code departs from it -/

/-- what happens after the answers to DATA in a session with `k` milters -/
def early (k : Nat) (es : List Event) (p : List Out → Bool) : Bool :=
  (run 20 (init (List.replicate k {}) 4) (plain (upToData k))).any fun s =>
    (run 20 s (plain es)).any fun s' => p (s'.out.drop s.out.length)

/-- **C99 fails**: the only milter says continue to a header and accepts at the next one; the MTA is told to continue, not that the
message is accepted, and when it does, the session ends in an error. -/
theorem C99_late_violated :
    early 1 [.header [3] [4], .flushed 0, .reply 0 .cont, .header [4] [5], .flushed 0, .reply 0 .accept] (fun out =>
      decide (told out = [.reply .cont, .reply .cont])) = true ∧
    early 1 [.header [3] [4], .flushed 0, .reply 0 .cont, .header [4] [5], .flushed 0, .reply 0 .accept, .endOfHeader] (fun out =>
      decide (told out = [.reply .cont, .reply .cont, .error true])) = true := by
  refine ⟨?_, ?_⟩ <;> decide +kernel

/-- **C99 fails**: the first of two milters accepts at the second header, the second one at the first header, which it gets again; the
MTA is told to continue although everybody has accepted the message. -/
theorem C99_both_violated :
    early 2 [.header [3] [4], .flushed 0, .reply 0 .cont, .header [4] [5], .flushed 0, .reply 0 .accept, .flushed 1, .reply 1 .accept]
      (fun out => decide (told out = [.reply .cont, .reply .cont]) &&
        decide (commands out = [(0, .header [3] [4]), (0, .header [4] [5]), (1, .header [3] [4])])) = true := by
  decide +kernel

/-- **C99 fails**: the only milter accepts a message at its header, and the MTA is told so.  An MTA is done with that message then and
goes on with the next one, without an abort.  With the next message the milter gets the header of the first one again, and the MTA is
told nothing at its end. -/
theorem C99_next_violated :
    early 1 ([.header [3] [4], .flushed 0, .reply 0 .accept] ++ [.envelopeFrom [1]] ++ answers 1 ++ [.envelopeRecipient [2]] ++ answers 1 ++
      [.data] ++ answers 1 ++ [.header [7] [7], .flushed 0, .reply 0 .cont, .flushed 0, .reply 0 .cont] ++
      [.endOfHeader, .flushed 0, .reply 0 .cont] ++ [.body [9], .flushed 0, .reply 0 .cont] ++ [.endOfMessage [], .flushed 0, .reply 0 .cont])
      (fun out =>
        decide (commands out = [(0, .header [3] [4]), (0, .envelopeFrom [1]), (0, .envelopeRecipient [2]), (0, .data),
          (0, .header [3] [4]), (0, .header [7] [7]), (0, .endOfHeader), (0, .body [9]), (0, .endOfMessage [])]) &&
        decide (told out = [.reply .accept] ++ List.replicate 6 (.reply .cont))) = true := by
  decide +kernel

end Verif.Props
