import Verif.Manager.ChildrenNews
import Verif.Props.ChildrenNegotiation
/-
C25, C26: milters that failed, and milters in evaluation mode.
-/
namespace Verif.Props
open Verif Verif.Children Verif.Spec.Children

namespace ChildrenLemmas

theorem isFailure_eq (sig : Server.Signal) : isFailure sig = isBreakdown sig := by cases sig <;> rfl
theorem isParallel_eq (c : Cmd) : isParallel c = toEveryMilter c := by cases c <;> rfl

theorem isQuitted_of {s : Sys} {i : Nat} (h : (s.kids i).ctx.quitted = true) : isQuitted s i = true := by
  simp [isQuitted, Server.isQuitted, h]

theorem run_quitted {n : Nat} {i : Nat} (h : History) : ∀ s s' : Sys, run n s h = some s' →
    (s.kids i).ctx.quitted = true → (s'.kids i).ctx.quitted = true := by
  induction h with
  | nil => intro s s' hr hq; cases hr; exact hq
  | cons x h ih =>
    intro s s' hr hq
    obtain ⟨e, a⟩ := x
    simp only [run] at hr
    cases hn : next n s e a with
    | none => rw [hn] at hr; cases hr
    | some s1 =>
      rw [hn] at hr
      exact ih s1 s' hr ((next_steps hn).quitted i hq)

theorem cbFinished_quits {s0 : Sys} {e0 : Event} {d : Dispatch} {t s : Sys} {i : Nat} (hd : DOk s0 e0 d)
    (hp : Path s0 e0 t s) : wp (cbFinished d i) (fun _ s' => (s'.kids i).ctx.quitted = true) s := by
  have rest : ∀ s, Path s0 e0 t s → wp (do
      expire i
      let s ← get
      match s.processingState with
      | .negotiate => removeInNegotiate i
      | .header | .endOfHeader | .body | .endOfMessage =>
        if s.emittedReply = false ∧ isProcessing s i = true then sendFirstToNext d i
      | _ => removeFromQueue d i) (fun _ s' => (s'.kids i).ctx.quitted = true) s := by
    intro s hp
    with_reducible apply (wp_bind _ _ _ _).mpr
    refine (wp_modify _ _ _).mpr ?_
    have hp := (hp.step (.kid i (expired (s.kids i)) ⟨rfl, rfl, fun _ => rfl⟩)).here
    have hq : ((updKid s.kids i (expired (s.kids i))) i).ctx.quitted = true := by simp [updKid, expired]
    refine wp_mono (Q := fun _ u => Path s0 e0 { s with kids := updKid s.kids i (expired (s.kids i)) } u) ?_
      fun _ _ h => h.post.quitted i hq
    change wp (do
      let s ← get
      match s.processingState with
      | .negotiate => removeInNegotiate i
      | .header | .endOfHeader | .body | .endOfMessage =>
        if s.emittedReply = false ∧ isProcessing s i = true then sendFirstToNext d i
      | _ => removeFromQueue d i) _ { s with kids := updKid s.kids i (expired (s.kids i)) }
    wauto
    split <;> wauto
  unfold cbFinished
  with_reducible apply (wp_bind _ _ _ _).mpr
  with_reducible apply (wp_get _ _).mpr
  dsimp only
  with_reducible apply (wp_ite _ _ _ _ _).mpr
  split
  · with_reducible apply (wp_bind _ _ _ _).mpr
    refine wp_mono (modifyCtx_path hp.here id) fun _ s' hp' => ?_
    with_reducible apply (wp_bind _ _ _ _).mpr
    refine wp_mono (compile_path (hp.trans hp') (.inr (.inr (.inr (.inl ⟨i, ?_⟩))))) fun _ s hp => ?_
    · exact ((hp'.post.config i).1).symm
    · exact rest s hp
  · exact rest s hp

end ChildrenLemmas

open ChildrenLemmas

/-! ## C25 -/

/-- **C25** (part): whatever happens in a session, a milter that broke down (a timeout, a broken
connection, a reply that cannot be understood) has been given up. -/
theorem C25_given_up (n : Nat) (kids : List Kid) (chunkSize : Nat) (h : History) (s : Sys)
    (i : Nat) (sig : Server.Signal) (hrun : run n (init kids chunkSize) h = some s)
    (hb : isBreakdown sig = true) (hout : Out.heard i sig ∈ s.out) : isQuitted s i = true := by
  rw [← isFailure_eq] at hb
  refine isQuitted_of ?_
  have := run_induction (P := fun _ s => Out.heard i sig ∈ s.out → (s.kids i).ctx.quitted = true)
    (n := n) (s0 := init kids chunkSize) (by simp [init])
    (fun h s e a s' hp hs => Steps.failed hs hb hp) h s hrun
  exact this hout

/-- **C25** (part): a milter that was given up is sent none of the commands that go to all milters,
whatever else happens (unless the MTA starts a new negotiation).  Missing for the full property:
message commands, see `C25_violated`. -/
theorem C25_never_consulted_partial (n : Nat) (s s' : Sys) (h : History) (i : Nat)
    (hq : (s.kids i).ctx.quitted = true) (hrun : run n s h = some s')
    (hneg : ∀ o, Event.negotiate o ∉ events h) :
    ∃ new, s'.out = s.out ++ new ∧ ∀ c, Out.sent i c ∈ new → toEveryMilter c = false := by
  induction h generalizing s with
  | nil => cases hrun; exact ⟨[], by simp, by simp⟩
  | cons x h ih =>
    obtain ⟨e, a⟩ := x
    simp only [run] at hrun
    cases hn : next n s e a with
    | none => rw [hn] at hrun; cases hrun
    | some s1 =>
      rw [hn] at hrun
      have hs := next_steps hn
      obtain ⟨new2, h2, h2'⟩ := ih s1 (hs.quitted i hq) hrun
        (fun o ho => hneg o (by simp only [events, List.map_cons]; exact List.mem_cons_of_mem _ ho))
      have hstep : ∃ new, s1.out = s.out ++ new ∧ ∀ c, Out.sent i c ∈ new → toEveryMilter c = false := by
        obtain ⟨new, h1, h1'⟩ := hs.news
        refine ⟨new, h1, fun c hc => ?_⟩
        obtain ⟨u, _, hu⟩ := h1' _ hc
        rw [← isParallel_eq]
        cases hp : isParallel c with
        | false => rfl
        | true =>
          cases hu
          case sent hf =>
            rcases hf hp with ⟨o, ho⟩ | hf
            · subst ho; exact absurd (by simp [events]) (hneg o)
            · have := hf i (by simp)
              rw [hq] at this; cases this
      obtain ⟨new1, h1, h1'⟩ := hstep
      refine ⟨new1 ++ new2, by rw [h2, h1, List.append_assoc], ?_⟩
      intro c hc
      rcases List.mem_append.mp hc with hc | hc
      · exact h1' c hc
      · exact h2' c hc

/-- **C25** (part): when the connection of a milter is closed, the milter is given up. -/
theorem C25_disconnected (n : Nat) (s s' : Sys) (i : Nat) (a : List (Bool × Bool))
    (hl : (s.kids i).linked = true) (hnext : next n s (.finished i) a = some s') :
    isQuitted s' i = true := by
  refine isQuitted_of ?_
  cases n with
  | zero => cases hnext
  | succ n =>
    have hw : wp (step (dispatch (n + 1)) (.finished i)) (fun _ s' => (s'.kids i).ctx.quitted = true)
        { s with oracle := a } := by
      simp only [step]
      unfold dispatch
      dsimp only
      with_reducible apply (wp_bind _ _ _ _).mpr
      with_reducible apply (wp_get _ _).mpr
      with_reducible apply (wp_ite _ _ _ _ _).mpr
      rw [if_pos hl]
      exact cbFinished_quits (e0 := .finished i) (dispatch_path n) ⟨.start, .start⟩
    unfold next at hnext
    cases hm : step (dispatch (n + 1)) (.finished i) { s with oracle := a } with
    | none => rw [hm] at hnext; cases hnext
    | some p =>
      rw [hm] at hnext
      cases hnext
      exact hw.elim p.1 p.2 hm

/-! ### Concrete sessions -/

namespace Cases

def plain (es : List Event) : History := es.map (·, [])

/-- negotiation with `n` milters that want everything, except what `os` tells -/
def negotiation (n : Nat) (os : Nat → Opt) : List Event :=
  [.negotiate ⟨6, 0x1ff, 0x1fffff⟩] ++
  (List.range n).flatMap (fun i => [.connected i true, .flushed i]) ++
  (List.range n).map fun i => .reply i (.negotiate (os i) none)

def everything : Opt := ⟨6, 0x1ff, 0⟩

/-- each milter receives the command and says continue -/
def answers (n : Nat) : List Event := (List.range n).flatMap fun i => [.flushed i, .reply i .cont]

def upToConnect (n : Nat) : List Event :=
  negotiation n (fun _ => everything) ++ [.connect [] .unspec] ++ answers n

/-- up to the answers to DATA -/
def upToData (n : Nat) : List Event :=
  upToConnect n ++ [.envelopeFrom [1]] ++ answers n ++ [.envelopeRecipient [2]] ++ answers n ++
  [.data] ++ answers n

end Cases

open Cases

/-- a milter breaks down at MAIL FROM; the other one is asked about RCPT TO, it is not -/
example : ((run 20 (init [{}, {}] 4) (plain (upToConnect 2 ++
      [.envelopeFrom [1], .flushed 0, .flushed 1, .timeout 0, .reply 1 .cont, .envelopeRecipient [2]]))).any fun s =>
    decide (Out.heard 0 .readingTimeout ∈ s.out) && isQuitted s 0 &&
    decide (Out.sent 1 (.envelopeRecipient [2]) ∈ s.out) && !decide (Out.sent 0 (.envelopeRecipient [2]) ∈ s.out))
    = true := by decide +kernel

/-- **C25 fails**: the second of two milters disconnects while the first one gets the message.  It
is given up, but when its turn comes it is sent the message (and the session hangs, as nobody
listens to its signals any more). -/
theorem C25_violated :
    ((run 20 (init [{}, {}] 4) (plain (upToData 2 ++ [.header [3] [4], .flushed 0, .finished 1]))).any fun s1 =>
      isQuitted s1 1 &&
      (run 20 s1 (plain [.reply 0 .cont, .endOfMessage [], .flushed 0, .reply 0 .cont])).any fun s2 =>
        decide (Out.sent 1 (.header [3] [4]) ∈ s2.out.drop s1.out.length)) = true := by decide +kernel

end Verif.Props
