import Verif.Core.CommandRoundTrip
import Verif.Core.ReplyRoundTrip
/-
C01, C05, C06: framing.
-/
namespace Verif.Props
open Verif Verif.Spec Verif.Decoder

variable {Ev : Type}

/-- Did some feed of this series return FALSE? -/
def someFeedFailed (h : Handler Ev) (d : Dec) : List Bytes → Bool
  | [] => false
  | c :: cs => !feedOk h d c || someFeedFailed h (feed h d c).1 cs

/-- What the decoder makes of one packet seen alone. -/
def alone (h : Handler Ev) (p : Bytes) : HRes Ev := h (p ++ [0]) p.length

/-- The bytes that follow a packet do not matter to what is made of it. -/
def Independent (h : Handler Ev) (p : Bytes) : Prop :=
  ∀ next, h (p ++ next ++ [0]) p.length = alone h p

theorem someFeedFailed_iff (h : Handler Ev) (d : Dec) (cs : List Bytes) (hd : d.st ≠ .error) :
    someFeedFailed h d cs = true ↔ (feedAll h d cs).1.st = .error := by
  induction cs generalizing d with
  | nil => simp [someFeedFailed, feedAll, hd]
  | cons c cs ih =>
    simp only [someFeedFailed, feedAll, Bool.or_eq_true, Bool.not_eq_true']
    have hb : (d.st == .error) = false := by simp [hd]
    by_cases he : (feed h d c).1.st = .error
    · have := feedAll_error h (feed h d c).1 cs he
      simp [feedOk, hb, he, this.2]
    · have := ih (feed h d c).1 he
      have hok : feedOk h d c = true := by simp [feedOk, he]
      simp [hok, this]

/-- **C01** (framing machine, any packet handler): the events, the error condition and the
return values depend on the stream only, and they are those of reading the stream's
packets one by one. -/
theorem C01_framing (h : Handler Ev) (cs : List Bytes)
    (hl : ∀ p ∈ frames cs.flatten, Independent h p) :
    (feedAll h init cs).2 = (interpret (alone h) (frames cs.flatten)).1 ∧
    (someFeedFailed h init cs = true ↔
      (interpret (alone h) (frames cs.flatten)).2 = .rejected) := by
  have := feedAll_spec h cs hl
  refine ⟨this.1, ?_⟩
  rw [someFeedFailed_iff h init cs (by simp [init]), this.2]
  show endState (interpret (alone h) (frames cs.flatten)).2 _ = _ ↔ _
  cases (interpret (alone h) (frames cs.flatten)).2 <;> simp [endState]
  split <;> (try split) <;> simp

/-- **C01** for the command decoder: two cuts of one stream give the same commands, the
same error condition, the same final decoder state, provided no packet of the stream is
one of the malformed packets of `SelfContained`. -/
theorem C01_commands_partial (inet : Inet) (cs cs' : List Bytes) (he : cs.flatten = cs'.flatten)
    (hs : ∀ p ∈ frames cs.flatten, SelfContained p) :
    (feedAll (CmdDec.decode inet) init cs).2 = (feedAll (CmdDec.decode inet) init cs').2 ∧
    someFeedFailed (CmdDec.decode inet) init cs = someFeedFailed (CmdDec.decode inet) init cs' ∧
    (feedAll (CmdDec.decode inet) init cs).1.st = (feedAll (CmdDec.decode inet) init cs').1.st := by
  have hl : ∀ p ∈ frames cs.flatten, Independent (CmdDec.decode inet) p :=
    fun p hp => CmdDec.decode_local inet p (hs p hp)
  have h1 := C01_framing _ cs hl
  have h2 := C01_framing _ cs' (he ▸ hl)
  rw [← he] at h2
  refine ⟨h1.1.trans h2.1.symm, ?_, ?_⟩
  · rw [Bool.eq_iff_iff, h1.2, h2.2]
  · have a := (feedAll_spec _ cs hl).2
    have b := (feedAll_spec _ cs' (he ▸ hl)).2
    rw [← he] at b
    rw [a, b]

/-- **C01** for the reply decoder. -/
theorem C01_replies_partial (cs cs' : List Bytes) (he : cs.flatten = cs'.flatten)
    (hs : ∀ p ∈ frames cs.flatten, SelfContainedReply p) :
    (feedAll RepDec.decode init cs).2 = (feedAll RepDec.decode init cs').2 ∧
    someFeedFailed RepDec.decode init cs = someFeedFailed RepDec.decode init cs' ∧
    (feedAll RepDec.decode init cs).1.st = (feedAll RepDec.decode init cs').1.st := by
  have hl : ∀ p ∈ frames cs.flatten, Independent RepDec.decode p :=
    fun p hp => RepDec.decode_local p (hs p hp)
  have h1 := C01_framing _ cs hl
  have h2 := C01_framing _ cs' (he ▸ hl)
  rw [← he] at h2
  refine ⟨h1.1.trans h2.1.symm, ?_, ?_⟩
  · rw [Bool.eq_iff_iff, h1.2, h2.2]
  · have a := (feedAll_spec _ cs hl).2
    have b := (feedAll_spec _ cs' (he ▸ hl)).2
    rw [← he] at b
    rw [a, b]

/-- non-vacuity of the hypothesis of C01: a helo and a quit -/
example : ∀ p ∈ frames (wire (0x48 :: ascii "mx" ++ [0]) ++ wire [0x51]), SelfContained p := by
  rw [frames_wire _ _ (by rw [intLimit_eq]; decide)]
  have := frames_wire [0x51] [] (by rw [intLimit_eq]; decide)
  rw [List.append_nil] at this
  rw [this, frames_short [] (by decide)]
  intro p hp
  simp only [List.mem_cons, List.not_mem_nil, or_false] at hp
  rcases hp with rfl | rfl
  · exact ⟨by simp, by decide, fun _ _ _ => by simp⟩
  · exact ⟨by simp, by decide, fun _ _ _ => by simp⟩

/-- The stream used below: a one byte define-macro packet, then the rest. -/
def macroStream : Bytes := wire [0x44] ++ [0x43]

/-- **C01 is violated** outside that hypothesis: the packet `D` without a stage is
rejected when it arrives alone and accepted (as a definition for the connect stage) when
the first byte of the next packet has already been received. -/
theorem C01_violated (inet : Inet) :
    let one := [macroStream]
    let two := [wire [0x44], [0x43]]
    one.flatten = two.flatten ∧
    (feedAll (CmdDec.decode inet) init one).2 = [.defineMacro 0x43 []] ∧
    someFeedFailed (CmdDec.decode inet) init one = false ∧
    (feedAll (CmdDec.decode inet) init two).2 = [] ∧
    someFeedFailed (CmdDec.decode inet) init two = true := by
  have hr : rd32 0 0 0 1 = 1 := by simp [rd32]
  have hl : 1 < intLimit := by rw [intLimit_eq]; decide
  have w : wire [0x44] = [0, 0, 0, 1, 0x44] := by decide
  have d1 : CmdDec.decode inet [0x44, 0x43, 0] 1 = .ok (.defineMacro 0x43 []) := by
    show CmdDec.decodeDefineMacro [0x44, 0x43, 0] 1 = _
    simp [CmdDec.decodeDefineMacro, CmdDec.checkMacroContext]
    rw [CmdDec.decodeDefineMacros]; simp
  have d2 : CmdDec.decode inet [0x44, 0] 1 = .fail := by
    show CmdDec.decodeDefineMacro [0x44, 0] 1 = _
    simp [CmdDec.decodeDefineMacro]
  have f1 : feed (CmdDec.decode inet) init macroStream =
      (⟨.length, [0x43], 1⟩, [.defineMacro 0x43 []]) := by
    simp [feed, init, macroStream, w, loop, hr, hl, d1]
  have f2 : feed (CmdDec.decode inet) init [0, 0, 0, 1, 0x44] = (⟨.error, [0x44], 1⟩, []) := by
    simp [feed, init, loop, hr, hl, d2]
  have f3 : feed (CmdDec.decode inet) ⟨.error, [0x44], 1⟩ [0x43] = (⟨.error, [0x44, 0x43], 1⟩, []) := by
    simp [feed, loop]
  refine ⟨rfl, ?_, ?_, ?_, ?_⟩
  · simp [feedAll, f1]
  · simp [someFeedFailed, feedOk, f1]
  · simp [feedAll, w, f2, f3]
  · rw [someFeedFailed_iff _ _ _ (by simp [init])]
    simp [feedAll, w, f2, f3]

/-! ## C05 -/

/-- **C05**, exact for the command decoder: what is made of a packet is independent of
what follows exactly for the packets other than the three malformed kinds of
`SelfContained`. -/
theorem C05_commands_partial (inet : Inet) (p : Bytes) :
    Independent (CmdDec.decode inet) p ↔ SelfContained p := by
  constructor
  · intro h
    refine ⟨?_, ?_, ?_⟩
    · rintro rfl
      have := h [0x54]
      revert this
      show CmdDec.decodeEmpty 0 Cmd.data = HRes.fail → False
      simp [CmdDec.decodeEmpty, checkExact]
    · rintro rfl
      have := h [0x43]
      revert this
      show CmdDec.decodeDefineMacro [0x44, 0x43, 0] 1 = CmdDec.decodeDefineMacro [0x44, 0] 1 → False
      simp [CmdDec.decodeDefineMacro, CmdDec.checkMacroContext]
      rw [CmdDec.decodeDefineMacros]; simp
    · rintro host hh h0 rfl
      have := h [0x34]
      revert this
      show CmdDec.decodeConnectContent inet (host ++ [0] ++ [0x34] ++ [0]) _ =
        CmdDec.decodeConnectContent inet (host ++ [0] ++ [0]) _ → False
      have hn : (0x43 :: (host ++ [0])).length - 1 = host.length + 1 := by simp
      rw [hn]
      have e1 : host ++ [0] ++ [0x34] ++ [0] = host ++ 0 :: [0x34, 0] := by simp
      have e2 : host ++ [0] ++ [0] = host ++ 0 :: [0] := by simp
      unfold CmdDec.decodeConnectContent
      rw [e1, e2, CmdDec.findNull1_cstr host _ _ hh h0 (by omega),
        CmdDec.findNull1_cstr host _ _ hh h0 (by omega), cstr_append _ _ hh, cstr_append _ _ hh]
      simp only [HRes.bind_ok, CmdDec.drop_cstr]
      have hneg : ((host.length + 1 : Nat) : Int) - ((host.length + 2 : Nat) : Int) = -1 := by omega
      rw [hneg]
      simp [CmdDec.decodeFamily, checkAtLeast]
  · intro hs
    exact CmdDec.decode_local inet p hs

/-- **C05** for the reply decoder. -/
theorem C05_replies_partial (p : Bytes) (hs : SelfContainedReply p) : Independent RepDec.decode p :=
  RepDec.decode_local p hs

unseal rd32 in
/-- **C05 is violated**: an insert-header reply whose value is not terminated takes bytes
of the next packet into the value. -/
theorem C05_violated :
    let p : Bytes := 0x69 :: be32 1 ++ ascii "X" ++ [0] ++ ascii "v"
    alone RepDec.decode p = .ok (.insertHeader 1 (ascii "X") (some (ascii "v"))) ∧
    RepDec.decode (p ++ ascii "w" ++ [0]) p.length =
      .ok (.insertHeader 1 (ascii "X") (some (ascii "vw"))) := by
  decide

/-- and the empty packet makes the command decoder read outside the received data -/
theorem C05_empty_violated (inet : Inet) :
    CmdDec.decode inet ([] ++ [0x54] ++ [0]) 0 = .ub := by
  show CmdDec.decodeEmpty 0 Cmd.data = _
  simp [CmdDec.decodeEmpty, checkExact]

/-! ## C06 -/

/-- **C06**, first half: after a rejection nothing is ever reported again, whatever is fed
afterwards. -/
theorem C06_silent (h : Handler Ev) (before after : List Bytes)
    (hfail : someFeedFailed h init before = true) :
    (feedAll h init (before ++ after)).2 = (feedAll h init before).2 := by
  rw [someFeedFailed_iff h init before (by simp [init])] at hfail
  have app : ∀ (d : Dec), feedAll h d (before ++ after) =
      ((feedAll h (feedAll h d before).1 after).1,
        (feedAll h d before).2 ++ (feedAll h (feedAll h d before).1 after).2) := by
    clear hfail
    induction before with
    | nil => intro d; simp [feedAll]
    | cons c cs ih => intro d; simp [feedAll, ih, List.append_assoc]
  rw [app, (feedAll_error h _ after hfail).1, List.append_nil]

/-- **C06**, second half: ending the stream is accepted exactly when every packet was
understood and no bytes are left over. -/
theorem C06_end (h : Handler Ev) (cs : List Bytes)
    (hl : ∀ p ∈ frames cs.flatten, Independent h p) :
    (endDecode (feedAll h init cs).1).2 = true ↔
      (interpret (alone h) (frames cs.flatten)).2 = .fine ∧ leftover cs.flatten = [] := by
  have hst : (feedAll h init cs).1.st =
    endState (interpret (alone h) (frames cs.flatten)).2 (leftover cs.flatten) :=
    (feedAll_spec h cs hl).2
  unfold endDecode
  rw [hst]
  cases (interpret (alone h) (frames cs.flatten)).2 <;> simp [endState]
  by_cases h0 : leftover cs.flatten = []
  · simp [h0]
  · simp only [h0, if_false]
    split <;> simp_all
    all_goals (split at * <;> simp_all)

/-- non-vacuity: a stream with a rejected packet -/
example (inet : Inet) : someFeedFailed (CmdDec.decode inet) init [[0, 0, 0, 1, 0x44]] = true := by
  rw [someFeedFailed_iff _ _ _ (by simp [init])]
  have hr : rd32 0 0 0 1 = 1 := by simp [rd32]
  have hl : 1 < intLimit := by rw [intLimit_eq]; decide
  have d2 : CmdDec.decode inet [0x44, 0] 1 = .fail := by
    show CmdDec.decodeDefineMacro [0x44, 0] 1 = _
    simp [CmdDec.decodeDefineMacro]
  simp [feedAll, feed, init, loop, hr, hl, d2]

end Verif.Props
