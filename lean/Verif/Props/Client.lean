import Verif.Client.Reply
/-
The context a milter talks to the MTA through: C38, C39, C40, C44.

A session is `run order (new n l) ops`: any list of commands, calls of the milter (from handlers or later), timeouts and closing
of the connection, with any buffer size `n`.
-/
namespace Verif.Props
open Verif Verif.Client Verif.Spec Verif.Spec.Client Verif.Enc Verif.Decoder

/-! ## C44 -/

/-- **C44**: the handlers run in order up to the first with a final decision; the decision is the last one any of them made. -/
theorem C44 (order : Requests → Requests) (s : State) (handlers : List Handler) :
    emitAll order s handlers .notChange =
      (runCalls order s ((ran handlers).flatMap (·.calls)), Spec.Client.decide handlers) :=
  emitAll_eq order s handlers

/-- **C44**: it is the same whether the handlers return the decision or report progress and the milter answers later. -/
theorem C44_deferred (order : Requests → Requests) (s : State) (c : Cmd) (handlers : List Handler) (chosen : Option Opt)
    (requests : Option Requests) (k : Kind) (context : Option Macros.Context) (hk : kindOf c = some (k, context))
    (hn : k ≠ .negotiate) (hd : Spec.Client.decide handlers ≠ .progress) :
    step order s (.command c handlers chosen requests) =
      run order s [.command c [⟨(ran handlers).flatMap (·.calls), .progress⟩] chosen requests,
        .call (.respond k (Spec.Client.decide handlers))] := by
  show receive order s c handlers chosen requests =
    callNoted order (receive order s c [⟨(ran handlers).flatMap (·.calls), .progress⟩] chosen requests) (.respond k (Spec.Client.decide handlers))
  rw [receive_eq order s c _ _ _ k context hk hn, receive_eq order s c _ _ _ k context hk hn]
  dsimp only
  rw [if_neg hd]
  have h1 : Spec.Client.decide [⟨(ran handlers).flatMap (·.calls), .progress⟩] = .progress := rfl
  rw [if_pos h1]
  have h2 : (ran [⟨(ran handlers).flatMap (·.calls), .progress⟩]).flatMap (·.calls) = (ran handlers).flatMap (·.calls) := by
    simp [ran, final]
  rw [h2]

/-- three handlers: the second says "continue", the third rejects, the fourth does not run -/
example : Spec.Client.decide [⟨[], .notChange⟩, ⟨[.progress], .continue_⟩, ⟨[], .reject⟩, ⟨[.flush], .accept⟩] = .reject ∧
    (ran [⟨[], .notChange⟩, ⟨[.progress], .continue_⟩, ⟨[], .reject⟩, ⟨[.flush], .accept⟩]).flatMap (·.calls) = [.progress] := by
  decide

/-! ## C39 -/

/-- **C39**, refused: a modification outside the end of the message, not negotiated or without its arguments fails, and
changes nothing at all (in particular nothing is written or buffered). -/
theorem C39_refused_partial (order : Requests → Requests) (n : Nat) (l : Link) (ops : List Op) (c : Call) (hc : changes c = true)
    (hf : recipientFlagsAgree (negotiated (run order (new n l) ops).log) c = true)
    (h : ¬ (Spec.Client.atEnd (run order (new n l) ops).log = true ∧
      accepted (negotiated (run order (new n l) ops).log) c = true)) :
    call order (run order (new n l) ops) c = (false, run order (new n l) ops) := by
  have ha := (Agrees.new n l).run (order := order) ops
  generalize run order (new n l) ops = s at ha hf h
  rw [← ha.option] at hf h
  exact call_refused order s c hc hf fun h' => h ⟨ha.atEnd.mp h'.1, h'.2⟩

/-- **C39**, accepted: otherwise it succeeds, and the packets that say the same are added to what is written or buffered. -/
theorem C39_accepted_partial (order : Requests → Requests) (n : Nat) (l : Link) (ops : List Op) (c : Call)
    (hf : recipientFlagsAgree (negotiated (run order (new n l) ops).log) c = true)
    (hl : (run order (new n l) ops).link = .ready)
    (h : Spec.Client.atEnd (run order (new n l) ops).log = true) (h' : accepted (negotiated (run order (new n l) ops).log) c = true) :
    (call order (run order (new n l) ops) c).1 = true ∧ ∃ part, Shows c part ∧
      written (call order (run order (new n l) ops) c).2.log ++ (call order (run order (new n l) ops) c).2.buffered =
        written (run order (new n l) ops).log ++ (run order (new n l) ops).buffered ++ (encodeReplies order [] part).flatten := by
  have ha := (Agrees.new n l).run (order := order) ops
  generalize run order (new n l) ops = s at ha hf hl h h'
  rw [← ha.option] at hf h'
  obtain ⟨h1, part, ⟨_, h2⟩, h3⟩ := (total_gathers order (written s.log ++ s.buffered)).change (rs := [])
    ⟨hl, by rw [bytes_nil, List.append_nil]⟩ c (ha.atEnd.mpr h) h' hf
  refine ⟨h1, part, h3, ?_⟩
  rw [h2, List.nil_append, bytes_encode]
  exact shows_clears h3

/-! ## C38 -/

/-- **C38** for one answer: a temporary failure is answered with a reply of class 4, a rejection with one of class 5.  Missing:
the custom reply in force has another class, or an empty text (see the theorems after this one). -/
theorem C38_partial (order : Requests → Requests) (n : Nat) (l : Link) (ops : List Op) (s : State) (hs : s = run order (new n l) ops)
    (hl : s.link = .ready) (k : Kind) (hk : k ≠ .negotiate) (status : Status) (class_ : Nat) (hclass : classOf status = some class_)
    (hcustom : ∀ code ext message, lastCustom s.log = some (code, ext, message) → code / 100 = class_ ∧ message ≠ some []) :
    ∃ content, smtpClass content = some class_ ∧
      written (step order s (.call (.respond k status))).log = written s.log ++
        (if k = .endOfMessage then s.buffered ++ (encodeReplies order [] (quarantineReply (quarantineReason s.log))).flatten ++ pack content
         else pack content ++ s.buffered) := by
  have ha : Agrees s := hs ▸ (Agrees.new n l).run ops
  have hL : Legal s := hs ▸ (Legal.new n l).run ops
  obtain ⟨content, h1, h2⟩ := create_class ha hL status class_ hclass hcustom
  refine ⟨content, h2.trans hclass, ?_⟩
  have := respond_written order ha hl k hk status _ h1
  rw [bytes_encode order _ (quarantine_clears _), ha.quarantine] at this
  exact this

/-- **C38**: outside the end of the message the reply is all that is written, unless the end of a message was left behind
without its answer. -/
theorem C38_alone_partial (order : Requests → Requests) (n : Nat) (l : Link) (ops : List Op) (s : State) (hs : s = run order (new n l) ops)
    (hl : s.link = .ready) (hi : interrupted s.log = false) (he : Spec.Client.atEnd s.log = false)
    (k : Kind) (hk : k ≠ .negotiate) (hk' : k ≠ .endOfMessage) (status : Status) (class_ : Nat) (hclass : classOf status = some class_)
    (hcustom : ∀ code ext message, lastCustom s.log = some (code, ext, message) → code / 100 = class_ ∧ message ≠ some []) :
    ∃ content, smtpClass content = some class_ ∧
      written (step order s (.call (.respond k status))).log = written s.log ++ pack content := by
  have hS : Settled s := hs ▸ (Settled.new n l).run ops
  obtain ⟨content, h1, h2⟩ := C38_partial order n l ops s hs hl k hk status class_ hclass hcustom
  rw [if_neg hk', hS.empty hi (fun h => by rw [hS.agrees.atEnd.mp h] at he; cases he), List.append_nil] at h2
  exact ⟨content, h1, h2⟩

/-- **C38**, as the MTA reads it: a decision that has a reply is answered with exactly that reply, alone. -/
theorem C38_reply_partial (order : Requests → Requests) (n : Nat) (l : Link) (ops : List Op) (s : State) (hs : s = run order (new n l) ops)
    (hl : s.link = .ready) (hi : interrupted s.log = false) (he : Spec.Client.atEnd s.log = false)
    (k : Kind) (hk : k ≠ .negotiate) (hk' : k ≠ .endOfMessage) (status : Status) (r : Reply)
    (hr : finalReply (lastCustom s.log) status = some r) :
    written (step order s (.call (.respond k status))).log = written s.log ++ (encodeReplies order [] [r]).flatten := by
  have hS : Settled s := hs ▸ (Settled.new n l).run ops
  have hL : Legal s := hs ▸ (Legal.new n l).run ops
  have h1 := respond_written order hS.agrees hl k hk status _ (create_final order hS.agrees hL status r hr)
  rw [if_neg hk', hS.empty hi (fun h => by rw [hS.agrees.atEnd.mp h] at he; cases he), List.append_nil] at h1
  rw [← bytes_encode order [r] (by
    intro x hx
    rw [List.mem_singleton] at hx
    subst hx
    exact finalReply_clears hr)]
  exact h1

/-- a session up to the sender: option negotiated, connection, greeting -/
def opening (action : UInt32) : List Op :=
  [.command (.negotiate ⟨6, action, 0⟩) [] (some ⟨6, action, 0⟩) none,
   .command (.connect (ascii "host") .unspec) [] none none,
   .command (.helo (ascii "host")) [] none none]

/-- the hypotheses of the theorems above: the milter sets a reply of class 4 while it looks at the sender -/
example :
    let s := run id (new 0 .ready) (opening 0 ++ [.command (.envelopeFrom (ascii "<a@b>"))
      [⟨[.setReply 450 (some (ascii "4.7.1")) (some (ascii "later"))], .progress⟩] none none])
    s.link = .ready ∧ interrupted s.log = false ∧ Spec.Client.atEnd s.log = false ∧
      lastCustom s.log = some (450, some (ascii "4.7.1"), some (ascii "later")) ∧
      finalReply (lastCustom s.log) .temporaryFailure = some (.replyCode 450 (ascii "4.7.1") (some (ascii "later"))) := by
  decide +kernel

/-- **C38 is violated** when the custom reply in force has the other class: the milter sets 550, then asks for a temporary
failure; the MTA is told to refuse for good. -/
theorem C38_other_class_violated :
    let s := run id (new 0 .ready) (opening 0)
    let s' := step id s (.command (.envelopeFrom (ascii "<a@b>"))
      [⟨[.setReply 550 (some (ascii "5.7.1")) (some (ascii "no"))], .temporaryFailure⟩] none none)
    written s'.log = written s.log ++ pack (0x79 :: (ascii "550 5.7.1 no" ++ [0])) := by
  decide +kernel

/-- **C38 is violated** by a custom reply set for an earlier command: it is never forgotten, and turns a later plain
rejection into a temporary failure. -/
theorem C38_earlier_command_violated :
    let s := run id (new 0 .ready) (opening 0 ++ [.command (.envelopeFrom (ascii "<a@b>"))
      [⟨[.setReply 450 (some (ascii "4.7.1")) (some (ascii "later"))], .temporaryFailure⟩] none none])
    let s' := step id s (.command (.envelopeFrom (ascii "<c@d>")) [⟨[], .reject⟩] none none)
    written s'.log = written s.log ++ pack (0x79 :: (ascii "450 4.7.1 later" ++ [0])) := by
  decide +kernel

/-- **C38 is violated** by a custom reply with an empty text: the reply has no class at all. -/
theorem C38_empty_text_violated :
    let s := run id (new 0 .ready) (opening 0)
    let s' := step id s (.command (.envelopeFrom (ascii "<a@b>"))
      [⟨[.setReply 550 (some (ascii "5.7.1")) (some [])], .reject⟩] none none)
    written s'.log = written s.log ++ pack [0x79, 0] := by
  decide +kernel

/-! ## C39, where it fails -/

/-- the end of a message, up to which everything was let pass -/
def upToEnd (action : UInt32) (handlers : List Handler) : List Op :=
  opening action ++ [.command (.envelopeFrom (ascii "<a@b>")) [] none none,
   .command (.envelopeRecipient (ascii "<c@d>")) [] none none,
   .command .data [] none none,
   .command (.header (ascii "Subject") (ascii "hi")) [] none none,
   .command .endOfHeader [] none none,
   .command (.body (ascii "text")) [] none none,
   .command (.endOfMessage []) handlers none none]

/-- the hypotheses of C39: headers may be added, bodies not changed -/
example :
    let s := run id (new 0 .ready) (upToEnd 0x01 [⟨[], .progress⟩])
    s.link = .ready ∧ Spec.Client.atEnd s.log = true ∧ negotiated s.log = some ⟨6, 1, 0⟩ ∧
      accepted (negotiated s.log) (.addHeader (some (ascii "X")) (some (ascii "v"))) = true ∧
      accepted (negotiated s.log) (.replaceBody (ascii "new")) = false ∧
      changes (.replaceBody (ascii "new")) = true := by
  decide +kernel

/-- **C39 is violated** by quarantine: no action was negotiated, yet the call succeeds and the request is sent. -/
theorem C39_quarantine_violated :
    let s := run id (new 0 .ready) (upToEnd 0 [⟨[.quarantine (some (ascii "virus"))], .progress⟩])
    let s' := step id s (.call (.respond .endOfMessage .continue_))
    hasFlag (negotiated s.log) 0x20 = false ∧ s.log.getLast? = some (.called (.quarantine (some (ascii "virus"))) true) ∧
      written s'.log = written s.log ++ pack (0x71 :: (ascii "virus" ++ [0])) ++ pack [0x63] := by
  decide +kernel

/-- **C39 is violated** by recipients with parameters: only the flag for recipients without parameters was negotiated, yet
the request of the other kind is sent. -/
theorem C39_recipient_parameters_violated :
    let s := run id (new 0 .ready) (upToEnd 0x04 [⟨[], .progress⟩])
    let s' := step id s (.call (.addRecipient (some (ascii "<e@f>")) (some (ascii "N=1"))))
    hasFlag (negotiated s.log) 0x80 = false ∧
      written s'.log = written s.log ++ pack (0x32 :: (ascii "<e@f>" ++ 0 :: (ascii "N=1" ++ [0]))) := by
  decide +kernel

/-- ... and refused when only the flag for recipients with parameters was negotiated -/
theorem C39_recipient_parameters_refused_violated :
    let s := run id (new 0 .ready) (upToEnd 0x80 [⟨[], .progress⟩])
    let s' := step id s (.call (.addRecipient (some (ascii "<e@f>")) (some (ascii "N=1"))))
    hasFlag (negotiated s.log) 0x80 = true ∧ written s'.log = written s.log ∧
      s'.log.getLast? = some (.called (.addRecipient (some (ascii "<e@f>")) (some (ascii "N=1"))) false) := by
  decide +kernel

/-! ## C40 -/

theorem runCalls_eq (order : Requests → Requests) (s : State) (calls : List Call) :
    run order s (calls.map .call) = runCalls order s calls := by
  unfold run runCalls
  rw [List.foldl_map]
  rfl

/-- C40 from any state that is as it should be -/
theorem end_written (order : Requests → Requests) (s s2 s3 : State) (hS : Settled s) (hL : Legal s)
    (chunk : Bytes) (handlers : List Handler) (chosen : Option Opt) (requests : Option Requests) (calls : List Call) (status : Status)
    (hs2 : s2 = run order s (.command (.endOfMessage chunk) handlers chosen requests :: calls.map .call))
    (hs3 : s3 = step order s2 (.call (.respond .endOfMessage status)))
    (hl : s.link = .ready) (hb : s.buffered = [])
    (hd : Spec.Client.decide handlers = .progress)
    (hc : ∀ c ∈ (ran handlers).flatMap (·.calls) ++ calls, answers c = false ∧ recipientFlagsAgree (negotiated s.log) c = true)
    (r : Reply) (hr : finalReply (lastCustom s2.log) status = some r) :
    ∃ (parts : List (List Reply)) (rs : List Reply),
      Pointwise Shows (((ran handlers).flatMap (·.calls) ++ calls).filter (accepted (negotiated s.log))) parts ∧
      rs.filter (· ≠ .progress) = parts.flatten ++ quarantineReply (quarantineReason s2.log) ++ [r] ∧
      written s3.log = written s.log ++ (encodeReplies order [] rs).flatten := by
  have hA2 : Agrees s2 := hs2 ▸ hS.agrees.run _
  have hL2 : Legal s2 := hs2 ▸ hL.run _
  obtain ⟨f1, f2, f3, f4, f5⟩ := enter_fields s (.endOfMessage chunk) .endOfMessage (some 0x45)
  have hform : s2 = runCalls order (enter (s.note (.got (.endOfMessage chunk))) .endOfMessage (some 0x45))
      ((ran handlers).flatMap (·.calls) ++ calls) := by
    rw [hs2]
    show run order (receive order s (.endOfMessage chunk) handlers chosen requests) (calls.map .call) = _
    rw [receive_eq order s _ handlers chosen requests .endOfMessage (some 0x45) rfl (fun h => nomatch h), runCalls_eq]
    dsimp only
    rw [if_pos hd, runCalls_append]
  have hw : written (enter (s.note (.got (.endOfMessage chunk))) .endOfMessage (some 0x45)).log = written s.log := by
    rw [f1, written_append]
    exact List.append_nil _
  have h0 : Sent order (written s.log) (enter (s.note (.got (.endOfMessage chunk))) .endOfMessage (some 0x45)) [] [] :=
    ⟨f4.trans hl, fun _ => f3.trans hb, by rw [hw, bytes_nil, List.append_nil], f3.trans hb⟩
  rw [← hS.agrees.option, ← f5] at hc ⊢
  obtain ⟨out, held, parts, h1, h2, h3, _, _⟩ := h0.calls _ f2 hc
  rw [← hform] at h1
  have hwr := respond_written order hA2 h1.link .endOfMessage (fun h => nomatch h) status _ (create_final order hA2 hL2 status r hr)
  rw [if_pos rfl, hA2.quarantine, h1.held, h1.out] at hwr
  have hrp : noProgress [r] = [r] := by
    have : r ≠ .progress := fun h => finalReply_progress hr h
    simp [noProgress, this]
  have hqp : noProgress (quarantineReply (quarantineReason s2.log)) = quarantineReply (quarantineReason s2.log) :=
    quarantine_noProgress _
  have hfil : noProgress (out ++ held ++ quarantineReply (quarantineReason s2.log) ++ [r]) =
      parts.flatten ++ quarantineReply (quarantineReason s2.log) ++ [r] := by
    rw [noProgress_append, noProgress_append, h2, hrp, hqp]
    rfl
  refine ⟨parts, out ++ held ++ quarantineReply (quarantineReason s2.log) ++ [r], h3, hfil, ?_⟩
  rw [hs3, ← bytes_encode]
  · refine Eq.trans hwr ?_
    simp only [bytes_append, List.append_assoc]
  · intro x hx
    by_cases hxp : x = .progress
    · rw [hxp]; rfl
    have hx' : x ∈ noProgress (out ++ held ++ quarantineReply (quarantineReason s2.log) ++ [r]) := by
      unfold noProgress
      exact List.mem_filter.mpr ⟨hx, by simpa using hxp⟩
    rw [hfil] at hx'
    rcases List.mem_append.mp hx' with hx' | hx'
    · rcases List.mem_append.mp hx' with hx' | hx'
      · obtain ⟨part, hp, hxp⟩ := List.mem_flatten.mp hx'
        obtain ⟨c, _, hc⟩ := pointwise_right h3 hp
        exact shows_clears hc x hxp
      · exact quarantine_clears _ x hx'
    · rw [List.mem_singleton] at hx'
      subst hx'
      exact finalReply_clears hr

/-- **C40**: at the end of a message the MTA receives the modifications in the order of the calls, then the quarantine
request if there is one, then the reply; reports of progress may be in between.  `hcalls` are the calls of the handlers,
`calls` those made later.  Missing: an earlier end of a message was left behind without its answer (see below). -/
theorem C40_partial (order : Requests → Requests) (n : Nat) (l : Link) (ops : List Op) (s s2 s3 : State)
    (chunk : Bytes) (handlers : List Handler) (chosen : Option Opt) (requests : Option Requests) (calls : List Call) (status : Status)
    (hs : s = run order (new n l) ops)
    (hs2 : s2 = run order s (.command (.endOfMessage chunk) handlers chosen requests :: calls.map .call))
    (hs3 : s3 = step order s2 (.call (.respond .endOfMessage status)))
    (hl : s.link = .ready) (hi : interrupted s.log = false) (he : Spec.Client.atEnd s.log = false)
    (hd : Spec.Client.decide handlers = .progress)
    (hc : ∀ c ∈ (ran handlers).flatMap (·.calls) ++ calls, answers c = false ∧ recipientFlagsAgree (negotiated s.log) c = true)
    (r : Reply) (hr : finalReply (lastCustom s2.log) status = some r) :
    ∃ (parts : List (List Reply)) (rs : List Reply),
      Pointwise Shows (((ran handlers).flatMap (·.calls) ++ calls).filter (accepted (negotiated s.log))) parts ∧
      rs.filter (· ≠ .progress) = parts.flatten ++ quarantineReply (quarantineReason s2.log) ++ [r] ∧
      written s3.log = written s.log ++ (encodeReplies order [] rs).flatten := by
  have hS : Settled s := hs ▸ (Settled.new n l).run ops
  have hL : Legal s := hs ▸ (Legal.new n l).run ops
  exact end_written order s s2 s3 hS hL chunk handlers chosen requests calls status hs2 hs3 hl
    (hS.empty hi fun h => by rw [hS.agrees.atEnd.mp h] at he; cases he) hd hc r hr

/-- **C40**, as the MTA reads it: if the arguments of the calls are such as the protocol can carry, the MTA's decoder reads
exactly these replies, however the bytes arrive. -/
theorem C40_decoded_partial (order : Requests → Requests) (ho : ∀ t, (order t).Perm t) (o : Option Opt) (calls : List Call)
    (parts : List (List Reply)) (rs : List Reply) (reason : Option Bytes) (r : Reply)
    (hparts : Pointwise Shows (calls.filter (accepted o)) parts)
    (hrs : rs.filter (· ≠ .progress) = parts.flatten ++ quarantineReply reason ++ [r])
    (hc : ∀ c ∈ calls, CallOk c) (hq : ∀ x, reason = some x → IsCStr x) (hr : ReplyOk r) (hn : ∀ o q, r ≠ .negotiate o q)
    (hlen : ∀ p ∈ encodeReplies order [] rs, p.length < intLimit)
    (cs : List Bytes) (hcs : cs.flatten = (encodeReplies order [] rs).flatten) :
    (feedAll RepDec.decode init cs).2 = rs ∧ someFeedFailed RepDec.decode init cs = false := by
  have hmem : ∀ x ∈ rs, ReplyOk x ∧ Enc.replyClears x = true := by
    intro x hx
    by_cases hxp : x = .progress
    · rw [hxp]; exact ⟨trivial, rfl⟩
    have hx' : x ∈ rs.filter (· ≠ .progress) := List.mem_filter.mpr ⟨hx, by simpa using hxp⟩
    rw [hrs] at hx'
    rcases List.mem_append.mp hx' with hx' | hx'
    · rcases List.mem_append.mp hx' with hx' | hx'
      · obtain ⟨part, hp, hxp⟩ := List.mem_flatten.mp hx'
        obtain ⟨c, hcm, hs⟩ := pointwise_right hparts hp
        exact ⟨shows_ok hs (hc c (List.mem_filter.mp hcm).1) x hxp, shows_clears hs x hxp⟩
      · refine ⟨?_, quarantine_clears _ x hx'⟩
        rcases reason with _ | _ | ⟨a, y⟩
        · cases hx'
        · cases hx'
        · rw [quarantineReply, List.mem_singleton] at hx'
          · subst hx'; exact ⟨hq _ rfl, fun h => nomatch h⟩
          · exact fun h => nomatch h
    · rw [List.mem_singleton] at hx'
      subst hx'
      refine ⟨hr, ?_⟩
      cases x <;> first | rfl | exact absurd rfl (hn _ _)
  have hneg : ∀ x ∈ rs, ∀ o q, x ≠ .negotiate o q := fun x hx o q h => by
    have := (hmem x hx).2
    rw [h] at this
    cases this
  have hnf : NegotiateFirstReply rs := by
    cases rs with
    | nil => trivial
    | cons a rs => exact fun x hx => hneg x (List.mem_cons_of_mem _ hx)
  obtain ⟨h1, h2, _⟩ := C03 order ho rs hnf (fun x hx => (hmem x hx).1) hlen cs hcs
  exact ⟨(sameReplies_eq h1 hneg).symm, h2⟩

end Verif.Props
