import Verif.Client.Settled
import Verif.Props.SetReply
/-
A custom reply that is in force is a legal one.
-/
namespace Verif.Client
open Verif Verif.Spec.Client

/-- no custom reply, or a legal one -/
def Legal (s : State) : Prop := s.custom = {} ∨ Spec.LegalReply s.custom.code s.custom.ext

theorem Legal.same {s s' : State} (h : Legal s) (hc : s'.custom = s.custom) : Legal s' := by
  unfold Legal
  rw [hc]
  exact h

theorem respondNegotiate_custom (order : Requests → Requests) (s : State) (o : Option Opt) (r : Option Requests) (status : Status) :
    (respondNegotiate order s o r status).custom = s.custom := by
  unfold respondNegotiate
  dsimp only
  generalize (if status = .default then Status.allOptions else status) = st
  obtain ⟨s1, hs1⟩ : ∃ s1 : State, s1 = (if st = .continue_ then
    ({ setSt { s with status := st } (.replied .negotiate) with option := o } : State) else setSt { s with status := st } (.replied .negotiate)) := ⟨_, rfl⟩
  have h1 : s1.custom = s.custom := by
    rw [hs1]
    split <;> rfl
  rw [← hs1]
  by_cases h2 : st = .continue_ ∨ st = .allOptions
  · rw [if_pos h2]
    exact (writePacket_quiet _ _).custom.trans h1
  · rw [if_neg h2]
    by_cases h3 : st = .reject
    · rw [if_pos h3]
      exact (writePacket_quiet _ _).custom.trans h1
    · rw [if_neg h3]
      exact h1

theorem respond_custom (order : Requests → Requests) (s : State) (k : Kind) (status : Status) : (respond order s k status).custom = s.custom := by
  unfold respond
  dsimp only
  split
  · rfl
  · unfold messageProcessed
    split
    · exact (replyOnEndOfMessage_quiet order _ _).custom
    · exact (replyOnEndOfMessage_quiet order _ _).custom
  · exact (reply_quiet _ _).custom

theorem Legal.called {s : State} (order : Requests → Requests) (c : Call) (h : Legal s) : Legal (callNoted order s c) := by
  by_cases hw : writes c = true
  · have he : callNoted order s c = (call order s c).2.note (.called c (call order s c).1) := by
      cases c <;> first | rfl | (cases hw; done)
    rw [he]
    exact h.same (call_quiet order s c hw).custom
  · cases c with
    | setReply code ext message =>
      show Legal { s with custom := (SetReply.setReply s.custom code ext message).2 }
      unfold Legal
      dsimp only
      by_cases hl : Spec.LegalReply code ext
      · rw [(Props.C10_stores s.custom code ext message).1 hl]
        exact .inr hl
      · rw [(Props.C10_stores s.custom code ext message).2 hl]
        exact h
    | quarantine | setBufferSize | setShelf => exact h
    | respond k status => exact h.same (respond_custom order _ k status)
    | respondNegotiate o r status => exact h.same (respondNegotiate_custom order _ o r status)
    | respondAbort status =>
      refine h.same ?_
      show (respondAbort s status).custom = _
      unfold respondAbort
      dsimp only
      split <;> rfl
    | _ => exact absurd rfl hw

theorem Legal.runCalls {order : Requests → Requests} (calls : List Call) : ∀ {s : State}, Legal s → Legal (runCalls order s calls) := by
  induction calls with
  | nil => exact fun h => h
  | cons c calls ih => exact fun h => ih (h.called order c)

theorem Legal.emit {order : Requests → Requests} (hs : List Handler) : ∀ {s : State} (acc : Status), Legal s → Legal (emit order hs s acc).1 := by
  induction hs with
  | nil => exact fun _ h => h
  | cons x hs ih =>
    intro s acc h
    unfold Client.emit
    dsimp only
    split
    · exact ih _ (h.runCalls x.calls)
    · exact h.runCalls x.calls

theorem enter_custom (s : State) (k : Kind) (context : Option Macros.Context) : (enter s k context).custom = s.custom := by
  unfold enter
  cases context <;> (dsimp only; split <;> rfl)

theorem Legal.receive {order : Requests → Requests} {s : State} (c : Cmd) (handlers : List Handler) (chosen : Option Opt)
    (requests : Option Requests) (h : Legal s) : Legal (receive order s c handlers chosen requests) := by
  cases hk : kindOf c with
  | some kc =>
    obtain ⟨k, context⟩ := kc
    by_cases hn : k = .negotiate
    · subst hn
      cases c <;> simp only [kindOf, Option.some.injEq, Prod.mk.injEq, reduceCtorEq, false_and] at hk
      rename_i o
      unfold Client.receive
      dsimp only
      have h0 : Legal { Client.enter (s.note (.got (.negotiate o))) .negotiate none with option := some o } := h
      have h1 := h0.emit (order := order) (handlers ++ [⟨[], .notChange⟩]) .default
      unfold emitAll
      generalize Client.emit order _ _ _ = r at h1
      obtain ⟨s', status⟩ := r
      dsimp only at h1 ⊢
      split
      · exact h1
      · exact h1.called order _
    · rw [receive_plain order s c handlers chosen requests k context hk hn]
      have h0 : Legal (Client.enter (s.note (.got c)) k context) := Legal.same (s := s) h (enter_custom _ k context)
      have h1 := h0.emit (order := order) (handlers ++ [⟨[], .notChange⟩]) .default
      unfold emitAll
      generalize Client.emit order _ _ _ = r at h1
      obtain ⟨s', status⟩ := r
      dsimp only at h1 ⊢
      split
      · exact h1
      · exact h1.called order _
  | none =>
    cases c with
    | defineMacro context macros => exact h
    | quit => exact h
    | abort =>
      have h0 : Legal { setSt (s.note (.got .abort)) .abort with timer := false } := h
      have h1 := h0.emit (order := order) (handlers ++ [⟨[], .default⟩]) .default
      unfold Client.receive
      dsimp only
      unfold emitAll
      generalize Client.emit order _ _ _ = r at h1
      obtain ⟨s', status⟩ := r
      dsimp only at h1 ⊢
      have h2 : Legal (resetMessage s') := h1
      split
      · exact h2
      · exact h2.called order _
    | _ => cases hk

theorem Legal.step {order : Requests → Requests} {s : State} (op : Op) (h : Legal s) : Legal (step order s op) := by
  cases op with
  | command c handlers chosen requests => exact h.receive c handlers chosen requests
  | call c => exact h.called order c
  | timeout =>
    unfold Client.step
    dsimp only
    split <;> exact h
  | close =>
    unfold Client.step
    dsimp only
    split <;> exact h

theorem Legal.run {order : Requests → Requests} (ops : List Op) : ∀ {s : State}, Legal s → Legal (run order s ops) := by
  induction ops with
  | nil => exact fun h => h
  | cons op ops ih => exact fun h => ih (h.step op)

theorem Legal.new (n : Nat) (l : Link) : Legal (new n l) := .inl rfl

/-! ### Reply packets -/

/-- the packet of a decision the MTA can be told -/
theorem create_final {s : State} (order : Requests → Requests) (ha : Agrees s) (hl : Legal s) (status : Status) (r : Reply)
    (hr : finalReply (lastCustom s.log) status = some r) :
    (createReplyPacket s (orContinue status)).1 = some (bytes order [r]) := by
  have hc := ha.custom
  have hcustom : ∀ code ext message, lastCustom s.log = some (code, some ext, message) →
      ∃ text, ReplyCode.format code (some ext) message = some text ∧ formatReply s = some text := by
    intro code ext message h
    rw [h] at hc
    dsimp only at hc
    have hcode : code ≠ 0 := by
      rcases hl with hl | hl
      · rw [hc] at hl; cases hl
      · rw [hc] at hl
        have := hl.1
        dsimp only at this
        omega
    refine ⟨(ReplyCode.format code (some ext) message).getD [], ?_, ?_⟩
    · unfold ReplyCode.format; rw [if_neg hcode]; rfl
    · unfold formatReply; rw [hc]; unfold ReplyCode.format; rw [if_neg hcode]; rfl
  have hnone : lastCustom s.log = none → formatReply s = none := by
    intro h
    rw [h] at hc
    unfold formatReply
    rw [hc]
    rfl
  rw [bytes_one]
  cases status with
  | default | continue_ | accept | discard | skip =>
    simp only [finalReply, Option.some.injEq] at hr
    subst hr
    rfl
  | temporaryFailure | reject =>
    simp only [finalReply] at hr
    split at hr
    · rename_i h
      cases hr
      first
        | show (createReplyPacket s .temporaryFailure).1 = _
        | show (createReplyPacket s .reject).1 = _
      unfold createReplyPacket
      dsimp only
      rw [hnone h]
      rfl
    · rename_i code ext message h
      cases hr
      obtain ⟨text, h1, h2⟩ := hcustom _ _ _ h
      first
        | show (createReplyPacket s .temporaryFailure).1 = _
        | show (createReplyPacket s .reject).1 = _
      unfold createReplyPacket
      dsimp only
      rw [h2]
      simp only [Enc.replyContent, h1, Option.map_some, Option.getD_some]
      rfl
    · cases hr
  | _ => cases hr

/-- the class of a refusal -/
theorem create_class {s : State} (ha : Agrees s) (hl : Legal s) (status : Status) (class_ : Nat) (hs : classOf status = some class_)
    (hc : ∀ code ext message, lastCustom s.log = some (code, ext, message) → code / 100 = class_ ∧ message ≠ some []) :
    ∃ content, (createReplyPacket s (orContinue status)).1 = some (Enc.pack content) ∧ smtpClass content = classOf status := by
  have hcu := ha.custom
  have h45 : class_ = 4 ∨ class_ = 5 := by
    cases status <;> simp only [classOf, Option.some.injEq, reduceCtorEq] at hs <;> omega
  have key : formatReply s = none ∨ ∃ text d rest, formatReply s = some text ∧ text = d :: rest ∧ d.toNat - 48 = class_ := by
    cases h : lastCustom s.log with
    | none =>
      rw [h] at hcu
      left
      unfold formatReply
      rw [hcu]
      rfl
    | some x =>
      obtain ⟨code, ext, message⟩ := x
      right
      rw [h] at hcu
      dsimp only at hcu
      have h1 := hc code ext message h
      have hrange : 400 ≤ code ∧ code ≤ 599 := by
        rcases hl with hl | hl
        · rw [hcu] at hl
          have : code = 0 := congrArg SetReply.Custom.code hl
          omega
        · rw [hcu] at hl
          exact ⟨hl.1, hl.2.1⟩
      have h0 : code ≠ 0 := by omega
      have hlines : ∃ l ls, strsplit 0x0a (message.getD [0x0a]) = l :: ls := by
        unfold strsplit
        have hne : message.getD [0x0a] ≠ [] := by
          cases message with
          | none => exact fun h => nomatch h
          | some m => exact fun h => h1.2 (congrArg some h)
        rw [if_neg hne]
        cases hsp : splitOn 0x0a (message.getD [0x0a]) with
        | nil => exact absurd hsp (splitOn_ne_nil _ _)
        | cons l ls => exact ⟨l, ls, rfl⟩
      obtain ⟨l, ls, hls⟩ := hlines
      have hjoin : ∀ (ls : List Bytes) (a : Bytes), ∃ rest, joinWith [0x0d, 0x0a] (a :: ls) = a ++ rest := by
        intro ls a
        cases ls with
        | nil => exact ⟨[], (List.append_nil a).symm⟩
        | cons b ls => exact ⟨_, by rw [joinWith, List.append_assoc]⟩
      obtain ⟨rest, hrest⟩ := hjoin (ls.map (ReplyCode.formatLine code ext)) (ReplyCode.formatLine code ext l)
      have hline : ∃ rest', ReplyCode.formatLine code ext l = UInt8.ofNat (48 + code / 100) :: rest' := by
        unfold ReplyCode.formatLine
        rw [decimal3_three code (by omega) (by omega), decimal_three code (by omega) (by omega)]
        exact ⟨_, rfl⟩
      obtain ⟨rest', hline⟩ := hline
      refine ⟨_, UInt8.ofNat (48 + code / 100), rest' ++ rest, ?_, rfl, ?_⟩
      · unfold formatReply ReplyCode.format
        rw [hcu]
        dsimp only
        rw [if_neg h0, hls, List.map_cons, hrest, hline, List.cons_append]
      · rw [h1.1]
        rcases h45 with h | h <;> subst h <;> rfl
  have hp : ∀ content, (packContent s content).1 = some (Enc.pack content) := fun _ => rfl
  rcases key with h | ⟨text, d, rest, h, h1, h2⟩
  · cases status <;> simp only [classOf, Option.some.injEq, reduceCtorEq] at hs
    · refine ⟨[0x72], ?_, rfl⟩
      show (createReplyPacket s .reject).1 = _
      unfold createReplyPacket
      dsimp only
      rw [h]
      rfl
    · refine ⟨[0x74], ?_, rfl⟩
      show (createReplyPacket s .temporaryFailure).1 = _
      unfold createReplyPacket
      dsimp only
      rw [h]
      rfl
  · refine ⟨0x79 :: (text ++ [0]), ?_, ?_⟩
    · cases status <;> simp only [classOf, Option.some.injEq, reduceCtorEq] at hs
      · show (createReplyPacket s .reject).1 = _
        unfold createReplyPacket
        dsimp only
        rw [h]
        rfl
      · show (createReplyPacket s .temporaryFailure).1 = _
        unfold createReplyPacket
        dsimp only
        rw [h]
        rfl
    · rw [hs, h1, List.cons_append, smtpClass, h2]

end Verif.Client
