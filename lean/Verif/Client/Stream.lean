import Verif.Client.Agrees
import Verif.Props.Codec
/-
What the context writes while its writer is ready.
-/
namespace Verif.Client
open Verif Verif.Spec.Client

/-- the bytes of replies, one packet each (none for a reply without packet) -/
def bytes (order : Requests → Requests) (rs : List Reply) : Bytes :=
  (rs.map fun r => ((Enc.replyContent order r).map Enc.pack).getD []).flatten

theorem bytes_nil (order : Requests → Requests) : bytes order [] = [] := rfl

theorem bytes_append (order : Requests → Requests) (a b : List Reply) : bytes order (a ++ b) = bytes order a ++ bytes order b := by
  unfold bytes
  rw [List.map_append, List.flatten_append]

theorem bytes_one (order : Requests → Requests) (r : Reply) : bytes order [r] = ((Enc.replyContent order r).map Enc.pack).getD [] := by
  unfold bytes
  rw [List.map_cons, List.map_nil, List.flatten_cons, List.flatten_nil, List.append_nil]

theorem written_append (a b : List Event) : written (a ++ b) = written a ++ written b := by
  unfold written
  rw [List.filterMap_append, List.flatten_append]

theorem written_wrote (p : Bytes) : written [.wrote p] = p := by simp [written]

/-! ### The writer is ready -/

theorem writerWrite_ready {s : State} (h : s.link = .ready) (p : Bytes) :
    (writerWrite s p).1 = true ∧ written (writerWrite s p).2.log = written s.log ++ p := by
  unfold writerWrite
  rw [h]
  refine ⟨rfl, ?_⟩
  dsimp only
  split
  · rename_i hp; rw [hp, List.append_nil]
  · show written (s.log ++ [.wrote p]) = _
    rw [written_append, written_wrote]

theorem writeInner_ready {s : State} (h : s.link = .ready) (p : Bytes) :
    (writeInner s p).1 = true ∧ written (writeInner s p).2.log = written s.log ++ p := by
  have h1 := writerWrite_ready (s := { s with timer := true }) h p
  have h2 := (writerWrite_quiet { s with timer := true } p).link
  unfold writeInner
  dsimp only
  split
  · rename_i hl; cases h.symm.trans hl
  generalize writerWrite { s with timer := true } p = r at h1 h2
  obtain ⟨ok, s'⟩ := r
  dsimp only at h1 h2
  rw [h1.1, if_pos rfl]
  refine ⟨?_, h1.2⟩
  unfold parentFlush
  rw [h2, h]

theorem flush_ready {s : State} (h : s.link = .ready) (hc : Clean s) :
    (flush s).1 = true ∧ written (flush s).2.log = written s.log ++ s.buffered ∧ (flush s).2.buffered = [] := by
  refine ⟨?_, ?_, (flush_clean hc).2⟩
  · have hl := (flush_quiet s).link
    revert hl
    unfold flush
    split
    · have h1 := writeInner_ready (s := { s with buffering := false }) h s.buffered
      generalize writeInner { s with buffering := false } s.buffered = r at h1
      obtain ⟨ok, s'⟩ := r
      dsimp only at h1 ⊢
      rw [h1.1]
      intro hl
      unfold parentFlush
      rw [if_pos rfl] at hl ⊢
      dsimp only at hl ⊢
      rw [hl, h]
    · intro _
      unfold parentFlush
      rw [h]
  · unfold flush
    split
    · have h1 := writeInner_ready (s := { s with buffering := false }) h s.buffered
      generalize writeInner { s with buffering := false } s.buffered = r at h1
      obtain ⟨ok, s'⟩ := r
      dsimp only at h1 ⊢
      rw [h1.1]
      exact h1.2
    · rename_i hb
      rw [hc (by simpa using hb), List.append_nil]

theorem writePacket_ready {s : State} (h : s.link = .ready) (hc : Clean s) (p : Bytes) :
    (writePacket s p).1 = true ∧ written (writePacket s p).2.log = written s.log ++ p ++ s.buffered ∧
      (writePacket s p).2.buffered = [] := by
  have h1 := writerWrite_ready (s := { s with timer := true }) h p
  have h2 := (writerWrite_quiet { s with timer := true } p).link
  have h3 := writerWrite_inner { s with timer := true } p
  unfold writePacket
  dsimp only
  split
  · rename_i hl; cases h.symm.trans hl
  generalize writerWrite { s with timer := true } p = r at h1 h2 h3
  obtain ⟨ok, s'⟩ := r
  dsimp only at h1 h2 h3
  rw [h1.1, if_pos rfl]
  have h4 := flush_ready (s := s') (by rw [h2, h]) (fun hb => by rw [h3.2]; exact hc (h3.1 ▸ hb))
  generalize flush s' = r at h4
  obtain ⟨ok, s''⟩ := r
  dsimp only at h4 ⊢
  rw [h4.1]
  refine ⟨rfl, ?_, h4.2.2⟩
  rw [if_pos rfl, h4.2.1, h1.2, h3.2]

theorem writeOnEndOfMessage_ready {s : State} (h : s.link = .ready) (p : Bytes) :
    (writeOnEndOfMessage s p).1 = true ∧
      ((written (writeOnEndOfMessage s p).2.log = written s.log ∧ (writeOnEndOfMessage s p).2.buffered = s.buffered ++ p) ∨
       (written (writeOnEndOfMessage s p).2.log = written s.log ++ (s.buffered ++ p) ∧ (writeOnEndOfMessage s p).2.buffered = [])) := by
  unfold writeOnEndOfMessage
  dsimp only
  split
  · have h4 := flush_ready (s := { s with buffered := s.buffered ++ p, buffering := true }) h (fun h => nomatch h)
    generalize flush { s with buffered := s.buffered ++ p, buffering := true } = r at h4
    obtain ⟨ok, s''⟩ := r
    dsimp only at h4 ⊢
    rw [h4.1]
    exact ⟨rfl, .inr h4.2⟩
  · exact ⟨rfl, .inl ⟨rfl, rfl⟩⟩

/-- `out` has been written after `w`, `held` is buffered -/
structure Sent (order : Requests → Requests) (w : Bytes) (s : State) (out held : List Reply) : Prop where
  link : s.link = .ready
  clean : Clean s
  out : written s.log = w ++ bytes order out
  held : s.buffered = bytes order held

/-- without the reports of progress -/
def noProgress (rs : List Reply) : List Reply := rs.filter (· ≠ .progress)

theorem noProgress_append (a b : List Reply) : noProgress (a ++ b) = noProgress a ++ noProgress b := List.filter_append ..

/-- a note that is no writing -/
theorem Sent.note {order : Requests → Requests} {w : Bytes} {s : State} {out held : List Reply} (h : Sent order w s out held)
    (e : Event) (he : ∀ p, e ≠ .wrote p) : Sent order w (s.note e) out held := by
  refine ⟨h.link, h.clean, ?_, h.held⟩
  show written (s.log ++ [e]) = _
  rw [written_append, h.out]
  have : written [e] = [] := by
    cases e <;> first | rfl | exact absurd rfl (he _)
  rw [this, List.append_nil]

theorem Sent.flush {order : Requests → Requests} {w : Bytes} {s : State} {out held : List Reply} (h : Sent order w s out held) :
    (flush s).1 = true ∧ Sent order w (flush s).2 (out ++ held) [] := by
  obtain ⟨h1, h2, h3⟩ := flush_ready h.link h.clean
  refine ⟨h1, (flush_quiet s).link.trans h.link, fun _ => h3, ?_, h3⟩
  rw [h2, h.out, h.held, bytes_append, List.append_assoc]

theorem Sent.packet {order : Requests → Requests} {w : Bytes} {s : State} {out held : List Reply} (h : Sent order w s out held)
    (rs : List Reply) (p : Bytes) (hp : p = bytes order rs) :
    (writePacket s p).1 = true ∧ Sent order w (writePacket s p).2 (out ++ rs ++ held) [] := by
  obtain ⟨h1, h2, h3⟩ := writePacket_ready h.link h.clean p
  refine ⟨h1, (writePacket_quiet s p).link.trans h.link, fun _ => h3, ?_, h3⟩
  rw [h2, h.out, h.held, hp, bytes_append, bytes_append]
  simp only [List.append_assoc]

theorem Sent.onEnd {order : Requests → Requests} {w : Bytes} {s : State} {out held : List Reply} (h : Sent order w s out held)
    (rs : List Reply) (p : Bytes) (hp : p = bytes order rs) :
    (writeOnEndOfMessage s p).1 = true ∧
      (Sent order w (writeOnEndOfMessage s p).2 out (held ++ rs) ∨ Sent order w (writeOnEndOfMessage s p).2 (out ++ held ++ rs) []) := by
  obtain ⟨h1, h2⟩ := writeOnEndOfMessage_ready h.link p
  have hl := (writeOnEndOfMessage_quiet s p).link.trans h.link
  have hc := writeOnEndOfMessage_clean s p
  refine ⟨h1, ?_⟩
  rcases h2 with ⟨a, b⟩ | ⟨a, b⟩
  · exact .inl ⟨hl, hc, a.trans h.out, by rw [b, h.held, hp, bytes_append]⟩
  · refine .inr ⟨hl, hc, ?_, b⟩
    rw [a, h.out, h.held, hp, bytes_append, bytes_append]
    simp only [List.append_assoc]

/-- how the encoder's buffer and other inner fields look does not matter -/
theorem Sent.enc {order : Requests → Requests} {w : Bytes} {s : State} {out held : List Reply} (h : Sent order w s out held)
    (enc : Bytes) : Sent order w { s with enc := enc } out held := ⟨h.link, h.clean, h.out, h.held⟩

/-- replies that are not negotiations: the encoder's buffer does not matter -/
theorem encode_bytes (order : Requests → Requests) (s : State) (r : Reply) (hr : Enc.replyClears r = true) :
    (encode order s r).1 = bytes order [r] := by
  rw [bytes_one]
  unfold encode Enc.encodeReply
  cases Enc.replyContent order r <;> simp [hr]

theorem encode_sent {order : Requests → Requests} {w : Bytes} {s : State} {out held : List Reply} (h : Sent order w s out held)
    (r : Reply) : Sent order w (encode order s r).2 out held := h.enc _

/-- a property of states and the replies given so far that survives giving one more at the end of the message -/
structure Gathers (order : Requests → Requests) (P : State → List Reply → Prop) : Prop where
  more : ∀ s rs r p, P s rs → p = bytes order [r] → (writeOnEndOfMessage s p).1 = true ∧ P (writeOnEndOfMessage s p).2 (rs ++ [r])
  enc : ∀ s rs enc, P s rs → P { s with enc := enc } rs

theorem Sent.gathers (order : Requests → Requests) (w : Bytes) :
    Gathers order fun s rs => ∃ out held, Sent order w s out held ∧ out ++ held = rs := by
  refine ⟨?_, ?_⟩
  · rintro s rs r p ⟨out, held, h, rfl⟩ hp
    obtain ⟨h1, h2 | h2⟩ := h.onEnd [r] p hp
    · exact ⟨h1, _, _, h2, by simp⟩
    · exact ⟨h1, _, _, h2, by simp⟩
  · rintro s rs enc ⟨out, held, h, rfl⟩
    exact ⟨out, held, h.enc enc, rfl⟩

/-- everything given to the context so far is written or buffered -/
theorem total_gathers (order : Requests → Requests) (w : Bytes) :
    Gathers order fun s rs => s.link = .ready ∧ written s.log ++ s.buffered = w ++ bytes order rs := by
  refine ⟨?_, fun s rs enc h => h⟩
  rintro s rs r p ⟨hl, h⟩ hp
  obtain ⟨h1, h2⟩ := writeOnEndOfMessage_ready hl p
  refine ⟨h1, (writeOnEndOfMessage_quiet s p).link.trans hl, ?_⟩
  rw [bytes_append, ← List.append_assoc, ← h, ← hp]
  rcases h2 with ⟨a, b⟩ | ⟨a, b⟩
  · rw [a, b, List.append_assoc]
  · rw [a, b, List.append_nil, List.append_assoc]

theorem Gathers.body {order : Requests → Requests} {P : State → List Reply → Prop} (g : Gathers order P) (chunks : List Bytes)
    (hc : ∀ c ∈ chunks, c ≠ [] ∧ c.length ≤ 65535) :
    ∀ {s : State} {rs : List Reply}, P s rs →
    (writeBody (chunks.map fun c => Spec.wire (0x62 :: c)) s).1 = true ∧
      P (writeBody (chunks.map fun c => Spec.wire (0x62 :: c)) s).2 (rs ++ chunks.map .replaceBody) := by
  induction chunks with
  | nil => intro s rs h; exact ⟨rfl, by rw [List.map_nil, List.map_nil, List.append_nil]; exact h⟩
  | cons c chunks ih =>
    intro s rs h
    have hcc := hc c List.mem_cons_self
    rw [List.map_cons]
    unfold writeBody
    have hp : Spec.wire (0x62 :: c) = bytes order [.replaceBody c] := by
      rw [bytes_one]
      have h65 : c.take Enc.chunkSize = c := List.take_of_length_le (by rw [Enc.chunkSize_eq]; exact hcc.2)
      rw [Enc.replyContent, if_neg hcc.1, h65]
      simp only [Option.map_some, Option.getD_some]
      rw [Props.pack_wire]
      rw [intLimit_eq, List.length_cons]
      omega
    obtain ⟨h1, h2⟩ := g.more _ _ _ _ (g.enc s rs (Spec.wire (0x62 :: c)) h) hp
    generalize writeOnEndOfMessage { s with enc := Spec.wire (0x62 :: c) } (Spec.wire (0x62 :: c)) = r at h1 h2
    obtain ⟨ok, s'⟩ := r
    dsimp only at h1 h2 ⊢
    rw [h1, if_pos rfl]
    obtain ⟨i1, i2⟩ := ih (fun x hx => hc x (List.mem_cons_of_mem _ hx)) h2
    refine ⟨i1, ?_⟩
    rw [List.append_assoc] at i2
    exact i2

end Verif.Client
