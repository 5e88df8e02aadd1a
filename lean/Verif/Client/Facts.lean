import Verif.Spec.Client
/-
Facts about the model of the client context.
-/
namespace Verif.Client
open Verif Verif.Spec.Client

/-- an event of the writer -/
def quietEvent : Event → Bool
  | .wrote _ | .error => true
  | _ => false

/-- nothing but writing happened -/
structure Quiet (s s' : State) : Prop where
  st : s'.st = s.st
  last : s'.last = s.last
  status : s'.status = s.status
  option : s'.option = s.option
  custom : s'.custom = s.custom
  quarantine : s'.quarantine = s.quarantine
  bufferSize : s'.bufferSize = s.bufferSize
  result : s'.result = s.result
  shelf : s'.shelf = s.shelf
  agent : s'.agent = s.agent
  link : s'.link = s.link
  log : ∃ es, s'.log = s.log ++ es ∧ ∀ e ∈ es, quietEvent e = true

theorem Quiet.refl (s : State) : Quiet s s :=
  ⟨rfl, rfl, rfl, rfl, rfl, rfl, rfl, rfl, rfl, rfl, rfl, [], (List.append_nil _).symm, by simp⟩

theorem Quiet.trans {a b c : State} (h : Quiet a b) (g : Quiet b c) : Quiet a c := by
  obtain ⟨es, he, hq⟩ := h.log
  obtain ⟨fs, hf, hr⟩ := g.log
  refine ⟨g.st.trans h.st, g.last.trans h.last, g.status.trans h.status, g.option.trans h.option, g.custom.trans h.custom,
    g.quarantine.trans h.quarantine, g.bufferSize.trans h.bufferSize, g.result.trans h.result, g.shelf.trans h.shelf,
    g.agent.trans h.agent, g.link.trans h.link, es ++ fs, by rw [hf, he, List.append_assoc], ?_⟩
  intro e h'
  rcases List.mem_append.mp h' with h' | h'
  · exact hq e h'
  · exact hr e h'

theorem Quiet.note (s : State) {e : Event} (h : quietEvent e = true) : Quiet s (s.note e) :=
  ⟨rfl, rfl, rfl, rfl, rfl, rfl, rfl, rfl, rfl, rfl, rfl, [e], rfl, by simpa using h⟩

/-- a change of the fields that do not matter -/
theorem Quiet.inner (s : State) (buffered : Bytes) (buffering timer : Bool) (enc : Bytes) :
    Quiet s { s with buffered := buffered, buffering := buffering, timer := timer, enc := enc } :=
  ⟨rfl, rfl, rfl, rfl, rfl, rfl, rfl, rfl, rfl, rfl, rfl, [], (List.append_nil _).symm, by simp⟩

theorem writerWrite_quiet (s : State) (p : Bytes) : Quiet s (writerWrite s p).2 := by
  unfold writerWrite
  split
  · dsimp only
    split
    · exact .refl s
    · exact .note s rfl
  · exact .refl s

theorem writeInner_quiet (s : State) (p : Bytes) : Quiet s (writeInner s p).2 := by
  have h0 : Quiet s { s with timer := true } := .inner s _ _ _ _
  unfold writeInner
  dsimp only
  split
  · exact h0
  · have := h0.trans (writerWrite_quiet { s with timer := true } p)
    generalize writerWrite { s with timer := true } p = r at this
    obtain ⟨ok, s'⟩ := r
    dsimp only
    split <;> exact this

theorem flush_quiet (s : State) : Quiet s (flush s).2 := by
  unfold flush
  split
  · have h0 : Quiet s { s with buffering := false } := .inner s _ _ _ _
    have := h0.trans (writeInner_quiet { s with buffering := false } s.buffered)
    generalize writeInner { s with buffering := false } s.buffered = r at this
    obtain ⟨ok, s'⟩ := r
    dsimp only at this ⊢
    cases ok
    · exact (this.trans (.note s' rfl)).trans (.inner _ _ _ _ _)
    · exact this.trans (.inner _ _ _ _ _)
  · exact .refl s

theorem writePacket_quiet (s : State) (p : Bytes) : Quiet s (writePacket s p).2 := by
  have h0 : Quiet s { s with timer := true } := .inner s _ _ _ _
  unfold writePacket
  dsimp only
  split
  · exact h0
  · have := h0.trans (writerWrite_quiet { s with timer := true } p)
    generalize writerWrite { s with timer := true } p = r at this
    obtain ⟨ok, s'⟩ := r
    dsimp only at this ⊢
    split
    · have := this.trans (flush_quiet s')
      generalize flush s' = r at this
      obtain ⟨ok, s''⟩ := r
      dsimp only at this ⊢
      split
      · exact this
      · exact this.trans (.note _ rfl)
    · exact this.trans (.note _ rfl)

theorem writeOnEndOfMessage_quiet (s : State) (p : Bytes) : Quiet s (writeOnEndOfMessage s p).2 := by
  have h0 : Quiet s { s with buffered := s.buffered ++ p, buffering := true } := .inner s _ _ _ _
  unfold writeOnEndOfMessage
  dsimp only
  split
  · have := h0.trans (flush_quiet { s with buffered := s.buffered ++ p, buffering := true })
    generalize flush { s with buffered := s.buffered ++ p, buffering := true } = r at this
    obtain ⟨ok, s''⟩ := r
    dsimp only at this ⊢
    split
    · exact this
    · exact this.trans (.note _ rfl)
  · exact h0

theorem encode_quiet (order : Requests → Requests) (s : State) (r : Reply) : Quiet s (encode order s r).2 := by
  unfold encode
  exact .inner s _ _ _ _

theorem modify_quiet (order : Requests → Requests) (s : State) (flag : UInt32) (r : Reply) : Quiet s (modify order s flag r).2 := by
  unfold modify
  split
  · exact .refl s
  · split
    · exact .refl s
    · exact (encode_quiet order s r).trans (writeOnEndOfMessage_quiet _ _)

theorem writeBody_quiet (ps : List Bytes) : ∀ s : State, Quiet s (writeBody ps s).2 := by
  induction ps with
  | nil => exact fun s => .refl s
  | cons p ps ih =>
    intro s
    unfold writeBody
    have h0 : Quiet s { s with enc := p } := .inner s _ _ _ _
    have := h0.trans (writeOnEndOfMessage_quiet { s with enc := p } p)
    generalize writeOnEndOfMessage { s with enc := p } p = r at this
    obtain ⟨ok, s'⟩ := r
    dsimp only at this ⊢
    split
    · exact this.trans (ih s')
    · exact this

theorem replaceBody_quiet (order : Requests → Requests) (s : State) (body : Bytes) : Quiet s (replaceBody order s body).2 := by
  unfold replaceBody
  split
  · exact .refl s
  · split
    · exact .refl s
    · exact writeBody_quiet _ _

theorem packContent_quiet (s : State) (c : Bytes) : Quiet s (packContent s c).2 := .inner s _ _ _ _

theorem createReplyPacket_quiet (s : State) (status : Status) : Quiet s (createReplyPacket s status).2 := by
  unfold createReplyPacket
  split
  all_goals first
    | exact packContent_quiet s _
    | exact .refl s
    | (split <;> exact packContent_quiet s _)

theorem reply_quiet (s : State) (status : Status) : Quiet s (reply s status) := by
  have := createReplyPacket_quiet s status
  unfold reply
  generalize createReplyPacket s status = r at this
  obtain ⟨p, s'⟩ := r
  cases p with
  | none => exact this
  | some p => exact this.trans (writePacket_quiet s' p)

theorem replyOnEndOfMessage_quiet (order : Requests → Requests) (s : State) (status : Status) :
    Quiet s (replyOnEndOfMessage order s status) := by
  have h0 := flush_quiet s
  unfold replyOnEndOfMessage
  generalize flush s = r at h0
  obtain ⟨ok, s'⟩ := r
  dsimp only at h0
  cases ok
  · exact h0.trans (.note s' rfl)
  · dsimp only
    have h1 := h0.trans (createReplyPacket_quiet s' status)
    generalize createReplyPacket s' status = r at h1
    obtain ⟨p, s''⟩ := r
    dsimp only at h1
    cases p with
    | none => exact h1
    | some p =>
      dsimp only
      split
      · exact h1.trans (writePacket_quiet _ _)
      · exact h1.trans ((encode_quiet order s'' _).trans (writePacket_quiet _ _))

/-! ### The record and the state agree -/

/-- what the record says is what the state holds -/
structure Agrees (s : State) : Prop where
  atEnd : s.st = .doing .endOfMessage ↔ atEnd s.log = true
  option : s.option = negotiated s.log
  custom : s.custom = match lastCustom s.log with
    | none => {}
    | some (code, ext, message) => ⟨code, ext, message⟩
  quarantine : s.quarantine = quarantineReason s.log
  /-- nothing is buffered without a note of it -/
  buffer : s.buffering = false → s.buffered = []

theorem atEnd_quiet {l es : List Event} (h : ∀ e ∈ es, quietEvent e = true) : Spec.Client.atEnd (l ++ es) = Spec.Client.atEnd l := by
  unfold Spec.Client.atEnd
  rw [List.foldl_append]
  generalize List.foldl _ false l = b
  induction es generalizing b with
  | nil => rfl
  | cons e es ih =>
    rw [List.foldl_cons, ih fun x hx => h x (List.mem_cons_of_mem _ hx)]
    have := h e List.mem_cons_self
    cases e <;> first | rfl | cases this

theorem negotiated_quiet {l es : List Event} (h : ∀ e ∈ es, quietEvent e = true) : negotiated (l ++ es) = negotiated l := by
  unfold negotiated
  rw [List.foldl_append]
  generalize List.foldl _ none l = b
  induction es generalizing b with
  | nil => rfl
  | cons e es ih =>
    rw [List.foldl_cons, ih fun x hx => h x (List.mem_cons_of_mem _ hx)]
    have := h e List.mem_cons_self
    cases e <;> first | rfl | cases this

theorem lastCustom_quiet {l es : List Event} (h : ∀ e ∈ es, quietEvent e = true) : lastCustom (l ++ es) = lastCustom l := by
  unfold lastCustom
  rw [List.foldl_append]
  generalize List.foldl _ none l = b
  induction es generalizing b with
  | nil => rfl
  | cons e es ih =>
    rw [List.foldl_cons, ih fun x hx => h x (List.mem_cons_of_mem _ hx)]
    have := h e List.mem_cons_self
    cases e <;> first | rfl | cases this

theorem quarantineReason_quiet {l es : List Event} (h : ∀ e ∈ es, quietEvent e = true) :
    quarantineReason (l ++ es) = quarantineReason l := by
  unfold quarantineReason
  rw [List.foldl_append]
  generalize List.foldl _ none l = b
  induction es generalizing b with
  | nil => rfl
  | cons e es ih =>
    rw [List.foldl_cons, ih fun x hx => h x (List.mem_cons_of_mem _ hx)]
    have := h e List.mem_cons_self
    cases e <;> first | rfl | cases this

/-- the last event decides -/
theorem atEnd_snoc (l : List Event) (e : Event) : Spec.Client.atEnd (l ++ [e]) = match e with
    | .got (.endOfMessage _) => true
    | .got (.defineMacro _ _) => Spec.Client.atEnd l
    | .got _ => false
    | .answered _ _ | .answeredNegotiate _ _ | .called (.respondAbort _) _ | .timedOut | .shutdown => false
    | _ => Spec.Client.atEnd l := by
  unfold Spec.Client.atEnd
  rw [List.foldl_append]
  rfl

theorem negotiated_snoc (l : List Event) (e : Event) : negotiated (l ++ [e]) = match e with
    | .got (.negotiate offered) => some offered
    | .answeredNegotiate chosen .continue_ => chosen
    | _ => negotiated l := by
  unfold negotiated
  rw [List.foldl_append]
  rfl

theorem lastCustom_snoc (l : List Event) (e : Event) : lastCustom (l ++ [e]) = match e with
    | .called (.setReply code ext message) true => some (code, ext, message)
    | _ => lastCustom l := by
  unfold lastCustom
  rw [List.foldl_append]
  rfl

theorem quarantineReason_snoc (l : List Event) (e : Event) : quarantineReason (l ++ [e]) = match e with
    | .got (.endOfMessage _) => none
    | .called (.quarantine reason) _ => reason
    | _ => quarantineReason l := by
  unfold quarantineReason
  rw [List.foldl_append]
  rfl

/-! ### Buffers -/

/-- nothing is buffered without a note of it -/
def Clean (s : State) : Prop := s.buffering = false → s.buffered = []

theorem writerWrite_inner (s : State) (p : Bytes) :
    (writerWrite s p).2.buffering = s.buffering ∧ (writerWrite s p).2.buffered = s.buffered := by
  unfold writerWrite
  split
  · dsimp only
    split <;> exact ⟨rfl, rfl⟩
  · exact ⟨rfl, rfl⟩

theorem writeInner_inner (s : State) (p : Bytes) :
    (writeInner s p).2.buffering = s.buffering ∧ (writeInner s p).2.buffered = s.buffered := by
  unfold writeInner
  dsimp only
  split
  · exact ⟨rfl, rfl⟩
  · have := writerWrite_inner { s with timer := true } p
    generalize writerWrite { s with timer := true } p = r at this
    obtain ⟨ok, s'⟩ := r
    dsimp only at this ⊢
    split <;> exact this

theorem flush_clean {s : State} (h : Clean s) : (flush s).2.buffering = false ∧ (flush s).2.buffered = [] := by
  unfold flush
  split
  · have := writeInner_inner { s with buffering := false } s.buffered
    generalize writeInner { s with buffering := false } s.buffered = r at this
    obtain ⟨ok, s'⟩ := r
    dsimp only at this ⊢
    cases ok
    · exact ⟨this.1, rfl⟩
    · exact ⟨this.1, rfl⟩
  · rename_i hb
    have hb : s.buffering = false := by simpa using hb
    exact ⟨hb, h hb⟩

theorem writePacket_clean {s : State} (p : Bytes) (h : Clean s) : Clean (writePacket s p).2 := by
  unfold writePacket
  dsimp only
  split
  · exact h
  · have h1 := writerWrite_inner { s with timer := true } p
    generalize writerWrite { s with timer := true } p = r at h1
    obtain ⟨ok, s'⟩ := r
    dsimp only at h1 ⊢
    have h2 : Clean s' := fun hb => by rw [h1.2]; exact h (h1.1 ▸ hb)
    split
    · have h3 := flush_clean h2
      generalize flush s' = r at h3
      obtain ⟨ok, s''⟩ := r
      dsimp only at h3 ⊢
      split
      · exact fun _ => h3.2
      · exact fun _ => h3.2
    · exact h2

theorem writeOnEndOfMessage_clean (s : State) (p : Bytes) : Clean (writeOnEndOfMessage s p).2 := by
  have h0 : Clean { s with buffered := s.buffered ++ p, buffering := true } := fun h => nomatch h
  unfold writeOnEndOfMessage
  dsimp only
  split
  · have h3 := flush_clean h0
    generalize flush { s with buffered := s.buffered ++ p, buffering := true } = r at h3
    obtain ⟨ok, s''⟩ := r
    dsimp only at h3 ⊢
    split
    · exact fun _ => h3.2
    · exact fun _ => h3.2
  · exact h0

theorem modify_clean (order : Requests → Requests) {s : State} (flag : UInt32) (r : Reply) (h : Clean s) : Clean (modify order s flag r).2 := by
  unfold modify
  split
  · exact h
  · split
    · exact h
    · exact writeOnEndOfMessage_clean _ _

theorem writeBody_clean (ps : List Bytes) : ∀ {s : State}, Clean s → Clean (writeBody ps s).2 := by
  induction ps with
  | nil => exact fun h => h
  | cons p ps ih =>
    intro s _
    unfold writeBody
    have := writeOnEndOfMessage_clean { s with enc := p } p
    generalize writeOnEndOfMessage { s with enc := p } p = r at this
    obtain ⟨ok, s'⟩ := r
    dsimp only at this ⊢
    split
    · exact ih this
    · exact this

theorem replaceBody_clean (order : Requests → Requests) {s : State} (body : Bytes) (h : Clean s) : Clean (replaceBody order s body).2 := by
  unfold replaceBody
  split
  · exact h
  · split
    · exact h
    · exact writeBody_clean _ h

theorem createReplyPacket_clean {s : State} (status : Status) (h : Clean s) : Clean (createReplyPacket s status).2 := by
  unfold createReplyPacket
  split
  all_goals first
    | exact h
    | (split <;> exact h)

theorem reply_clean {s : State} (status : Status) (h : Clean s) : Clean (reply s status) := by
  have := createReplyPacket_clean status h
  unfold reply
  generalize createReplyPacket s status = r at this
  obtain ⟨p, s'⟩ := r
  cases p with
  | none => exact this
  | some p => exact writePacket_clean p this

theorem replyOnEndOfMessage_clean (order : Requests → Requests) {s : State} (status : Status) (h : Clean s) :
    Clean (replyOnEndOfMessage order s status) := by
  have h0 := flush_clean h
  unfold replyOnEndOfMessage
  generalize flush s = r at h0
  obtain ⟨ok, s'⟩ := r
  dsimp only at h0
  have h0 : Clean s' := fun _ => h0.2
  cases ok
  · exact h0
  · dsimp only
    have h1 := createReplyPacket_clean status h0
    generalize createReplyPacket s' status = r at h1
    obtain ⟨p, s''⟩ := r
    dsimp only at h1
    cases p with
    | none => exact h1
    | some p =>
      dsimp only
      split
      · exact writePacket_clean _ h1
      · exact writePacket_clean _ (show Clean (encode order s'' _).2 from h1)

end Verif.Client
