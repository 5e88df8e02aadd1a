import Verif.Props.Framing
import Verif.Core.BodyChunks
import Verif.Spec.Pointwise
/-
C02, C03, C04, C07, C08, C09: encoders and decoders.
-/
namespace Verif.Props
open Verif Verif.Spec Verif.Decoder Verif.Enc

/-! ## an example of the libc address functions, for non-vacuity -/

/-- two letters per byte -/
def lettersOf (a : Bytes) : Bytes :=
  (a.map (fun b => [UInt8.ofNat (97 + b.toNat / 16), UInt8.ofNat (97 + b.toNat % 16)])).flatten

def ofLetters : Bytes → Option Bytes
  | [] => some []
  | [_] => none
  | x :: y :: r => (ofLetters r).map (UInt8.ofNat ((x.toNat - 97) * 16 + (y.toNat - 97)) :: ·)

def exampleInet : Inet := ⟨⟨lettersOf, ofLetters⟩, ⟨lettersOf, ofLetters⟩⟩

theorem letters_rt (a : Bytes) : ofLetters (lettersOf a) = some a := by
  induction a with
  | nil => rfl
  | cons b a ih =>
    have : lettersOf (b :: a) = UInt8.ofNat (97 + b.toNat / 16) :: UInt8.ofNat (97 + b.toNat % 16) ::
      lettersOf a := rfl
    rw [this, ofLetters, ih]
    simp only [Option.map_some, UInt8.toNat_ofNat', Option.some.injEq, List.cons.injEq, and_true]
    have hb := b.toNat_lt
    have : ((97 + b.toNat / 16) % 2 ^ 8 - 97) * 16 + ((97 + b.toNat % 16) % 2 ^ 8 - 97) = b.toNat := by
      omega
    rw [this, UInt8.ofNat_toNat]

theorem letters_cstr (a : Bytes) : IsCStr (lettersOf a) := by
  intro h
  simp only [lettersOf, List.mem_flatten, List.mem_map] at h
  obtain ⟨l, ⟨b, _, rfl⟩, hm⟩ := h
  have hb := b.toNat_lt
  simp only [List.mem_cons, List.not_mem_nil, or_false] at hm
  rcases hm with hm | hm <;>
  · have := congrArg UInt8.toNat hm
    simp only [UInt8.toNat_ofNat', UInt8.toNat_zero] at this
    omega

theorem letters_ne (a : Bytes) (h : a.length ≠ 0) : lettersOf a ≠ [] := by
  cases a with
  | nil => simp at h
  | cons b a => simp [lettersOf]

theorem exampleInet_laws : InetLaws exampleInet :=
  ⟨⟨fun a _ => letters_rt a, fun a _ => letters_cstr a, fun a h => letters_ne a (by omega)⟩,
   ⟨fun a _ => letters_rt a, fun a _ => letters_cstr a, fun a h => letters_ne a (by omega)⟩⟩

/-! ## packing -/

theorem pack_wire (c : Bytes) (h : c.length < intLimit) : pack c = wire c := by
  unfold pack wire
  rw [intLimit_eq] at h
  rw [Nat.mod_eq_of_lt (by omega)]

theorem pack_length (c : Bytes) : (pack c).length = c.length + 4 := by
  unfold pack; rw [List.length_append, length_be32]; omega

/-- Option negotiation, if any, comes first. -/
def NegotiateFirst : List Cmd → Prop
  | [] => True
  | _ :: cs => ∀ c ∈ cs, ∀ o, c ≠ .negotiate o

def NegotiateFirstReply : List Reply → Prop
  | [] => True
  | _ :: rs => ∀ r ∈ rs, ∀ o q, r ≠ .negotiate o q

theorem encodeAll_noNeg (inet : Inet) (sort : MacroTable → MacroTable) (buf : Bytes) (cs : List Cmd)
    (h : ∀ c ∈ cs, ∀ o, c ≠ .negotiate o) :
    encodeAll inet sort buf cs = cs.map (fun c => pack (commandContent inet sort c)) := by
  induction cs generalizing buf with
  | nil => rfl
  | cons c cs ih =>
    have hc : clearsBuffer c = true := by
      cases c <;> first | rfl | exact absurd rfl (h _ List.mem_cons_self _)
    simp only [encodeAll, List.map_cons]
    rw [ih _ (fun d hd => h d (List.mem_cons_of_mem _ hd))]
    simp [encodeCommand, hc]

theorem encodeAll_session (inet : Inet) (sort : MacroTable → MacroTable) (cs : List Cmd)
    (h : NegotiateFirst cs) :
    encodeAll inet sort [] cs = cs.map (fun c => pack (commandContent inet sort c)) := by
  cases cs with
  | nil => rfl
  | cons c cs =>
    simp only [encodeAll, List.map_cons]
    rw [encodeAll_noNeg inet sort _ cs h]
    simp [encodeCommand]

/-! ## C02 -/

theorem interpret_commands (inet : Inet) (hi : InetLaws inet) (sort : MacroTable → MacroTable)
    (hsort : ∀ t, (sort t).Perm t) (cs : List Cmd) (hc : ∀ c ∈ cs, CmdOk c) :
    Pointwise SameCmd cs
      (interpret (alone (CmdDec.decode inet)) (cs.map (commandContent inet sort))).1 ∧
    (interpret (alone (CmdDec.decode inet)) (cs.map (commandContent inet sort))).2 = .fine := by
  induction cs with
  | nil => exact ⟨.nil, rfl⟩
  | cons c cs ih =>
    obtain ⟨c', h1, h2⟩ := CmdDec.decode_content inet hi sort hsort c (hc c List.mem_cons_self)
    have ih' := ih (fun d hd => hc d (List.mem_cons_of_mem _ hd))
    rw [List.map_cons, interpret_cons]
    have : alone (CmdDec.decode inet) (commandContent inet sort c) = .ok c' := h1
    rw [this]
    exact ⟨.cons h2 ih'.1, ih'.2⟩

/-- **C02**: a session written by a command encoder and read by a command decoder, over
any cut of the stream, gives the same commands and no error, and the stream ends on a
packet boundary. -/
theorem C02 (inet : Inet) (hi : InetLaws inet) (sort : MacroTable → MacroTable)
    (hsort : ∀ t, (sort t).Perm t) (cmds : List Cmd) (hneg : NegotiateFirst cmds)
    (hok : ∀ c ∈ cmds, CmdOk c)
    (hlen : ∀ p ∈ encodeAll inet sort [] cmds, p.length < intLimit)
    (cs : List Bytes) (hcs : cs.flatten = (encodeAll inet sort [] cmds).flatten) :
    Pointwise SameCmd cmds (feedAll (CmdDec.decode inet) init cs).2 ∧
    someFeedFailed (CmdDec.decode inet) init cs = false ∧
    (endDecode (feedAll (CmdDec.decode inet) init cs).1).2 = true := by
  rw [encodeAll_session inet sort cmds hneg] at hcs hlen
  have hl : ∀ p ∈ cmds.map (commandContent inet sort), p.length < intLimit := by
    intro p hp
    obtain ⟨c, hc, rfl⟩ := List.mem_map.1 hp
    have := hlen _ (List.mem_map.2 ⟨c, hc, rfl⟩)
    rw [pack_length] at this
    omega
  have hw : cmds.map (fun c => pack (commandContent inet sort c)) =
      (cmds.map (commandContent inet sort)).map wire := by
    rw [List.map_map]
    apply List.map_congr_left
    intro c hc
    exact pack_wire _ (hl _ (List.mem_map.2 ⟨c, hc, rfl⟩))
  have hf : frames cs.flatten = cmds.map (commandContent inet sort) := by
    have := frames_wires (cmds.map (commandContent inet sort)) [] hl
    rw [List.append_nil, frames_short [] (by decide), List.append_nil] at this
    rw [hcs, hw, this]
  have hlo : leftover cs.flatten = [] := by
    have := leftover_wires (cmds.map (commandContent inet sort)) [] hl
    rw [List.append_nil, leftover_short [] (by decide)] at this
    rw [hcs, hw, this]
  have hind : ∀ p ∈ frames cs.flatten, Independent (CmdDec.decode inet) p := by
    rw [hf]
    intro p hp
    obtain ⟨c, hc, rfl⟩ := List.mem_map.1 hp
    exact CmdDec.decode_local inet _ (CmdDec.content_selfContained inet sort c (hok c hc))
  have h1 := C01_framing (CmdDec.decode inet) cs hind
  have h2 := C06_end (CmdDec.decode inet) cs hind
  have h3 := interpret_commands inet hi sort hsort cmds hok
  rw [hf] at h1 h2
  refine ⟨h1.1 ▸ h3.1, ?_, h2.2 ⟨h3.2, hlo⟩⟩
  rw [← Bool.not_eq_true, h1.2, h3.2]
  simp

/-- non-vacuity of C02: a session with every shape of argument -/
def exampleSession : List Cmd :=
  [.negotiate ⟨6, 0x1ff, 0x1fffff⟩,
   .defineMacro 0x43 [(ascii "j", some (ascii "mx")), (ascii "daemon_name", none)],
   .connect (ascii "host") (.inet 0 25 [192, 168, 1, 1]), .helo (ascii "delian"),
   .envelopeFrom (ascii "<a@b>"), .envelopeRecipient (ascii "<c@d>"), .data,
   .header (ascii "Subject") [], .endOfHeader, .body (ascii "hi"), .endOfMessage (ascii "bye"),
   .unknown (ascii "XX"), .abort, .quit]

example : NegotiateFirst exampleSession ∧ (∀ c ∈ exampleSession, CmdOk c) ∧
    ∀ p ∈ encodeAll exampleInet id [] exampleSession, p.length < intLimit := by
  refine ⟨by simp [NegotiateFirst, exampleSession], ?_, ?_⟩
  · have hc : ∀ l : Bytes, (0 : UInt8) ∉ l → IsCStr l := fun _ h => h
    simp only [exampleSession, List.mem_cons, List.not_mem_nil, or_false, forall_eq_or_imp, forall_eq,
      CmdOk, AddrOk, IsCStr]
    decide
  · rw [intLimit_eq, encodeAll_session _ _ _ (by simp [NegotiateFirst, exampleSession])]
    intro p hp
    obtain ⟨c, hc, rfl⟩ := List.mem_map.1 hp
    rw [pack_length]
    have hb : ∀ l : Bytes, (l.take chunkSize).length ≤ l.length := fun l => by
      rw [List.length_take]; exact Nat.min_le_right _ _
    simp only [exampleSession, List.mem_cons, List.not_mem_nil, or_false] at hc
    rcases hc with rfl | rfl | rfl | rfl | rfl | rfl | rfl | rfl | rfl | rfl | rfl | rfl | rfl | rfl
    all_goals first
      | (have := hb (ascii "hi")
         simp only [commandContent, List.length_cons] at *
         have e : (ascii "hi").length = 2 := by decide
         omega)
      | decide

/-! ## C03 -/

theorem encodeReplies_session (order : Requests → Requests) (ho : ∀ t, (order t).Perm t)
    (rs : List Reply) (h : NegotiateFirstReply rs) (hok : ∀ r ∈ rs, ReplyOk r) :
    ∃ contents, Pointwise (fun r c => replyContent order r = some c) rs contents ∧
      encodeReplies order [] rs = contents.map pack := by
  have noNeg : ∀ (rs : List Reply) (buf : Bytes), (∀ r ∈ rs, ∀ o q, r ≠ .negotiate o q) →
      (∀ r ∈ rs, ReplyOk r) →
      ∃ contents, Pointwise (fun r c => replyContent order r = some c) rs contents ∧
        encodeReplies order buf rs = contents.map pack := by
    intro rs
    induction rs with
    | nil => intro buf _ _; exact ⟨[], .nil, rfl⟩
    | cons r rs ih =>
      intro buf h hok
      obtain ⟨c, r', h1, _, _⟩ := RepDec.decode_content order ho r (hok r List.mem_cons_self)
      obtain ⟨cs, h3, h4⟩ := ih (pack c) (fun d hd => h d (List.mem_cons_of_mem _ hd))
        (fun d hd => hok d (List.mem_cons_of_mem _ hd))
      refine ⟨c :: cs, .cons h1 h3, ?_⟩
      have hc : replyClears r = true := by
        cases r <;> first | rfl | exact absurd rfl (h _ List.mem_cons_self _ _)
      simp [encodeReplies, encodeReply, h1, hc, h4]
  cases rs with
  | nil => exact ⟨[], .nil, rfl⟩
  | cons r rs =>
    obtain ⟨c, r', h1, _, _⟩ := RepDec.decode_content order ho r (hok r List.mem_cons_self)
    obtain ⟨cs, h3, h4⟩ := noNeg rs (pack c) h (fun d hd => hok d (List.mem_cons_of_mem _ hd))
    refine ⟨c :: cs, .cons h1 h3, ?_⟩
    simp [encodeReplies, encodeReply, h1, h4]

theorem interpret_replies (order : Requests → Requests) (ho : ∀ t, (order t).Perm t)
    (rs : List Reply) (contents : List Bytes)
    (hc : Pointwise (fun r c => replyContent order r = some c) rs contents)
    (hok : ∀ r ∈ rs, ReplyOk r) :
    Pointwise SameReply rs (interpret (alone RepDec.decode) contents).1 ∧
    (interpret (alone RepDec.decode) contents).2 = .fine ∧
    ∀ p ∈ contents, SelfContainedReply p := by
  induction hc with
  | nil => exact ⟨.nil, rfl, by simp⟩
  | @cons r c rs cs h1 h2 ih =>
    obtain ⟨c2, r', e1, e2, e3⟩ := RepDec.decode_content order ho r (hok r List.mem_cons_self)
    have : c2 = c := by rw [h1] at e1; exact (Option.some.inj e1).symm
    subst this
    have ih' := ih (fun d hd => hok d (List.mem_cons_of_mem _ hd))
    rw [interpret_cons]
    have : alone RepDec.decode c2 = .ok r' := e2
    rw [this]
    refine ⟨.cons e3 ih'.1, ih'.2.1, ?_⟩
    intro p hp
    rcases List.mem_cons.1 hp with rfl | hp
    · exact RepDec.content_selfContained order r (hok r List.mem_cons_self) _ h1
    · exact ih'.2.2 p hp

/-- **C03**: replies written by a reply encoder and read by a reply decoder, over any cut
of the stream, come back the same. -/
theorem C03 (order : Requests → Requests) (ho : ∀ t, (order t).Perm t) (rs : List Reply)
    (hneg : NegotiateFirstReply rs) (hok : ∀ r ∈ rs, ReplyOk r)
    (hlen : ∀ p ∈ encodeReplies order [] rs, p.length < intLimit)
    (cs : List Bytes) (hcs : cs.flatten = (encodeReplies order [] rs).flatten) :
    Pointwise SameReply rs (feedAll RepDec.decode init cs).2 ∧
    someFeedFailed RepDec.decode init cs = false ∧
    (endDecode (feedAll RepDec.decode init cs).1).2 = true := by
  obtain ⟨contents, hc, he⟩ := encodeReplies_session order ho rs hneg hok
  rw [he] at hcs hlen
  have hl : ∀ p ∈ contents, p.length < intLimit := by
    intro p hp
    have := hlen _ (List.mem_map.2 ⟨p, hp, rfl⟩)
    rw [pack_length] at this
    omega
  have hw : contents.map pack = contents.map wire :=
    List.map_congr_left (fun c hc => pack_wire _ (hl _ hc))
  have hf : frames cs.flatten = contents := by
    have := frames_wires contents [] hl
    rw [List.append_nil, frames_short [] (by decide), List.append_nil] at this
    rw [hcs, hw, this]
  have hlo : leftover cs.flatten = [] := by
    have := leftover_wires contents [] hl
    rw [List.append_nil, leftover_short [] (by decide)] at this
    rw [hcs, hw, this]
  have h3 := interpret_replies order ho rs contents hc hok
  have hind : ∀ p ∈ frames cs.flatten, Independent RepDec.decode p := by
    rw [hf]
    exact fun p hp => RepDec.decode_local _ (h3.2.2 p hp)
  have h1 := C01_framing RepDec.decode cs hind
  have h2 := C06_end RepDec.decode cs hind
  rw [hf] at h1 h2
  refine ⟨h1.1 ▸ h3.1, ?_, h2.2 ⟨h3.2.1, hlo⟩⟩
  rw [← Bool.not_eq_true, h1.2, h3.2.1]
  simp

def exampleReplies : List Reply :=
  [.negotiate ⟨6, 0x1ff, 0x1fffff⟩ (some [(0x43, [ascii "j", ascii "i"]), (0x45, [ascii "{x}"])]),
   .cont, .replyCode 451 (ascii "4.7.1") (some (ascii "greylisted, try again")),
   .temporaryFailure, .reject, .accept, .discard, .addHeader (ascii "X") [],
   .insertHeader 3 (ascii "X") (some (ascii "v")), .changeHeader (ascii "X") 2 (ascii "w"),
   .deleteHeader (ascii "X") 1, .changeFrom (ascii "<a@b>") (some (ascii "SIZE=1")),
   .addRecipient (ascii "<c@d>") none, .addRecipient (ascii "<c@d>") (some (ascii "N=1")),
   .deleteRecipient (ascii "<c@d>"), .replaceBody (ascii "body"), .progress,
   .quarantine (ascii "virus"), .connectionFailure, .shutdown, .skip]

example : NegotiateFirstReply exampleReplies ∧ ∀ r ∈ exampleReplies, ReplyOk r := by
  refine ⟨by simp [NegotiateFirstReply, exampleReplies], ?_⟩
  have hs : requestStages = [0x43, 0x48, 0x4d, 0x52, 0x54, 0x45, 0x4e] := by decide
  simp only [exampleReplies, List.mem_cons, List.not_mem_nil, or_false, forall_eq_or_imp, forall_eq,
    ReplyOk, RequestsOk, ParamOk, IsCStr, hs]
  refine ⟨by decide, trivial, ⟨by decide, by decide, by decide, by decide, _, rfl, by
    simp only [OneLine, IsCStr]; decide⟩, trivial, trivial, trivial, trivial, by decide, by decide, by decide,
    by decide, by decide, by decide, by decide, by decide, ⟨by decide, by decide⟩, trivial, by decide,
    trivial, trivial, trivial⟩

/-! ## C04 -/

/-- **C04** for every command but option negotiation: after any history the packet is the
wire form of a payload that depends on the command only. -/
theorem C04_commands_partial (inet : Inet) (sort : MacroTable → MacroTable) (history : List Cmd)
    (c : Cmd) (hc : ∀ o, c ≠ .negotiate o) :
    (encodeAll inet sort [] (history ++ [c])).getLast? = some (encodeCommand inet sort [] c) ∧
    ∃ payload, encodeCommand inet sort [] c =
      be32 (payload.length % 4294967296) ++ payload := by
  refine ⟨?_, ⟨_, rfl⟩⟩
  generalize ([] : Bytes) = buf
  have hclr : clearsBuffer c = true := by
    cases c <;> first | rfl | exact absurd rfl (hc _)
  have same : ∀ b, encodeCommand inet sort b c = encodeCommand inet sort buf c := by
    intro b; simp [encodeCommand, hclr]
  have : ∀ b, (encodeAll inet sort b (history ++ [c])).getLast? =
      some (encodeCommand inet sort buf c) := by
    induction history with
    | nil => intro b; simp [encodeAll, same]
    | cons d ds ih =>
      intro b
      rw [List.cons_append, encodeAll]
      rw [List.getLast?_cons, ih]
      rfl
  exact this buf

/-- **C04** for every reply but option negotiation. -/
theorem C04_replies_partial (order : Requests → Requests) (buf : Bytes) (r : Reply)
    (hr : ∀ o q, r ≠ .negotiate o q) :
    (encodeReply order buf r).2 = (encodeReply order [] r).2 := by
  have hclr : replyClears r = true := by
    cases r <;> first | rfl | exact absurd rfl (hr _ _)
  unfold encodeReply
  cases replyContent order r <;> simp [hclr]

/-- **C04 is violated** by option negotiation: it keeps what the encoder produced before
inside the new packet. -/
theorem C04_violated (inet : Inet) (sort : MacroTable → MacroTable) (o : Opt) :
    (encodeAll inet sort [] [.quit, .negotiate o]).getLast? ≠
      some (encodeCommand inet sort [] (.negotiate o)) := by
  have hl : (encodeAll inet sort [] [.quit, .negotiate o]).getLast? =
      some (encodeCommand inet sort (encodeCommand inet sort [] .quit) (.negotiate o)) := rfl
  rw [hl]
  intro h
  have := congrArg List.length (Option.some.inj h)
  simp [encodeCommand, pack_length, clearsBuffer, commandContent] at this

/-! ## C07 -/

theorem replaceBodyLoop_spec (order : Requests → Requests) (buf body : Bytes) :
    ∃ chunks : List Bytes, replaceBodyLoop order buf body = chunks.map (fun c => wire (0x62 :: c)) ∧
      chunks.flatten = body ∧ ∀ c ∈ chunks, c ≠ [] ∧ c.length ≤ 65535 := by
  fun_induction replaceBodyLoop order buf body with
  | case1 buf => exact ⟨[], rfl, rfl, by simp⟩
  | case2 buf rest hne buf' p heq ih =>
    obtain ⟨cs, h1, h2, h3⟩ := ih
    have hlen : (rest.take chunkSize).length ≤ 65535 := by
      rw [List.length_take, chunkSize_eq]; exact Nat.min_le_left _ _
    have hp : p = some (wire (0x62 :: rest.take chunkSize)) := by
      have := congrArg Prod.snd heq
      simp only [encodeReply, replyContent, if_neg hne, replyClears, if_true, List.nil_append] at this
      rw [← this, pack_wire]
      rw [intLimit_eq, List.length_cons]; omega
    have hd : rest.take (replaceBodyPackedSize rest) = rest.take chunkSize := by
      unfold replaceBodyPackedSize
      rw [if_neg hne]
      split
      · rfl
      · rw [List.take_length, List.take_of_length_le (by omega)]
    refine ⟨rest.take chunkSize :: cs, ?_, ?_, ?_⟩
    · rw [h1, hp]; rfl
    · rw [List.flatten_cons, h2, ← hd, List.take_append_drop]
    · intro c hc
      rcases List.mem_cons.1 hc with rfl | hc
      · refine ⟨?_, hlen⟩
        intro h0
        rcases List.take_eq_nil_iff.1 h0 with h | h
        · rw [chunkSize_eq] at h; omega
        · exact hne h
      · exact h3 c hc

/-- **C07** for replacing a body: the packets carry at most 65535 bytes each and their
payloads concatenate to the body. -/
theorem C07_replace_body (order : Requests → Requests) (buf body : Bytes) :
    ∃ chunks : List Bytes, replaceBodyLoop order buf body = chunks.map (fun c => wire (0x62 :: c)) ∧
      chunks.flatten = body ∧ ∀ c ∈ chunks, c ≠ [] ∧ c.length ≤ 65535 :=
  replaceBodyLoop_spec order buf body

/-- **C07** for sending a body to a milter. -/
theorem C07_body (inet : Inet) (sort : MacroTable → MacroTable) (buf body : Bytes) :
    ∃ chunks : List Bytes, flushBodyLoop inet sort buf body = chunks.map (fun c => wire (0x42 :: c)) ∧
      chunks.flatten = body ∧ ∀ c ∈ chunks, c ≠ [] ∧ c.length ≤ 65535 := by
  fun_induction flushBodyLoop inet sort buf body with
  | case1 buf => exact ⟨[], rfl, rfl, by simp⟩
  | case2 buf rest hne p ih =>
    obtain ⟨cs, h1, h2, h3⟩ := ih
    have hlen : (rest.take chunkSize).length ≤ 65535 := by
      rw [List.length_take, chunkSize_eq]; exact Nat.min_le_left _ _
    have hp : p = wire (0x42 :: rest.take chunkSize) := by
      show encodeCommand inet sort buf (.body rest) = _
      simp only [encodeCommand, commandContent, clearsBuffer, if_true, List.nil_append]
      rw [pack_wire]
      rw [intLimit_eq, List.length_cons]; omega
    have hd : rest.take (bodyPackedSize rest) = rest.take chunkSize := by
      unfold bodyPackedSize
      split
      · rfl
      · rw [List.take_length, List.take_of_length_le (by omega)]
    refine ⟨rest.take chunkSize :: cs, ?_, ?_, ?_⟩
    · rw [h1, hp]; rfl
    · rw [List.flatten_cons, h2, ← hd, List.take_append_drop]
    · intro c hc
      rcases List.mem_cons.1 hc with rfl | hc
      · refine ⟨?_, hlen⟩
        intro h0
        rcases List.take_eq_nil_iff.1 h0 with h | h
        · rw [chunkSize_eq] at h; omega
        · exact hne h
      · exact h3 c hc

/-! ## C08 -/

/-- **C08**: decoding a define-macro packet that lists any definitions, repeated names
included, gives each name its last definition, braces stripped. -/
theorem C08_last_wins (inet : Inet) (ctx : UInt8) (es : MacroTable) (hc : ctx ∈ macroStages)
    (h : ∀ e ∈ es, IsCStr e.1 ∧ IsCStr (e.2.getD [])) :
    ∃ t, alone (CmdDec.decode inet) (0x44 :: ctx :: (es.map encodeMacro).flatten) =
        .ok (.defineMacro ctx t) ∧
      ∀ name, t.lookup name = (definitions es).reverse.lookup name := by
  refine ⟨_, CmdDec.decodeDefineMacro_rt ctx es hc h, fun n => ?_⟩
  rw [CmdDec.lookup_insertAll]
  simp

/-- **C08**: a macro table (distinct names up to braces) survives encode and decode,
whatever order the encoder writes it in. -/
theorem C08_table (inet : Inet) (hi : InetLaws inet) (sort : MacroTable → MacroTable)
    (hsort : ∀ t, (sort t).Perm t) (ctx : UInt8) (t : MacroTable) (hc : CmdOk (.defineMacro ctx t)) :
    ∃ t', alone (CmdDec.decode inet) (commandContent inet sort (.defineMacro ctx t)) =
        .ok (.defineMacro ctx t') ∧
      ∀ name, t'.lookup name = (definitions t).lookup name := by
  obtain ⟨c', h1, h2⟩ := CmdDec.decode_content inet hi sort hsort _ hc
  cases c' with
  | defineMacro ctx' t' =>
    obtain ⟨rfl, h2⟩ := h2
    exact ⟨t', h1, h2⟩
  | _ => simp [SameCmd] at h2

example : definitions [(ascii "{mail_addr}", some (ascii "a")), (ascii "mail_addr", some (ascii "b")),
    (ascii "i", none)] =
    [(ascii "mail_addr", some (ascii "a")), (ascii "mail_addr", some (ascii "b")), (ascii "i", some [])] := by
  decide

/-! ## C09 -/

/-- One line of a reply: code, enhanced code if any, text. -/
def replyLine (code : Nat) (ext : Option Bytes) (text : Bytes) : Bytes :=
  decimal code ++ (match ext with | none => [] | some e => 0x20 :: e) ++ 0x20 :: text

/-- **C09**, formatting: a message of one or more non-empty lines, separated by LF or by
CR LF, becomes one reply line per line with the same codes. -/
theorem C09_lines (code : Nat) (h1 : 100 ≤ code) (h2 : code < 1000) (ext : Option Bytes)
    (lines : List Bytes) (h0 : lines ≠ []) (hl : ∀ l ∈ lines, OneLine l) (crlf : Bool) :
    ReplyCode.format code ext (some (joinWith (if crlf then [0x0d, 0x0a] else [0x0a]) lines)) =
      some (joinWith [0x0d, 0x0a] (lines.map (replyLine code ext))) := by
  have fl : ∀ l, OneLine l → ReplyCode.formatLine code ext l = replyLine code ext l := by
    intro l hl
    unfold ReplyCode.formatLine replyLine ReplyCode.stripCR
    rw [if_neg hl.2.1, if_neg hl.2.2.2, decimal3_three code h1 h2]
    rfl
  have flcr : ∀ l, OneLine l → ReplyCode.formatLine code ext (l ++ [0x0d]) = replyLine code ext l := by
    intro l hl
    unfold ReplyCode.formatLine replyLine ReplyCode.stripCR
    rw [if_neg (by simp), if_pos (by simp), decimal3_three code h1 h2, List.dropLast_concat]
    rfl
  unfold ReplyCode.format
  rw [if_neg (by omega), Option.getD_some]
  have hne : joinWith (if crlf then [0x0d, 0x0a] else [0x0a]) lines ≠ [] := by
    match lines, h0, hl with
    | [a], _, hl => exact (hl a (by simp)).2.1
    | a :: b :: ls, _, hl =>
      have := (hl a (by simp)).2.1
      simp [joinWith, this]
  rw [strsplit, if_neg hne]
  congr 2
  cases crlf with
  | false =>
    simp only [Bool.false_eq_true, if_false]
    rw [splitOn_join 0x0a lines h0 (fun a ha => (hl a ha).2.2.1)]
    exact List.map_congr_left (fun l h => fl l (hl l h))
  | true =>
    simp only [if_true]
    clear hne
    induction lines with
    | nil => exact absurd rfl h0
    | cons a ls ih =>
      cases ls with
      | nil =>
        rw [joinWith, splitOn_noSep _ _ (hl a (by simp)).2.2.1]
        simp [fl a (hl a (by simp))]
      | cons b ls =>
        have ih' := ih (by simp) (fun l h => hl l (List.mem_cons_of_mem _ h))
        have e : joinWith [0x0d, 0x0a] (a :: b :: ls) =
            (a ++ [0x0d]) ++ 0x0a :: joinWith [0x0d, 0x0a] (b :: ls) := by simp [joinWith]
        rw [e, splitOn_append _ _ _ (by
          intro hm
          rcases List.mem_append.1 hm with hm | hm
          · exact (hl a (by simp)).2.2.1 hm
          · simp at hm), List.map_cons, ih', flcr a (hl a (by simp))]
        simp

/-- **C09**, transport of a single-line reply that has an enhanced code. -/
theorem C09_transport_partial (code : Nat) (ext msg : Bytes) (h1 : 400 ≤ code) (h2 : code < 600)
    (he : IsCStr ext) (hb : (0x20 : UInt8) ∉ ext) (hm : OneLine msg) :
    ∃ text, ReplyCode.format code (some ext) (some msg) = some text ∧
      alone RepDec.decode (0x79 :: (text ++ [0])) = .ok (.replyCode code ext (some msg)) :=
  ⟨_, RepDec.format_oneLine code ext msg hm (by omega),
    RepDec.decodeReplyCode_rt code ext msg h1 h2 he hb hm⟩

example : OneLine (ascii "try again later") ∧ IsCStr (ascii "4.7.1") ∧ (0x20 : UInt8) ∉ ascii "4.7.1" := by
  simp only [OneLine, IsCStr]; decide

/-- **C09 is violated** without an enhanced code: the first word of the message comes back
as the enhanced code. -/
theorem C09_no_extended_violated :
    ∃ text, ReplyCode.format 450 none (some (ascii "try later")) = some text ∧
      alone RepDec.decode (0x79 :: (text ++ [0])) =
        .ok (.replyCode 450 (ascii "try") (some (ascii "later"))) := by
  refine ⟨ascii "450 try later", ?_, by decide⟩
  have := C09_lines 450 (by decide) (by decide) none [ascii "try later"] (by simp) (by
    simp only [List.mem_singleton, forall_eq, OneLine, IsCStr]; decide) false
  have e : joinWith (if false then [0x0d, 0x0a] else [0x0a]) [ascii "try later"] = ascii "try later" := rfl
  rw [e] at this
  rw [this]
  simp only [List.map_cons, List.map_nil, joinWith, replyLine, decimal_three 450 (by decide) (by decide)]
  decide

/-- and a reply without message is transmitted as two lines -/
theorem C09_no_message_violated :
    ReplyCode.format 450 (some (ascii "4.3.2")) none = some (ascii "450 4.3.2\r\n450 4.3.2") := by
  have e : strsplit 0x0a ((none : Option Bytes).getD [0x0a]) = [[], []] := by decide
  unfold ReplyCode.format
  rw [if_neg (by decide), e]
  simp only [List.map_cons, List.map_nil, joinWith, ReplyCode.formatLine, if_true,
    decimal3_three 450 (by decide) (by decide), decimal_three 450 (by decide) (by decide)]
  decide

end Verif.Props
