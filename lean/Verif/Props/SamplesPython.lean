import Verif.Client.SamplesPython
import Verif.Props.Samples
import Verif.Props.Python
/-
The sample milter of the Python binding that changes messages: milter-replace.py (C152).
-/
namespace Verif.Props.SamplesPython
open Verif Verif.Python Verif.Samples Verif.Spec.Samples Verif.Client Verif.Spec.Client Verif.Props.Samples
open Verif.Ruby (Value Modification Act Prog Callback Part Said Session Outcome)
open Verif.Spec.Ruby (Only plain doings Decides orderly next)
open Verif.Spec.Python (meaning meant Keeps QuietAbort)
open Verif.Enc (encodeReplies pack)
open Verif.Spec (Pointwise)

variable {σ : Type}

/-! ### Texts -/

theorem ascii_next (b : UInt8) (h : b.toNat < 0x80) (rest : Bytes) : decodes 0 0 0 (b :: rest) = decodes 0 0 0 rest := by
  rw [decodes, if_pos rfl]
  unfold leads
  rw [if_pos h]

theorem more_next (left lo hi : Nat) (b : UInt8) (h : lo ≤ b.toNat ∧ b.toNat ≤ hi) (rest : Bytes) : decodes (left + 1) lo hi (b :: rest) = decodes left 0x80 0xbf rest := by
  rw [decodes, if_neg (Nat.succ_ne_zero _), decide_eq_true h]
  rfl

theorem none_left (lo hi : Nat) (rest : Bytes) : decodes 0 lo hi rest = decodes 0 0 0 rest := by
  cases rest <;> rfl

theorem byte_nat (n : Nat) (h : n < 256) : n.toUInt8.toNat = n := by
  show (UInt8.ofNat n).toNat = n
  rw [UInt8.toNat_ofNat']
  omega

theorem character_next (n : Nat) (h : Scalar n) (rest : Bytes) : decodes 0 0 0 (utf8 n ++ rest) = decodes 0 0 0 rest := by
  unfold Scalar at h
  unfold utf8
  split
  · exact ascii_next _ (by rw [byte_nat _ (by omega)]; omega) rest
  split
  · show decodes 0 0 0 (_ :: _ :: rest) = _
    rw [decodes, if_pos rfl, byte_nat _ (by omega)]
    have e : leads (0xc0 + n / 64) = some (1, 0x80, 0xbf) := by
      unfold leads
      rw [if_neg (by omega), if_neg (by omega), if_pos (by omega)]
    rw [e]
    dsimp only
    rw [more_next _ _ _ _ (by rw [byte_nat _ (by omega)]; omega), none_left]
  split
  · show decodes 0 0 0 (_ :: _ :: _ :: rest) = _
    rw [decodes, if_pos rfl, byte_nat _ (by omega)]
    by_cases h0 : n / 4096 = 0
    · have e : leads (0xe0 + n / 4096) = some (2, 0xa0, 0xbf) := by
        rw [h0]; rfl
      rw [e]
      dsimp only
      rw [more_next _ _ _ _ (by rw [byte_nat _ (by omega)]; omega), more_next _ _ _ _ (by rw [byte_nat _ (by omega)]; omega), none_left]
    · by_cases h1 : n / 4096 = 13
      · have e : leads (0xe0 + n / 4096) = some (2, 0x80, 0x9f) := by
          rw [h1]; rfl
        rw [e]
        dsimp only
        rw [more_next _ _ _ _ (by rw [byte_nat _ (by omega)]; omega), more_next _ _ _ _ (by rw [byte_nat _ (by omega)]; omega), none_left]
      · have e : leads (0xe0 + n / 4096) = some (2, 0x80, 0xbf) := by
          unfold leads
          rw [if_neg (by omega), if_neg (by omega), if_neg (by omega), if_neg (by omega), if_neg (by omega), if_pos (by omega)]
        rw [e]
        dsimp only
        rw [more_next _ _ _ _ (by rw [byte_nat _ (by omega)]; omega), more_next _ _ _ _ (by rw [byte_nat _ (by omega)]; omega), none_left]
  · show decodes 0 0 0 (_ :: _ :: _ :: _ :: rest) = _
    rw [decodes, if_pos rfl, byte_nat _ (by omega)]
    by_cases h0 : n / 262144 = 0
    · have e : leads (0xf0 + n / 262144) = some (3, 0x90, 0xbf) := by
        rw [h0]; rfl
      rw [e]
      dsimp only
      rw [more_next _ _ _ _ (by rw [byte_nat _ (by omega)]; omega), more_next _ _ _ _ (by rw [byte_nat _ (by omega)]; omega),
        more_next _ _ _ _ (by rw [byte_nat _ (by omega)]; omega), none_left]
    · by_cases h1 : n / 262144 = 4
      · have e : leads (0xf0 + n / 262144) = some (3, 0x80, 0x8f) := by
          rw [h1]; rfl
        rw [e]
        dsimp only
        rw [more_next _ _ _ _ (by rw [byte_nat _ (by omega)]; omega), more_next _ _ _ _ (by rw [byte_nat _ (by omega)]; omega),
          more_next _ _ _ _ (by rw [byte_nat _ (by omega)]; omega), none_left]
      · have e : leads (0xf0 + n / 262144) = some (3, 0x80, 0xbf) := by
          unfold leads
          rw [if_neg (by omega), if_neg (by omega), if_neg (by omega), if_neg (by omega), if_neg (by omega), if_neg (by omega), if_neg (by omega), if_pos (by omega)]
        rw [e]
        dsimp only
        rw [more_next _ _ _ _ (by rw [byte_nat _ (by omega)]; omega), more_next _ _ _ _ (by rw [byte_nat _ (by omega)]; omega),
          more_next _ _ _ _ (by rw [byte_nat _ (by omega)]; omega), none_left]

theorem text_decodes {b : Bytes} (h : Text b) : decodes 0 0 0 b = true := by
  obtain ⟨l, h1, rfl⟩ := h
  induction l with
  | nil => rfl
  | cons n l ih =>
    rw [List.flatMap_cons, character_next n (h1 n List.mem_cons_self)]
    exact ih fun m hm => h1 m (List.mem_cons_of_mem _ hm)

/-! ### Changes one after the other -/

theorem thenDo_sequence (a b : List Modification) : thenDo (σ := σ) a (thenDo b .done) = sequence (a ++ b) := by
  have key : ∀ b : List Modification, thenDo (σ := σ) b .done = sequence b := by
    intro b
    induction b with
    | nil => rfl
    | cons m b ih => unfold thenDo sequence; rw [ih]
  induction a with
  | nil => exact key b
  | cons m a ih => unfold thenDo; rw [ih]; rfl

theorem thenDo_plain (ms : List Modification) (p : Prog σ) (hp : Only plain p) (h : ∀ m ∈ ms, plain (.modify m) = true) : Only plain (thenDo ms p) := by
  induction ms with
  | nil => exact hp
  | cons m ms ih =>
    refine ⟨h m List.mem_cons_self, fun b => ?_⟩
    cases b with
    | true => exact ih fun x hx => h x (List.mem_cons_of_mem _ hx)
    | false => exact True.intro

theorem exec_sequence (order : Requests → Requests) (reset : σ → σ) (ms : List Modification) : ∀ (s : State) (v : Option Value) (x : σ), s.link = .ready →
    s.st = .doing .endOfMessage → (∀ m ∈ ms, accepted s.option m.call = true ∧ plain (.modify m) = true) →
    (exec order reset (sequence ms) s v x).did = ms.map (fun m => (.modify m, true)) ∧ (exec order reset (sequence ms) s v x).raised = false := by
  induction ms with
  | nil => exact fun _ _ _ _ _ _ => ⟨rfl, rfl⟩
  | cons m ms ih =>
    intro s v x hl hst hm
    obtain ⟨ha, hp⟩ := hm m List.mem_cons_self
    have hans : answers m.call = false := by cases m <;> rfl
    have hch : changes m.call = true := by
      cases m with
      | addRecipient a p => cases p <;> first | rfl | cases hp
      | _ => rfl
    have hrf : recipientFlagsAgree s.option m.call = true := by
      cases m with
      | addRecipient a p => cases p <;> first | rfl | cases hp
      | _ => rfl
    have hok : (call order s m.call).1 = true := (LibMilter.call_result order s hl m.call hch hrf).mpr ⟨hst, ha⟩
    obtain ⟨h1, h2⟩ := LibMilter.called_link order s m.call hans
    obtain ⟨i1, i2⟩ := ih (callNoted order s m.call) v x (h1.trans hl) ((LibMilter.called_st order s m.call hans).trans hst)
      (fun y hy => by rw [h2]; exact hm y (List.mem_cons_of_mem _ hy))
    have e : exec order reset (sequence (m :: ms)) s v x =
        { exec order reset (if (call order s m.call).1 then sequence ms else .raise : Prog σ) (callNoted order s m.call) v x with
          did := (.modify m, (call order s m.call).1) :: (exec order reset (if (call order s m.call).1 then sequence ms else .raise : Prog σ) (callNoted order s m.call) v x).did
          calls := [m.call] ++ (exec order reset (if (call order s m.call).1 then sequence ms else .raise : Prog σ) (callNoted order s m.call) v x).calls } := rfl
    rw [e, hok, if_pos rfl]
    exact ⟨by rw [List.map_cons]; exact congrArg _ i1, i2⟩

/-! ## C152: milter-replace.py -/

theorem replacePython_plain (patterns : List (Bytes → Bytes)) : Keeps plain (replacePython patterns) := by
  refine ⟨?_, fun _ => True.intro⟩
  intro what p h
  cases what <;> first | (cases h; done) | skip
  · cases h; exact fun _ => True.intro
  · cases h; exact fun _ => True.intro
  · cases h
    refine fun x => thenDo_plain _ _ ?_ ?_
    · split
      · refine thenDo_plain _ _ True.intro ?_
        intro m hm
        obtain ⟨g, _, hm⟩ := List.mem_flatMap.mp hm
        by_cases h : x.body = g x.body
        · rw [if_pos h] at hm; cases hm
        · rw [if_neg h] at hm; cases hm with | head => rfl | tail _ h => cases h
      · exact True.intro
    · intro m hm
      generalize (fun _ : Bytes => 0) = indexes at hm
      generalize x.headers = hs at hm
      induction hs generalizing indexes with
      | nil => cases hm
      | cons h hs ih =>
        unfold headerChanges at hm
        rcases List.mem_append.mp hm with hm | hm
        · cases hf : firstOf patterns h.2 with
          | none => rw [hf] at hm; cases hm
          | some v => rw [hf] at hm; cases hm with | head => rfl | tail _ h => cases h
        · exact ih _ hm

/-- what the milter keeps, as long as no message has ended -/
theorem replacePython_kept (order : Requests → Requests) (fallback : Value) (patterns : List (Bytes → Bytes)) (cmds : List Cmd) : ∀ (begun : Bool) (m : Mail) (x : Session Kept),
    (begun = true → x.own = ⟨m.headers, m.body⟩) → (begun = false → x.own = {}) → orderly begun cmds = true → (∀ last, Cmd.endOfMessage last ∉ cmds) →
    cmds.foldl next begun = true →
    (run order fallback ((replacePython patterns).object order) x cmds).own = ⟨(cmds.foldl further m).headers, (cmds.foldl further m).body⟩ := by
  induction cmds with
  | nil => exact fun begun m x h1 _ _ _ hb => h1 hb
  | cons c cmds ih =>
    intro begun m x h1 h0 ho he hb
    unfold orderly at ho
    rw [Bool.and_eq_true] at ho
    have ho1 := ho.1
    have he' : ∀ last, Cmd.endOfMessage last ∉ cmds := fun last h => he last (List.mem_cons_of_mem _ h)
    refine ih (next begun c) (further m c) (receive order fallback ((replacePython patterns).object order) x c) ?_ ?_ ho.2 he' hb
    · intro hn
      cases c with
      | quit => cases ho1
      | endOfMessage a => exact absurd List.mem_cons_self (he a)
      | abort => cases hn
      | envelopeFrom a => exact h0 (by cases begun <;> first | rfl | cases ho1)
      | header n v =>
        have := h1 hn
        show Kept.mk (x.own.headers ++ [(n, v)]) x.own.body = _
        rw [this]
        rfl
      | body chunk =>
        have := h1 hn
        cases chunk with
        | nil =>
          show x.own = Kept.mk m.headers (m.body ++ [])
          rw [this, List.append_nil]
        | cons b chunk =>
          show Kept.mk x.own.headers (x.own.body ++ b :: chunk) = _
          rw [this]
          rfl
      | _ => exact h1 hn
    · intro hn
      cases c with
      | quit => cases ho1
      | endOfMessage a => exact absurd List.mem_cons_self (he a)
      | abort => rfl
      | envelopeFrom a => cases hn
      | header n v => have hn : begun = false := hn; rw [hn] at ho1; cases ho1
      | body chunk => have hn : begun = false := hn; rw [hn] at ho1; cases ho1
      | _ => exact h0 hn

/-- **C152**: at the end of the first message that gets so far in a session, whatever was aborted before, the MTA reads replies that make of the message the one with everything the patterns match replaced, as in C146, if
its body is a text in UTF-8.  Then the message goes on.
Missing: other bodies (`C152_encoding_violated`), later messages of a session (`C152_next_violated`), a part of the body that comes with the end of the message (`C152_last_violated`), names spelled in several ways and several
patterns that change the body (as in C146), patterns that leave nothing, MTAs that do not offer to change headers and body. -/
theorem C152_partial (order : Requests → Requests) (fallback : Value) (hfb : fallback.toStatus ≠ .progress) (patterns : List (Bytes → Bytes)) (n : Nat) (l : Link) (cmds : List Cmd)
    (ho : orderly false cmds = true) (hbegun : cmds.foldl next false = true) (hfirst : ∀ last, Cmd.endOfMessage last ∉ cmds)
    (x : Session Kept) (hx : x = run order fallback ((replacePython patterns).object order) (.start ((replacePython patterns).object order) (new n l)) cmds) (hl : x.context.link = .ready)
    (hflags : hasFlag (negotiated x.context.log) 0x10 = true ∧ hasFlag (negotiated x.context.log) 0x02 = true) (htext : Text (shown cmds).body)
    (hsp : OneSpelling (shown cmds)) (hne : ∀ g ∈ patterns, ∀ v, g v = [] → v = []) (hone : (patterns.filter fun g => g (shown cmds).body ≠ (shown cmds).body).length ≤ 1) :
    ∃ read : List Reply,
      written (receive order fallback ((replacePython patterns).object order) x (.endOfMessage [])).context.log = written x.context.log ++ (encodeReplies order [] read).flatten ∧
      copyAfter (shown cmds) read = (shown cmds).replaced patterns ∧ (read.filter (· ≠ .progress)).getLast? = some .cont := by
  have hq : Cmd.quit ∉ cmds := by
    clear hx hsp hone hbegun hfirst htext
    generalize false = b at ho
    induction cmds generalizing b with
    | nil => exact fun h => nomatch h
    | cons c cmds ih =>
      unfold orderly at ho
      rw [Bool.and_eq_true] at ho
      intro h
      cases h with
      | head => cases ho.1
      | tail _ h => exact ih _ ho.2 h
  have ha : QuietAbort (replacePython patterns) := fun g h => nomatch h
  have hown : x.own = ⟨(shown cmds).headers, (shown cmds).body⟩ := by
    rw [hx]
    exact replacePython_kept order fallback patterns cmds false {} _ (fun h => nomatch h) (fun _ => rfl) ho hfirst hbegun
  have hopt : x.context.option = negotiated x.context.log := by
    have hg : Ruby.Good (cast x) := by
      rw [hx, run_eq order fallback _ ha, ← shadow_run order fallback _ cmds _ hq]
      exact (Ruby.Good.start _ n l).run (fun _ h => h.2) hfb (honest order none fallback hfb _ (replacePython_plain patterns)) cmds hq
    exact hg.calm.settled.agrees.option
  obtain ⟨said, h1, d, h2, h3⟩ := Python.C142_partial order fallback hfb (replacePython patterns) (replacePython_plain patterns) ha n l cmds hq x hx hl (.endOfMessage []) (fun _ h => nomatch h)
    (fun h => nomatch h) _ rfl
  let ms := headerChanges patterns (fun _ => 0) (shown cmds).headers ++ bodyChanges patterns (shown cmds).body
  have hacc : ∀ y ∈ ms, accepted (negotiated x.context.log) y.call = true ∧ plain (.modify y) = true := by
    intro y hy
    rcases List.mem_append.mp hy with hy | hy
    · exact headerChanges_calls _ hflags.1 patterns _ _ y hy
    · exact bodyChanges_calls _ hflags.2 patterns _ y hy
  have hprog : (replacePython patterns).endOfMessage = some (.own id fun x => thenDo (headerChanges patterns (fun _ => 0) x.headers)
    (if patterns.isEmpty || decodes 0 0 0 x.body then thenDo (bodyChanges patterns x.body) .done else .raise)) := rfl
  have hs := exec_sequence order (replacePython patterns).reset ms (enter (x.context.note (.got (.endOfMessage []))) .endOfMessage (some 0x45)) x.status x.own hl rfl
    (fun y hy => by
      refine ⟨?_, (hacc y hy).2⟩
      show accepted x.context.option _ = true
      rw [hopt]
      exact (hacc y hy).1)
  have hrun : exec order (replacePython patterns).reset (.own id fun x => thenDo (headerChanges patterns (fun _ => 0) x.headers)
      (if patterns.isEmpty || decodes 0 0 0 x.body then thenDo (bodyChanges patterns x.body) .done else .raise))
      (enter (x.context.note (.got (.endOfMessage []))) .endOfMessage (some 0x45)) x.status x.own =
      exec order (replacePython patterns).reset (sequence ms) (enter (x.context.note (.got (.endOfMessage []))) .endOfMessage (some 0x45)) x.status x.own := by
    show exec order _ (thenDo (headerChanges patterns (fun _ => 0) x.own.headers)
      (if patterns.isEmpty || decodes 0 0 0 x.own.body then thenDo (bodyChanges patterns x.own.body) .done else .raise)) _ _ x.own = _
    have e : thenDo (headerChanges patterns (fun _ => 0) x.own.headers)
      (if patterns.isEmpty || decodes 0 0 0 x.own.body then thenDo (bodyChanges patterns x.own.body) .done else .raise) = sequence (σ := Kept) ms := by
      rw [hown]
      dsimp only
      rw [text_decodes htext, Bool.or_true, if_pos rfl, thenDo_sequence]
    rw [e]
  have hsaid : said = [⟨.endOfMessage, [⟨0, ms.map (fun m => (.modify m, true)), false⟩]⟩] := by
    have e : (receive order fallback ((replacePython patterns).object order) x (.endOfMessage [])).seen = x.seen ++
        [⟨.endOfMessage, ((replacePython patterns).event order .endOfMessage (.own id fun x => thenDo (headerChanges patterns (fun _ => 0) x.headers)
          (if patterns.isEmpty || decodes 0 0 0 x.body then thenDo (bodyChanges patterns x.body) .done else .raise))
          (enter (x.context.note (.got (.endOfMessage []))) .endOfMessage (some 0x45)) x.status x.own).parts⟩] := rfl
    rw [e] at h1
    rw [← List.append_cancel_left h1]
    unfold Class.event
    rw [hrun]
    dsimp only
    rw [hs.2, hs.1]
    rfl
  have hmean : meaning said = said := by
    rw [hsaid]
    have key : ∀ ms : List Modification, (ms.map (fun m => ((.modify m, true) : Act × Bool))).filterMap meant = ms.map (fun m => (.modify m, true)) := by
      intro ms
      induction ms with
      | nil => rfl
      | cons m ms ih => exact congrArg _ ih
    show [(⟨.endOfMessage, [⟨0, (ms.map (fun m => ((.modify m, true) : Act × Bool))).filterMap meant, false⟩]⟩ : Said)] = _
    rw [key]
  rw [hmean] at h2 h3
  obtain ⟨read, parts, k1, k2, k3⟩ := changes_read fallback ms _ _ [] d said hsaid _ h2 h3 fun y hy => (hacc y hy).1
  exact ⟨read, k1, changes_copy patterns hne _ hsp hone read parts k2 k3⟩

/-- the hypotheses of C152, and what is written -/
example : orderly false Samples.sample = true ∧ Samples.sample.foldl next false = true ∧ (∀ last, Cmd.endOfMessage last ∉ Samples.sample) ∧ Text (shown Samples.sample).body ∧ OneSpelling (shown Samples.sample) ∧
    ([xs, ys].filter fun g => g (shown Samples.sample).body ≠ (shown Samples.sample).body).length ≤ 1 ∧
    let m := (replacePython [xs, ys]).object id
    let x := run id (.name .accept false) m (.start m (new 0 .ready)) Samples.sample
    x.context.link = .ready ∧ hasFlag (negotiated x.context.log) 0x10 = true ∧ hasFlag (negotiated x.context.log) 0x02 = true ∧
    written (receive id (.name .accept false) m x (.endOfMessage [])).context.log = written x.context.log ++
      (encodeReplies id [] [.changeHeader (ascii "s") 2 (ascii "X"), .changeHeader (ascii "t") 1 (ascii "w X"), .replaceBody (ascii "aXb"), .cont]).flatten := by
  refine ⟨by decide +kernel, by decide +kernel, by simp [Samples.sample], ⟨[0x61, 0x76, 0x62], ?_, by decide +kernel⟩, by unfold OneSpelling; decide +kernel, by decide +kernel, by decide +kernel⟩
  unfold Scalar
  decide +kernel

/-- a text with characters of one to four bytes -/
example : ([0x61, 0xe9, 0x20ac, 0x1f600] : List Nat).flatMap utf8 = [0x61, 0xc3, 0xa9, 0xe2, 0x82, 0xac, 0xf0, 0x9f, 0x98, 0x80] := by
  decide +kernel

/-- **C152 is violated**: a body that is no text in UTF-8 raises, after the headers were changed: what the patterns match in the body stays, and the message is accepted with the fallback status. -/
theorem C152_encoding_violated :
    let m := (replacePython [xs]).object id
    let cmds : List Cmd := [.negotiate ⟨6, 0x1ff, 0⟩, .envelopeFrom (ascii "<a@b>"), .header (ascii "s") (ascii "viagra"), .body (ascii "viagra" ++ [0xe9])]
    let x := run id (.name .accept false) m (.start m (new 0 .ready)) cmds
    let read : List Reply := [.changeHeader (ascii "s") 1 (ascii "Xiagra"), .accept]
    written (receive id (.name .accept false) m x (.endOfMessage [])).context.log = written x.context.log ++ (encodeReplies id [] read).flatten ∧
    copyAfter (shown cmds) read = ⟨[(ascii "s", ascii "Xiagra")], ascii "viagra" ++ [0xe9]⟩ := by
  decide +kernel

/-- **C152 is violated**: nothing of a message is forgotten when it goes on, so the body of the next message in the session becomes that of both. -/
theorem C152_next_violated :
    let m := (replacePython [xs]).object id
    let x := run id (.name .accept false) m (.start m (new 0 .ready))
      [.negotiate ⟨6, 0x1ff, 0⟩, .envelopeFrom (ascii "<a@b>"), .body (ascii "secret"), .endOfMessage [], .envelopeFrom (ascii "<c@d>"), .body (ascii "viagra")]
    written (receive id (.name .accept false) m x (.endOfMessage [])).context.log =
      written x.context.log ++ (encodeReplies id [] [.replaceBody (ascii "secretXiagra"), .cont]).flatten := by
  decide +kernel

/-- **C152 is violated**: what comes with the end of the message is not shown to the milter, so it is gone from the message. -/
theorem C152_last_violated :
    let m := (replacePython [xs]).object id
    let cmds : List Cmd := [.negotiate ⟨6, 0x1ff, 0⟩, .envelopeFrom (ascii "<a@b>"), .body (ascii "viagra")]
    let x := run id (.name .accept false) m (.start m (new 0 .ready)) cmds
    let read : List Reply := [.replaceBody (ascii "Xiagra"), .cont]
    written (receive id (.name .accept false) m x (.endOfMessage (ascii " and more"))).context.log = written x.context.log ++ (encodeReplies id [] read).flatten ∧
    (copyAfter { shown cmds with body := (shown cmds).body ++ ascii " and more" } read).body = ascii "Xiagra" := by
  decide +kernel

end Verif.Props.SamplesPython
