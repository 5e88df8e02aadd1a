import Verif.Props.SamplesRefuse
/-
The sample milter against senders that are no senders: milter-reject-nil-sender.rb (C151).
-/
namespace Verif.Props.Samples
open Verif Verif.Ruby Verif.Samples Verif.Spec.Samples Verif.Client Verif.Spec.Client
open Verif.Spec.Ruby (Keeps Only plain doings Decides Decision orderly next means)
open Verif.Enc (encodeReplies pack)

theorem wordByte_iff (b : UInt8) : wordByte b = true ↔ b ∈ inWords := by
  have key : ∀ c : Fin 256, wordByte (UInt8.ofFin c) = true ↔ UInt8.ofFin c ∈ inWords := by decide +kernel
  exact key b.toFin

theorem wordByte_false (b : UInt8) : wordByte b = false ↔ b ∉ inWords := by
  rw [← wordByte_iff]
  cases wordByte b <;> simp

/-- the pattern, from some place on -/
theorem nilFrom_iff (v : Bytes) : ∀ inWord : Bool, nilFrom inWord v = true ↔
    ∃ a b, v = a ++ ascii "nil" ++ b ∧ (a = [] → inWord = false) ∧ (∀ c, a.getLast? = some c → c ∉ inWords) ∧ (∀ c, b.head? = some c → c ∉ inWords) := by
  induction v with
  | nil =>
    intro inWord
    refine ⟨(fun h => nomatch h), (fun ⟨a, b, h, _⟩ => ?_)⟩
    have := congrArg List.length h
    simp [ascii] at this
  | cons x rest ih =>
    intro inWord
    unfold nilFrom
    rw [Bool.or_eq_true, ih]
    constructor
    · rintro (h | ⟨a, b, h1, h2, h3, h4⟩)
      · rw [Bool.and_eq_true, Bool.and_eq_true] at h
        refine ⟨[], rest.drop 2, ?_, (fun _ => ?_), (fun _ h => nomatch h), ?_⟩
        · rw [← eq_of_beq h.1.2]
          show x :: rest = (x :: rest.take 2) ++ rest.drop 2
          rw [List.cons_append, List.take_append_drop]
        · have := h.1.1
          cases inWord <;> first | rfl | cases this
        · intro c hc
          have := h.2
          rw [hc] at this
          rw [← wordByte_false]
          exact (Bool.not_eq_true' _).mp this
      · refine ⟨x :: a, b, by rw [h1]; rfl, (fun h => nomatch h), ?_, h4⟩
        intro c hc
        cases a with
        | nil =>
          cases hc
          exact (wordByte_false _).mp (h2 rfl)
        | cons y a => exact h3 c (by rw [List.getLast?_cons_cons] at hc; exact hc)
    · rintro ⟨a, b, h1, h2, h3, h4⟩
      cases a with
      | nil =>
        left
        have e : x :: rest = (0x6e : UInt8) :: 0x69 :: 0x6c :: b := h1
        cases e
        rw [h2 rfl]
        show (true && (((0x6e : UInt8) :: [0x69, 0x6c]) == ascii "nil") && !(b.head?.any wordByte)) = true
        cases hb : b.head? with
        | none => decide +kernel
        | some c =>
          have : wordByte c = false := (wordByte_false c).mpr (h4 c hb)
          show (true && (((0x6e : UInt8) :: [0x69, 0x6c]) == ascii "nil") && !(wordByte c)) = true
          rw [this]
          decide +kernel
      | cons y a =>
        right
        cases h1
        refine ⟨a, b, rfl, ?_, ?_, h4⟩
        · intro ha
          subst ha
          exact (wordByte_false _).mpr (h3 _ rfl)
        · intro c hc
          cases a with
          | nil => cases hc
          | cons z a => exact h3 c (by rw [List.getLast?_cons_cons]; exact hc)

theorem nil_iff (v : Bytes) : nilFrom false v = true ↔ HasWord (ascii "nil") v := by
  rw [nilFrom_iff]
  exact ⟨fun ⟨a, b, h1, _, h3, h4⟩ => ⟨a, b, h1, h3, h4⟩, fun ⟨a, b, h1, h3, h4⟩ => ⟨a, b, h1, fun _ => rfl, h3, h4⟩⟩

theorem rejectNilSender_plain : Keeps plain rejectNilSender := by
  intro what p h
  cases what <;> first | (cases h; done) | skip
  cases h
  show Only plain (if _ then _ else _)
  split
  · refine ⟨rfl, fun b => ?_⟩
    cases b <;> exact True.intro
  · exact True.intro

open Classical in
/-- **C151**: in every session, at every point, the MTA reads for a header a refusal with the reason if it is `Sender` and has the word "nil", and else that the message goes on; and so it does for every other command it waits
for the answer of.
Missing: other spellings of the name, `C151_spelling_violated`. -/
theorem C151_partial (order : Requests → Requests) (fallback : Value) (hfb : fallback.toStatus ≠ .progress) (n : Nat) (l : Link) (cmds : List Cmd) (hq : Cmd.quit ∉ cmds)
    (x : Session Unit) (hx : x = run order fallback (rejectNilSender.object order) (.start (rejectNilSender.object order) (new n l)) cmds) (hl : x.context.link = .ready)
    (c : Cmd) (hc : expectsReply c = true) (hs : ∀ name value, c = .header name value → sameName name (ascii "Sender") = true → name = ascii "Sender") :
    ∃ read, written (receive order fallback (rejectNilSender.object order) x c).context.log = written x.context.log ++ (encodeReplies order [] read).flatten ∧
      read.filter (· ≠ .progress) =
        [if ∃ name value, c = .header name value ∧ sameName name (ascii "Sender") = true ∧ HasWord (ascii "nil") value
          then .replyCode 550 (ascii "5.7.1") (some (ascii "broken Sender header")) else .cont] := by
  have hg : Ruby.Good x := by
    rw [hx]
    exact (Good.start _ n l).run (fun _ h => h.2) hfb (rejectNilSender.honest order none fallback hfb rejectNilSender_plain) cmds hq
  have hlegal : Spec.LegalReply 550 (some (ascii "5.7.1")) := (Props.C10_accepts {} 550 (some (ascii "5.7.1")) (some (ascii "broken Sender header"))).mp (by decide +kernel)
  have hok : ∀ s : State, (call order s (.setReply 550 (some (ascii "5.7.1")) (some (ascii "broken Sender header")))).1 = true :=
    fun s => (Props.C10_accepts s.custom _ _ (some (ascii "broken Sender header"))).mpr hlegal
  -- commands without a callback
  have other : (∀ name value, c ≠ .header name value) → ∃ read, written (receive order fallback (rejectNilSender.object order) x c).context.log =
      written x.context.log ++ (encodeReplies order [] read).flatten ∧ read.filter (· ≠ .progress) = [.cont] := by
    intro hh
    have h1 : ∀ o, c ≠ .negotiate o := fun o h => by rw [h] at hc; cases hc
    have h2 : c ≠ .quit := fun h => by rw [h] at hc; cases hc
    obtain ⟨said, k1, d, k2, k3⟩ := hg.read hfb (rejectNilSender.honest order _ fallback hfb rejectNilSender_plain) hl c h1 h2
    have hsaid : said = [] := by
      have e : (receive order fallback (rejectNilSender.object order) x c).seen = x.seen ++ (handle fallback (rejectNilSender.object order) x c).seen := by
        rw [Ruby.receive_eq order fallback _ x c h2]
      rw [e] at k1
      rw [← List.append_cancel_left k1]
      cases c <;> first | rfl | exact absurd rfl (hh _ _) | (cases hc; done)
    subst hsaid
    have hd : d = .default ∨ d = .continue_ := k2 hc
    have hr : hasReply d = true ∧ ∀ custom, finalReply custom d = some .cont := by
      rcases hd with h | h <;> (rw [h]; exact ⟨rfl, fun _ => rfl⟩)
    obtain ⟨read, k4, k5⟩ := k3 fun _ => hr.1
    refine ⟨read, k5, ?_⟩
    unfold Fits at k4
    rw [if_pos hc] at k4
    obtain ⟨parts, r, k6, k7⟩ := k4
    rw [hr.2] at k6
    cases k6
    cases c <;> first | (cases hc; done) | exact k7 | skip
    obtain ⟨k7, k8⟩ := k7
    cases k7
    exact k8
  by_cases hh : ∃ name value, c = .header name value
  · obtain ⟨name, value, rfl⟩ := hh
    have hcall : rejectNilSender.callback (.header name value) = some (if name = ascii "Sender" ∧ nilFrom false value = true then
      .act (.reject { reason := some (ascii "broken Sender header") }) fun ok => if ok then .done else .raise else .done) := rfl
    by_cases hb : name = ascii "Sender" ∧ nilFrom false value = true
    · rw [if_pos ⟨name, value, rfl, by rw [hb.1]; exact sameName_refl _, (nil_iff value).mp hb.2⟩]
      rw [if_pos hb] at hcall
      refine answer_read order fallback hfb rejectNilSender rejectNilSender_plain x hg hl (.header name value) (.header name value) rfl _ hcall
        [(.reject { reason := some (ascii "broken Sender header") }, true)] ?_ (fun y hy => ⟨_, _, _, List.mem_singleton.mp hy⟩) _ ?_
      · intro s
        have hperf : ∀ own : Unit, (perform order rejectNilSender.reset s x.status own (.reject { reason := some (ascii "broken Sender header") })).ok = true := by
          intro own
          show (refuse ..).ok = true
          unfold refuse
          dsimp only
          rw [if_pos (show (none : Option Nat).isSome = true ∨ (none : Option Bytes).isSome = true ∨ (some (ascii "broken Sender header")).isSome = true from .inr (.inr rfl))]
          split <;> exact hok s
        unfold Prog.exec
        dsimp only
        rw [hperf]
        exact ⟨rfl, rfl⟩
      · intro d hdec
        have h : d ∈ [Status.reject] ∧ _ := hdec
        rw [List.mem_singleton.mp h.1]
        refine ⟨rfl, ?_⟩
        have hc : customAfter none (doings x.seen ++ [(Act.reject { reason := some (ascii "broken Sender header") }, true)].flatMap fun d => means d.1) =
            some (550, some (ascii "5.7.1"), some (ascii "broken Sender header")) := by
          rw [customAfter_append]
          exact if_pos hlegal
        rw [hc]
        rfl
    · rw [if_neg (by
        rintro ⟨name', value', h1, h2, h3⟩
        cases h1
        exact hb ⟨hs name value rfl h2, (nil_iff value).mpr h3⟩)]
      rw [if_neg hb] at hcall
      refine answer_read order fallback hfb rejectNilSender rejectNilSender_plain x hg hl (.header name value) (.header name value) rfl _ hcall [] ?_ (fun y hy => nomatch hy) _ ?_
      · exact fun s => ⟨rfl, rfl⟩
      · intro d hdec
        have h : d = .default ∨ d = .continue_ := hdec
        rcases h with h | h <;> (rw [h]; exact ⟨rfl, rfl⟩)
  · rw [if_neg (fun ⟨name, value, h, _⟩ => hh ⟨name, value, h⟩)]
    exact other fun name value h => hh ⟨name, value, h⟩

/-- a session, and what is written for a header that is refused, for one with a longer word, and for the end of the headers after that -/
example : let m := rejectNilSender.object id
    let x := run id (.name .accept false) m (.start m (new 0 .ready)) [.negotiate ⟨6, 0x1ff, 0⟩, .envelopeFrom (ascii "<a@b>")]
    x.context.link = .ready ∧
    written (receive id (.name .accept false) m x (.header (ascii "Sender") (ascii "<nil@b>"))).context.log =
      written x.context.log ++ pack (0x79 :: (ascii "550 5.7.1 broken Sender header" ++ [0])) ∧
    written (receive id (.name .accept false) m x (.header (ascii "Sender") (ascii "<nile@b>"))).context.log = written x.context.log ++ pack [0x63] ∧
    written (receive id (.name .accept false) m (receive id (.name .accept false) m x (.header (ascii "Sender") (ascii "<nil@b>"))) .endOfHeader).context.log =
      written (receive id (.name .accept false) m x (.header (ascii "Sender") (ascii "<nil@b>"))).context.log ++ pack [0x63] := by
  decide +kernel

example : HasWord (ascii "nil") (ascii "<nil@b>") ∧ ¬ HasWord (ascii "nil") (ascii "<nile@b>") := by
  rw [← nil_iff, ← nil_iff]
  decide +kernel

/-- **C151 is violated**: names of headers are the same whatever the case, but `sender: nil` goes on. -/
theorem C151_spelling_violated :
    let m := rejectNilSender.object id
    let x := run id (.name .accept false) m (.start m (new 0 .ready)) [.negotiate ⟨6, 0x1ff, 0⟩, .envelopeFrom (ascii "<a@b>")]
    sameName (ascii "sender") (ascii "Sender") = true ∧ nilFrom false (ascii "nil") = true ∧
    written (receive id (.name .accept false) m x (.header (ascii "sender") (ascii "nil"))).context.log = written x.context.log ++ pack [0x63] := by
  decide +kernel

end Verif.Props.Samples
