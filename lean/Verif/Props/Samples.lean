import Verif.Client.RubyFacts
import Verif.Client.Samples
import Verif.Spec.Samples
import Verif.Props.Ruby
/-
The sample milters of the Ruby binding: milter-replace.rb (C146).
-/
namespace Verif.Props.Samples
open Verif Verif.Ruby Verif.Samples Verif.Spec.Samples Verif.Client Verif.Spec.Client
open Verif.Spec.Ruby (Keeps Only plain doings Decides orderly next means)
open Verif.Enc (encodeReplies pack)
open Verif.Spec (Pointwise)

variable {σ : Type}

/-! ### Changes one after the other -/

theorem sequence_plain (ms : List Modification) (h : ∀ m ∈ ms, plain (.modify m) = true) : Only plain (sequence (σ := σ) ms) := by
  induction ms with
  | nil => exact True.intro
  | cons m ms ih =>
    refine ⟨h m List.mem_cons_self, fun b => ?_⟩
    cases b with
    | true => exact ih fun x hx => h x (List.mem_cons_of_mem _ hx)
    | false => exact True.intro

theorem sequence_exec (order : Requests → Requests) (reset : σ → σ) (ms : List Modification) : ∀ (s : State) (v : Option Value) (x : σ), s.link = .ready →
    s.st = .doing .endOfMessage → (∀ m ∈ ms, accepted s.option m.call = true ∧ plain (.modify m) = true) →
    ((sequence ms).exec order reset s v x).did = ms.map (fun m => (.modify m, true)) ∧ ((sequence ms).exec order reset s v x).raised = false ∧
      ((sequence ms).exec order reset s v x).own = x := by
  induction ms with
  | nil => exact fun _ _ _ _ _ _ => ⟨rfl, rfl, rfl⟩
  | cons m ms ih =>
    intro s v x hl hst hm
    obtain ⟨ha, hp⟩ := hm m List.mem_cons_self
    have hans : answers m.call = false := by cases m <;> rfl
    have hch : changes m.call = true := by
      cases m with
      | addRecipient a p => cases p <;> first | rfl | cases hp
      | _ => rfl
    have hrf : recipientFlagsAgree s.option m.call = true := by
      cases m with
      | addRecipient a p => cases p <;> first | rfl | cases hp
      | _ => rfl
    have hok : (call order s m.call).1 = true := (LibMilter.call_result order s hl m.call hch hrf).mpr ⟨hst, ha⟩
    obtain ⟨h1, h2⟩ := LibMilter.called_link order s m.call hans
    obtain ⟨i1, i2, i3⟩ := ih (callNoted order s m.call) v x (h1.trans hl) ((LibMilter.called_st order s m.call hans).trans hst)
      (fun y hy => by rw [h2]; exact hm y (List.mem_cons_of_mem _ hy))
    have e : (sequence (m :: ms)).exec order reset s v x =
        { (if (call order s m.call).1 then sequence ms else .raise : Prog σ).exec order reset (callNoted order s m.call) v x with
          did := (.modify m, (call order s m.call).1) :: ((if (call order s m.call).1 then sequence ms else .raise : Prog σ).exec order reset (callNoted order s m.call) v x).did
          calls := [m.call] ++ ((if (call order s m.call).1 then sequence ms else .raise : Prog σ).exec order reset (callNoted order s m.call) v x).calls } := rfl
    rw [e, hok, if_pos rfl]
    exact ⟨by rw [List.map_cons]; exact congrArg _ i1, i2, i3⟩

/-- what some changes are read as, if nothing else was done -/
theorem changes_read (fallback : Value) (ms : List Modification) (o : Option Opt) (custom : Option (Nat × Option Bytes × Option Bytes)) (last : Bytes) (d : Status) (said : List Said)
    (hsaid : said = [⟨.endOfMessage, [⟨0, ms.map (fun m => (.modify m, true)), false⟩]⟩]) (W : List Reply → Prop)
    (h2 : expectsReply (.endOfMessage last) = true → Decides fallback.toStatus said d)
    (h3 : (expectsReply (.endOfMessage last) = true → hasReply d = true) → ∃ read, Fits o custom (.endOfMessage last) (doings said) d read ∧ W read)
    (ha : ∀ y ∈ ms, accepted o y.call = true) :
    ∃ (read : List Reply) (parts : List (List Reply)), W read ∧ Pointwise Shows (ms.map Modification.call) parts ∧ read.filter (· ≠ .progress) = parts.flatten ++ [.cont] := by
  have hdec : ∀ (ms : List Modification) (o : Option Status), (ms.map (fun m => ((.modify m, true) : Act × Bool))).foldl (fun d x => Spec.Ruby.after d x.1 x.2) o = o := by
    intro ms
    induction ms with
    | nil => exact fun _ => rfl
    | cons m ms ih => exact fun o => ih o
  have hd : d = .default ∨ d = .continue_ := by
    have := h2 rfl
    rw [hsaid] at this
    have this : if false || false then d = fallback.toStatus else _ := this
    have e : Spec.Ruby.decided (ms.map (fun m => ((.modify m, true) : Act × Bool))) = none := hdec _ none
    unfold Decides Spec.Ruby.Decision at *
    simp only [List.filterMap_cons, List.filterMap_nil, e] at this
    exact this
  obtain ⟨read, h4, h5⟩ := h3 (fun _ => by rcases hd with h | h <;> (rw [h]; rfl))
  unfold Fits at h4
  rw [if_pos (show expectsReply (.endOfMessage last) = true from rfl)] at h4
  obtain ⟨parts, r, h6, h7, h8⟩ := h4
  have hr : r = .cont := by
    rcases hd with h | h <;> (rw [h] at h6; exact (Option.some.inj h6).symm)
  have hdo : doings said = ms.map Modification.call := by
    rw [hsaid]
    have key : ∀ ms : List Modification, (ms.map (fun m => ((.modify m, true) : Act × Bool))).flatMap (fun d => means d.1) = ms.map Modification.call := by
      intro ms
      induction ms with
      | nil => rfl
      | cons m ms ih =>
        rw [List.map_cons, List.flatMap_cons, ih, List.map_cons]
        cases m <;> rfl
    show (((ms.map (fun m => ((.modify m, true) : Act × Bool))).flatMap (fun d => means d.1)) ++ []) ++ [] = _
    rw [List.append_nil, List.append_nil, key]
  have hq : ∀ (ms : List Modification), reasonOf (ms.map Modification.call) = none := by
    intro ms
    unfold reasonOf
    generalize ho : (none : Option Bytes) = o
    clear ho
    induction ms generalizing o with
    | nil => rfl
    | cons m ms ih =>
      rw [List.map_cons, List.foldl_cons]
      refine Eq.trans ?_ (ih o)
      cases m <;> rfl
  have hfil : (ms.map Modification.call).filter (accepted (o)) = ms.map Modification.call := by
    rw [List.filter_eq_self]
    intro c hc
    obtain ⟨y, hy, rfl⟩ := List.mem_map.mp hc
    exact ha y hy
  rw [hdo] at h7 h8
  rw [hfil] at h7
  rw [hq] at h8
  refine ⟨read, parts, h5, h7, ?_⟩
  rw [h8, hr]
  show parts.flatten ++ [] ++ _ = _
  rw [List.append_nil]

/-- what the MTA reads at the end of a message, if a milter makes some changes then -/
theorem sequence_read (order : Requests → Requests) (fallback : Value) (hfb : fallback.toStatus ≠ .progress) (m : Class σ) (hm : Keeps plain m)
    (make : σ → List Modification) (he : m.endOfMessage = some (.own id fun x => sequence (make x))) (x : Session σ) (hg : Ruby.Good x) (hl : x.context.link = .ready)
    (last : Bytes) (ha : ∀ y ∈ make x.own, accepted (negotiated x.context.log) y.call = true ∧ plain (.modify y) = true) :
    ∃ (read : List Reply) (parts : List (List Reply)),
      written (receive order fallback (m.object order) x (.endOfMessage last)).context.log = written x.context.log ++ (encodeReplies order [] read).flatten ∧
      Pointwise Shows ((make x.own).map Modification.call) parts ∧ read.filter (· ≠ .progress) = parts.flatten ++ [.cont] := by
  obtain ⟨said, h1, d, h2, h3⟩ := hg.read hfb (m.honest order _ fallback hfb hm) hl (.endOfMessage last) (fun _ h => nomatch h) (fun h => nomatch h)
  have hopt : x.context.option = negotiated x.context.log := hg.calm.settled.agrees.option
  have hs := sequence_exec order m.reset (make x.own) (enter (x.context.note (.got (.endOfMessage last))) .endOfMessage (some 0x45)) x.status x.own hl rfl
    (fun y hy => by
      refine ⟨?_, (ha y hy).2⟩
      show accepted x.context.option _ = true
      rw [hopt]
      exact (ha y hy).1)
  have hsaid : said = [⟨.endOfMessage, [⟨0, (make x.own).map (fun m => (.modify m, true)), false⟩]⟩] := by
    have e : (receive order fallback (m.object order) x (.endOfMessage last)).seen = x.seen ++ (one fallback (m.object order) x
      (enter (x.context.note (.got (.endOfMessage last))) .endOfMessage (some 0x45)) .endOfMessage).seen := rfl
    rw [e] at h1
    rw [← List.append_cancel_left h1]
    unfold one
    have e : (m.object order).callback .endOfMessage = some fun s v own =>
      let r := (sequence (make own)).exec order m.reset s v own
      (⟨[⟨0, r.did, r.raised⟩], r.calls, r.context, r.status, r.own, r.raised⟩ : Outcome σ) := by
      show m.endOfMessage.map _ = _
      rw [he]
      rfl
    rw [e]
    show [(⟨.endOfMessage, [⟨0, ((sequence (make x.own)).exec order m.reset _ x.status x.own).did, ((sequence (make x.own)).exec order m.reset _ x.status x.own).raised⟩]⟩ : Said)] = _
    rw [hs.1, hs.2.1]
  exact changes_read fallback (make x.own) _ _ last d said hsaid _ h2 h3 fun y hy => (ha y hy).1

/-! ## C146: milter-replace.rb -/

theorem replace_plain (patterns : List (Bytes → Bytes)) : Keeps plain (replace patterns) := by
  intro what p h
  cases what <;> first | (cases h; done) | skip
  · cases h; exact fun _ => True.intro
  · cases h; exact fun _ => True.intro
  · cases h
    refine fun x => sequence_plain _ ?_
    intro m hm
    rcases List.mem_append.mp hm with hm | hm
    · generalize (fun _ : Bytes => 0) = indexes at hm
      generalize x.headers = hs at hm
      induction hs generalizing indexes with
      | nil => cases hm
      | cons h hs ih =>
        unfold headerChanges at hm
        rcases List.mem_append.mp hm with hm | hm
        · cases hf : firstOf patterns h.2 with
          | none => rw [hf] at hm; cases hm
          | some v => rw [hf] at hm; cases hm with | head => rfl | tail _ h => cases h
        · exact ih _ hm
    · obtain ⟨g, _, hm⟩ := List.mem_flatMap.mp hm
      by_cases h : x.body = g x.body
      · rw [if_pos h] at hm; cases hm
      · rw [if_neg h] at hm; cases hm with | head => rfl | tail _ h => cases h

theorem headerChanges_calls (o : Option Opt) (ho : hasFlag o 0x10 = true) (patterns : List (Bytes → Bytes)) (hs : List (Bytes × Bytes)) : ∀ (indexes : Bytes → Nat),
    ∀ m ∈ headerChanges patterns indexes hs, accepted o m.call = true ∧ plain (.modify m) = true := by
  induction hs with
  | nil => intro indexes m hm; cases hm
  | cons h hs ih =>
    intro indexes m hm
    unfold headerChanges at hm
    rcases List.mem_append.mp hm with hm | hm
    · cases hf : firstOf patterns h.2 with
      | none => rw [hf] at hm; cases hm
      | some v =>
        rw [hf] at hm
        cases hm with
        | head => exact ⟨by show (hasFlag o 0x10 && true) = true; rw [ho]; rfl, rfl⟩
        | tail _ h => cases h
    · exact ih _ m hm

theorem bodyChanges_calls (o : Option Opt) (ho : hasFlag o 0x02 = true) (patterns : List (Bytes → Bytes)) (body : Bytes) :
    ∀ m ∈ bodyChanges patterns body, accepted o m.call = true ∧ plain (.modify m) = true := by
  intro m hm
  obtain ⟨g, _, hm⟩ := List.mem_flatMap.mp hm
  by_cases h : body = g body
  · rw [if_pos h] at hm; cases hm
  · rw [if_neg h] at hm
    cases hm with
    | head => exact ⟨by show (hasFlag o 0x02 && true) = true; rw [ho]; rfl, rfl⟩
    | tail _ h => cases h

theorem sameName_refl (n : Bytes) : sameName n n = true := beq_self_eq_true _

theorem setNth_here (n v w : Bytes) (hw : w ≠ []) (rest : List (Bytes × Bytes)) : ∀ (pre : List (Bytes × Bytes)),
    setNth n w ((pre.filter fun h => sameName h.1 n).length + 1) (pre ++ (n, v) :: rest) = pre ++ (n, w) :: rest := by
  intro pre
  induction pre with
  | nil =>
    show setNth n w 1 ((n, v) :: rest) = _
    unfold setNth
    rw [if_pos (sameName_refl n), if_pos rfl, if_neg hw]
    rfl
  | cons h pre ih =>
    rw [List.cons_append]
    unfold setNth
    by_cases hs : sameName h.1 n = true
    · rw [if_pos hs, List.filter_cons_of_pos (by exact hs), List.length_cons]
      rw [if_neg (by omega), Nat.add_sub_cancel, ih]
      rfl
    · rw [if_neg hs, List.filter_cons_of_neg (by exact hs), ih]
      rfl

theorem firstOf_some {patterns : List (Bytes → Bytes)} {v w : Bytes} (h : firstOf patterns v = some w) : replaced patterns v = w ∧ ∃ g ∈ patterns, g v ≠ v ∧ g v = w := by
  induction patterns with
  | nil => cases h
  | cons g gs ih =>
    unfold firstOf at h
    unfold replaced
    by_cases hg : v = g v
    · rw [if_pos hg] at h
      rw [if_pos hg.symm]
      obtain ⟨h1, g', h2, h3⟩ := ih h
      exact ⟨h1, g', List.mem_cons_of_mem _ h2, h3⟩
    · rw [if_neg hg] at h
      rw [if_neg (fun h => hg h.symm)]
      exact ⟨Option.some.inj h, g, List.mem_cons_self, (fun h => hg h.symm), Option.some.inj h⟩

theorem firstOf_none {patterns : List (Bytes → Bytes)} {v : Bytes} (h : firstOf patterns v = none) : replaced patterns v = v := by
  induction patterns with
  | nil => rfl
  | cons g gs ih =>
    unfold firstOf at h
    unfold replaced
    by_cases hg : v = g v
    · rw [if_pos hg] at h
      rw [if_pos hg.symm]
      exact ih h
    · rw [if_neg hg] at h
      cases h

/-- the replies for the headers -/
theorem headers_read (patterns : List (Bytes → Bytes)) (hne : ∀ g ∈ patterns, ∀ v, g v = [] → v = []) (body : Bytes) (replacing : Bool) (rest : List (Bytes × Bytes)) :
    ∀ (pre : List (Bytes × Bytes)) (indexes : Bytes → Nat) (parts : List (List Reply)),
    (∀ h ∈ rest, indexes h.1 = (pre.filter fun x : Bytes × Bytes => sameName x.1 h.1).length) → (∀ a ∈ rest, ∀ b ∈ rest, sameName a.1 b.1 = true → a.1 = b.1) →
    Pointwise Shows ((headerChanges patterns indexes rest).map Modification.call) parts →
    parts.flatten.foldl Copy.read ⟨⟨pre ++ rest, body⟩, replacing⟩ = ⟨⟨pre ++ rest.map fun h => (h.1, replaced patterns h.2), body⟩, replacing⟩ := by
  induction rest with
  | nil =>
    intro pre indexes parts _ _ hp
    cases hp
    rfl
  | cons h rest ih =>
    intro pre indexes parts hi hs hp
    obtain ⟨n, v⟩ := h
    have hi' : ∀ w, ∀ h ∈ rest, (if h.1 = n then indexes n + 1 else indexes h.1) = ((pre ++ [(n, w)]).filter fun x : Bytes × Bytes => sameName x.1 h.1).length := by
      intro w h hh
      rw [List.filter_append, List.length_append]
      by_cases he : h.1 = n
      · rw [if_pos he, hi (n, v) List.mem_cons_self, he, List.filter_cons_of_pos (by exact sameName_refl n)]
        rfl
      · rw [if_neg he, hi h (List.mem_cons_of_mem _ hh)]
        rw [List.filter_cons_of_neg]
        · rfl
        · exact fun hsn => he (hs (n, v) List.mem_cons_self h (List.mem_cons_of_mem _ hh) hsn).symm
    have hs' : ∀ a ∈ rest, ∀ b ∈ rest, sameName a.1 b.1 = true → a.1 = b.1 := fun a ha b hb => hs a (List.mem_cons_of_mem _ ha) b (List.mem_cons_of_mem _ hb)
    unfold headerChanges at hp
    dsimp only at hp
    cases hf : firstOf patterns v with
    | none =>
      rw [hf, List.nil_append] at hp
      have := ih (pre ++ [(n, v)]) _ parts (hi' v) hs' hp
      rw [List.append_assoc, List.append_assoc] at this
      rw [List.map_cons, firstOf_none hf]
      exact this
    | some w =>
      obtain ⟨h1, g, h2, h3, h4⟩ := firstOf_some hf
      have hw : w ≠ [] := by
        intro hw
        rw [hw] at h4
        exact h3 (h4.trans (hne g h2 v h4).symm)
      rw [hf] at hp
      dsimp only at hp
      rw [if_pos rfl, List.map_append, List.map_cons] at hp
      cases hp with
      | cons hshow hp =>
        obtain ⟨n', hn, hrs⟩ := hshow
        cases hn
        rw [hrs, List.flatten_cons]
        show List.foldl Copy.read (Copy.mk ⟨setNth n w (indexes n + 1) (pre ++ (n, v) :: rest), body⟩ replacing) _ = _
        rw [hi (n, v) List.mem_cons_self, setNth_here n v w hw rest pre]
        have := ih (pre ++ [(n, w)]) _ _ (hi' w) hs' hp
        rw [List.append_assoc, List.append_assoc] at this
        rw [List.map_cons, h1]
        exact this

theorem pieces_read (headers : List (Bytes × Bytes)) (chunks : List Bytes) : ∀ (body : Bytes),
    (chunks.map Reply.replaceBody).foldl Copy.read ⟨⟨headers, body⟩, true⟩ = ⟨⟨headers, body ++ chunks.flatten⟩, true⟩ := by
  induction chunks with
  | nil => intro body; rw [List.flatten_nil, List.append_nil]; rfl
  | cons c cs ih =>
    intro body
    rw [List.map_cons, List.foldl_cons, List.flatten_cons, ← List.append_assoc]
    exact ih (body ++ c)

/-- the replies for the body -/
theorem body_read (patterns : List (Bytes → Bytes)) (hne : ∀ g ∈ patterns, ∀ v, g v = [] → v = []) (headers : List (Bytes × Bytes)) (body : Bytes)
    (hone : (patterns.filter fun g => g body ≠ body).length ≤ 1) (parts : List (List Reply))
    (hp : Pointwise Shows ((bodyChanges patterns body).map Modification.call) parts) :
    (parts.flatten.foldl Copy.read ⟨⟨headers, body⟩, false⟩).mail = ⟨headers, replaced patterns body⟩ := by
  induction patterns with
  | nil => cases hp; rfl
  | cons g gs ih =>
    unfold bodyChanges at hp
    rw [List.flatMap_cons] at hp
    unfold replaced
    by_cases hg : g body = body
    · rw [if_pos hg.symm] at hp
      rw [if_pos hg]
      rw [List.filter_cons_of_neg (by simp [hg])] at hone
      exact ih (fun g' h => hne g' (List.mem_cons_of_mem _ h)) hone hp
    · rw [if_neg (fun h => hg h.symm)] at hp
      rw [if_neg hg]
      rw [List.filter_cons_of_pos (by simp [hg]), List.length_cons] at hone
      have hnil : gs.filter (fun g => g body ≠ body) = [] := List.length_eq_zero_iff.mp (by omega)
      have hrest : (gs.flatMap fun g => if body = g body then [] else [Modification.replaceBody (g body)]) = [] := by
        rw [List.flatMap_eq_nil_iff]
        intro g' hg'
        rw [List.filter_eq_nil_iff] at hnil
        have := hnil g' hg'
        rw [if_pos]
        exact Classical.byContradiction fun h => this (by simpa using fun h' => h h'.symm)
      rw [hrest, List.append_nil] at hp
      cases hp with
      | cons hshow hp =>
        cases hp
        obtain ⟨chunks, h1, h2, h3⟩ := hshow
        rw [List.flatten_cons, List.flatten_nil, List.append_nil, h1]
        cases chunks with
        | nil =>
          have h2 : [] = g body := h2
          have := hne g List.mem_cons_self body h2.symm
          exact absurd (h2.symm.trans this.symm) hg
        | cons c cs =>
          rw [List.map_cons, List.foldl_cons]
          show ((cs.map Reply.replaceBody).foldl Copy.read ⟨⟨headers, [] ++ c⟩, true⟩).mail = _
          rw [pieces_read]
          show Mail.mk headers ([] ++ c ++ cs.flatten) = _
          rw [List.nil_append, ← h2, List.flatten_cons]

/-- one command more of a message -/
def further (m : Mail) (c : Cmd) : Mail := match c with
  | .envelopeFrom _ => {}
  | .header name value => { m with headers := m.headers ++ [(name, value)] }
  | .body chunk => { m with body := m.body ++ chunk }
  | _ => m

/-- what the milter keeps, as long as no message has ended -/
theorem replace_kept (order : Requests → Requests) (fallback : Value) (patterns : List (Bytes → Bytes)) (cmds : List Cmd) : ∀ (begun : Bool) (m : Mail) (x : Session Kept),
    (begun = true → x.own = ⟨m.headers, m.body⟩) → (begun = false → x.own = {}) → orderly begun cmds = true → (∀ last, Cmd.endOfMessage last ∉ cmds) →
    cmds.foldl next begun = true →
    (run order fallback ((replace patterns).object order) x cmds).own = ⟨(cmds.foldl further m).headers, (cmds.foldl further m).body⟩ := by
  induction cmds with
  | nil => exact fun begun m x h1 _ _ _ hb => h1 hb
  | cons c cmds ih =>
    intro begun m x h1 h0 ho he hb
    unfold orderly at ho
    rw [Bool.and_eq_true] at ho
    have ho1 := ho.1
    have he' : ∀ last, Cmd.endOfMessage last ∉ cmds := fun last h => he last (List.mem_cons_of_mem _ h)
    refine ih (next begun c) (further m c) (receive order fallback ((replace patterns).object order) x c) ?_ ?_ ho.2 he' hb
    · intro hn
      cases c with
      | quit => cases ho1
      | endOfMessage a => exact absurd List.mem_cons_self (he a)
      | abort => cases hn
      | envelopeFrom a => exact h0 (by cases begun <;> first | rfl | cases ho1)
      | header n v =>
        have := h1 hn
        show Kept.mk (x.own.headers ++ [(n, v)]) x.own.body = _
        rw [this]
        rfl
      | body chunk =>
        have := h1 hn
        show Kept.mk x.own.headers (x.own.body ++ chunk) = _
        rw [this]
        rfl
      | _ => exact h1 hn
    · intro hn
      cases c with
      | quit => cases ho1
      | endOfMessage a => exact absurd List.mem_cons_self (he a)
      | abort => rfl
      | envelopeFrom a => cases hn
      | header n v => have hn : begun = false := hn; rw [hn] at ho1; cases ho1
      | body chunk => have hn : begun = false := hn; rw [hn] at ho1; cases ho1
      | _ => exact h0 hn

theorem read_filter (read : List Reply) : ∀ c : Copy, (read.filter (· ≠ .progress)).foldl Copy.read c = read.foldl Copy.read c := by
  induction read with
  | nil => exact fun _ => rfl
  | cons r read ih =>
    intro c
    by_cases h : r = .progress
    · rw [List.filter_cons_of_neg (by simp [h]), ih, h]
      rfl
    · rw [List.filter_cons_of_pos (by simp [h])]
      exact ih _

theorem pointwise_split {α β : Type} {R : α → β → Prop} (a b : List α) : ∀ (l : List β), Pointwise R (a ++ b) l → ∃ l1 l2, l = l1 ++ l2 ∧ Pointwise R a l1 ∧ Pointwise R b l2 := by
  induction a with
  | nil => exact fun l h => ⟨[], l, rfl, .nil, h⟩
  | cons x a ih =>
    intro l h
    cases h with
    | cons h1 h2 =>
      obtain ⟨l1, l2, e, i1, i2⟩ := ih _ h2
      exact ⟨_ :: l1, l2, by rw [e]; rfl, .cons h1 i1, i2⟩

/-- what the MTA has after the changes of a message -/
theorem changes_copy (patterns : List (Bytes → Bytes)) (hne : ∀ g ∈ patterns, ∀ v, g v = [] → v = []) (mail : Mail) (hsp : OneSpelling mail)
    (hone : (patterns.filter fun g => g mail.body ≠ mail.body).length ≤ 1) (read : List Reply) (parts : List (List Reply))
    (h2 : Pointwise Shows ((headerChanges patterns (fun _ => 0) mail.headers ++ bodyChanges patterns mail.body).map Modification.call) parts)
    (h3 : read.filter (· ≠ .progress) = parts.flatten ++ [.cont]) :
    copyAfter mail read = mail.replaced patterns ∧ (read.filter (· ≠ .progress)).getLast? = some .cont := by
  refine ⟨?_, ?_⟩
  · rw [List.map_append] at h2
    obtain ⟨p1, p2, e, i1, i2⟩ := pointwise_split _ _ _ h2
    unfold copyAfter
    rw [← read_filter, h3, List.foldl_append, e, List.flatten_append, List.foldl_append]
    have a1 := headers_read patterns hne mail.body false mail.headers [] (fun _ => 0) p1 (fun _ _ => rfl) hsp i1
    have e0 : ({ mail := mail } : Copy) = ⟨⟨[] ++ mail.headers, mail.body⟩, false⟩ := rfl
    rw [e0, a1]
    exact body_read patterns hne _ _ hone p2 i2
  · rw [h3, List.getLast?_append]
    rfl

/-- **C146**: at the end of the first message that gets so far in a session, whatever was aborted before, the MTA reads replies that make of the message the one with everything the patterns match replaced: in the value
of each header, in its place, and in the body, by the first pattern that changes it.  Then the message goes on.
Missing: later messages of a session (`C146_next_violated`), names spelled in several ways (`C146_spelling_violated`), several patterns that change the body (`C146_patterns_violated`), a part of the body that comes with
the end of the message (`C146_last_violated`), patterns that leave nothing, MTAs that do not offer to change headers and body. -/
theorem C146_partial (order : Requests → Requests) (fallback : Value) (hfb : fallback.toStatus ≠ .progress) (patterns : List (Bytes → Bytes)) (n : Nat) (l : Link) (cmds : List Cmd)
    (ho : orderly false cmds = true) (hbegun : cmds.foldl next false = true) (hfirst : ∀ last, Cmd.endOfMessage last ∉ cmds)
    (x : Session Kept) (hx : x = run order fallback ((replace patterns).object order) (.start ((replace patterns).object order) (new n l)) cmds) (hl : x.context.link = .ready)
    (hflags : hasFlag (negotiated x.context.log) 0x10 = true ∧ hasFlag (negotiated x.context.log) 0x02 = true)
    (hsp : OneSpelling (shown cmds)) (hne : ∀ g ∈ patterns, ∀ v, g v = [] → v = []) (hone : (patterns.filter fun g => g (shown cmds).body ≠ (shown cmds).body).length ≤ 1) :
    ∃ read : List Reply,
      written (receive order fallback ((replace patterns).object order) x (.endOfMessage [])).context.log = written x.context.log ++ (encodeReplies order [] read).flatten ∧
      copyAfter (shown cmds) read = (shown cmds).replaced patterns ∧ (read.filter (· ≠ .progress)).getLast? = some .cont := by
  have hq : Cmd.quit ∉ cmds := by
    clear hx hsp hone hbegun hfirst
    generalize false = b at ho
    induction cmds generalizing b with
    | nil => exact fun h => nomatch h
    | cons c cmds ih =>
      unfold orderly at ho
      rw [Bool.and_eq_true] at ho
      intro h
      cases h with
      | head => cases ho.1
      | tail _ h => exact ih _ ho.2 h
  have hg : Ruby.Good x := by
    rw [hx]
    exact (Good.start _ n l).run (fun _ h => h.2) hfb ((replace patterns).honest order none fallback hfb (replace_plain patterns)) cmds hq
  have hown : x.own = ⟨(shown cmds).headers, (shown cmds).body⟩ := by
    rw [hx]
    exact replace_kept order fallback patterns cmds false {} _ (fun h => nomatch h) (fun _ => rfl) ho hfirst hbegun
  obtain ⟨read, parts, h1, h2, h3⟩ := sequence_read order fallback hfb (replace patterns) (replace_plain patterns)
    (fun x => headerChanges patterns (fun _ => 0) x.headers ++ bodyChanges patterns x.body) rfl x hg hl [] (by
      intro y hy
      rcases List.mem_append.mp hy with hy | hy
      · exact headerChanges_calls _ hflags.1 patterns _ _ y hy
      · exact bodyChanges_calls _ hflags.2 patterns _ y hy)
  refine ⟨read, h1, ?_⟩
  rw [hown] at h2
  exact changes_copy patterns hne _ hsp hone read parts h2 h3

/-- every `v` becomes an `X` -/
def xs (b : Bytes) : Bytes := b.map fun c => if c = 0x76 then 0x58 else c

/-- every `w` becomes a `Y` -/
def ys (b : Bytes) : Bytes := b.map fun c => if c = 0x77 then 0x59 else c

/-- an aborted message, and the beginning of another -/
def sample : List Cmd := [.negotiate ⟨6, 0x1ff, 0⟩, .envelopeFrom (ascii "<a@b>"), .header (ascii "s") (ascii "v"), .abort,
  .envelopeFrom (ascii "<a@b>"), .header (ascii "s") (ascii "a"), .header (ascii "s") (ascii "v"), .header (ascii "t") (ascii "w v"), .endOfHeader, .body (ascii "av"), .body (ascii "b")]

/-- the hypotheses of C146, and what is written -/
example : orderly false sample = true ∧ sample.foldl next false = true ∧ (∀ last, Cmd.endOfMessage last ∉ sample) ∧ OneSpelling (shown sample) ∧
    (∀ g ∈ [xs, ys], ∀ v, g v = [] → v = []) ∧ ([xs, ys].filter fun g => g (shown sample).body ≠ (shown sample).body).length ≤ 1 ∧
    let m := (replace [xs, ys]).object id
    let x := run id (.name .accept false) m (.start m (new 0 .ready)) sample
    x.context.link = .ready ∧ hasFlag (negotiated x.context.log) 0x10 = true ∧ hasFlag (negotiated x.context.log) 0x02 = true ∧
    written (receive id (.name .accept false) m x (.endOfMessage [])).context.log = written x.context.log ++
      (encodeReplies id [] [.changeHeader (ascii "s") 2 (ascii "X"), .changeHeader (ascii "t") 1 (ascii "w X"), .replaceBody (ascii "aXb"), .cont]).flatten := by
  refine ⟨by decide +kernel, by decide +kernel, by simp [sample], by unfold OneSpelling; decide +kernel, ?_, by decide +kernel, by decide +kernel⟩
  intro g hg v h
  rcases List.mem_cons.mp hg with rfl | hg
  · exact List.map_eq_nil_iff.mp h
  · rw [List.mem_singleton.mp hg] at h
    exact List.map_eq_nil_iff.mp h

/-- **C146 is violated**: nothing of a message is forgotten when it goes on, so the body of the next message in the session becomes that of both. -/
theorem C146_next_violated :
    let m := (replace [xs]).object id
    let x := run id (.name .accept false) m (.start m (new 0 .ready))
      [.negotiate ⟨6, 0x1ff, 0⟩, .envelopeFrom (ascii "<a@b>"), .body (ascii "secret"), .endOfMessage [], .envelopeFrom (ascii "<c@d>"), .body (ascii "viagra")]
    written (receive id (.name .accept false) m x (.endOfMessage [])).context.log =
      written x.context.log ++ (encodeReplies id [] [.replaceBody (ascii "secretXiagra"), .cont]).flatten := by
  decide +kernel

/-- **C146 is violated**: headers are counted by the spelling of their names, which the MTA does not look at, so another header is changed. -/
theorem C146_spelling_violated :
    let m := (replace [xs]).object id
    let cmds : List Cmd := [.negotiate ⟨6, 0x1ff, 0⟩, .envelopeFrom (ascii "<a@b>"), .header (ascii "Subject") (ascii "news"), .header (ascii "SUBJECT") (ascii "viagra")]
    let x := run id (.name .accept false) m (.start m (new 0 .ready)) cmds
    let read : List Reply := [.changeHeader (ascii "SUBJECT") 1 (ascii "Xiagra"), .cont]
    written (receive id (.name .accept false) m x (.endOfMessage [])).context.log = written x.context.log ++ (encodeReplies id [] read).flatten ∧
    (copyAfter (shown cmds) read).headers = [(ascii "Subject", ascii "Xiagra"), (ascii "SUBJECT", ascii "viagra")] := by
  decide +kernel

/-- **C146 is violated**: a body that two patterns change is sent twice, and each time one of the patterns is still in it. -/
theorem C146_patterns_violated :
    let m := (replace [xs, ys]).object id
    let cmds : List Cmd := [.negotiate ⟨6, 0x1ff, 0⟩, .envelopeFrom (ascii "<a@b>"), .body (ascii "v and w")]
    let x := run id (.name .accept false) m (.start m (new 0 .ready)) cmds
    let read : List Reply := [.replaceBody (ascii "X and w"), .replaceBody (ascii "v and Y"), .cont]
    written (receive id (.name .accept false) m x (.endOfMessage [])).context.log = written x.context.log ++ (encodeReplies id [] read).flatten ∧
    (copyAfter (shown cmds) read).body = ascii "X and wv and Y" := by
  decide +kernel

/-- **C146 is violated**: what comes with the end of the message is not shown to the milter, so it is gone from the message. -/
theorem C146_last_violated :
    let m := (replace [xs]).object id
    let cmds : List Cmd := [.negotiate ⟨6, 0x1ff, 0⟩, .envelopeFrom (ascii "<a@b>"), .body (ascii "viagra")]
    let x := run id (.name .accept false) m (.start m (new 0 .ready)) cmds
    let read : List Reply := [.replaceBody (ascii "Xiagra"), .cont]
    written (receive id (.name .accept false) m x (.endOfMessage (ascii " and more"))).context.log = written x.context.log ++ (encodeReplies id [] read).flatten ∧
    (copyAfter { shown cmds with body := (shown cmds).body ++ ascii " and more" } read).body = ascii "Xiagra" := by
  decide +kernel

end Verif.Props.Samples
