import Verif.Props.Samples
/-
The sample milters of the Ruby binding that refuse messages: milter-regexp.rb (C147) and milter-reject-empty-body.rb (C148).
-/
namespace Verif.Props.Samples
open Verif Verif.Ruby Verif.Samples Verif.Spec.Samples Verif.Client Verif.Spec.Client
open Verif.Spec.Ruby (Keeps Only plain doings Decides Decision orderly next means)
open Verif.Enc (encodeReplies pack)
open Verif.Spec (Pointwise)

variable {σ : Type}

theorem no_calls (o : Option Opt) (calls : List Call) (h : ∀ c ∈ calls, ∃ code ext message, c = .setReply code ext message) :
    calls.filter (accepted o) = [] ∧ reasonOf calls = none := by
  refine ⟨?_, ?_⟩
  · rw [List.filter_eq_nil_iff]
    intro c hc
    obtain ⟨a, b, d, rfl⟩ := h c hc
    exact fun h => nomatch h
  · unfold reasonOf
    generalize (none : Option Bytes) = o
    induction calls generalizing o with
    | nil => rfl
    | cons c calls ih =>
      obtain ⟨a, b, d, rfl⟩ := h _ List.mem_cons_self
      exact ih (fun c hc => h c (List.mem_cons_of_mem _ hc)) o

/-- what the MTA reads for a command whose callback changes nothing of the message -/
theorem answer_read (order : Requests → Requests) (fallback : Value) (hfb : fallback.toStatus ≠ .progress) (m : Class σ) (hm : Keeps plain m)
    (x : Session σ) (hg : Ruby.Good x) (hl : x.context.link = .ready) (c : Cmd) (what : Callback) (hw : eventOf c = some what) (p : Prog σ) (hp : m.callback what = some p)
    (did : List (Act × Bool)) (hdid : ∀ s, (p.exec order m.reset s x.status x.own).did = did ∧ (p.exec order m.reset s x.status x.own).raised = false)
    (hset : ∀ y ∈ did.flatMap (fun d => means d.1), ∃ code ext message, y = .setReply code ext message) (r : Reply)
    (hr : ∀ d, Decision fallback.toStatus [⟨0, did, false⟩] d → hasReply d = true ∧ finalReply (customAfter none (doings x.seen ++ did.flatMap fun d => means d.1)) d = some r) :
    ∃ read, written (receive order fallback (m.object order) x c).context.log = written x.context.log ++ (encodeReplies order [] read).flatten ∧
      read.filter (· ≠ .progress) = [r] := by
  have hc : ∀ o, c ≠ .negotiate o := fun o h => by rw [h] at hw; cases hw
  have hc' : c ≠ .quit := fun h => by rw [h] at hw; cases hw
  have hx : expectsReply c = true := by cases c <;> first | rfl | cases hw
  obtain ⟨said, h1, d, h2, h3⟩ := hg.read hfb (m.honest order _ fallback hfb hm) hl c hc hc'
  have hone : ∀ s, (one fallback (m.object order) x s what).seen = [⟨what, [⟨0, did, false⟩]⟩] := by
    intro s
    unfold one
    have e : (m.object order).callback what = some fun s v own =>
      let r := p.exec order m.reset s v own
      (⟨[⟨0, r.did, r.raised⟩], r.calls, r.context, r.status, r.own, r.raised⟩ : Outcome σ) := by
      show (m.callback what).map _ = _
      rw [hp]
      rfl
    rw [e]
    show [(⟨what, [⟨0, (p.exec order m.reset s x.status x.own).did, (p.exec order m.reset s x.status x.own).raised⟩]⟩ : Said)] = _
    rw [(hdid s).1, (hdid s).2]
  have hsaid : said = [⟨what, [⟨0, did, false⟩]⟩] := by
    have e : (receive order fallback (m.object order) x c).seen = x.seen ++ (handle fallback (m.object order) x c).seen := by
      rw [Ruby.receive_eq order fallback _ x c hc']
    rw [e] at h1
    rw [← List.append_cancel_left h1]
    cases c <;> first | (cases hw; done) | (cases hw; exact hone _)
  have hdec : Decision fallback.toStatus [⟨0, did, false⟩] d := by
    have := h2 hx
    rw [hsaid] at this
    exact this
  obtain ⟨hr1, hr2⟩ := hr d hdec
  obtain ⟨read, h4, h5⟩ := h3 fun _ => hr1
  have hdo : doings said = did.flatMap fun d => means d.1 := by
    rw [hsaid]
    show ((did.flatMap fun d => means d.1) ++ []) ++ [] = _
    rw [List.append_nil, List.append_nil]
  obtain ⟨n1, n2⟩ := no_calls (negotiated x.context.log) _ hset
  refine ⟨read, h5, ?_⟩
  rw [h1, doings_append, hdo] at h4
  unfold Fits at h4
  rw [if_pos hx, n1, n2] at h4
  obtain ⟨parts, r', h6, h7⟩ := h4
  have hrr : r' = r := Option.some.inj (h6.symm.trans hr2)
  rw [hrr] at h7
  cases c <;> first | (cases hw; done) | exact h7 | skip
  obtain ⟨h7, h8⟩ := h7
  cases h7
  exact h8

/-! ## C147: milter-regexp.rb -/

/-- rejecting without a reply of its own -/
def onlyRejects (a : Act) : Bool := a == .reject {}

theorem regexp_only (hit : Bytes → Bool) (decode : Bytes → Bytes) : Keeps onlyRejects (regexp hit decode) := by
  intro what p h
  cases what <;> first | (cases h; done) | skip
  · cases h
    show Only onlyRejects (if _ then _ else _)
    split
    · split
      · exact ⟨rfl, fun _ => True.intro⟩
      · exact True.intro
    · exact True.intro
  · cases h
    show Only onlyRejects (if _ then _ else _)
    split
    · exact ⟨rfl, fun _ _ => True.intro⟩
    · exact fun _ => True.intro
  · cases h
    intro b
    show Only onlyRejects (if _ then _ else _)
    split
    · exact ⟨rfl, fun _ => True.intro⟩
    · exact True.intro

theorem only_mono {p q : Act → Bool} (h : ∀ a, p a = true → q a = true) (prog : Prog σ) : Only p prog → Only q prog := by
  induction prog with
  | done => exact id
  | raise => exact id
  | act a k ih => exact fun hp => ⟨h a hp.1, fun b => ih b (hp.2 b)⟩
  | own f k ih => exact fun hp x => ih x (hp x)
  | symbol n k ih => exact fun hp v => ih v (hp v)

theorem regexp_plain (hit : Bytes → Bool) (decode : Bytes → Bytes) : Keeps plain (regexp hit decode) :=
  fun what p h => only_mono (fun a ha => by rw [eq_of_beq ha]; rfl) p (regexp_only hit decode what p h)

/-- it never sets a reply -/
theorem regexp_doings (order : Requests → Requests) (fallback : Value) (hit : Bytes → Bool) (decode : Bytes → Bytes) (cmds : List Cmd) : ∀ (x : Session Bytes),
    Cmd.quit ∉ cmds → doings x.seen = [] → doings (run order fallback ((regexp hit decode).object order) x cmds).seen = [] := by
  have hone : ∀ (x : Session Bytes) (s : State) (what : Callback), doings (one fallback ((regexp hit decode).object order) x s what).seen = [] := by
    intro x s what
    unfold one
    have e : ((regexp hit decode).object order).callback what = ((regexp hit decode).callback what).map fun p s v own =>
      let r := p.exec order (regexp hit decode).reset s v own
      (⟨[⟨0, r.did, r.raised⟩], r.calls, r.context, r.status, r.own, r.raised⟩ : Outcome Bytes) := rfl
    rw [e]
    cases hp : (regexp hit decode).callback what with
    | none => rfl
    | some p =>
      have := exec_only order (regexp hit decode).reset p (regexp_only hit decode what p hp) s x.status x.own
      show (((p.exec order (regexp hit decode).reset s x.status x.own).did.flatMap fun d => means d.1) ++ []) ++ [] = []
      rw [List.append_nil, List.append_nil, List.flatMap_eq_nil_iff]
      intro d hd
      rw [eq_of_beq (this d hd)]
      rfl
  induction cmds with
  | nil => exact fun x _ h => h
  | cons c cmds ih =>
    intro x hq h
    refine ih _ (fun h => hq (List.mem_cons_of_mem _ h)) ?_
    rw [Ruby.receive_eq order fallback _ x c (fun e => hq (e ▸ List.mem_cons_self))]
    show doings (x.seen ++ _) = []
    rw [doings_append, h, List.nil_append]
    cases c <;> first | exact hone _ _ _ | rfl

theorem regexp_kept (order : Requests → Requests) (fallback : Value) (hit : Bytes → Bool) (decode : Bytes → Bytes) (cmds : List Cmd) : ∀ (x : Session Bytes),
    Cmd.quit ∉ cmds → (run order fallback ((regexp hit decode).object order) x cmds).own = x.own ++ bodies cmds := by
  induction cmds with
  | nil => exact fun x _ => (List.append_nil _).symm
  | cons c cmds ih =>
    intro x hq
    refine (ih _ (fun h => hq (List.mem_cons_of_mem _ h))).trans ?_
    have e : bodies (c :: cmds) = bodies [c] ++ bodies cmds := by
      unfold bodies
      rw [List.flatMap_cons, List.flatMap_cons, List.flatMap_nil, List.append_nil]
    rw [e, ← List.append_assoc]
    refine congrArg (· ++ bodies cmds) ?_
    rw [Ruby.receive_eq order fallback _ x c (fun e => hq (e ▸ List.mem_cons_self))]
    have hnil : ∀ l : Bytes, l = l ++ [] := fun l => (List.append_nil l).symm
    cases c with
    | quit => exact absurd List.mem_cons_self hq
    | header n v =>
      refine Eq.trans ?_ (hnil _)
      show (one fallback ((regexp hit decode).object order) x _ (.header n v)).own = _
      unfold one
      have e : ((regexp hit decode).object order).callback (.header n v) = some fun s w own =>
        let r := (if isSubject n then (if hit (decode v) then .act (.reject {}) fun _ => .done else .done) else .done : Prog Bytes).exec order id s w own
        (⟨[⟨0, r.did, r.raised⟩], r.calls, r.context, r.status, r.own, r.raised⟩ : Outcome Bytes) := rfl
      rw [e]
      dsimp only
      cases isSubject n with
      | false => rfl
      | true =>
        cases hit (decode v) with
        | false => rfl
        | true => rfl
    | body chunk =>
      show (one fallback ((regexp hit decode).object order) x _ (.body chunk)).own = x.own ++ (chunk ++ [])
      rw [List.append_nil]
      unfold one
      have e : ((regexp hit decode).object order).callback (.body chunk) = some fun s w own =>
        let r := (if hit chunk then .act (.reject {}) fun _ => .own (· ++ chunk) fun _ => .done else .own (· ++ chunk) fun _ => .done : Prog Bytes).exec order id s w own
        (⟨[⟨0, r.did, r.raised⟩], r.calls, r.context, r.status, r.own, r.raised⟩ : Outcome Bytes) := rfl
      rw [e]
      dsimp only
      cases hit chunk with
      | false => rfl
      | true => rfl
    | endOfMessage last =>
      refine Eq.trans ?_ (hnil _)
      show (one fallback ((regexp hit decode).object order) x _ .endOfMessage).own = _
      unfold one
      have e : ((regexp hit decode).object order).callback .endOfMessage = some fun s w own =>
        let r := (if hit own then .act (.reject {}) fun _ => .done else .done : Prog Bytes).exec order id s w own
        (⟨[⟨0, r.did, r.raised⟩], r.calls, r.context, r.status, r.own, r.raised⟩ : Outcome Bytes) := rfl
      rw [e]
      dsimp only
      cases hit x.own with
      | false => rfl
      | true => rfl
    | _ => exact hnil _

theorem reject_ok (order : Requests → Requests) (reset : σ → σ) (s : State) (v : Option Value) (x : σ) : (perform order reset s v x (.reject {})).ok = true := by
  show (refuse ..).ok = true
  unfold refuse
  dsimp only
  rw [if_neg (show ¬ ((none : Option Nat).isSome = true ∨ (none : Option Bytes).isSome = true ∨ (none : Option Bytes).isSome = true) by simp)]
  split <;> rfl

theorem reject_did (order : Requests → Requests) (reset : σ → σ) (s : State) (v : Option Value) (x : σ) :
    (Prog.exec order reset (.act (.reject {}) fun _ => .done) s v x).did = [(.reject {}, true)] := by
  show [(Act.reject {}, (perform order reset s v x (.reject {})).ok)] = _
  rw [reject_ok]

theorem isSubject_eq (name : Bytes) : isSubject name = sameName name (ascii "Subject") := rfl

/-- the answer of a callback that rejects if `b`, and goes on else -/
theorem rejects_read (order : Requests → Requests) (fallback : Value) (hfb : fallback.toStatus ≠ .progress) (hit : Bytes → Bool) (decode : Bytes → Bytes) (n : Nat) (l : Link)
    (cmds : List Cmd) (hq : Cmd.quit ∉ cmds)
    (x : Session Bytes) (hx : x = run order fallback ((regexp hit decode).object order) (.start ((regexp hit decode).object order) (new n l)) cmds) (hl : x.context.link = .ready)
    (c : Cmd) (what : Callback) (hw : eventOf c = some what) (p : Prog Bytes) (hp : (regexp hit decode).callback what = some p) (b : Bool)
    (hdid : ∀ s, (p.exec order id s x.status x.own).did = (if b then [(.reject {}, true)] else []) ∧ (p.exec order id s x.status x.own).raised = false) :
    ∃ read, written (receive order fallback ((regexp hit decode).object order) x c).context.log = written x.context.log ++ (encodeReplies order [] read).flatten ∧
      read.filter (· ≠ .progress) = [if b then .reject else .cont] := by
  have hg : Ruby.Good x := by
    rw [hx]
    exact (Good.start _ n l).run (fun _ h => h.2) hfb ((regexp hit decode).honest order none fallback hfb (regexp_plain hit decode)) cmds hq
  have hd : doings x.seen = [] := by
    rw [hx]
    exact regexp_doings order fallback hit decode cmds _ hq rfl
  refine answer_read order fallback hfb (regexp hit decode) (regexp_plain hit decode) x hg hl c what hw p hp _ hdid ?_ _ ?_
  · cases b with
    | true => exact fun _ h => nomatch h
    | false => exact fun _ h => nomatch h
  · intro d hdec
    rw [hd]
    cases b with
    | true =>
      have h : d ∈ [Status.reject] ∧ _ := hdec
      rw [List.mem_singleton.mp h.1]
      exact ⟨rfl, rfl⟩
    | false =>
      have h : d = .default ∨ d = .continue_ := hdec
      rcases h with h | h <;> (rw [h]; exact ⟨rfl, rfl⟩)

/-- **C147**: a message is refused at a subject with the pattern, at a part of the body with the pattern, and at its end if the body has the pattern; else it goes on.
Missing: the end of a message in a session that has shown the body of another: `C147_next_violated`; and what comes with the end of the message: `C147_last_violated`. -/
theorem C147_partial (order : Requests → Requests) (fallback : Value) (hfb : fallback.toStatus ≠ .progress) (hit : Bytes → Bool) (decode : Bytes → Bytes) (n : Nat) (l : Link)
    (cmds : List Cmd) (hq : Cmd.quit ∉ cmds)
    (x : Session Bytes) (hx : x = run order fallback ((regexp hit decode).object order) (.start ((regexp hit decode).object order) (new n l)) cmds) (hl : x.context.link = .ready) :
    (∀ name value, ∃ read, written (receive order fallback ((regexp hit decode).object order) x (.header name value)).context.log =
        written x.context.log ++ (encodeReplies order [] read).flatten ∧
      read.filter (· ≠ .progress) = [if sameName name (ascii "Subject") && hit (decode value) then .reject else .cont]) ∧
    (∀ chunk, ∃ read, written (receive order fallback ((regexp hit decode).object order) x (.body chunk)).context.log =
        written x.context.log ++ (encodeReplies order [] read).flatten ∧
      read.filter (· ≠ .progress) = [if hit chunk then .reject else .cont]) ∧
    (bodies cmds = (shown cmds).body → ∃ read, written (receive order fallback ((regexp hit decode).object order) x (.endOfMessage [])).context.log =
        written x.context.log ++ (encodeReplies order [] read).flatten ∧
      read.filter (· ≠ .progress) = [if hit (shown cmds).body then .reject else .cont]) := by
  refine ⟨?_, ?_, ?_⟩
  · intro name value
    refine rejects_read order fallback hfb hit decode n l cmds hq x hx hl (.header name value) (.header name value) rfl _ rfl _ ?_
    intro s
    rw [← isSubject_eq]
    dsimp only
    cases isSubject name with
    | false => exact ⟨rfl, rfl⟩
    | true =>
      cases hit (decode value) with
      | false => exact ⟨rfl, rfl⟩
      | true => exact ⟨reject_did .., rfl⟩
  · intro chunk
    refine rejects_read order fallback hfb hit decode n l cmds hq x hx hl (.body chunk) (.body chunk) rfl _ rfl _ ?_
    intro s
    dsimp only
    cases hit chunk with
    | false => exact ⟨rfl, rfl⟩
    | true => exact ⟨reject_did .., rfl⟩
  · intro hb
    have hown : x.own = (shown cmds).body := by
      rw [hx, regexp_kept order fallback hit decode cmds _ hq, ← hb]
      rfl
    rw [← hown]
    refine rejects_read order fallback hfb hit decode n l cmds hq x hx hl (.endOfMessage []) .endOfMessage rfl _ rfl _ ?_
    intro s
    show (Prog.exec order id (if hit x.own then .act (.reject {}) fun _ => .done else .done : Prog Bytes) s x.status x.own).did = _ ∧
      (Prog.exec order id (if hit x.own then .act (.reject {}) fun _ => .done else .done : Prog Bytes) s x.status x.own).raised = _
    cases hit x.own with
    | false => exact ⟨rfl, rfl⟩
    | true => exact ⟨reject_did .., rfl⟩

/-- a `v` -/
def hasV (b : Bytes) : Bool := b.contains 0x76

/-- the hypotheses of C147, for a message after one that was aborted, and what is written at a header, at a chunk and at the end -/
example : let cmds : List Cmd := [.negotiate ⟨6, 0x1ff, 0⟩, .envelopeFrom (ascii "<a@b>"), .abort, .envelopeFrom (ascii "<a@b>"), .header (ascii "To") (ascii "v"), .body (ascii "abc")]
    bodies cmds = (shown cmds).body ∧ Cmd.quit ∉ cmds ∧
    let m := (regexp hasV id).object id
    let x := run id (.name .accept false) m (.start m (new 0 .ready)) cmds
    x.context.link = .ready ∧
    written (receive id (.name .accept false) m x (.header (ascii "SUBJECT") (ascii "v"))).context.log = written x.context.log ++ pack [0x72] ∧
    written (receive id (.name .accept false) m x (.body (ascii "v"))).context.log = written x.context.log ++ pack [0x72] ∧
    written (receive id (.name .accept false) m x (.endOfMessage [])).context.log = written x.context.log ++ pack [0x63] := by
  decide +kernel

/-- **C147 is violated**: the body of a message is never forgotten, so after one with the pattern every other message of the session is refused. -/
theorem C147_next_violated :
    let m := (regexp hasV id).object id
    let x := run id (.name .accept false) m (.start m (new 0 .ready))
      [.negotiate ⟨6, 0x1ff, 0⟩, .envelopeFrom (ascii "<a@b>"), .body (ascii "viagra"), .abort, .envelopeFrom (ascii "<c@d>"), .body (ascii "hello")]
    written (receive id (.name .accept false) m x (.endOfMessage [])).context.log = written x.context.log ++ pack [0x72] := by
  decide +kernel

/-- **C147 is violated**: what comes with the end of the message is not looked at. -/
theorem C147_last_violated :
    let m := (regexp hasV id).object id
    let x := run id (.name .accept false) m (.start m (new 0 .ready)) [.negotiate ⟨6, 0x1ff, 0⟩, .envelopeFrom (ascii "<a@b>")]
    written (receive id (.name .accept false) m x (.endOfMessage (ascii "viagra"))).context.log = written x.context.log ++ pack [0x63] := by
  decide +kernel

/-! ## C148: milter-reject-empty-body.rb -/

theorem rejectEmptyBody_plain : Keeps plain rejectEmptyBody := by
  intro what p h
  cases what <;> first | (cases h; done) | skip
  · cases h
    show Only plain (if _ then _ else _)
    split
    · exact True.intro
    · exact fun _ => True.intro
  · cases h
    intro b
    cases b with
    | true => exact True.intro
    | false =>
      refine ⟨rfl, fun b => ?_⟩
      cases b <;> exact True.intro
  · cases h
    exact fun _ => True.intro

theorem blank_iff (b : Bytes) : blank b = true ↔ Blank b := by
  unfold blank Blank
  rw [List.all_eq_true]
  refine forall_congr' fun c => forall_congr' fun _ => ?_
  have key : ∀ c : Fin 256, ((UInt8.ofFin c == 0x20 || (decide ((0x09 : UInt8) ≤ UInt8.ofFin c) && decide (UInt8.ofFin c ≤ 0x0d))) = true) ↔
    UInt8.ofFin c ∈ ([0x20, 0x09, 0x0a, 0x0b, 0x0c, 0x0d] : List UInt8) := by decide +kernel
  exact key c.toFin

theorem blank_append (a b : Bytes) : blank (a ++ b) = (blank a && blank b) := List.all_append

theorem rejectEmptyBody_kept (order : Requests → Requests) (fallback : Value) (cmds : List Cmd) : ∀ (begun : Bool) (m : Mail) (x : Session Bool),
    (begun = true → x.own = !blank m.body) → (begun = false → x.own = false) → orderly begun cmds = true → (∀ last, Cmd.endOfMessage last ∉ cmds) →
    cmds.foldl next begun = true → (run order fallback (rejectEmptyBody.object order) x cmds).own = !blank (cmds.foldl further m).body := by
  induction cmds with
  | nil => exact fun begun m x h1 _ _ _ hb => h1 hb
  | cons c cmds ih =>
    intro begun m x h1 h0 ho he hb
    unfold orderly at ho
    rw [Bool.and_eq_true] at ho
    have ho1 := ho.1
    have he' : ∀ last, Cmd.endOfMessage last ∉ cmds := fun last h => he last (List.mem_cons_of_mem _ h)
    refine ih (next begun c) (further m c) (receive order fallback (rejectEmptyBody.object order) x c) ?_ ?_ ho.2 he' hb
    · intro hn
      cases c with
      | quit => cases ho1
      | endOfMessage a => exact absurd List.mem_cons_self (he a)
      | abort => cases hn
      | envelopeFrom a => exact h0 (by cases begun <;> first | rfl | cases ho1)
      | body chunk =>
        have hx := h1 hn
        show (one fallback (rejectEmptyBody.object order) x _ (.body chunk)).own = !blank (m.body ++ chunk)
        rw [blank_append]
        unfold one
        have e : (rejectEmptyBody.object order).callback (.body chunk) = some fun s w own =>
          let r := (if blank chunk then .done else .own (fun _ => true) fun _ => .done : Prog Bool).exec order id s w own
          (⟨[⟨0, r.did, r.raised⟩], r.calls, r.context, r.status, r.own, r.raised⟩ : Outcome Bool) := rfl
        rw [e]
        dsimp only
        cases blank chunk with
        | true => rw [Bool.and_true]; exact hx
        | false => rw [Bool.and_false]; rfl
      | _ => exact h1 hn
    · intro hn
      cases c with
      | quit => cases ho1
      | endOfMessage a => exact absurd List.mem_cons_self (he a)
      | abort => rfl
      | envelopeFrom a => cases hn
      | body chunk => have hn : begun = false := hn; rw [hn] at ho1; cases ho1
      | _ => exact h0 hn

theorem orderly_quit {cmds : List Cmd} : ∀ {b : Bool}, orderly b cmds = true → Cmd.quit ∉ cmds := by
  induction cmds with
  | nil => exact fun _ h => nomatch h
  | cons c cmds ih =>
    intro b ho h
    unfold orderly at ho
    rw [Bool.and_eq_true] at ho
    cases h with
    | head => cases ho.1
    | tail _ h => exact ih ho.2 h

/-- **C148**: at the end of the first message that gets so far in a session, whatever was aborted before, the MTA reads a refusal with the reason if the body is white space only, and else that the message goes on.
Missing: later messages of a session (`C148_next_violated`), a part of the body that comes with the end of the message (`C148_last_violated`). -/
theorem C148_partial (order : Requests → Requests) (fallback : Value) (hfb : fallback.toStatus ≠ .progress) (n : Nat) (l : Link) (cmds : List Cmd)
    (ho : orderly false cmds = true) (hbegun : cmds.foldl next false = true) (hfirst : ∀ last, Cmd.endOfMessage last ∉ cmds)
    (x : Session Bool) (hx : x = run order fallback (rejectEmptyBody.object order) (.start (rejectEmptyBody.object order) (new n l)) cmds) (hl : x.context.link = .ready) :
    ∃ read, written (receive order fallback (rejectEmptyBody.object order) x (.endOfMessage [])).context.log = written x.context.log ++ (encodeReplies order [] read).flatten ∧
      read.filter (· ≠ .progress) = [if Blank (shown cmds).body then .replyCode 550 (ascii "5.7.1") (some (ascii "must have body")) else .cont] := by
  have hq := orderly_quit ho
  have hg : Ruby.Good x := by
    rw [hx]
    exact (Good.start _ n l).run (fun _ h => h.2) hfb (rejectEmptyBody.honest order none fallback hfb rejectEmptyBody_plain) cmds hq
  have hown : x.own = !blank (shown cmds).body := by
    rw [hx]
    exact rejectEmptyBody_kept order fallback cmds false {} _ (fun h => nomatch h) (fun _ => rfl) ho hfirst hbegun
  have hlegal : Spec.LegalReply 550 (some (ascii "5.7.1")) := (Props.C10_accepts {} 550 (some (ascii "5.7.1")) (some (ascii "must have body"))).mp (by decide +kernel)
  have hok : ∀ s : State, (call order s (.setReply 550 (some (ascii "5.7.1")) (some (ascii "must have body")))).1 = true := by
    intro s
    exact (Props.C10_accepts s.custom _ _ (some (ascii "must have body"))).mpr hlegal
  have hcall : (rejectEmptyBody).callback .endOfMessage = some (.own id fun have_ => if have_ then .done else
    .act (.reject { reason := some (ascii "must have body") }) fun ok => if ok then .done else .raise) := rfl
  have e : ∀ s, (Prog.own id fun have_ => if have_ then .done else
    .act (.reject { reason := some (ascii "must have body") }) fun ok => if ok then .done else .raise : Prog Bool).exec order rejectEmptyBody.reset s x.status x.own =
    (if x.own then .done else .act (.reject { reason := some (ascii "must have body") }) fun ok => if ok then .done else .raise : Prog Bool).exec order id s x.status x.own := fun _ => rfl
  by_cases hb : Blank (shown cmds).body
  · rw [if_pos hb]
    rw [(blank_iff _).mpr hb] at hown
    refine answer_read order fallback hfb rejectEmptyBody rejectEmptyBody_plain x hg hl (.endOfMessage []) .endOfMessage rfl _ hcall
      [(.reject { reason := some (ascii "must have body") }, true)] ?_ (fun y hy => ⟨_, _, _, List.mem_singleton.mp hy⟩) _ ?_
    · intro s
      have hperf : ∀ own : Bool, (perform order id s x.status own (.reject { reason := some (ascii "must have body") })).ok = true := by
        intro own
        show (refuse ..).ok = true
        unfold refuse
        dsimp only
        rw [if_pos (show (none : Option Nat).isSome = true ∨ (none : Option Bytes).isSome = true ∨ (some (ascii "must have body")).isSome = true from .inr (.inr rfl))]
        split <;> exact hok s
      rw [e, if_neg (by rw [hown]; exact fun h => nomatch h)]
      unfold Prog.exec
      dsimp only
      rw [hperf]
      exact ⟨rfl, rfl⟩
    · intro d hdec
      have h : d ∈ [Status.reject] ∧ _ := hdec
      rw [List.mem_singleton.mp h.1]
      refine ⟨rfl, ?_⟩
      have hc : customAfter none (doings x.seen ++ [(Act.reject { reason := some (ascii "must have body") }, true)].flatMap fun d => means d.1) =
          some (550, some (ascii "5.7.1"), some (ascii "must have body")) := by
        rw [customAfter_append]
        exact if_pos hlegal
      rw [hc]
      rfl
  · rw [if_neg hb]
    have hbl : blank (shown cmds).body = false := by
      cases h : blank (shown cmds).body with
      | false => rfl
      | true => exact absurd ((blank_iff _).mp h) hb
    rw [hbl] at hown
    refine answer_read order fallback hfb rejectEmptyBody rejectEmptyBody_plain x hg hl (.endOfMessage []) .endOfMessage rfl _ hcall [] ?_ (fun y hy => nomatch hy) _ ?_
    · intro s
      rw [e, if_pos (by rw [hown]; rfl)]
      exact ⟨rfl, rfl⟩
    · intro d hdec
      have h : d = .default ∨ d = .continue_ := hdec
      rcases h with h | h <;> (rw [h]; exact ⟨rfl, rfl⟩)

/-- the hypotheses of C148, for a message after one that was aborted, and what is written without and with a body -/
example : let cmds : List Cmd := [.negotiate ⟨6, 0x1ff, 0⟩, .envelopeFrom (ascii "<a@b>"), .body (ascii "text"), .abort, .envelopeFrom (ascii "<a@b>"), .body [0x20, 0x0d, 0x0a]]
    orderly false cmds = true ∧ cmds.foldl next false = true ∧ Blank (shown cmds).body ∧
    let m := rejectEmptyBody.object id
    let x := run id (.name .accept false) m (.start m (new 0 .ready)) cmds
    x.context.link = .ready ∧
    written (receive id (.name .accept false) m x (.endOfMessage [])).context.log = written x.context.log ++ pack (0x79 :: (ascii "550 5.7.1 must have body" ++ [0])) ∧
    let x := receive id (.name .accept false) m x (.body (ascii "text"))
    ¬ Blank (shown (cmds ++ [.body (ascii "text")])).body ∧
    written (receive id (.name .accept false) m x (.endOfMessage [])).context.log = written x.context.log ++ pack [0x63] := by
  decide +kernel

/-- **C148 is violated**: after a message with a body, a message without any goes on. -/
theorem C148_next_violated :
    let m := rejectEmptyBody.object id
    let x := run id (.name .accept false) m (.start m (new 0 .ready))
      [.negotiate ⟨6, 0x1ff, 0⟩, .envelopeFrom (ascii "<a@b>"), .body (ascii "text"), .endOfMessage [], .envelopeFrom (ascii "<c@d>"), .body [0x20]]
    written (receive id (.name .accept false) m x (.endOfMessage [])).context.log = written x.context.log ++ pack [0x63] := by
  decide +kernel

/-- **C148 is violated**: a message whose body comes with its end is refused for having none. -/
theorem C148_last_violated :
    let m := rejectEmptyBody.object id
    let x := run id (.name .accept false) m (.start m (new 0 .ready)) [.negotiate ⟨6, 0x1ff, 0⟩, .envelopeFrom (ascii "<a@b>")]
    written (receive id (.name .accept false) m x (.endOfMessage (ascii "text"))).context.log =
      written x.context.log ++ pack (0x79 :: (ascii "550 5.7.1 must have body" ++ [0])) := by
  decide +kernel

end Verif.Props.Samples
