import Verif.Props.SessionFront
/-
A session as a list of commands with what is said in answer to each of them.
-/
namespace Verif.Props
open Verif Verif.Session Verif.Spec.Children Verif.Spec.Client
open Verif.Leader (Front)
open Verif.Children (Sys Emit Event)
open Verif.Spec (Pointwise)
open Verif.Spec.Session (whole)
open Verif.Spec.Phase (decisionOf)
open Verif.Spec.Course (Text textAfter Fair reason isQuestion isEnd Read)
open Verif.Client (Kind kindOf)

variable {order : Requests → Requests}

/-- a command of the MTA, what happens at the milters up to the next one, and what the leader hears -/
structure Segment where
  command : Children.Event
  talk : List Children.Event
  heard : List Emit

/-- the commands are taken, and this comes of them -/
inductive Says (n : Nat) : Sys → List Segment → Sys → Prop where
  | nil (s : Sys) : Says n s [] s
  | cons {s s1 s2 : Sys} {x : Segment} {l : List Segment} (taken : Children.Taken n s x.command)
      (talk : ∀ e ∈ x.talk, fromMilter e = true) (happens : Children.run n s (quietly (x.command :: x.talk)) = some s1)
      (tells : told s1.out = told s.out ++ x.heard) (rest : Says n s1 l s2) : Says n s (x :: l) s2

def eventsOf (l : List Segment) : List Children.Event := l.flatMap fun x => x.command :: x.talk

def heardOf (l : List Segment) : List Emit := l.flatMap fun x => x.heard

theorem eventsOf_append (a b : List Segment) : eventsOf (a ++ b) = eventsOf a ++ eventsOf b := by
  unfold eventsOf; rw [List.flatMap_append]

theorem heardOf_append (a b : List Segment) : heardOf (a ++ b) = heardOf a ++ heardOf b := by
  unfold heardOf; rw [List.flatMap_append]

theorem Says.append {n : Nat} {s s1 s2 : Sys} {a b : List Segment} (h : Says n s a s1) (h' : Says n s1 b s2) : Says n s (a ++ b) s2 := by
  induction h with
  | nil => exact h'
  | cons t k r o _ ih => exact .cons t k r o (ih h')

theorem Says.run {n : Nat} {s s' : Sys} {l : List Segment} (h : Says n s l s') :
    Children.run n s (quietly (eventsOf l)) = some s' ∧ told s'.out = told s.out ++ heardOf l := by
  induction h with
  | nil => exact ⟨rfl, (List.append_nil _).symm⟩
  | @cons s s1 s2 x l taken talk happens tells rest ih =>
    refine ⟨?_, ?_⟩
    · show Children.run n s (quietly ((x.command :: x.talk) ++ eventsOf l)) = _
      rw [Children.quietly_append]
      exact Children.run_trans happens ih.1
    · rw [ih.2, tells, List.append_assoc]
      rfl

/-- one more command, when what comes of everything is known -/
theorem Says.last {n : Nat} {s u s' : Sys} {l : List Segment} (h : Says n s l u) (x : Segment) (taken : Children.Taken n u x.command)
    (talk : ∀ e ∈ x.talk, fromMilter e = true)
    (hr : Children.run n s (quietly (eventsOf l ++ x.command :: x.talk)) = some s')
    (ht : told s'.out = told s.out ++ (heardOf l ++ x.heard)) : Says n s (l ++ [x]) s' := by
  obtain ⟨h1, h2⟩ := h.run
  refine h.append (.cons taken talk ?_ ?_ (.nil s'))
  · rw [Children.quietly_append] at hr
    unfold quietly at hr h1 ⊢
    rw [Children.run_append', h1] at hr
    exact hr
  · rw [ht, h2, List.append_assoc]

/-! ### What is said -/

/-- a command before the end of a message, with one decision -/
def IsWord (x : Segment) : Prop :=
  isQuestion x.command = true ∧ isEnd x.command = false ∧ ∃ r, x.heard = [.reply r] ∧ (decisionOf r).isSome = true

/-- The right things are said; `b` says that the last command was answered. -/
inductive Shaped : Bool → List Segment → Prop where
  | nil (b : Bool) : Shaped b []
  | abort {b : Bool} {talk : List Children.Event} {l : List Segment} (next : Shaped false l) : Shaped b (⟨.abort, talk, []⟩ :: l)
  | word {b : Bool} {x : Segment} {l : List Segment} (word : IsWord x) (next : Shaped true l) : Shaped b (x :: l)
  | finish {last : Bytes} {talk : List Children.Event} {requests : List Emit} {r : Reply} {l : List Segment}
      (asks : ∀ e ∈ requests, ∃ c, asksFor e = some c) (decision : (decisionOf r).isSome = true) (next : Shaped true l) :
      Shaped true (⟨.endOfMessage last, talk, requests ++ [.reply r]⟩ :: l)

theorem Shaped.weaken {l : List Segment} (h : Shaped false l) (b : Bool) : Shaped b l := by
  cases h with
  | nil => exact .nil b
  | abort next => exact .abort next
  | word w next => exact .word w next

theorem Shaped.append {b : Bool} {l l' : List Segment} (h : Shaped b l) (h' : Shaped false l') : Shaped b (l ++ l') := by
  induction h with
  | nil => exact h'.weaken _
  | abort _ ih => exact .abort ih
  | word w _ ih => exact .word w ih
  | finish a d _ ih => exact .finish a d ih

theorem shaped_words {l l' : List Segment} (hl : ∀ x ∈ l, IsWord x) (h' : Shaped true l') : ∀ b, (l = [] → Shaped b l') → Shaped b (l ++ l') := by
  induction l with
  | nil => exact fun b h => h rfl
  | cons x l ih =>
    intro b _
    exact .word (hl x List.mem_cons_self) (ih (fun y hy => hl y (List.mem_cons_of_mem _ hy)) true fun _ => h')

/-! ### The MTA's side -/

theorem fair_word {t : Text} {r : Reply} {es : List Emit} (h : Fair t (.reply r :: es)) (hd : (decisionOf r).isSome = true) :
    Ending t r ∧ Fair (textAfter t (.reply r)) es := by
  refine ⟨?_, h.2⟩
  have h := h.1
  cases r <;> first | exact trivial | exact h | cases hd

theorem fair_asks {t : Text} (requests : List Emit) {es : List Emit} (ha : ∀ e ∈ requests, ∃ c, asksFor e = some c)
    (h : Fair t (requests ++ es)) : Fair t es := by
  induction requests with
  | nil => exact h
  | cons e requests ih =>
    refine ih (fun x hx => ha x (List.mem_cons_of_mem _ hx)) ?_
    have h2 := h.2
    have : textAfter t e = t := by
      obtain ⟨c, hc⟩ := ha e List.mem_cons_self
      cases e with
      | reply r => cases r <;> first | rfl | cases hc
      | _ => rfl
    rw [this] at h2
    exact h2

/-- a command of the MTA as it reaches the leader -/
theorem question_command {e : Children.Event} (h : isQuestion e = true) :
    ∃ c k context, kindOf c = some (k, context) ∧ eventOf c = some e ∧ k ≠ .negotiate ∧ whole e = .command c [] ∧
      (isEnd e = false → k ≠ .endOfMessage ∧ ∀ l, Leader.begin l c = { l with st := .doing k }) ∧
      ∀ n f m m1 (order : Requests → Requests), f.attached = true → Children.command (Children.dispatch n) e { m with oracle := [] } = some (true, m1) →
        Session.step order n ⟨f, m⟩ (.command c []) = some ⟨f.command order c (toldSince m m1) true none none, m1⟩ := by
  have step : ∀ c e, eventOf c = some e → (∀ o, c ≠ .negotiate o) → e ≠ .quit → ∀ n f m m1 (order : Requests → Requests), f.attached = true →
      Children.command (Children.dispatch n) e { m with oracle := [] } = some (true, m1) →
        Session.step order n ⟨f, m⟩ (.command c []) = some ⟨f.command order c (toldSince m m1) true none none, m1⟩ := by
    intro c e he hn hq n f m m1 order hat hm
    unfold Session.step
    dsimp only
    rw [hat, he]
    cases c <;> cases he <;> first | exact absurd rfl (hn _) | exact absurd rfl hq | (simp only [Bool.not_true, Bool.false_eq_true, if_false]; rw [hm]; rfl)
  cases e <;> first | (cases h; done) | skip
  · exact ⟨.connect _ _, _, _, rfl, rfl, (by simp), rfl, fun _ => ⟨by simp, fun _ => rfl⟩, step _ _ rfl (by simp) (by simp)⟩
  · exact ⟨.helo _, _, _, rfl, rfl, (by simp), rfl, fun _ => ⟨by simp, fun _ => rfl⟩, step _ _ rfl (by simp) (by simp)⟩
  · exact ⟨.envelopeFrom _, _, _, rfl, rfl, (by simp), rfl, fun _ => ⟨by simp, fun _ => rfl⟩, step _ _ rfl (by simp) (by simp)⟩
  · exact ⟨.envelopeRecipient _, _, _, rfl, rfl, (by simp), rfl, fun _ => ⟨by simp, fun _ => rfl⟩, step _ _ rfl (by simp) (by simp)⟩
  · exact ⟨.data, _, _, rfl, rfl, (by simp), rfl, fun _ => ⟨by simp, fun _ => rfl⟩, step _ _ rfl (by simp) (by simp)⟩
  · exact ⟨.unknown _, _, _, rfl, rfl, (by simp), rfl, fun _ => ⟨by simp, fun _ => rfl⟩, step _ _ rfl (by simp) (by simp)⟩
  · exact ⟨.header _ _, _, _, rfl, rfl, (by simp), rfl, fun _ => ⟨by simp, fun _ => rfl⟩, step _ _ rfl (by simp) (by simp)⟩
  · exact ⟨.endOfHeader, _, _, rfl, rfl, (by simp), rfl, fun _ => ⟨by simp, fun _ => rfl⟩, step _ _ rfl (by simp) (by simp)⟩
  · exact ⟨.body _, _, _, rfl, rfl, (by simp), rfl, fun _ => ⟨by simp, fun _ => rfl⟩, step _ _ rfl (by simp) (by simp)⟩
  · exact ⟨.endOfMessage _, _, _, rfl, rfl, (by simp), rfl, fun h => (by cases h), step _ _ rfl (by simp) (by simp)⟩

/-- a command that is taken, and what the leader hears then -/
theorem taken_run {n : Nat} {c : Cmd} {e : Children.Event} {k : Kind} {context : Option Macros.Context}
    (hk : kindOf c = some (k, context)) (hn : k ≠ .negotiate) (hw : whole e = .command c [])
    (hstep : ∀ n f m m1 (order : Requests → Requests), f.attached = true → Children.command (Children.dispatch n) e { m with oracle := [] } = some (true, m1) →
        Session.step order n ⟨f, m⟩ (.command c []) = some ⟨f.command order c (toldSince m m1) true none none, m1⟩)
    (es : List Children.Event) (hes : ∀ e ∈ es, fromMilter e = true) {m m' : Sys} {f : Front} {x : List Emit}
    (ht : Children.Taken n m e) (h : Children.run n m (quietly (e :: es)) = some m') (hx : told m'.out = told m.out ++ x)
    (hp : ∀ e ∈ x, e ≠ .abort ∧ e ≠ .finished) (hat : f.attached = true) (hch : f.leader.hasChildren = true) :
    Session.run order n ⟨f, m⟩ ((e :: es).map whole) = some ⟨x.foldl (Front.hear order) (atWork f c k context), m'⟩ := by
  obtain ⟨m1, hm1⟩ := ht
  have h1 := command_next hm1
  simp only [quietly, List.map_cons, Children.run, h1] at h
  obtain ⟨b, hb⟩ := run_told es h
  have ha := next_told h1
  have hab : x = toldSince m m1 ++ b := by
    refine List.append_cancel_left (as := told m.out) ?_
    rw [← hx, hb, ha, List.append_assoc]
  rw [hab] at hp ⊢
  have hpa : ∀ e ∈ toldSince m m1, e ≠ .abort ∧ e ≠ .finished := fun e he => hp e (List.mem_append_left _ he)
  rw [List.map_cons, hw]
  show (Session.step order n ⟨f, m⟩ (.command c [])).bind _ = _
  rw [hstep n f m m1 order hat hm1, command_taken (order := order) f c (toldSince m m1) hk hn hat hch hpa, List.foldl_append]
  exact heard_run es hes h hb (fun e he => hp e (List.mem_append_right _ he)) ((hears_attached' hpa _).trans hat)

/-- the MTA gives up the message -/
theorem abort_run {n : Nat} (es : List Children.Event) (hes : ∀ e ∈ es, fromMilter e = true) {m m' : Sys} {f : Front}
    (ht : Children.Taken n m .abort) (h : Children.run n m (quietly (.abort :: es)) = some m') (hx : told m'.out = told m.out ++ [])
    (hat : f.attached = true) :
    Session.run order n ⟨f, m⟩ ((.abort :: es).map whole) = some ⟨f.command order .abort [] true none none, m'⟩ := by
  obtain ⟨m1, hm1⟩ := ht
  have h1 := command_next hm1
  simp only [quietly, List.map_cons, Children.run, h1] at h
  obtain ⟨b, hb⟩ := run_told es h
  have ha := next_told h1
  have hab : [] = toldSince m m1 ++ b := by
    refine List.append_cancel_left (as := told m.out) ?_
    rw [← hx, hb, ha, List.append_assoc]
  obtain ⟨e1, e2⟩ := List.append_eq_nil_iff.mp hab.symm
  have hs : Session.step order n ⟨f, m⟩ (.command .abort []) = some ⟨f.command order .abort [] true none none, m1⟩ := by
    unfold Session.step
    dsimp only [eventOf]
    rw [hat, hm1, ← e1]
    rfl
  have hat' : (f.command order .abort [] true none none).attached = true := by
    have : f.command order .abort [] true none none = { f with
        leader := { f.leader with st := .abort }
        client := Client.receive order f.client .abort [⟨[], if f.leader.hasChildren then .default else f.leader.fallback⟩] none none } := by
      unfold Front.command
      rw [hat]
      rfl
    rw [this]
    exact hat
  have h2 := heard_run (order := order) es hes (f := f.command order .abort [] true none none) h hb (by rw [e2]; exact fun _ h => nomatch h) hat'
  rw [e2] at h2
  show (Session.step order n ⟨f, m⟩ (.command .abort [])).bind _ = _
  rw [hs]
  exact h2

theorem reason_asks (requests : List Emit) (ha : ∀ e ∈ requests, ∃ c, asksFor e = some c) :
    (requests.filterMap asksFor).foldl reasonAfter none = reason requests := by
  unfold reason
  generalize (none : Option Bytes) = r
  induction requests generalizing r with
  | nil => rfl
  | cons e requests ih =>
    obtain ⟨c, hc⟩ := ha e List.mem_cons_self
    rw [List.filterMap_cons, hc, List.foldl_cons]
    show (requests.filterMap asksFor).foldl reasonAfter (reasonAfter r c) = _
    rw [ih (fun x hx => ha x (List.mem_cons_of_mem _ hx)), List.foldl_cons]
    congr 1
    cases e with
    | reply x => cases x <;> first | (cases hc; done) | (cases hc; rfl)
    | edit x =>
      cases x with
      | delete n i => cases i <;> first | (cases hc; done) | (cases hc; rfl)
      | _ => cases hc; rfl
    | _ => cases hc

theorem talk_questions {talk : List Children.Event} (h : ∀ e ∈ talk, fromMilter e = true) : talk.filter isQuestion = [] := by
  rw [List.filter_eq_nil_iff]
  intro e he
  have := h e he
  cases e <;> first | (cases this; done) | exact Bool.false_ne_true

/-- a command before the end of a message is answered -/
theorem word_front {f : Front} (h : Idle f) {c : Cmd} {k : Kind} {context : Option Macros.Context}
    (hk : kindOf c = some (k, context)) (hn : k ≠ .negotiate) (hne : k ≠ .endOfMessage)
    (hb : Leader.begin f.leader c = { f.leader with st := .doing k }) (r : Reply) (hend : Ending (lastCustom f.client.log) r) :
    written (([Emit.reply r].foldl (Front.hear order) (atWork f c k context)).client.log) =
      written f.client.log ++ (Enc.encodeReplies order [] [r]).flatten := by
  have hg := atWork_good h hk hn
  have hlog : (atWork f c k context).client.log = f.client.log ++ [.got c] := Leader.enter_log _ _ _
  have hw : written (atWork f c k context).client.log = written f.client.log := by
    rw [hlog, Client.written_append]
    exact List.append_nil _
  have hcl : lastCustom (atWork f c k context).client.log = lastCustom f.client.log := by rw [hlog, Client.lastCustom_snoc]
  have hkeep : (atWork f c k context).client.link = f.client.link ∧ (atWork f c k context).client.buffered = f.client.buffered := by
    show (Client.enter _ _ _).link = _ ∧ (Client.enter _ _ _).buffered = _
    unfold Client.enter Client.setSt
    dsimp only
    split <;> split <;> exact ⟨rfl, rfl⟩
  rw [← hw]
  obtain ⟨v, hv⟩ : ∃ v, Spec.Leader.decides (atWork f c k context).leader.fallback (.reply r) = some v := by
    cases r <;> first | exact ⟨_, rfl⟩ | exact hend.elim
  refine answer_written hg (hkeep.1.trans h.link) (by show (Leader.begin f.leader c).st = _; rw [hb]) hn hne (hkeep.2.trans h.empty)
    (v := v) hv ?_ ?_
  · cases r <;> first | exact trivial | exact hend | exact hend.elim
  · intro h'
    rw [hcl]
    rcases h' with rfl | rfl <;> exact hend

/-- what the MTA reads -/
theorem says_read {n : Nat} {m m' : Sys} {l : List Segment} (hs : Says n m l m') : ∀ {f : Front} {b : Bool}, Shaped b l → Idle f →
    (b = true → Leader.isReplied f.leader.st = true) → hasFlag f.client.option 0x04 = hasFlag f.client.option 0x80 →
    Fair (lastCustom f.client.log) (heardOf l) →
    ∃ f' read, Session.run order n ⟨f, m⟩ ((eventsOf l).map whole) = some ⟨f', m'⟩ ∧ Idle f' ∧
      Read f.client.option ((eventsOf l).filter isQuestion) (heardOf l) read ∧
      written f'.client.log = written f.client.log ++ (read.map fun rs => (Enc.encodeReplies order [] rs).flatten).flatten := by
  induction hs with
  | nil =>
    intro f b _ hf _ _ _
    exact ⟨f, [], rfl, hf, .done, (List.append_nil _).symm⟩
  | @cons s s1 s2 x l taken talk happens tells rest ih =>
    intro f b hsh hf hb hfl hfair
    have hev : eventsOf (x :: l) = (x.command :: x.talk) ++ eventsOf l := rfl
    have hhe : heardOf (x :: l) = x.heard ++ heardOf l := rfl
    have hq : (eventsOf (x :: l)).filter isQuestion = (if isQuestion x.command then [x.command] else []) ++ (eventsOf l).filter isQuestion := by
      rw [hev, List.filter_append, List.filter_cons, talk_questions talk]
    rw [hq, hev, List.map_append]
    rw [hhe] at hfair ⊢
    cases hsh with
    | @abort _ talk' _ next =>
      have h1 := abort_run (order := order) talk' talk taken happens tells hf.attached
      obtain ⟨g1, g2, g3, g4⟩ := aborted_front (order := order) hf true
      obtain ⟨f2, read, h2, i2, r2, w2⟩ := ih (f := f.command order .abort [] true none none) next g1 (fun h => nomatch h) (by rw [g2]; exact hfl)
        (by rw [g3]; exact hfair)
      rw [g2] at r2
      refine ⟨f2, read, ?_, i2, r2, ?_⟩
      · rw [Session.run_append _ h1]; exact h2
      · rw [w2, g4]
    | word w next =>
      obtain ⟨w1, w2, r, w3, w4⟩ := w
      obtain ⟨c, k, context, hk, _, hn, hw, hbe, hstep⟩ := question_command w1
      obtain ⟨hne, hbegin⟩ := hbe w2
      rw [w3] at hfair tells ⊢
      obtain ⟨hend, hfair'⟩ := fair_word hfair w4
      have h1 := taken_run (order := order) hk hn hw hstep x.talk talk taken happens tells
        (by intro e he; cases List.mem_singleton.mp he; exact ⟨(fun h => nomatch h), (fun h => nomatch h)⟩) hf.attached hf.children
      obtain ⟨g1, g2, g3, g4⟩ := answered_front (order := order) hf hk hn (hbegin _) [] (fun _ h => nomatch h) r hend
      have g5 := word_front (order := order) hf hk hn hne (hbegin _) r hend
      rw [List.nil_append] at g1 g2 g3 g4
      obtain ⟨f2, read, h2, i2, r2, w2'⟩ := ih next g1 (fun _ => g2) (by rw [g3]; exact hfl) (by rw [g4]; exact hfair')
      rw [g3] at r2
      refine ⟨f2, [r] :: read, ?_, i2, ?_, ?_⟩
      · rw [Session.run_append _ h1]; exact h2
      · rw [w1]
        exact .word w2 w4 r2
      · rw [w2', g5, List.map_cons, List.flatten_cons, List.append_assoc]
    | @finish last talk' requests r _ asks decision next =>
      have hr := hb rfl
      obtain ⟨c, k, context, hk, hev', hn, hw, -, hstep⟩ := question_command (e := .endOfMessage last) rfl
      obtain rfl : c = .endOfMessage last := by
        cases c <;> cases hev'
        rfl
      cases hk
      have hbegin : Leader.begin f.leader (.endOfMessage last) = { f.leader with st := .doing .endOfMessage } := by
        simp only [Leader.begin, hr, if_true]
      have hfair2 := fair_asks requests asks (by rw [List.append_assoc] at hfair; exact hfair)
      obtain ⟨hend, hfair'⟩ := fair_word hfair2 decision
      have h1 := taken_run (order := order) rfl hn hw hstep talk' talk taken happens tells
        (by
          intro e he
          rcases List.mem_append.mp he with he | he
          · obtain ⟨c, hc⟩ := asks e he
            exact (asks_plain hc).2
          · cases List.mem_singleton.mp he
            exact ⟨(fun h => nomatch h), (fun h => nomatch h)⟩) hf.attached hf.children
      obtain ⟨g1, g2, g3, g4⟩ := answered_front (order := order) hf rfl hn hbegin requests asks r hend
      obtain ⟨parts, rs, p1, p2, p3⟩ := end_front order hf hr last hfl requests asks r hend
      rw [reason_asks requests asks] at p2
      obtain ⟨f2, read, h2, i2, r2, w2'⟩ := ih next g1 (fun _ => g2) (by rw [g3]; exact hfl) (by rw [g4]; exact hfair')
      rw [g3] at r2
      refine ⟨f2, rs :: read, ?_, i2, ?_, ?_⟩
      · rw [Session.run_append _ h1]; exact h2
      · rw [List.append_assoc]
        exact .finish asks decision p1 p2 r2
      · rw [w2', List.map_cons, List.flatten_cons, ← List.append_assoc]
        congr 1

end Verif.Props
