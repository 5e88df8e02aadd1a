import Verif.Manager.SessionFacts
import Verif.Manager.ChildrenIntake
import Verif.Spec.Session
import Verif.Props.Client
import Verif.Client.Session
/-
A whole message in a session.
-/
namespace Verif.Session
open Verif Verif.Leader
open Verif.Children (Emit Sys)
open Verif.Spec.Children (told quietly)
open Verif.Spec.Session (whole)
open Verif.Client (Kind kindOf)

variable {order : Requests → Requests}

theorem run_append {n : Nat} {a : List Session.Event} (b : List Session.Event) : ∀ {u v : Session}, Session.run order n u a = some v →
    Session.run order n u (a ++ b) = Session.run order n v b := by
  induction a with
  | nil => intro u v h; cases h; rfl
  | cons x a ih =>
    intro u v h
    obtain ⟨w, h1, h2⟩ := Option.bind_eq_some_iff.mp h
    show (Session.step order n u x).bind _ = _
    rw [h1]
    exact ih h2

theorem next_told' {n : Nat} {m m' : Sys} {e : Children.Event} {answers : List (Bool × Bool)}
    (h : Children.next n m e answers = some m') : ∃ x, told m'.out = told m.out ++ x := ⟨_, next_told h⟩

theorem run_told {n : Nat} (es : List Children.Event) : ∀ {m m' : Sys}, Children.run n m (quietly es) = some m' →
    ∃ x, told m'.out = told m.out ++ x := by
  induction es with
  | nil => intro m m' h; cases h; exact ⟨[], (List.append_nil _).symm⟩
  | cons e es ih =>
    intro m m' h
    cases h1 : Children.next n m e [] with
    | none => simp [quietly, Children.run, h1] at h
    | some m1 =>
      simp only [quietly, List.map_cons, Children.run, h1] at h
      obtain ⟨x, hx⟩ := ih h
      exact ⟨_, by rw [hx, next_told h1, List.append_assoc]⟩

theorem hears_attached' {es : List Emit} (h : ∀ e ∈ es, e ≠ .abort ∧ e ≠ .finished) (f : Front) :
    (es.foldl (Front.hear order) f).attached = f.attached := by
  rw [hears_plain es h]

/-- things happen at the milters, and the leader hears of it -/
theorem heard_run {n : Nat} (es : List Children.Event) (hes : ∀ e ∈ es, fromMilter e = true) : ∀ {m m' : Sys} {f : Front} {x : List Emit},
    Children.run n m (quietly es) = some m' → told m'.out = told m.out ++ x → (∀ e ∈ x, e ≠ .abort ∧ e ≠ .finished) →
    f.attached = true → Session.run order n ⟨f, m⟩ (es.map whole) = some ⟨x.foldl (Front.hear order) f, m'⟩ := by
  induction es with
  | nil =>
    intro m m' f x h hx _ _
    cases h
    have : x = [] := List.append_cancel_left (hx.symm.trans (List.append_nil _).symm)
    rw [this]
    rfl
  | cons e es ih =>
    intro m m' f x h hx hp hat
    cases h1 : Children.next n m e [] with
    | none => simp [quietly, Children.run, h1] at h
    | some m1 =>
      simp only [quietly, List.map_cons, Children.run, h1] at h
      obtain ⟨b, hb⟩ := run_told es h
      have ha := next_told h1
      have hab : x = toldSince m m1 ++ b := by
        refine List.append_cancel_left (as := told m.out) ?_
        rw [← hx, hb, ha, List.append_assoc]
      rw [hab] at hp ⊢
      have hpa : ∀ e ∈ toldSince m m1, e ≠ .abort ∧ e ≠ .finished := fun e he => hp e (List.mem_append_left _ he)
      have h2 := ih (fun e he => hes e (List.mem_cons_of_mem _ he)) (f := (toldSince m m1).foldl (Front.hear order) f) h hb
        (fun e he => hp e (List.mem_append_right _ he)) ((hears_attached' hpa f).trans hat)
      rw [List.foldl_append, ← h2, List.map_cons]
      have hw : whole e = .milter e [] := by
        have := hes e List.mem_cons_self
        cases e <;> first | rfl | cases this
      rw [hw]
      show (Session.step order n ⟨f, m⟩ (.milter e [])).bind _ = _
      unfold Session.step consult
      dsimp only
      rw [hat, hes e List.mem_cons_self, h1]
      rfl

/-- the commands that carry a message -/
def content : Cmd → Option (Kind × Option Macros.Context)
  | .header n v => kindOf (.header n v)
  | .endOfHeader => kindOf .endOfHeader
  | .body b => kindOf (.body b)
  | .endOfMessage b => kindOf (.endOfMessage b)
  | _ => none

/-- the MTA sends a command the milters take, and things happen at the milters -/
theorem command_run {n : Nat} {c : Cmd} {e : Children.Event} {k : Kind} {context : Option Macros.Context}
    (hc : content c = some (k, context)) (he : eventOf c = some e)
    (es : List Children.Event) (hes : ∀ e ∈ es, fromMilter e = true) {m m' : Sys} {f : Front} {x : List Emit}
    (ht : Children.Taken n m e) (h : Children.run n m (quietly (e :: es)) = some m') (hx : told m'.out = told m.out ++ x)
    (hp : ∀ e ∈ x, e ≠ .abort ∧ e ≠ .finished) (hat : f.attached = true) (hch : f.leader.hasChildren = true) :
    Session.run order n ⟨f, m⟩ ((e :: es).map whole) = some ⟨x.foldl (Front.hear order)
      { f with leader := begin f.leader c, client := Client.enter (f.client.note (.got c)) k context }, m'⟩ := by
  obtain ⟨m1, hm1⟩ := ht
  have h1 := command_next hm1
  simp only [quietly, List.map_cons, Children.run, h1] at h
  obtain ⟨b, hb⟩ := run_told es h
  have ha := next_told h1
  have hab : x = toldSince m m1 ++ b := by
    refine List.append_cancel_left (as := told m.out) ?_
    rw [← hx, hb, ha, List.append_assoc]
  rw [hab] at hp ⊢
  have hpa : ∀ e ∈ toldSince m m1, e ≠ .abort ∧ e ≠ .finished := fun e he => hp e (List.mem_append_left _ he)
  have hk : kindOf c = some (k, context) ∧ k ≠ .negotiate ∧ whole e = .command c [] ∧
      Session.step order n ⟨f, m⟩ (.command c []) = some ⟨f.command order c (toldSince m m1) true none none, m1⟩ := by
    cases c <;> simp only [content, reduceCtorEq] at hc <;> cases he <;> refine ⟨hc, ?_, rfl, ?_⟩ <;>
      first
      | (rintro rfl; cases hc; done)
      | (unfold Session.step
         dsimp only [eventOf]
         rw [hat, hm1]
         rfl)
  rw [List.map_cons, hk.2.2.1]
  show (Session.step order n ⟨f, m⟩ (.command c [])).bind _ = _
  rw [hk.2.2.2, command_taken (order := order) f c (toldSince m m1) hk.1 hk.2.1 hat hch hpa, List.foldl_append]
  exact heard_run es hes h hb (fun e he => hp e (List.mem_append_right _ he)) ((hears_attached' hpa _).trans hat)

/-- the MTA's side is ready for a command of the message -/
structure Idle (f : Front) : Prop where
  good : Good f
  attached : f.attached = true
  children : f.leader.hasChildren = true
  link : f.client.link = .ready
  empty : f.client.buffered = []
  sentEnd : f.leader.sentEnd = false

/-- a command of the message before its end, answered with continue -/
theorem exchange_front {f : Front} (h : Idle f) {c : Cmd} {k : Kind} {context : Option Macros.Context}
    (hc : content c = some (k, context)) (hk : k ≠ .endOfMessage) :
    let f' := ([Emit.reply .cont]).foldl (Front.hear order)
      { f with leader := begin f.leader c, client := Client.enter (f.client.note (.got c)) k context }
    Idle f' ∧ isReplied f'.leader.st = true ∧ f'.client.option = f.client.option ∧
      Spec.Client.written f'.client.log = Spec.Client.written f.client.log ++ (Enc.encodeReplies order [] [.cont]).flatten ∧
      Spec.Client.lastCustom f'.client.log = Spec.Client.lastCustom f.client.log := by
  intro f'
  have hkc : kindOf c = some (k, context) ∧ k ≠ .negotiate ∧ (begin f.leader c) = { f.leader with st := .doing k } := by
    cases c <;> simp only [content, reduceCtorEq] at hc <;> refine ⟨hc, ?_, ?_⟩ <;>
      first | (rintro rfl; cases hc; done) | (cases hc; first | rfl | exact absurd rfl hk)
  obtain ⟨f1, hf1⟩ : ∃ f1 : Front, f1 = { f with leader := begin f.leader c, client := Client.enter (f.client.note (.got c)) k context } := ⟨_, rfl⟩
  have hg1 : Good f1 := by
    have := command_taken (order := order) f c [] hkc.1 hkc.2.1 h.attached h.children (fun _ h => (nomatch h))
    rw [show f1 = Leader.step order f (.command c [] true none none) by rw [hf1]; exact this.symm]
    exact h.good.step _
  have hlog : f1.client.log = f.client.log ++ [.got c] := by
    rw [hf1]
    exact Leader.enter_log _ _ _
  have hw : Spec.Client.written f1.client.log = Spec.Client.written f.client.log := by
    rw [hlog, Client.written_append]
    exact List.append_nil _
  have hkeep : f1.client.link = f.client.link ∧ f1.client.buffered = f.client.buffered ∧ f1.client.option = f.client.option := by
    rw [hf1]
    show (Client.enter _ _ _).link = _ ∧ (Client.enter _ _ _).buffered = _ ∧ (Client.enter _ _ _).option = _
    unfold Client.enter Client.setSt
    dsimp only
    split <;> split <;> exact ⟨rfl, rfl, rfl⟩
  have hl1 : f1.leader = { f.leader with st := .doing k } := by rw [hf1]; exact hkc.2.2
  have hf' : f' = f1.hear order (.reply .cont) := by rw [hf1]; rfl
  have hreply : Leader.hear f1.leader (.reply .cont) =
      ({ f1.leader with st := .replied k }, [.call (.respond k .continue_)]) := by
    show Leader.reply f1.leader .continue_ = _
    unfold Leader.reply
    rw [hl1]
    cases k <;> first | (exact absurd rfl hkc.2.1) | (exact absurd rfl hk) | rfl | skip
    simp only [response, nextState, h.sentEnd, Bool.false_eq_true, if_false]
  have hform : f' = { f1 with leader := { f1.leader with st := .replied k }, client := Client.callNoted order f1.client (.respond k .continue_) } := by
    rw [hf']
    unfold Front.hear
    rw [hreply]
    rfl
  have hcr := Client.create_final order hg1.settled.agrees hg1.legal .continue_ .cont rfl
  have hst := Client.respond_st order f1.client k .continue_
  refine ⟨⟨?_, ?_, ?_, ?_, ?_, ?_⟩, ?_, ?_, ?_, ?_⟩
  · rw [hf']
    exact hg1.step (.heard (.reply .cont))
  · rw [hform, hf1]; exact h.attached
  · rw [hform, hl1]; exact h.children
  · rw [hform]; exact hst.2.2.trans (hkeep.1.trans h.link)
  · rw [hform]
    exact Client.respond_empty order (hkeep.1.trans h.link) hg1.settled.agrees.buffer k hkc.2.1 .continue_ _ hcr
  · rw [hform, hl1]; exact h.sentEnd
  · rw [hform]; rfl
  · rw [hform]; exact hst.2.1.trans hkeep.2.2
  · rw [hf', ← hw]
    exact answer_written hg1 (hkeep.1.trans h.link) (by rw [hl1]) hkc.2.1 hk (hkeep.2.1.trans h.empty) (v := .continue_) rfl trivial
      (fun h => by rcases h with h | h <;> cases h)
  · rw [hform]
    refine (Client.respond_lastCustom order _ _ _).trans ?_
    rw [hlog, Client.lastCustom_snoc]

/-- the commands of the message before its end -/
def isContent : Children.Event → Prop
  | .header _ _ | .endOfHeader | .body _ => True
  | _ => False

theorem exchanges_run {n i : Nat} {m m' : Sys} {es : List Children.Event} (h : Children.Exchanges n i m es m') : ∀ {f : Front},
    Idle f → (∀ e ∈ es, isContent e) →
    ∃ f', Session.run order n ⟨f, m⟩ ((es.flatMap fun e => [e, .flushed i, .reply i .cont]).map whole) = some ⟨f', m'⟩ ∧ Idle f' ∧
      (isReplied f.leader.st = true ∨ es ≠ [] → isReplied f'.leader.st = true) ∧ f'.client.option = f.client.option ∧
      Spec.Client.written f'.client.log = Spec.Client.written f.client.log ++
        (es.map fun _ => (Enc.encodeReplies order [] [.cont]).flatten).flatten ∧
      Spec.Client.lastCustom f'.client.log = Spec.Client.lastCustom f.client.log := by
  induction h with
  | nil s =>
    intro f hf _
    exact ⟨f, rfl, hf, fun h => h.resolve_right (fun h => h rfl), rfl, (List.append_nil _).symm, rfl⟩
  | @cons s s1 s2 e es taken happens tells rest ih =>
    intro f hf hes
    obtain ⟨c, k, context, hc, he, hk⟩ : ∃ c k context, content c = some (k, context) ∧ eventOf c = some e ∧ k ≠ .endOfMessage := by
      have := hes e List.mem_cons_self
      cases e <;> first | exact this.elim | skip
      · exact ⟨.header _ _, _, _, rfl, rfl, fun h => nomatch h⟩
      · exact ⟨.endOfHeader, _, _, rfl, rfl, fun h => nomatch h⟩
      · exact ⟨.body _, _, _, rfl, rfl, fun h => nomatch h⟩
    have h1 := command_run (order := order) hc he [.flushed i, .reply i .cont] (by intro e he; simp at he; rcases he with rfl | rfl <;> rfl)
      taken happens tells (by intro e he; cases List.mem_singleton.mp he; exact ⟨(fun h => nomatch h), (fun h => nomatch h)⟩) hf.attached hf.children
    obtain ⟨g1, g2, g3, g4, g5⟩ := exchange_front (order := order) hf hc hk
    obtain ⟨f2, h2, i2, r2, o2, w2, l2⟩ := ih g1 (fun e he => hes e (List.mem_cons_of_mem _ he))
    refine ⟨f2, ?_, i2, fun _ => r2 (.inl g2), o2.trans g3, ?_, l2.trans g5⟩
    · rw [List.flatMap_cons, List.map_append]
      rw [run_append _ h1]
      exact h2
    · rw [w2, g4, List.map_cons, List.flatten_cons, List.append_assoc]

end Verif.Session
