import Verif.Props.SessionMessage
import Verif.Client.LibMilterFacts
import Verif.Spec.Course
/-
The MTA's side of a session, command by command: after each of them it is ready for the next one.
-/
namespace Verif.Props
open Verif Verif.Session Verif.Spec.Children Verif.Spec.Client
open Verif.Leader (Front)
open Verif.Children (Sys Emit)
open Verif.Spec (Pointwise)
open Verif.Spec.Session (whole)
open Verif.Spec.Phase (decisionOf)
open Verif.Spec.Course (Text textAfter Fair reason isQuestion isEnd Read)
open Verif.Client (Kind kindOf)

variable {order : Requests → Requests}

theorem runCalls_settled (cs : List Client.Call) : ∀ {s : Client.State}, Client.Settled s → Client.Legal s →
    Client.Settled (Client.runCalls order s cs) ∧ Client.Legal (Client.runCalls order s cs) := by
  induction cs with
  | nil => exact fun h g => ⟨h, g⟩
  | cons c cs ih => exact fun h g => ih (h.called order c) (g.called order c)

/-- the calls a decision comes to -/
theorem decision_calls {custom : Text} {r : Reply} (h : Ending custom r) (l : Leader.Leader) (k : Kind) (hl : l.st = .doing k)
    (hk : k ≠ .negotiate) (hs : l.sentEnd = false) :
    ∃ pre v, Leader.hear l (.reply r) = ({ l with st := .replied k }, pre.map .call ++ [.call (.respond k v)]) ∧
      (∀ c ∈ pre, Spec.Client.answers c = false) ∧ finalReply (customAfter custom pre) v = some r ∧
      customAfter custom pre = textAfter custom (.reply r) := by
  have hrep : ∀ v, Leader.reply l v = ({ l with st := .replied k }, [.call (.respond k v)]) := by
    intro v
    unfold Leader.reply
    rw [hl]
    cases k <;> first | exact absurd rfl hk | rfl | skip
    simp only [Leader.response, Leader.nextState, hs, Bool.false_eq_true, if_false]
  cases r with
  | cont => exact ⟨[], .continue_, hrep _, (fun _ h => nomatch h), rfl, rfl⟩
  | accept => exact ⟨[], .accept, hrep _, (fun _ h => nomatch h), rfl, rfl⟩
  | discard => exact ⟨[], .discard, hrep _, (fun _ h => nomatch h), rfl, rfl⟩
  | reject => exact ⟨[], .reject, hrep _, (fun _ h => nomatch h), (by rw [show custom = none from h]; rfl), rfl⟩
  | temporaryFailure => exact ⟨[], .temporaryFailure, hrep _, (fun _ h => nomatch h), (by rw [show custom = none from h]; rfl), rfl⟩
  | replyCode code ext message =>
    have hok : (SetReply.setReply {} code (some ext) message).1 = true := (C10_accepts {} code (some ext) message).mpr h
    have hca : customAfter custom [.setReply code (some ext) message] = some (code, some ext, message) := by
      unfold customAfter
      simp only [List.foldl_cons, List.foldl_nil]
      rw [if_pos (show Spec.LegalReply code (some ext) from h)]
    refine ⟨[.setReply code (some ext) message], if code / 100 = 4 then .temporaryFailure else .reject, ?_, ?_, ?_, hca⟩
    · unfold Leader.hear Leader.hearReply
      dsimp only
      rw [if_pos hok, hrep]
      rfl
    · intro c hc
      cases List.mem_singleton.mp hc
      rfl
    · rw [hca]
      split <;> rfl
  | _ => exact h.elim

/-- the MTA's side of a session when a command has arrived -/
def atWork (f : Front) (c : Cmd) (k : Kind) (context : Option Macros.Context) : Front :=
  { f with leader := Leader.begin f.leader c, client := Client.enter (f.client.note (.got c)) k context }

theorem atWork_good {f : Front} (h : Idle f) {c : Cmd} {k : Kind} {context : Option Macros.Context}
    (hk : kindOf c = some (k, context)) (hn : k ≠ .negotiate) : Good (atWork f c k context) := by
  have := command_taken (order := id) f c [] hk hn h.attached h.children (fun _ h => (nomatch h))
  rw [show atWork f c k context = Leader.step id f (.command c [] true none none) from this.symm]
  exact h.good.step _

theorem asks_customAfter (cs : List Client.Call) : (∀ c ∈ cs, ∃ e, asksFor e = some c) → ∀ x, customAfter x cs = x := by
  induction cs with
  | nil => exact fun _ _ => rfl
  | cons c cs ih =>
    intro hcs x
    rw [show c :: cs = [c] ++ cs from rfl, Client.customAfter_append, ih fun y hy => hcs y (List.mem_cons_of_mem _ hy)]
    obtain ⟨e, he⟩ := hcs c List.mem_cons_self
    cases e with
    | reply r => cases r <;> first | (cases he; done) | (cases he; rfl)
    | edit e =>
      cases e with
      | delete n i => cases i <;> first | (cases he; done) | (cases he; rfl)
      | _ => cases he; rfl
    | _ => cases he

/-- a command is answered: the MTA's side is ready for the next one -/
theorem answered_front {f : Front} (h : Idle f) {c : Cmd} {k : Kind} {context : Option Macros.Context}
    (hk : kindOf c = some (k, context)) (hn : k ≠ .negotiate) (hb : Leader.begin f.leader c = { f.leader with st := .doing k })
    (es : List Emit) (hes : ∀ e ∈ es, ∃ c, asksFor e = some c) (r : Reply) (hend : Ending (lastCustom f.client.log) r) :
    let f' := (es ++ [Emit.reply r]).foldl (Front.hear order) (atWork f c k context)
    Idle f' ∧ Leader.isReplied f'.leader.st = true ∧ f'.client.option = f.client.option ∧
      lastCustom f'.client.log = textAfter (lastCustom f.client.log) (.reply r) := by
  intro f'
  have hg := atWork_good h hk hn
  have hpl : ∀ e ∈ es ++ [Emit.reply r], e ≠ .abort ∧ e ≠ .finished := by
    intro e he
    rcases List.mem_append.mp he with he | he
    · obtain ⟨c, hc⟩ := hes e he
      exact (asks_plain hc).2
    · cases List.mem_singleton.mp he
      exact ⟨(fun h => nomatch h), (fun h => nomatch h)⟩
  obtain ⟨pre, v, q1, q2, q3, q4⟩ := decision_calls hend { f.leader with st := .doing k } k rfl hn h.sentEnd
  obtain ⟨s1, hs1⟩ : ∃ s1 : Client.State, s1 = Client.enter (f.client.note (.got c)) k context := ⟨_, rfl⟩
  have hca : Leader.hearAll { f.leader with st := .doing k } (es ++ [Emit.reply r]) =
      ({ f.leader with st := .replied k }, (es.filterMap asksFor).map .call ++ (pre.map .call ++ [.call (.respond k v)])) := by
    rw [hearAll_asks _ _ _ hes]
    have : ∀ l : Leader.Leader, Leader.hearAll l [Emit.reply r] = Leader.hear l (.reply r) := by
      intro l
      show ((Leader.hear l (.reply r)).1, (Leader.hear l (.reply r)).2 ++ []) = _
      rw [List.append_nil]
    rw [this, q1]
  have hleader : f'.leader = { f.leader with st := .replied k } := by
    show ((es ++ [Emit.reply r]).foldl (Front.hear order) _).leader = _
    rw [hears_plain _ hpl]
    show (Leader.hearAll (Leader.begin f.leader c) _).1 = _
    rw [hb, hca]
  have hattached : f'.attached = true := by
    show ((es ++ [Emit.reply r]).foldl (Front.hear order) _).attached = _
    rw [hears_plain _ hpl]
    exact h.attached
  have hclient : f'.client = Client.callNoted order (Client.runCalls order s1 (es.filterMap asksFor ++ pre)) (.respond k v) := by
    show ((es ++ [Emit.reply r]).foldl (Front.hear order) _).client = _
    rw [hears_plain _ hpl]
    show Client.runCalls order (Client.enter _ _ _) (Leader.callsOf (Leader.hearAll (Leader.begin f.leader c) _).2) = _
    rw [hb, hca, Leader.callsOf_append, Leader.callsOf_append, callsOf_calls, callsOf_calls, ← hs1, ← List.append_assoc]
    unfold Client.runCalls
    rw [List.foldl_append]
    rfl
  have hans : ∀ c ∈ es.filterMap asksFor ++ pre, Spec.Client.answers c = false := by
    intro c hc
    rcases List.mem_append.mp hc with hc | hc
    · obtain ⟨e, _, he⟩ := List.mem_filterMap.mp hc
      exact (asks_plain he).1
    · exact q2 c hc
  have hlog : s1.log = f.client.log ++ [.got c] := by rw [hs1, Leader.enter_log]; rfl
  have hkeep : s1.link = f.client.link ∧ s1.option = f.client.option := by
    rw [hs1]
    unfold Client.enter Client.setSt
    dsimp only
    split <;> split <;> exact ⟨rfl, rfl⟩
  have hset : Client.Settled s1 ∧ Client.Legal s1 := by rw [hs1]; exact ⟨hg.settled, hg.legal⟩
  have h2 := runCalls_settled (order := order) (es.filterMap asksFor ++ pre) hset.1 hset.2
  have hlink := LibMilter.runCalls_link order (es.filterMap asksFor ++ pre) hans s1
  have hcustom : lastCustom (Client.runCalls order s1 (es.filterMap asksFor ++ pre)).log = customAfter (lastCustom f.client.log) pre := by
    rw [Client.runCalls_lastCustom order _ hans, hlog, Client.lastCustom_snoc, Client.customAfter_append]
    congr 1
    refine asks_customAfter _ ?_ _
    intro c hc
    obtain ⟨e, _, he⟩ := List.mem_filterMap.mp hc
    exact ⟨e, he⟩
  have hst := Client.respond_st order (Client.runCalls order s1 (es.filterMap asksFor ++ pre)) k v
  have hcr := Client.create_final order h2.1.agrees h2.2 v r (by rw [hcustom]; exact q3)
  have h3 := runCalls_settled (order := order) [.respond k v] h2.1 h2.2
  refine ⟨⟨⟨?_, ?_⟩, hattached, ?_, ?_, ?_, ?_⟩, ?_, ?_, ?_⟩
  · rw [hclient]; exact h3.1
  · rw [hclient]; exact h3.2
  · rw [hleader]; exact h.children
  · rw [hclient]; exact hst.2.2.trans (hlink.1.trans (hkeep.1.trans h.link))
  · rw [hclient]
    exact Client.respond_empty order (hlink.1.trans (hkeep.1.trans h.link)) h2.1.agrees.buffer k hn v _ hcr
  · rw [hleader]; exact h.sentEnd
  · rw [hleader]; rfl
  · rw [hclient]; exact hst.2.1.trans (hlink.2.trans hkeep.2)
  · rw [hclient, Client.respond_lastCustom, hcustom]
    exact q4

/-- the MTA gives up the message: nothing is written -/
theorem aborted_front {f : Front} (h : Idle f) (ok : Bool) :
    let f' := f.command order .abort [] ok none none
    Idle f' ∧ f'.client.option = f.client.option ∧ lastCustom f'.client.log = lastCustom f.client.log ∧
      written f'.client.log = written f.client.log := by
  intro f'
  have hf : f' = { f with
      leader := { f.leader with st := .abort }
      client := Client.receive order f.client .abort [⟨[], if f.leader.hasChildren then .default else f.leader.fallback⟩] none none } := by
    show f.command order .abort [] ok none none = _
    unfold Front.command
    rw [h.attached]
    rfl
  rw [h.children] at hf
  have hg : Good f' := h.good.step (order := order) (.command .abort [] ok none none)
  obtain ⟨c1, hc1⟩ : ∃ c1, c1 = Client.receive order f.client .abort [⟨[], .default⟩] none none := ⟨_, rfl⟩
  have hr : c1.log = f.client.log ++ [.got .abort] ++ [.called (.respondAbort .default) true] ∧ c1.link = f.client.link ∧
      c1.buffered = f.client.buffered ∧ c1.option = f.client.option := by
    have he : c1 = (Client.respondAbort (Client.resetMessage { Client.setSt (f.client.note (.got .abort)) .abort with timer := false }) .default).note
        (.called (.respondAbort .default) true) := hc1
    rw [he]
    unfold Client.respondAbort
    dsimp only
    split <;> exact ⟨rfl, rfl, rfl, rfl⟩
  have hcl : f'.client = c1 := by rw [hf, hc1]; rfl
  refine ⟨⟨hg, ?_, ?_, ?_, ?_, ?_⟩, ?_, ?_, ?_⟩
  · rw [hf]; exact h.attached
  · rw [hf]; exact h.children
  · rw [hcl, hr.2.1]; exact h.link
  · rw [hcl, hr.2.2.1]; exact h.empty
  · rw [hf]; exact h.sentEnd
  · rw [hcl]; exact hr.2.2.2
  · rw [hcl, hr.1, Client.lastCustom_snoc, Client.lastCustom_snoc]
  · rw [hcl, hr.1, Client.written_append, Client.written_append]
    show written _ ++ [] ++ [] = _
    simp

end Verif.Props
