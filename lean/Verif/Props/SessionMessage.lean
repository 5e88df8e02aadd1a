import Verif.Manager.SessionMessage
import Verif.Props.ChildrenChain
import Verif.Props.Leader
import Verif.Props.Session
import Verif.Props.Headers
/-
C56: what the MTA reads in answer to a whole message.
-/
namespace Verif.Props
open Verif Verif.Session Verif.Spec.Children Verif.Spec.Client
open Verif.Leader (Front)
open Verif.Children (Sys Emit Opening converts)
open Verif.Server (St)
open Verif.Spec (Pointwise)
open Verif.Spec.Session (whole)

/-! ### Header edits always have an index -/

theorem index_found (l : List Header) (h : Header) (hm : h ∈ l) : ∀ k, ∃ i, Headers.indexInSameNameFrom k l h = some i := by
  induction l with
  | nil => cases hm
  | cons x l ih =>
    intro k
    unfold Headers.indexInSameNameFrom
    by_cases hx : x = h
    · subst hx; exact ⟨k + 1, by simp⟩
    · have hm' : h ∈ l := by
        rcases List.mem_cons.1 hm with e | e
        · exact absurd e.symm hx
        · exact e
      split
      · exact ih hm' k
      · split
        · exact ⟨_, rfl⟩
        · exact ih hm' _

theorem walk_subset (original final : List Header) : ∀ (i : Nat) (processing : List Header),
    ∀ h ∈ (HeaderDiff.walk original i processing final).2, h ∈ processing := by
  induction final with
  | nil => exact fun i p h hm => hm
  | cons x final ih =>
    intro i p h hm
    have hrem : ∀ y h, h ∈ (Headers.remove p y).2 → h ∈ p := by
      intro y h hm
      unfold Headers.remove at hm
      split at hm
      · exact hm
      · exact List.mem_of_mem_erase hm
    unfold HeaderDiff.walk at hm
    split at hm
    · exact hrem _ _ (ih _ _ h hm)
    · split at hm
      · exact ih _ _ h hm
      · split at hm
        · exact ih _ _ h hm
        · exact hrem _ _ (ih _ _ h hm)

theorem walk_edits (original final : List Header) : ∀ (i : Nat) (processing : List Header),
    ∀ e ∈ (HeaderDiff.walk original i processing final).1, ∃ c, asksFor (.edit e) = some c := by
  induction final with
  | nil => exact fun i p e hm => nomatch hm
  | cons x final ih =>
    intro i p e hm
    unfold HeaderDiff.walk at hm
    split at hm
    · exact ih _ _ e hm
    · split at hm
      · rcases List.mem_cons.mp hm with rfl | hm
        · exact ⟨_, rfl⟩
        · exact ih _ _ e hm
      · split at hm
        · rcases List.mem_cons.mp hm with rfl | hm
          · exact ⟨_, rfl⟩
          · exact ih _ _ e hm
        · rcases List.mem_cons.mp hm with rfl | hm
          · exact ⟨_, rfl⟩
          · exact ih _ _ e hm

theorem emit_asks (original final : List Header) : ∀ e ∈ HeaderDiff.emit original final, ∃ c, asksFor (.edit e) = some c := by
  intro e he
  unfold HeaderDiff.emit at he
  rcases List.mem_append.mp he with he | he
  · exact walk_edits _ _ _ _ e he
  · unfold HeaderDiff.deletions at he
    obtain ⟨h, hm, rfl⟩ := List.mem_map.mp he
    have := walk_subset original final 0 (Headers.copy original) h (List.mem_reverse.mp hm)
    rw [C14_copy] at this
    obtain ⟨i, hi⟩ := index_found original h this 0
    exact ⟨_, by unfold Headers.indexInSameName; rw [hi]; rfl⟩

theorem changes_ask (original : List Header) (chunks : List Bytes) (d : Draft) :
    ∀ e ∈ changes original chunks d, ∃ c, asksFor e = some c := by
  intro e he
  unfold Spec.Children.changes at he
  rcases List.mem_append.mp he with he | he
  · rcases List.mem_append.mp he with he | he
    · rcases List.mem_append.mp he with he | he
      · split at he
        · obtain ⟨b, _, rfl⟩ := List.mem_map.mp he
          exact ⟨_, rfl⟩
        · cases he
      · obtain ⟨x, hx, rfl⟩ := List.mem_map.mp he
        exact emit_asks _ _ x hx
    · obtain ⟨x, _, rfl⟩ := List.mem_map.mp he
      exact ⟨_, rfl⟩
  · obtain ⟨x, _, rfl⟩ := List.mem_map.mp he
    exact ⟨_, rfl⟩

/-! ### The leader passes them on -/

theorem hear_asks (l : Leader.Leader) {e : Emit} {c : Client.Call} (h : asksFor e = some c) : Leader.hear l e = (l, [.call c]) := by
  cases e with
  | reply r => cases r <;> first | (cases h; done) | (cases h; rfl)
  | edit e =>
    cases e with
    | delete n i => cases i <;> first | (cases h; done) | (cases h; rfl)
    | _ => cases h; rfl
  | _ => cases h

theorem hearAll_asks (l : Leader.Leader) (es : List Emit) (tail : List Emit) (h : ∀ e ∈ es, ∃ c, asksFor e = some c) :
    Leader.hearAll l (es ++ tail) = ((Leader.hearAll l tail).1, (es.filterMap asksFor).map .call ++ (Leader.hearAll l tail).2) := by
  induction es with
  | nil => rfl
  | cons e es ih =>
    obtain ⟨c, hc⟩ := h e List.mem_cons_self
    rw [List.cons_append, hearAll_cons, hear_asks l hc, ih fun x hx => h x (List.mem_cons_of_mem _ hx), List.filterMap_cons, hc]
    rfl

theorem callsOf_calls (cs : List Client.Call) : Leader.callsOf (cs.map .call) = cs := by
  unfold Leader.callsOf
  rw [List.filterMap_map]
  show cs.filterMap (fun c => some c) = cs
  simp

theorem asks_plain {e : Emit} {c : Client.Call} (h : asksFor e = some c) : Spec.Client.answers c = false ∧ e ≠ .abort ∧ e ≠ .finished := by
  refine ⟨?_, ?_, ?_⟩
  · cases e with
    | reply r => cases r <;> first | (cases h; done) | (cases h; rfl)
    | edit e =>
      cases e with
      | delete n i => cases i <;> first | (cases h; done) | (cases h; rfl)
      | _ => cases h; rfl
    | _ => cases h
  · rintro rfl; cases h
  · rintro rfl; cases h

/-! ### The reason for a quarantine -/

theorem quarantineReason_writing {es : List Client.Event} (h : ∀ e ∈ es, Spec.Leader.isWriting e = true) (log : List Client.Event) :
    quarantineReason (log ++ es) = quarantineReason log := by
  unfold quarantineReason
  rw [List.foldl_append]
  generalize List.foldl _ none log = r
  induction es generalizing r with
  | nil => rfl
  | cons e es ih =>
    refine (ih (fun x hx => h x (List.mem_cons_of_mem _ hx)) _).trans ?_
    have := h e List.mem_cons_self
    cases e <;> first | (cases this; done) | rfl

/-- the last reason among calls -/
def reasonAfter (r : Option Bytes) : Client.Call → Option Bytes
  | .quarantine reason => reason
  | _ => r

theorem quarantine_calls (order : Requests → Requests) (cs : List Client.Call) (hc : ∀ c ∈ cs, Spec.Client.answers c = false) : ∀ (s : Client.State),
    quarantineReason (Client.runCalls order s cs).log = cs.foldl reasonAfter (quarantineReason s.log) := by
  induction cs with
  | nil => exact fun s => rfl
  | cons c cs ih =>
    intro s
    show quarantineReason (Client.runCalls order (Client.callNoted order s c) cs).log = _
    rw [ih fun x hx => hc x (List.mem_cons_of_mem _ hx), List.foldl_cons]
    obtain ⟨es, ok, h1, h2⟩ := Leader.call_log order s c (hc c List.mem_cons_self)
    rw [h1]
    congr 1
    have : ∀ log, quarantineReason (log ++ [.called c ok]) = reasonAfter (quarantineReason log) c := by
      intro log
      unfold quarantineReason
      rw [List.foldl_append]
      cases c <;> rfl
    rw [this, quarantineReason_writing h2]

theorem reason_none (es : List Emit) (h : ∀ e ∈ es, ∀ r, e ≠ .reply (.quarantine r)) (r : Option Bytes) :
    (es.filterMap asksFor).foldl reasonAfter r = r := by
  induction es with
  | nil => rfl
  | cons e es ih =>
    have ih := ih fun x hx => h x (List.mem_cons_of_mem _ hx)
    rw [List.filterMap_cons]
    cases hc : asksFor e with
    | none => exact ih
    | some c =>
      show (es.filterMap asksFor).foldl reasonAfter (reasonAfter r c) = r
      have he := h e List.mem_cons_self
      have : reasonAfter r c = r := by
        cases e with
        | reply x => cases x <;> first | (cases hc; done) | (cases hc; rfl) | exact absurd rfl (he _)
        | edit x =>
          cases x with
          | delete n i => cases i <;> first | (cases hc; done) | (cases hc; rfl)
          | _ => cases hc; rfl
        | _ => cases hc
      rw [this]
      exact ih

theorem reason_changes (edits : List Emit) (hed : ∀ e ∈ edits, ∀ r, e ≠ .reply (.quarantine r)) (original : List Header) (chunks : List Bytes)
    (d : Draft) : ((edits ++ changes original chunks d).filterMap asksFor).foldl reasonAfter none = d.quarantine := by
  have split : edits ++ changes original chunks d =
      (edits ++ ((if d.replaced then chunks.map fun b => .reply (.replaceBody b) else []) ++
        (HeaderDiff.emit original d.headers).map .edit ++ (d.sender.toList.map fun x => .reply (.changeFrom x.1 x.2)))) ++
      (d.quarantine.toList.map fun r => .reply (.quarantine r)) := by
    unfold Spec.Children.changes
    simp only [List.append_assoc]
  have hn := reason_none (edits ++ ((if d.replaced then chunks.map fun b => .reply (.replaceBody b) else []) ++
        (HeaderDiff.emit original d.headers).map .edit ++ (d.sender.toList.map fun x => .reply (.changeFrom x.1 x.2)))) (by
    intro e he r
    rcases List.mem_append.mp he with he | he
    · exact hed e he r
    · rcases List.mem_append.mp he with he | he
      · rcases List.mem_append.mp he with he | he
        · split at he
          · obtain ⟨b, _, rfl⟩ := List.mem_map.mp he
            exact fun h => nomatch h
          · cases he
        · obtain ⟨x, _, rfl⟩ := List.mem_map.mp he
          exact fun h => nomatch h
      · obtain ⟨x, _, rfl⟩ := List.mem_map.mp he
        exact fun h => nomatch h) none
  rw [split, List.filterMap_append, List.foldl_append, hn]
  cases d.quarantine <;> rfl

/-! ### The end of the message -/

/-- answers with which a message can end, `custom` being the text set for refusals before -/
def Ending (custom : Option (Nat × Option Bytes × Option Bytes)) : Reply → Prop
  | .cont | .accept | .discard => True
  | .reject | .temporaryFailure => custom = none
  | .replyCode code ext _ => Spec.LegalReply code (some ext)
  | _ => False

/-- what the leader does with such an answer -/
theorem ending_calls {custom : Option (Nat × Option Bytes × Option Bytes)} {r : Reply} (h : Ending custom r) (o : Option Opt)
    (l : Leader.Leader) (hl : l.st = .doing .endOfMessage) :
    ∃ pre v, Leader.callsOf (Leader.hear l (.reply r)).2 = pre ++ [.respond .endOfMessage v] ∧
      (∀ c ∈ pre, Spec.Client.answers c = false ∧ recipientFlagsAgree o c = true ∧ accepted o c = false ∧ ∀ x, reasonAfter x c = x) ∧
      finalReply (customAfter custom pre) v = some r := by
  have simple : ∀ v, Leader.hear l (.reply r) = Leader.reply l v → finalReply custom v = some r →
      ∃ pre v, Leader.callsOf (Leader.hear l (.reply r)).2 = pre ++ [.respond .endOfMessage v] ∧
      (∀ c ∈ pre, Spec.Client.answers c = false ∧ recipientFlagsAgree o c = true ∧ accepted o c = false ∧ ∀ x, reasonAfter x c = x) ∧
      finalReply (customAfter custom pre) v = some r := by
    intro v h1 h2
    refine ⟨[], v, ?_, (fun _ h => nomatch h), h2⟩
    rw [h1]
    unfold Leader.reply
    rw [hl]
    rfl
  cases r with
  | cont => exact simple .continue_ rfl rfl
  | accept => exact simple .accept rfl rfl
  | discard => exact simple .discard rfl rfl
  | reject => exact simple .reject rfl (by rw [show custom = none from h]; rfl)
  | temporaryFailure => exact simple .temporaryFailure rfl (by rw [show custom = none from h]; rfl)
  | replyCode code ext message =>
    have hok : (SetReply.setReply {} code (some ext) message).1 = true := (C10_accepts {} code (some ext) message).mpr h
    refine ⟨[.setReply code (some ext) message], if code / 100 = 4 then .temporaryFailure else .reject, ?_, ?_, ?_⟩
    · unfold Leader.hear Leader.hearReply
      dsimp only
      rw [if_pos hok]
      unfold Leader.reply
      rw [hl]
      rfl
    · intro c hc
      cases List.mem_singleton.mp hc
      exact ⟨rfl, rfl, rfl, fun _ => rfl⟩
    · have : customAfter custom [.setReply code (some ext) message] = some (code, some ext, message) := by
        unfold customAfter
        simp only [List.foldl_cons, List.foldl_nil]
        rw [if_pos (show Spec.LegalReply code (some ext) from h)]
      rw [this]
      split <;> rfl
  | _ => exact h.elim

theorem end_front (order : Requests → Requests) {f : Front} (h : Idle f) (hr : Leader.isReplied f.leader.st = true) (last : Bytes)
    (hflags : hasFlag f.client.option 0x04 = hasFlag f.client.option 0x80)
    (es : List Emit) (hes : ∀ e ∈ es, ∃ c, asksFor e = some c) (r : Reply) (hend : Ending (lastCustom f.client.log) r) :
    let f' := (es ++ [Emit.reply r]).foldl (Front.hear order)
      { f with leader := Leader.begin f.leader (.endOfMessage last), client := Client.enter (f.client.note (.got (.endOfMessage last))) .endOfMessage (some 0x45) }
    ∃ parts rs, Pointwise Shows ((es.filterMap asksFor).filter (accepted f.client.option)) parts ∧
      rs.filter (· ≠ .progress) = parts.flatten ++ quarantineReply ((es.filterMap asksFor).foldl reasonAfter none) ++ [r] ∧
      written f'.client.log = written f.client.log ++ (Enc.encodeReplies order [] rs).flatten := by
  intro f'
  have hans : ∀ c ∈ es.filterMap asksFor, Spec.Client.answers c = false := by
    intro c hc
    obtain ⟨e, _, he⟩ := List.mem_filterMap.mp hc
    exact (asks_plain he).1
  have hpl : ∀ e ∈ es ++ [Emit.reply r], e ≠ .abort ∧ e ≠ .finished := by
    intro e he
    rcases List.mem_append.mp he with he | he
    · obtain ⟨c, hc⟩ := hes e he
      exact (asks_plain hc).2
    · cases List.mem_singleton.mp he
      exact ⟨(fun h => nomatch h), (fun h => nomatch h)⟩
  obtain ⟨s1, hs1⟩ : ∃ s1 : Client.State, s1 = Client.enter (f.client.note (.got (.endOfMessage last))) .endOfMessage (some 0x45) := ⟨_, rfl⟩
  have hbegin : Leader.begin f.leader (.endOfMessage last) = { f.leader with st := .doing .endOfMessage } := by
    simp only [Leader.begin, hr, if_true]
  obtain ⟨pre, v, q1, q2, q3⟩ := ending_calls hend f.client.option { f.leader with st := .doing .endOfMessage } rfl
  have hclient : f'.client = Client.callNoted order (Client.runCalls order s1 (es.filterMap asksFor ++ pre)) (.respond .endOfMessage v) := by
    show ((es ++ [Emit.reply r]).foldl (Front.hear order) _).client = _
    rw [hears_plain _ hpl]
    show Client.runCalls order _ (Leader.callsOf (Leader.hearAll (Leader.begin f.leader (.endOfMessage last)) _).2) = _
    rw [hearAll_asks _ _ _ hes, hbegin, Leader.callsOf_append, callsOf_calls, ← hs1]
    have : Leader.callsOf (Leader.hearAll { f.leader with st := .doing .endOfMessage } [Emit.reply r]).2 = pre ++ [.respond .endOfMessage v] := by
      rw [← q1, hearAll_cons]
      show Leader.callsOf ((Leader.hear _ _).2 ++ []) = _
      rw [List.append_nil]
    rw [this, ← List.append_assoc]
    unfold Client.runCalls
    rw [List.foldl_append]
    rfl
  have hall : ∀ c ∈ es.filterMap asksFor ++ pre, Spec.Client.answers c = false := by
    intro c hc
    rcases List.mem_append.mp hc with hc | hc
    · exact hans c hc
    · exact (q2 c hc).1
  have hstep : Client.run order f.client (.command (.endOfMessage last) [⟨[], .progress⟩] none none :: (es.filterMap asksFor ++ pre).map .call) =
      Client.runCalls order s1 (es.filterMap asksFor ++ pre) := by
    show Client.run order (Client.receive order f.client (.endOfMessage last) [⟨[], .progress⟩] none none) _ = _
    rw [receive_deferred f.client (.endOfMessage last) [] none none (k := .endOfMessage) (context := some 0x45) rfl (fun h => nomatch h), runCalls_eq, hs1]
    rfl
  have hlog1 : s1.log = f.client.log ++ [.got (.endOfMessage last)] := by rw [hs1, Leader.enter_log]; rfl
  have hcustom : lastCustom (Client.runCalls order s1 (es.filterMap asksFor ++ pre)).log = customAfter (lastCustom f.client.log) pre := by
    rw [Client.runCalls_lastCustom order _ hall, hlog1, Client.lastCustom_snoc, Client.customAfter_append]
    congr 1
    show customAfter (lastCustom f.client.log) (es.filterMap asksFor) = _
    have : ∀ cs : List Client.Call, (∀ c ∈ cs, ∃ e, asksFor e = some c) → ∀ x, customAfter x cs = x := by
      intro cs
      induction cs with
      | nil => exact fun _ _ => rfl
      | cons c cs ih =>
        intro hcs x
        rw [show c :: cs = [c] ++ cs from rfl, Client.customAfter_append, ih fun y hy => hcs y (List.mem_cons_of_mem _ hy)]
        obtain ⟨e, he⟩ := hcs c List.mem_cons_self
        cases e with
        | reply r => cases r <;> first | (cases he; done) | (cases he; rfl)
        | edit e =>
          cases e with
          | delete n i => cases i <;> first | (cases he; done) | (cases he; rfl)
          | _ => cases he; rfl
        | _ => cases he
    refine this _ ?_ _
    intro c hc
    obtain ⟨e, _, he⟩ := List.mem_filterMap.mp hc
    exact ⟨e, he⟩
  obtain ⟨parts, rs, h1, h2, h3⟩ := end_written order f.client _ _ h.good.settled h.good.legal last [⟨[], .progress⟩] none none
    (es.filterMap asksFor ++ pre) v rfl rfl h.link h.empty rfl
    (by
      intro c hc
      have hc : c ∈ es.filterMap asksFor ++ pre := by simpa [Spec.Client.ran, Spec.Client.final] using hc
      refine ⟨hall c hc, ?_⟩
      rw [← h.good.settled.agrees.option]
      rcases List.mem_append.mp hc with hc | hc
      · unfold recipientFlagsAgree
        split
        · exact beq_iff_eq.mpr hflags
        · rfl
      · exact (q2 c hc).2.1) r (by rw [hstep, hcustom]; exact q3)
  rw [hstep] at h2 h3
  have hq : quarantineReason s1.log = none := by
    rw [hlog1]
    unfold quarantineReason
    rw [List.foldl_append]
    rfl
  have hpre : ∀ x, pre.foldl reasonAfter x = x := by
    have : ∀ cs : List Client.Call, (∀ c ∈ cs, ∀ x, reasonAfter x c = x) → ∀ x, cs.foldl reasonAfter x = x := by
      intro cs
      induction cs with
      | nil => exact fun _ _ => rfl
      | cons c cs ih =>
        intro hcs x
        rw [List.foldl_cons, hcs c List.mem_cons_self, ih fun y hy => hcs y (List.mem_cons_of_mem _ hy)]
    exact this pre fun c hc => (q2 c hc).2.2.2
  have hfil : pre.filter (accepted f.client.option) = [] := by
    rw [List.filter_eq_nil_iff]
    intro c hc
    rw [(q2 c hc).2.2.1]
    simp
  rw [quarantine_calls order _ hall, hq, List.foldl_append, hpre] at h2
  rw [← h.good.settled.agrees.option] at h1
  refine ⟨parts, rs, ?_, h2, ?_⟩
  · have h1 : Pointwise Shows ((es.filterMap asksFor ++ pre).filter (accepted f.client.option)) parts := by
      simpa [Spec.Client.ran, Spec.Client.final] using h1
    rw [List.filter_append, hfil, List.append_nil] at h1
    exact h1
  · rw [hclient]
    exact h3

/-- all replies of the milters but to the commands before the end of the message -/
def chatter (role : Nat → Role) (i : Nat) (to : List (Nat × List Cmd)) : List Children.Event :=
  finishes i (role i) ++ to.tail.flatMap fun x => turn x.1 (x.2.length - 1) (role x.1)

theorem receives_fromMilter (i k : Nat) : ∀ e ∈ receives i k, fromMilter e = true := by
  intro e he
  unfold receives at he
  rcases List.mem_append.mp he with hx | hx
  · obtain ⟨l, hl, hx⟩ := List.mem_flatten.mp hx
    rw [List.eq_of_mem_replicate hl] at hx
    rcases List.mem_cons.mp hx with rfl | hx
    · rfl
    · cases List.mem_singleton.mp hx; rfl
  · cases List.mem_singleton.mp hx; rfl

theorem finishes_fromMilter (i : Nat) (role : Role) : ∀ e ∈ finishes i role, fromMilter e = true := by
  intro e he
  unfold finishes at he
  rcases List.mem_append.mp he with he | he
  · obtain ⟨r, _, rfl⟩ := List.mem_map.mp he
    rfl
  · cases List.mem_singleton.mp he; rfl

theorem chatter_fromMilter (role : Nat → Role) (i : Nat) (to : List (Nat × List Cmd)) : ∀ e ∈ chatter role i to, fromMilter e = true := by
  intro e he
  unfold chatter at he
  rcases List.mem_append.mp he with he | he
  · exact finishes_fromMilter _ _ e he
  · obtain ⟨x, _, hx⟩ := List.mem_flatMap.mp he
    unfold turn at hx
    rcases List.mem_append.mp hx with hx | hx
    · exact receives_fromMilter _ _ e hx
    · exact finishes_fromMilter _ _ e hx

theorem passing_fromMilter (role : Nat → Role) (to : List (Nat × List Cmd)) : ∀ i, ∀ e ∈ passing role i to, fromMilter e = true := by
  induction to with
  | nil => exact fun i e he => nomatch he
  | cons x to ih =>
    intro i e he
    unfold passing at he
    rcases List.mem_append.mp he with he | he
    · rcases List.mem_append.mp he with he | he
      · exact finishes_fromMilter _ _ e he
      · exact receives_fromMilter _ _ e he
    · exact ih _ e he

/-- the MTA sends a message, the milters talk, and at the end of it the MTA is told `requests` and then `r` -/
theorem message_read (order : Requests → Requests) {s : Session.Session} (hidle : Idle s.front)
    (hflags : hasFlag (negotiated s.front.client.log) 0x04 = hasFlag (negotiated s.front.client.log) 0x80)
    {n i : Nat} {m : Message} {u s1 s2 : Sys} (x1 : Children.Exchanges (n + 2) i s.milters (Children.beforeEnd m) u)
    (k1 : Children.Taken (n + 2) u (.endOfMessage m.last))
    (r1 : Children.run (n + 2) u (quietly [.endOfMessage m.last, .flushed i]) = some s1) (y1 : told s1.out = told u.out)
    {talk : List Children.Event} (htalk : ∀ e ∈ talk, fromMilter e = true) (e2 : Children.run (n + 2) s1 (quietly talk) = some s2)
    {requests : List Emit} (hask : ∀ e ∈ requests, ∃ c, asksFor e = some c) {r : Reply}
    (hend : Ending (lastCustom s.front.client.log) r) (t2 : told s2.out = told s1.out ++ requests ++ [.reply r]) :
    ∃ s' parts rs, Session.run order (n + 2) s ((m.arrives i ++ talk).map whole) = some s' ∧
      Pointwise Shows ((requests.filterMap asksFor).filter (accepted (negotiated s.front.client.log))) parts ∧
      rs.filter (· ≠ .progress) = parts.flatten ++ quarantineReply ((requests.filterMap asksFor).foldl reasonAfter none) ++ [r] ∧
      written s'.front.client.log = written s.front.client.log ++
        ((Children.beforeEnd m).map fun _ => (Enc.encodeReplies order [] [.cont]).flatten).flatten ++
        (Enc.encodeReplies order [] rs).flatten := by
  have hg := hidle.good
  obtain ⟨fu, g1, g2, g3, g4, g5, g7⟩ := exchanges_run (order := order) x1 hidle (by
    intro e he
    unfold Children.beforeEnd at he
    rcases List.mem_append.mp he with he | he
    · rcases List.mem_append.mp he with he | he
      · obtain ⟨_, _, rfl⟩ := List.mem_map.mp he; trivial
      · cases List.mem_singleton.mp he; trivial
    · obtain ⟨_, _, rfl⟩ := List.mem_map.mp he; trivial)
  have hrep : Leader.isReplied fu.leader.st = true := g3 (.inr (by unfold Children.beforeEnd; simp))
  have hpl : ∀ e ∈ requests ++ [Emit.reply r], e ≠ .abort ∧ e ≠ .finished := by
    intro e he
    rcases List.mem_append.mp he with he | he
    · obtain ⟨c, hc⟩ := hask e he
      exact (asks_plain hc).2
    · cases List.mem_singleton.mp he
      exact ⟨(fun h => nomatch h), (fun h => nomatch h)⟩
  have hrun : Children.run (n + 2) u (quietly (.endOfMessage m.last :: (.flushed i :: talk))) = some s2 := by
    have := Children.run_trans r1 e2
    rw [← Children.quietly_append] at this
    exact this
  have g6 := command_run (order := order) (n := n + 2) (c := .endOfMessage m.last) (k := .endOfMessage) (context := some 0x45) rfl rfl
    (.flushed i :: talk)
    (by
      intro e he
      rcases List.mem_cons.mp he with rfl | he
      · rfl
      · exact htalk e he)
    k1 hrun (x := requests ++ [Emit.reply r]) (by rw [t2, y1]; simp) hpl g2.attached g2.children
  have hopt : fu.client.option = negotiated s.front.client.log := g4.trans hg.settled.agrees.option
  obtain ⟨parts, rs, p1, p2, p3⟩ := end_front order g2 hrep m.last (by rw [hopt]; exact hflags) requests hask r (by rw [g7]; exact hend)
  rw [hopt] at p1
  refine ⟨⟨_, s2⟩, parts, rs, ?_, p1, p2, p3.trans ?_⟩
  · have hsplit : m.arrives i ++ talk =
        ((Children.beforeEnd m).flatMap fun e => [e, .flushed i, .reply i .cont]) ++ (.endOfMessage m.last :: (.flushed i :: talk)) := by
      unfold Message.arrives Children.beforeEnd
      simp [List.flatMap_append, List.flatMap_map]
    rw [hsplit, List.map_append]
    rw [run_append _ g1]
    exact g6
  · rw [g5]

/-- the MTA's side of a session is ready for a message -/
theorem session_idle {order : Requests → Requests} {fallback atDisconnect : Status} {size : Nat} {kids : List Children.Kid} {chunk : Nat}
    {depth : Nat} {history : List Session.Event} {s : Session.Session}
    (hs : Session.run order depth (Session.new fallback atDisconnect size kids chunk) history = some s)
    (hat : s.front.attached = true) (hl : s.front.client.link = .ready)
    (hneg : ∃ o, Client.Event.got (.negotiate o) ∈ s.front.client.log)
    (hi : Spec.Client.interrupted s.front.client.log = false) (he : Spec.Client.atEnd s.front.client.log = false)
    (hsent : s.front.leader.sentEnd = false) : Idle s.front := by
  obtain ⟨ops, hops⟩ := run_front history hs
  have hg : Good s.front := by rw [hops]; exact (Good.new fallback atDisconnect size .ready).run ops
  have hch : s.front.leader.hasChildren = true := by
    have : Parented s.front := by rw [hops]; exact (Parented.new fallback atDisconnect size .ready).run ops
    exact this hat hneg
  have hstc : s.front.client.st ≠ .doing .endOfMessage := fun h => by rw [hg.settled.agrees.atEnd.mp h] at he; cases he
  exact ⟨hg, hat, hch, hl, hg.settled.empty hi hstc, hsent⟩

theorem requests_ask (role : Nat → Role) (order : List Nat) (original : List Header) (chunks : List Bytes) (d : Draft) :
    ∀ e ∈ order.flatMap (fun j => ((role j).effective.filter isRecipientEdit).map Emit.reply) ++ changes original chunks d,
      ∃ c, asksFor e = some c := by
  intro e he
  rcases List.mem_append.mp he with he | he
  · obtain ⟨j, _, hj⟩ := List.mem_flatMap.mp he
    obtain ⟨r, hr, rfl⟩ := List.mem_map.mp hj
    have := (List.mem_filter.mp hr).2
    cases r <;> first | (cases this; done) | exact ⟨_, rfl⟩
  · exact changes_ask _ _ _ e he

theorem requests_reason (role : Nat → Role) (order : List Nat) (original : List Header) (chunks : List Bytes) (d : Draft) :
    ((order.flatMap (fun j => ((role j).effective.filter isRecipientEdit).map Emit.reply) ++
      changes original chunks d).filterMap asksFor).foldl reasonAfter none = d.quarantine :=
  reason_changes _ (by
    intro e he r
    obtain ⟨j, _, hj⟩ := List.mem_flatMap.mp he
    obtain ⟨x, hx, rfl⟩ := List.mem_map.mp hj
    have := (List.mem_filter.mp hx).2
    rintro ⟨⟩
    cases this) _ _ _

theorem ending_last (custom : Option (Nat × Option Bytes × Option Bytes)) (b : Bool) : Ending custom (lastReply b) := by
  cases b <;> exact trivial

/-- **C56**: `s` is any state a session can get into in which the MTA is connected and has negotiated, no message has ended
without an answer, the answers to DATA are in, milter `i` is the first one and `rest` are the others that have the message to
see.  The MTA sends the message `m`; every milter says continue to everything before the end, makes its requests at the end and
lets the message pass, with "continue" or "accept".  The MTA reads
one "continue" for each command before the end; at the end it reads the requests all milters' requests together amount to, as far as the
MTA has granted them, in this order: the recipients, the body, the headers, the sender; then the reason for a quarantine, if one is given, and
"accept" if everybody says so, "continue" otherwise; and nothing else but reports of progress.  Missing: other decisions than continue
before the end of the message (C49), what C28 excludes, and an end
of the message that arrives before the answer to what came before it (`hsent`). -/
theorem C56_partial (order : Requests → Requests) (fallback atDisconnect : Status) (size : Nat) (kids : List Children.Kid) (chunk : Nat)
    (depth : Nat) (history : List Session.Event) (s : Session.Session)
    (hs : Session.run order depth (Session.new fallback atDisconnect size kids chunk) history = some s)
    (hat : s.front.attached = true) (hl : s.front.client.link = .ready)
    (hneg : ∃ o, Client.Event.got (.negotiate o) ∈ s.front.client.log)
    (hi : Spec.Client.interrupted s.front.client.log = false) (he : Spec.Client.atEnd s.front.client.log = false)
    (hsent : s.front.leader.sentEnd = false)
    (hflags : hasFlag (negotiated s.front.client.log) 0x04 = hasFlag (negotiated s.front.client.log) 0x80)
    (n : Nat) (role : Nat → Role) (i : Nat) (rest : List Nat) (m : Message)
    (h : Opening s.milters i rest) (hst : Passing (s.milters.statuses .endOfMessage))
    (hlen : ∀ c ∈ m.chunks, c.length ≤ 65535)
    (hrole : ∀ j ∈ i :: rest, (role j).convert = converts s.milters j ∧ (role j).counts = !(s.milters.kids j).evaluation ∧
      ∀ r ∈ (role j).requests, isModification r = true)
    -- nobody removes all headers or the whole body
    (hne : ∀ x ∈ relay role (m.draft.after (role i).convert (role i).effective) rest,
      (m.headers ≠ [] → x.2.headers ≠ []) ∧ (m.chunks ≠ [] → x.2.body ≠ []))
    -- a body is replaced only if there is one
    (hnob : m.chunks = [] → ∀ j ∈ i :: rest, ∀ r ∈ (role j).requests, replacement r = none) :
    ∃ cut : Bytes → List Bytes, (∀ b, IsCut s.milters.chunkSize b (cut b)) ∧
    let to := (i, m.first (role i).convert) ::
      deliveries cut (decide (m.headers ≠ [])) (decide (m.chunks ≠ [])) m.last role
        (m.draft.after (role i).convert (role i).effective) rest
    let result := outcome role m.draft (i :: rest)
    let requests := (i :: rest).flatMap (fun j => ((role j).effective.filter isRecipientEdit).map .reply) ++
        changes m.draft.headers (cut result.body) result
    ∃ s' parts rs, Session.run order (n + 2) s ((m.arrives i ++ chatter role i to).map whole) = some s' ∧
      Pointwise Shows ((requests.filterMap asksFor).filter (accepted (negotiated s.front.client.log))) parts ∧
      rs.filter (· ≠ .progress) = parts.flatten ++ quarantineReply result.quarantine ++
        [verdict (s.milters.statuses .endOfMessage) role (i :: rest)] ∧
      written s'.front.client.log = written s.front.client.log ++
        ((Children.beforeEnd m).map fun _ => (Enc.encodeReplies order [] [.cont]).flatten).flatten ++
        (Enc.encodeReplies order [] rs).flatten := by
  have hidle := session_idle hs hat hl hneg hi he hsent
  -- the message arrives
  obtain ⟨s1, e1, c1, st, d1, o1, l1, f1, qh, qb, m1, t1, u, x1, k1, r1, y1⟩ :=
    Children.intake (n := n + 1) m h (by rw [Enc.chunkSize_eq]; exact hlen)
  have e3 : decide (St.header ∈ s1.commandQueue) = decide (m.headers ≠ []) := by simp only [qh]
  have e4 : decide (St.body ∈ s1.commandQueue) = decide (m.chunks ≠ []) := by simp only [qb]
  obtain ⟨cut, hcut, s2, e2, m2, t2⟩ := C28_chain_partial n role m.draft.headers rest s1 i c1 f1 o1
    (by rw [st.status]; exact hst)
    (by
      intro j hj
      rw [st.roles.converts, st.roles.evaluation]
      exact hrole j hj)
    (by
      intro x hx
      rw [d1] at hx
      rw [qh, qb]
      exact hne x hx)
    (by
      intro hb
      exact hnob (by rw [qb] at hb; simpa using hb))
  rw [d1, l1, e3, e4] at e2 m2
  rw [d1, st.status] at t2
  refine ⟨cut, by rw [st.chunkSize] at hcut; exact hcut, ?_⟩
  intro to result requests
  obtain ⟨s', parts, rs, g1, g2, g3, g4⟩ := message_read order hidle hflags x1 k1 r1 y1 (talk := chatter role i to) (chatter_fromMilter role i to) e2
    (requests := requests) (requests_ask role (i :: rest) _ _ _) (ending_last _ _) (t2.trans (by simp [requests, result]; rfl))
  rw [requests_reason] at g3
  exact ⟨s', parts, rs, g1, g2, g3, g4⟩

/-- **C56**, a refusal: as `C56_partial`, but the last one of the milters `order` refuses the message (`answer`) when it has made its requests; the milters
`rest` are still to come.  The MTA reads the same requests, and then the refusal. -/
theorem C56_refusal_partial (order : Requests → Requests) (fallback atDisconnect : Status) (size : Nat) (kids : List Children.Kid) (chunk : Nat)
    (depth : Nat) (history : List Session.Event) (s : Session.Session)
    (hs : Session.run order depth (Session.new fallback atDisconnect size kids chunk) history = some s)
    (hat : s.front.attached = true) (hl : s.front.client.link = .ready)
    (hneg : ∃ o, Client.Event.got (.negotiate o) ∈ s.front.client.log)
    (hi : Spec.Client.interrupted s.front.client.log = false) (he : Spec.Client.atEnd s.front.client.log = false)
    (hsent : s.front.leader.sentEnd = false)
    (hflags : hasFlag (negotiated s.front.client.log) 0x04 = hasFlag (negotiated s.front.client.log) 0x80)
    (n : Nat) (role : Nat → Role) (i : Nat) (who rest : List Nat) (answer : Reply) (m : Message)
    (h : Opening s.milters i (who ++ rest)) (hst : Passing (s.milters.statuses .endOfMessage))
    (hans : (refusing answer).isSome = true)
    (hcounts : (s.milters.kids ((i :: who).getLastD 0)).evaluation = false)
    -- no text of an earlier refusal is left, and a text given now is a legal one
    (hcode : s.milters.code = none ∨ ∃ a b c, answer = .replyCode a b c)
    (hcustom : lastCustom s.front.client.log = none ∨ ∃ a b c, answer = .replyCode a b c)
    (hlegal : ∀ a b c, answer = .replyCode a b c → Spec.LegalReply a (some b))
    (hlen : ∀ c ∈ m.chunks, c.length ≤ 65535)
    (hrole : ∀ j ∈ i :: who, (role j).convert = converts s.milters j ∧ (role j).counts = !(s.milters.kids j).evaluation ∧
      ∀ r ∈ (role j).requests, isModification r = true)
    (hne : ∀ x ∈ relay role (m.draft.after (role i).convert (role i).effective) who,
      (m.headers ≠ [] → x.2.headers ≠ []) ∧ (m.chunks ≠ [] → x.2.body ≠ []))
    (hnob : m.chunks = [] → ∀ j ∈ i :: who, ∀ r ∈ (role j).requests, replacement r = none) :
    ∃ cut : Bytes → List Bytes, (∀ b, IsCut s.milters.chunkSize b (cut b)) ∧
    let to := deliveries cut (decide (m.headers ≠ [])) (decide (m.chunks ≠ [])) m.last role
        (m.draft.after (role i).convert (role i).effective) who
    let k := (i :: who).getLastD 0
    let result := outcome role m.draft (i :: who)
    let requests := (i :: who).flatMap (fun j => ((role j).effective.filter isRecipientEdit).map .reply) ++
        changes m.draft.headers (cut result.body) result
    ∃ s' parts rs, Session.run order (n + 2) s
        ((m.arrives i ++ (passing role i to ++ (role k).requests.map (Children.Event.reply k ·) ++ [Children.Event.reply k answer])).map whole) = some s' ∧
      Pointwise Shows ((requests.filterMap asksFor).filter (accepted (negotiated s.front.client.log))) parts ∧
      rs.filter (· ≠ .progress) = parts.flatten ++ quarantineReply result.quarantine ++ [answer] ∧
      written s'.front.client.log = written s.front.client.log ++
        ((Children.beforeEnd m).map fun _ => (Enc.encodeReplies order [] [.cont]).flatten).flatten ++
        (Enc.encodeReplies order [] rs).flatten := by
  have hidle := session_idle hs hat hl hneg hi he hsent
  obtain ⟨s1, e1, c1, st, d1, o1, l1, f1, qh, qb, m1, t1, u, x1, k1, r1, y1⟩ :=
    Children.intake (n := n + 1) m h (by rw [Enc.chunkSize_eq]; exact hlen)
  have e3 : decide (St.header ∈ s1.commandQueue) = decide (m.headers ≠ []) := by simp only [qh]
  have e4 : decide (St.body ∈ s1.commandQueue) = decide (m.chunks ≠ []) := by simp only [qb]
  obtain ⟨cut, hcut, s2, aborts, e2, -, -, -, -, t2⟩ := C28_refusal_partial n role m.draft.headers who rest s1 i answer c1 f1 o1
    (by rw [st.status]; exact hst) hans (by rw [st.roles.evaluation]; exact hcounts) (by rw [st.code]; exact hcode)
    (by
      intro j hj
      rw [st.roles.converts, st.roles.evaluation]
      exact hrole j hj)
    (by
      intro x hx
      rw [d1] at hx
      rw [qh, qb]
      exact hne x hx)
    (by
      intro hb
      exact hnob (by rw [qb] at hb; simpa using hb))
  rw [d1, l1, e3, e4] at e2
  rw [d1] at t2
  refine ⟨cut, by rw [st.chunkSize] at hcut; exact hcut, ?_⟩
  intro to k result requests
  have hend : Ending (lastCustom s.front.client.log) answer := by
    cases answer <;> first | (cases hans; done) | skip
    case replyCode a b c => exact hlegal a b c rfl
    case discard => trivial
    all_goals exact hcustom.resolve_right (by rintro ⟨_, _, _, h⟩; cases h)
  obtain ⟨s', parts, rs, g1, g2, g3, g4⟩ := message_read order hidle hflags x1 k1 r1 y1
    (talk := passing role i to ++ (role k).requests.map (Children.Event.reply k ·) ++ [Children.Event.reply k answer]) (by
      intro e he
      rcases List.mem_append.mp he with he | he
      · rcases List.mem_append.mp he with he | he
        · exact passing_fromMilter _ _ _ e he
        · obtain ⟨r, _, rfl⟩ := List.mem_map.mp he
          rfl
      · cases List.mem_singleton.mp he; rfl) e2
    (requests := requests) (requests_ask role (i :: who) _ _ _) hend (t2.trans (by simp [requests, result]))
  rw [requests_reason] at g3
  exact ⟨s', parts, rs, g1, g2, g3, g4⟩

open SessionCases Cases

/-- three milters, the second one in evaluation mode, as in C28: the hypotheses about the session are met, and those of C57 about what
the MTA grants -/
example : ((Session.run id 20 (Session.new .accept .temporaryFailure 0 [{}, { evaluation := true }, {}] 4) (spacedSession.map whole)).any fun s =>
    s.front.attached && decide (s.front.client.link = .ready) && !Spec.Client.interrupted s.front.client.log &&
    !Spec.Client.atEnd s.front.client.log && s.front.client.log.any (fun x => match x with | .got (.negotiate _) => true | _ => false) &&
    !s.front.leader.sentEnd && ([0x01, 0x02, 0x04, 0x08, 0x10, 0x40, 0x80].all fun f => hasFlag (negotiated s.front.client.log) f) &&
    Children.openingB s.milters 0 [1, 2] && decide (s.milters.statuses .endOfMessage = .notChange) &&
    [0, 1, 2].all (fun j => decide ((editing j).convert = converts s.milters j) &&
      decide ((editing j).counts = !(s.milters.kids j).evaluation) && (editing j).requests.all isModification)) = true := by
  decide +kernel

/-- five times "continue"; then a recipient less, the body in two pieces, a header changed and one inserted, another
sender, the quarantine, "continue" -/
example : writesAfter [{}, { evaluation := true }, {}] spacedSession
    (letter.arrives 0 ++ chatter editing 0 ((0, letter.first true) ::
      deliveries (fun b => if b = [1, 2, 3, 4, 5] then [[1, 2, 3, 4], [5]] else [b]) true true letter.last editing
        (letter.draft.after (editing 0).convert (editing 0).effective) [1, 2])) =
    some (one 99 ++ one 99 ++ one 99 ++ one 99 ++ one 99 ++
      [0, 0, 0, 3, 45, 2, 0] ++ [0, 0, 0, 5, 98, 1, 2, 3, 4] ++ [0, 0, 0, 2, 98, 5] ++ [0, 0, 0, 10, 109, 0, 0, 0, 1, 3, 0, 32, 7, 0] ++
      [0, 0, 0, 10, 105, 0, 0, 0, 2, 5, 0, 32, 6, 0] ++ [0, 0, 0, 3, 101, 9, 0] ++ [0, 0, 0, 3, 113, 1, 0] ++ one 99) := by
  decide +kernel

namespace SessionCases

/-- the second of three milters counts -/
def refusingRole (j : Nat) : Role := if j = 1 then ⟨false, true, [.addRecipient [8] none], false⟩ else editing j

end SessionCases

/-- the second of three milters, which counts, rejects the message with a text of its own when it has seen it and asked for a recipient:
the hypotheses of C56's refusal are met, -/
example : ((Session.run id 20 (Session.new .accept .temporaryFailure 0 [{}, {}, {}] 4) (spacedSession.map whole)).any fun s =>
    s.front.attached && decide (s.front.client.link = .ready) && !Spec.Client.interrupted s.front.client.log &&
    !Spec.Client.atEnd s.front.client.log && s.front.client.log.any (fun x => match x with | .got (.negotiate _) => true | _ => false) &&
    !s.front.leader.sentEnd && Children.openingB s.milters 0 ([1] ++ [2]) && decide (s.milters.statuses .endOfMessage = .notChange) &&
    (hasFlag (negotiated s.front.client.log) 0x04 == hasFlag (negotiated s.front.client.log) 0x80) &&
    !(s.milters.kids 1).evaluation && decide (s.milters.code = none) &&
    [0, 1].all (fun j => decide ((refusingRole j).convert = converts s.milters j) &&
      decide ((refusingRole j).counts = !(s.milters.kids j).evaluation) && (refusingRole j).requests.all isModification)) = true ∧
    (∀ x ∈ relay refusingRole (letter.draft.after (refusingRole 0).convert (refusingRole 0).effective) [1],
      (letter.headers ≠ [] → x.2.headers ≠ []) ∧ (letter.chunks ≠ [] → x.2.body ≠ [])) ∧
    Spec.LegalReply 550 (some [53, 46, 49, 46, 49]) := by
  refine ⟨by decide +kernel, by decide +kernel, (C10_accepts {} 550 (some [53, 46, 49, 46, 49]) none).mp (by decide +kernel)⟩

/-- and the MTA reads "continue" five times, the requests of both and the text -/
example : writesAfter [{}, {}, {}] spacedSession
    (letter.arrives 0 ++ (passing refusingRole 0 (deliveries (fun b => if b = [1, 2, 3, 4, 5] then [[1, 2, 3, 4], [5]] else [b]) true true letter.last refusingRole
        (letter.draft.after (refusingRole 0).convert (refusingRole 0).effective) [1]) ++ (refusingRole 1).requests.map (Children.Event.reply 1 ·) ++
      [Children.Event.reply 1 (.replyCode 550 [53, 46, 49, 46, 49] (some [110, 111]))])) =
    some (one 99 ++ one 99 ++ one 99 ++ one 99 ++ one 99 ++
      [0, 0, 0, 3, 43, 8, 0] ++ [0, 0, 0, 5, 98, 1, 2, 3, 4] ++ [0, 0, 0, 2, 98, 5] ++ [0, 0, 0, 10, 109, 0, 0, 0, 1, 3, 0, 32, 7, 0] ++
      [0, 0, 0, 10, 105, 0, 0, 0, 2, 5, 0, 32, 6, 0] ++ [0, 0, 0, 14, 121, 53, 53, 48, 32, 53, 46, 49, 46, 49, 32, 110, 111, 0]) := by
  decide +kernel

end Verif.Props
