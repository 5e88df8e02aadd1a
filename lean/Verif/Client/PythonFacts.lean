import Verif.Spec.Python
import Verif.Client.RubyFacts
/-
Facts about the model of the Python binding.
-/
namespace Verif.Python
open Verif Verif.Client Verif.Spec.Client Verif.Spec.Python
open Verif.Ruby (Value Options Modification Act Prog Callback Part Said Effect Ran Outcome Object Session Result removeStep statusOf aborting eventOf)
open Verif.Spec.Ruby (means after decided plain doings Decision)

variable {σ τ : Type}

/-! ### What callbacks do -/

theorem anyGiven_eq (o : Options) : anyGiven o = true ↔ ((given o).code.isSome ∨ (given o).extendedCode.isSome ∨ (given o).reason.isSome) := by
  rcases o with ⟨_ | _ | n, _ | _ | ⟨b, bs⟩, _ | _ | ⟨c, cs⟩⟩ <;> simp [anyGiven, given]

theorem orNumber_eq (x : Option Nat) (y : Nat) : orNumber x y = (x.filter (· != 0)).getD y := by
  rcases x with _ | _ | n <;> rfl

theorem orText_eq (x : Option Bytes) (y : Bytes) : orText x y = (x.filter (!·.isEmpty)).getD y := by
  rcases x with _ | _ | ⟨n, m⟩ <;> rfl

theorem refuse_eq (order : Requests → Requests) (reset : σ → σ) (s : State) (v : Option Value) (own : σ) (o : Options)
    (status : Status) (code : Nat) (ext reason : Bytes) :
    refuse order reset s v own o status code ext reason = Ruby.refuse order reset s v own (given o) status code ext reason := by
  have e : (if anyGiven o = true then setReply order s v own (orNumber o.code code) (orText o.extendedCode ext) (orText o.reason reason)
      else { ok := true, context := s, status := some (.name status false), own := own }) =
      (if (given o).code.isSome ∨ (given o).extendedCode.isSome ∨ (given o).reason.isSome then
        Ruby.setReply order s v own ((given o).code.getD code) ((given o).extendedCode.getD ext) ((given o).reason.getD reason)
      else { ok := true, context := s, status := some (.name status false), own := own }) := by
    by_cases h : anyGiven o = true
    · rw [if_pos h, if_pos ((anyGiven_eq o).1 h), orNumber_eq, orText_eq, orText_eq]
      rfl
    · rw [if_neg h, if_neg (fun h' => h ((anyGiven_eq o).2 h'))]
  unfold refuse Ruby.refuse
  rw [e]

/-- what Python does is what Ruby does for what is meant -/
theorem perform_eq (order : Requests → Requests) (reset : σ → σ) (s : State) (v : Option Value) (own : σ) (a : Act) :
    (∀ ok, meant (a, ok) = none) ∧ (perform order reset s v own a).calls = [] ∧ (perform order reset s v own a).status = v ∨
    ∃ b, (∀ ok, meant (a, ok) = some (b, ok)) ∧ (plain a = true → plain b = true) ∧ perform order reset s v own a = Ruby.perform order reset s v own b := by
  cases a with
  | reject o => exact .inr ⟨.reject (given o), fun _ => rfl, fun _ => rfl, refuse_eq ..⟩
  | temporaryFailure o => exact .inr ⟨.temporaryFailure (given o), fun _ => rfl, fun _ => rfl, refuse_eq ..⟩
  | status w =>
    cases w with
    | none => exact .inl ⟨fun _ => rfl, rfl, rfl⟩
    | some w => exact .inr ⟨_, fun _ => rfl, id, rfl⟩
  | _ => exact .inr ⟨_, fun _ => rfl, id, rfl⟩

theorem exec_calls (order : Requests → Requests) (reset : σ → σ) (p : Prog σ) : ∀ (s : State) (v : Option Value) (x : σ),
    (exec order reset p s v x).calls = ((exec order reset p s v x).did.filterMap meant).flatMap fun d => means d.1 := by
  induction p with
  | done => intro s v x; rfl
  | raise => intro s v x; rfl
  | act a k ih =>
    intro s v x
    unfold exec
    dsimp only
    rw [ih, List.filterMap_cons]
    rcases perform_eq order reset s v x a with ⟨h1, h2, _⟩ | ⟨b, h1, _, h2⟩
    · rw [h1, h2]; rfl
    · rw [h1]
      dsimp only
      rw [List.flatMap_cons]
      rw [show (perform order reset s v x a).calls = means b by rw [h2, Ruby.perform_calls]]
  | own f k ih => intro s v x; exact ih _ _ _ _
  | symbol n k ih => intro s v x; exact ih _ _ _ _

theorem exec_status (order : Requests → Requests) (reset : σ → σ) (p : Prog σ) : ∀ (s : State) (v : Option Value) (x : σ),
    (exec order reset p s v x).status.map Value.toStatus = Ruby.decidedFrom (v.map Value.toStatus) ((exec order reset p s v x).did.filterMap meant) := by
  induction p with
  | done => intro s v x; rfl
  | raise => intro s v x; rfl
  | act a k ih =>
    intro s v x
    unfold exec
    dsimp only
    rw [ih, List.filterMap_cons]
    rcases perform_eq order reset s v x a with ⟨h1, _, h2⟩ | ⟨b, h1, _, h2⟩
    · rw [h1, h2]
    · rw [h1]
      dsimp only
      rw [h2, Ruby.perform_status]
      rfl
  | own f k ih => intro s v x; exact ih _ _ _ _
  | symbol n k ih => intro s v x; exact ih _ _ _ _

theorem meant_plain {d e : Act × Bool} (h : meant d = some e) (hp : plain d.1 = true) : plain e.1 = true := by
  obtain ⟨a, ok⟩ := d
  cases a with
  | reject o => cases h; rfl
  | temporaryFailure o => cases h; rfl
  | status w =>
    cases w with
    | none => cases h
    | some w => cases h; exact hp
  | _ => cases h; exact hp

theorem exec_only (order : Requests → Requests) (reset : σ → σ) (p : Prog σ) : Spec.Ruby.Only plain p → ∀ (s : State) (v : Option Value) (x : σ),
    ∀ d ∈ (exec order reset p s v x).did.filterMap meant, plain d.1 = true := by
  induction p with
  | done => intro h s v x d hd; cases hd
  | raise => intro h s v x d hd; cases hd
  | act a k ih =>
    intro h s v x d hd
    obtain ⟨y, hy, hm⟩ := List.mem_filterMap.mp hd
    rcases List.mem_cons.mp hy with rfl | hy
    · exact meant_plain hm h.1
    · exact ih _ (h.2 _) _ _ _ d (List.mem_filterMap.mpr ⟨y, hy, hm⟩)
  | own f k ih => intro h s v x; exact ih _ (h _) _ _ _
  | symbol n k ih => intro h s v x; exact ih _ (h _) _ _ _

theorem exec_quiet (order : Requests → Requests) (reset : σ → σ) (p : Prog σ) : Quiet p → ∀ (s : State) (v : Option Value) (x : σ),
    (exec order reset p s v x).raised = false := by
  induction p with
  | done => exact fun _ _ _ _ => rfl
  | raise => exact fun h => h.elim
  | act a k ih => intro h s v x; exact ih _ (h _) _ _ _
  | own f k ih => intro h s v x; exact ih _ (h _) _ _ _
  | symbol n k ih => intro h s v x; exact ih _ (h _) _ _ _

/-! ### The same session as if it were Ruby -/

theorem handle_eq (order : Requests → Requests) (fallback : Value) (m : Class σ) (hq : QuietAbort m) (x : Session σ) (c : Cmd) :
    handle fallback (m.object order) x c = Ruby.handle fallback (m.object order) x c := by
  cases c with
  | abort =>
    show onAbort _ _ = _
    unfold onAbort Ruby.handle
    dsimp only
    have e : (m.object order).callback (.abort x.context.st) = (m.abort.map fun g => g x.context.st).map fun p s v own =>
      let r := exec order m.reset p s v own
      (⟨[⟨0, r.did, r.raised⟩], r.calls, r.context, r.status, r.own, r.raised⟩ : Outcome σ) := rfl
    rw [e]
    cases h : m.abort with
    | none => rfl
    | some g =>
      dsimp only [Option.map_some]
      have hr := exec_quiet order m.reset (g x.context.st) (hq g h _) (aborting x.context) x.status x.own
      simp only [hr]
      rfl
  | _ => rfl

theorem receive_eq (order : Requests → Requests) (fallback : Value) (m : Class σ) (hq : QuietAbort m) (x : Session σ) (c : Cmd) :
    receive order fallback (m.object order) x c = Ruby.receive order fallback (m.object order) x c := by
  unfold receive Ruby.receive
  rw [handle_eq order fallback m hq x c]
  rfl

theorem run_eq (order : Requests → Requests) (fallback : Value) (m : Class σ) (hq : QuietAbort m) (cmds : List Cmd) : ∀ (x : Session σ),
    run order fallback (m.object order) x cmds = Ruby.run order fallback (m.object order) x cmds := by
  induction cmds with
  | nil => exact fun _ => rfl
  | cons c cmds ih =>
    intro x
    show run order fallback _ (receive order fallback _ x c) cmds = Ruby.run order fallback _ (Ruby.receive order fallback _ x c) cmds
    rw [receive_eq order fallback m hq, ih]

/-- what some parts mean -/
def partsMeant (parts : List Part) : List Part := parts.map fun p => ⟨p.who, p.did.filterMap meant, p.raised⟩

/-- an object whose doings are those that are meant -/
def shadow (m : Object τ) : Object τ :=
  { m with callback := fun what => (m.callback what).map fun g s v x => { g s v x with parts := partsMeant (g s v x).parts } }

/-- a session with those -/
def cast (x : Session τ) : Session τ := { x with seen := meaning x.seen }

theorem meaning_append (a b : List Said) : meaning (a ++ b) = meaning a ++ meaning b := List.map_append

theorem shadow_one (fallback : Value) (m : Object τ) (x : Session τ) (s : State) (what : Callback) :
    Ruby.one fallback (shadow m) (cast x) s what =
      { Ruby.one fallback m x s what with seen := meaning (Ruby.one fallback m x s what).seen } := by
  unfold Ruby.one
  have e : (shadow m).callback what = (m.callback what).map fun g s v x => { g s v x with parts := partsMeant (g s v x).parts } := rfl
  rw [e]
  cases m.callback what <;> rfl

theorem shadow_handle (fallback : Value) (m : Object τ) (x : Session τ) (c : Cmd) :
    Ruby.handle fallback (shadow m) (cast x) c = { Ruby.handle fallback m x c with seen := meaning (Ruby.handle fallback m x c).seen } := by
  cases c with
  | negotiate o => rfl
  | defineMacro a b => rfl
  | quit => rfl
  | abort =>
    unfold Ruby.handle
    dsimp only
    have e : (shadow m).callback (.abort (cast x).context.st) = (m.callback (.abort x.context.st)).map fun g s v x =>
      { g s v x with parts := partsMeant (g s v x).parts } := rfl
    have e' : (shadow m).reset = m.reset := rfl
    rw [e, e']
    cases m.callback (.abort x.context.st) <;> cases m.reset <;> rfl
  | _ => exact shadow_one fallback m x _ _

theorem shadow_receive (order : Requests → Requests) (fallback : Value) (m : Object τ) (x : Session τ) (c : Cmd) (hq : c ≠ .quit) :
    Ruby.receive order fallback (shadow m) (cast x) c = cast (Ruby.receive order fallback m x c) := by
  rw [Ruby.receive_eq order fallback (shadow m) (cast x) c hq, Ruby.receive_eq order fallback m x c hq, shadow_handle]
  unfold cast
  dsimp only
  rw [meaning_append]
  cases c <;> rfl

theorem shadow_run (order : Requests → Requests) (fallback : Value) (m : Object τ) (cmds : List Cmd) : ∀ (x : Session τ), Cmd.quit ∉ cmds →
    Ruby.run order fallback (shadow m) (cast x) cmds = cast (Ruby.run order fallback m x cmds) := by
  induction cmds with
  | nil => exact fun _ _ => rfl
  | cons c cmds ih =>
    intro x hq
    show Ruby.run order fallback _ (Ruby.receive order fallback _ (cast x) c) cmds = cast (Ruby.run order fallback _ (Ruby.receive order fallback _ x c) cmds)
    rw [shadow_receive order fallback m x c (fun e => hq (e ▸ List.mem_cons_self)), ih _ (fun e => hq (List.mem_cons_of_mem _ e))]

/-! ### Honesty -/

/-- what a callback, and perhaps `on_error` after it, come to -/
theorem outcome_fine (o : Option Opt) (fallback : Value) (hf : fallback.toStatus ≠ .progress) (did : List (Act × Bool)) (calls : List Call) (context : State)
    (status : Option Value) (own : σ) (raised : Bool) (hc : calls = (did.filterMap meant).flatMap fun d => means d.1)
    (hs : raised = false → status.map Value.toStatus = Ruby.decidedFrom none (did.filterMap meant)) (honly : ∀ d ∈ did.filterMap meant, plain d.1 = true) :
    Ruby.Fine (fun c => recipientFlagsAgree o c = true ∧ hasCode c = true) fallback
      ({ parts := partsMeant [⟨0, did, raised⟩], calls := calls, context := context, status := status, own := own, raised := raised } : Outcome σ) := by
  have hne := Ruby.decidedFrom_ne (did.filterMap meant) (d := none) (fun h => nomatch h) honly
  refine ⟨?_, ?_, ?_, ?_⟩
  · show calls = List.flatMap _ [_]
    rw [hc, List.flatMap_cons, List.flatMap_nil, List.append_nil]
  · intro y hy
    rw [show y ∈ _ ↔ y ∈ calls from Iff.rfl, hc] at hy
    obtain ⟨d, hd, hy⟩ := List.mem_flatMap.mp hy
    exact Ruby.means_fine (honly d hd) o y hy
  · show Decision fallback.toStatus [⟨0, did.filterMap meant, raised⟩] (statusOf (if raised then some fallback else status))
    unfold Decision
    cases hr : raised with
    | true => exact rfl
    | false =>
      show (match List.filterMap (fun p => decided p.did) [(⟨0, did.filterMap meant, false⟩ : Part)] with
        | [] => _ | l => _)
      have hs : statusOf status = (decided (did.filterMap meant)).getD .default := congrArg (fun (y : Option Status) => y.getD .default) (hs hr)
      cases hd : decided (did.filterMap meant) with
      | none =>
        rw [hd] at hs
        simp only [List.filterMap_cons, hd, List.filterMap_nil]
        exact .inl hs
      | some d =>
        rw [hd] at hs
        simp only [List.filterMap_cons, hd, List.filterMap_nil]
        refine ⟨?_, ?_⟩
        · show statusOf status ∈ _
          rw [hs]; exact List.mem_singleton.mpr rfl
        · intro t ht
          rw [List.mem_singleton.mp ht]
          show _ ≤ Props.severity (statusOf status)
          rw [hs]; exact Nat.le_refl _
  · show statusOf (if raised then some fallback else status) ≠ .progress
    cases hr : raised with
    | true => exact hf
    | false =>
      show (status.map Value.toStatus).getD .default ≠ .progress
      rw [hs hr]
      cases hd : Ruby.decidedFrom none (did.filterMap meant) with
      | none => exact fun h => nomatch h
      | some d => exact fun h => hne (hd.trans (congrArg some h))

theorem event_fine (order : Requests → Requests) (o : Option Opt) (fallback : Value) (hf : fallback.toStatus ≠ .progress) (m : Class σ) (what : Callback) (p : Prog σ)
    (hp : Spec.Ruby.Only plain p) (he : Spec.Ruby.Only plain (m.onError what)) (s : State) (x : σ) :
    Ruby.Fine (fun c => recipientFlagsAgree o c = true ∧ hasCode c = true) fallback
      { m.event order what p s none x with parts := partsMeant (m.event order what p s none x).parts } := by
  unfold Class.event
  have h1 := exec_calls order m.reset p s none x
  have h2 := exec_status order m.reset p s none x
  have h3 := exec_only order m.reset p hp s none x
  generalize exec order m.reset p s none x = r at *
  dsimp only
  have k1 := exec_calls order m.reset (m.onError what) r.context r.status r.own
  have k3 := exec_only order m.reset (m.onError what) he r.context r.status r.own
  generalize exec order m.reset (m.onError what) r.context r.status r.own = e at *
  cases hr : r.raised with
  | true =>
    rw [if_pos rfl]
    refine outcome_fine o fallback hf (r.did ++ e.did) _ _ _ _ true ?_ (fun h => nomatch h) ?_
    · rw [List.filterMap_append, List.flatMap_append, h1, k1]
    · intro d hd
      rw [List.filterMap_append] at hd
      rcases List.mem_append.mp hd with hd | hd
      · exact h3 d hd
      · exact k3 d hd
  | false =>
    rw [if_neg (fun h => nomatch h)]
    exact outcome_fine o fallback hf r.did _ _ _ _ false h1 (fun _ => h2) h3

theorem calls_only (m : Class σ) (hm : Keeps plain m) (what : Callback) (p : Prog σ) (h : m.calls what = some p) : Spec.Ruby.Only plain p := by
  unfold Class.calls at h
  split at h
  · obtain ⟨g, _, rfl⟩ := LibMilter.map_some h
    exact True.intro
  · exact hm.1 _ _ h

theorem honest (order : Requests → Requests) (o : Option Opt) (fallback : Value) (hf : fallback.toStatus ≠ .progress) (m : Class σ) (hm : Keeps plain m) :
    Ruby.Honest (fun c => recipientFlagsAgree o c = true ∧ hasCode c = true) fallback (shadow (m.object order)) := by
  refine ⟨?_, fun h => nomatch h⟩
  intro what g _ hg s x
  obtain ⟨g', hg', rfl⟩ := LibMilter.map_some hg
  obtain ⟨p, hp, rfl⟩ := LibMilter.map_some hg'
  have hp' := calls_only m hm what p hp
  clear hg hg'
  cases what with
  | abort st =>
    exact outcome_fine o fallback hf _ _ _ _ _ _ (exec_calls order m.reset p s none x) (fun _ => exec_status order m.reset p s none x) (exec_only order m.reset p hp' s none x)
  | _ => exact event_fine order o fallback hf m _ p hp' (hm.2 _) s x

end Verif.Python
