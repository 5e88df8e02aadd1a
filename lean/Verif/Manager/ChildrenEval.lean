import Verif.Manager.ChildrenOps
/-
Evaluating the functions of `Manager/Children.lean` when the environment gives no special answers.
-/
namespace Verif.Children
open Verif
open Verif.Server (St)

theorem bind_eq {α β : Type} {m : M α} {f : α → M β} {s s' : Sys} {a : α} (h : m s = some (a, s')) :
    (m >>= f) s = f a s' := by
  show (StateT.bind m f) s = _
  simp only [StateT.bind, h]
  rfl

theorem get_bind {β : Type} {f : Sys → M β} {s : Sys} : ((get : M Sys) >>= f) s = f s s := rfl
theorem modify_bind {β : Type} {g : Sys → Sys} {f : PUnit → M β} {s : Sys} :
    ((modify g : M PUnit) >>= f) s = f ⟨⟩ (g s) := rfl
theorem pure_bind' {α β : Type} {a : α} {f : α → M β} {s : Sys} : ((pure a : M α) >>= f) s = f a s := rfl
theorem pure_eq {α : Type} {a : α} {s : Sys} : (pure a : M α) s = some (a, s) := rfl
theorem log_bind {β : Type} {o : Out} {f : PUnit → M β} {s : Sys} : (log o >>= f) s = f ⟨⟩ (logged s o) := rfl

theorem ite_eq {α : Type} {c : Prop} [Decidable c] {m m' : M α} {s : Sys} :
    (if c then m else m') s = if c then m s else m' s := by split <;> rfl

theorem ask_eq {s : Sys} (h : s.oracle = []) : ask s = some ((false, true), s) := by
  unfold ask
  rw [get_bind, h]
  rfl

/-- milter `i` has the context `c` -/
def withCtx (s : Sys) (i : Nat) (c : Server.State) : Sys :=
  { s with kids := updKid s.kids i { (s.kids i) with ctx := c } }

theorem withCtx_ctx (s : Sys) (i : Nat) (c : Server.State) : ((withCtx s i c).kids i).ctx = c := by
  simp [withCtx, updKid]

theorem withCtx_other (s : Sys) (i j : Nat) (c : Server.State) (h : j ≠ i) : (withCtx s i c).kids j = s.kids j := by
  simp [withCtx, updKid, h]

theorem withCtx_kid (s : Sys) (i : Nat) (c : Server.State) :
    (withCtx s i c).kids i = { (s.kids i) with ctx := c } := by
  simp [withCtx, updKid]

theorem withCtx_twice (s : Sys) (i : Nat) (c c' : Server.State) : withCtx (withCtx s i c) i c' = withCtx s i c' := by
  simp only [withCtx]
  congr 1
  funext j
  by_cases h : j = i
  · subst h; simp [updKid]
  · simp [updKid, h]

theorem stepCtx_eq {d : Dispatch} {i : Nat} {e : Server.Event} {s : Sys} :
    stepCtx d i e s = drive d i (Server.step (s.kids i).ctx e).2 (withCtx s i (Server.step (s.kids i).ctx e).1) := rfl

theorem drive_nil {d : Dispatch} {i : Nat} {s : Sys} : drive d i [] s = some (true, s) := rfl

/-- a command that is written at once -/
theorem call_eq {d : Dispatch} {i : Nat} {c c' : Cmd} {s : Sys} {x : Server.State} (ho : s.oracle = [])
    (h : Server.command (s.kids i).ctx c false true = (x, [.wrote c', .ret true])) :
    call d i c s = some (true, logged (withCtx s i x) (.sent i c')) := by
  unfold call
  rw [bind_eq (ask_eq ho)]
  show stepCtx d i (.command c false true) s = _
  rw [stepCtx_eq]
  simp only [Server.step, h]
  rfl

theorem needReply_eq {i : Nat} {st : St} {s : Sys} {b : Bool} (h : Server.needReply (s.kids i).ctx.option st = some b) :
    needReply i st s = some (b, s) := by
  show (match Server.needReply (s.kids i).ctx.option st with
    | some b => (pure b : M Bool)
    | none => do log .ub; return true) s = _
  rw [h]
  rfl

theorem dispatch_signal {n i : Nat} {sig : Server.Signal} {s : Sys} :
    dispatch (n + 1) (.signal i sig) s = (do
      tryHandler (dispatch n) i sig
      if ((← get).kids i).linked then
        log (.heard i sig)
        handle (dispatch n) i sig : M Unit) s := rfl

/-- a signal nobody does anything about -/
theorem signal_ignored {n i : Nat} {sig : Server.Signal} {s : Sys} (hl : (s.kids i).linked = true)
    (h : (∃ st, sig = .stateTransited st) ∨ ∃ v r, sig = .messageProcessed v r) :
    dispatch (n + 1) (.signal i sig) s = some ((), logged s (.heard i sig)) := by
  have htry : tryHandler (dispatch n) i sig s = some ((), s) := by
    unfold tryHandler
    rw [get_bind]
    rcases h with ⟨st, rfl⟩ | ⟨v, r, rfl⟩ <;> cases (s.kids i).tryRetry <;> rfl
  unfold dispatch
  dsimp only
  rw [bind_eq htry, get_bind, if_pos hl, log_bind]
  rcases h with ⟨st, rfl⟩ | ⟨v, r, rfl⟩ <;> rfl

/-- a reply that is handled -/
theorem signal_reply {n i : Nat} {r : Reply} {s : Sys} (hl : (s.kids i).linked = true) :
    dispatch (n + 1) (.signal i (.reply r)) s = handle (dispatch n) i (.reply r) (logged s (.heard i (.reply r))) := by
  have htry : tryHandler (dispatch n) i (.reply r) s = some ((), s) := by
    unfold tryHandler
    rw [get_bind]
    cases (s.kids i).tryRetry <;> rfl
  rw [dispatch_signal, bind_eq htry, get_bind, if_pos hl, log_bind]

/-- the rest of a function that does nothing to be seen -/
theorem resume_eq {n i : Nat} {s : Sys} {f : List Server.Action} {stack : List (List Server.Action)} {x : Server.State}
    (ho : s.oracle = []) (hs : (s.kids i).ctx.stack = f :: stack)
    (h : Server.exec { (s.kids i).ctx with stack := stack } true f = (x, [])) :
    dispatch (n + 1) (.resume i) s = some ((), withCtx s i x) := by
  unfold dispatch
  dsimp only
  rw [bind_eq (ask_eq ho)]
  show (stepCtx (dispatch n) i (.handlerReturns true) >>= fun _ => pure ()) s = _
  have : stepCtx (dispatch n) i (.handlerReturns true) s = some (true, withCtx s i x) := by
    rw [stepCtx_eq]
    simp only [Server.step, hs, h, drive_nil]
  rw [bind_eq this]
  rfl

end Verif.Children
