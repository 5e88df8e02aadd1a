import Verif.Manager.Children
/-
Reasoning about the functions of `Manager/Children.lean`: whatever a function returns, and
whatever state it leaves, satisfies `Q`.
-/
namespace Verif.Children
open Verif
open Verif.Server (St)

/-- every result of `m` started in `s` satisfies `Q` -/
structure wp {α : Type} (m : M α) (Q : α → Sys → Prop) (s : Sys) : Prop where
  intro ::
  elim : ∀ a s', m s = some (a, s') → Q a s'

theorem wp_mono {α : Type} {m : M α} {Q Q' : α → Sys → Prop} {s : Sys} (h : wp m Q s)
    (hq : ∀ a s', Q a s' → Q' a s') : wp m Q' s :=
  ⟨fun a s' e => hq a s' (h.elim a s' e)⟩

theorem wp_pure {α : Type} (a : α) (Q : α → Sys → Prop) (s : Sys) :
    wp (pure a : M α) Q s ↔ Q a s := by
  constructor
  · intro h; exact h.elim a s rfl
  · intro h
    refine ⟨fun b s' e => ?_⟩
    cases e; exact h

theorem wp_bind {α β : Type} (m : M α) (f : α → M β) (Q : β → Sys → Prop) (s : Sys) :
    wp (m >>= f) Q s ↔ wp m (fun a => wp (f a) Q) s := by
  constructor
  · intro h
    refine ⟨fun a s' e => ⟨fun b s'' e' => ?_⟩⟩
    apply h.elim b s''
    show (StateT.bind m f) s = _
    simp only [StateT.bind, e]
    exact e'
  · intro h
    refine ⟨fun b s'' e => ?_⟩
    change (StateT.bind m f) s = _ at e
    simp only [StateT.bind] at e
    cases hm : m s with
    | none => rw [hm] at e; cases e
    | some p =>
      obtain ⟨a, s'⟩ := p
      rw [hm] at e
      exact (h.elim a s' hm).elim b s'' e

theorem wp_map {α β : Type} (f : α → β) (m : M α) (Q : β → Sys → Prop) (s : Sys) :
    wp (f <$> m) Q s ↔ wp m (fun a => Q (f a)) s := by
  have : (f <$> m) = (m >>= fun a => pure (f a)) := by rfl
  rw [this, wp_bind]
  constructor
  · intro h; exact wp_mono h fun a s' hh => (wp_pure _ _ _).mp hh
  · intro h; exact wp_mono h fun a s' hh => (wp_pure _ _ _).mpr hh

theorem wp_get (Q : Sys → Sys → Prop) (s : Sys) : wp (get : M Sys) Q s ↔ Q s s := by
  constructor
  · intro h; exact h.elim s s rfl
  · intro h
    refine ⟨fun b s' e => ?_⟩
    cases e; exact h

theorem wp_set (t : Sys) (Q : PUnit → Sys → Prop) (s : Sys) : wp (set t : M PUnit) Q s ↔ Q () t := by
  constructor
  · intro h; exact h.elim () t rfl
  · intro h
    refine ⟨fun b s' e => ?_⟩
    cases e; exact h

theorem wp_modify (f : Sys → Sys) (Q : PUnit → Sys → Prop) (s : Sys) :
    wp (modify f : M PUnit) Q s ↔ Q () (f s) := by
  constructor
  · intro h; exact h.elim () (f s) rfl
  · intro h
    refine ⟨fun b s' e => ?_⟩
    cases e; exact h

theorem wp_failure {α : Type} (Q : α → Sys → Prop) (s : Sys) : wp (failure : M α) Q s ↔ True := by
  constructor
  · intro _; trivial
  · intro _
    refine ⟨fun a s' e => ?_⟩
    cases e

theorem wp_ite {α : Type} (c : Prop) [Decidable c] (m m' : M α) (Q : α → Sys → Prop) (s : Sys) :
    wp (if c then m else m') Q s ↔ if c then wp m Q s else wp m' Q s := by
  split <;> rfl

/-- the first step of a `do` block that needs a lemma of its own -/
theorem wp_of {α β : Type} {m : M α} {f : α → M β} {P : α → Sys → Prop} {Q : β → Sys → Prop} {s : Sys}
    (h : wp m P s) (hf : ∀ a s', P a s' → wp (f a) Q s') : wp (m >>= f) Q s :=
  (wp_bind _ _ _ _).mpr (wp_mono h hf)

macro "wsimp" : tactic =>
  `(tactic| simp only [wp_bind, wp_pure, wp_get, wp_set, wp_modify, wp_failure, wp_ite, wp_map,
      log, emit, modifyKid, modifyCtx, getCtx])

end Verif.Children
