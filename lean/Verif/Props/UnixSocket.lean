import Verif.Core.UnixSocket
/-
C132: a socket is where, and as, the configuration says while the manager listens on it, and gone when the manager ends; nothing else on the disk is touched.
-/
namespace Verif.Props.UnixSocket
open Verif.UnixSocket

/-- the disk as others could see it between two states: `new`, latest first -/
def Between (d d' : Disk) (new : List Files) : Prop := d'.now :: d'.before = new ++ (d.now :: d.before)

/-- the disk is as before but for what is at the paths -/
def SameBut (paths : List Bytes) (f g : Files) : Prop := ∀ p, p ∉ paths → g p = f p

@[simp] theorem put_now (d : Disk) (path : Bytes) (n : Option Node) (p : Bytes) :
    (d.put path n).now p = if p = path then n else d.now p := rfl
@[simp] theorem put_before (d : Disk) (path : Bytes) (n : Option Node) : (d.put path n).before = d.now :: d.before := rfl

/-- what is known of a sequence of changes at one path -/
def Only (path : Bytes) (d d' : Disk) : Prop := ∃ new, Between d d' new ∧ ∀ f ∈ new, SameBut [path] d.now f

theorem only_refl (path : Bytes) (d : Disk) : Only path d d := ⟨[], rfl, fun _ h => nomatch h⟩

theorem only_put {path : Bytes} {d d' : Disk} (h : Only path d d') (n : Option Node) : Only path d (d'.put path n) := by
  obtain ⟨new, hb, hs⟩ := h
  refine ⟨(d'.put path n).now :: new, ?_, ?_⟩
  · unfold Between at *
    rw [put_before, hb]; rfl
  · intro f hf
    rcases List.mem_cons.mp hf with rfl | hf
    · intro p hp
      have hne : p ≠ path := fun e => hp (by simp [e])
      rw [put_now, if_neg hne]
      have : d'.now ∈ new ∨ d'.now = d.now := by
        cases new with
        | nil => right; unfold Between at hb; simp at hb; exact hb.1
        | cons a l => left; unfold Between at hb; simp at hb; rw [hb.1]; exact List.mem_cons_self
      rcases this with h | h
      · exact hs _ h p hp
      · rw [h]
    · exact hs f hf

theorem only_listen (me : Nat) (o : Outcome) (path : Bytes) (remove : Bool) (d : Disk) : Only path d (listen me o path remove d).2 := by
  unfold listen
  split
  · exact only_refl _ _
  · have h1 : Only path d (if remove = true ∧ (d.now path).isSome = true then d.put path none else d) := by
      split
      · exact only_put (only_refl _ _) _
      · exact only_refl _ _
    dsimp only
    generalize (if remove = true ∧ (d.now path).isSome = true then d.put path none else d) = d1 at h1
    split
    · exact h1
    · split
      · exact h1
      · split
        · exact h1
        · split
          · exact only_put h1 _
          · exact only_put h1 _

theorem only_group {o : Outcome} {s : Settings} {d d' : Disk} (h : Only s.path d d') : Only s.path d (changeGroup o s d') := by
  unfold changeGroup
  split
  · exact h
  · split
    · exact h
    · split
      · exact only_put h _
      · exact h

theorem only_mode {o : Outcome} {s : Settings} {d d' : Disk} (h : Only s.path d d') : Only s.path d (changeMode o s d') := by
  unfold changeMode
  split
  · exact only_put h _
  · exact h

/-- **C132**, whatever succeeds or fails: at no moment of listening anything but the path of the socket changes -/
theorem C132_only_there (me : Nat) (o : Outcome) (s : Settings) (d : Disk) :
    ∃ new, Between d (start me o s d).2 new ∧ ∀ f ∈ new, SameBut [s.path] d.now f := by
  have h := only_listen me o s.path s.removeOnCreate d
  show Only s.path d (start me o s d).2
  unfold start
  split
  · rename_i d1 e
    rw [e] at h
    exact only_mode (only_group h)
  · rename_i d1 e
    rw [e] at h
    exact h

/-- a successful `listen` -/
theorem listen_true {me : Nat} {o : Outcome} {path : Bytes} {remove : Bool} {d d' : Disk} (h : listen me o path remove d = (true, d')) :
    d'.now path = some ⟨.socket me, 0o777 &&& ~~~o.umask, o.ownGroup⟩ := by
  unfold listen at h
  split at h
  · exact absurd (congrArg Prod.fst h) (by simp)
  · dsimp only at h
    generalize (if remove = true ∧ (d.now path).isSome = true then d.put path none else d) = d1 at h
    split at h
    · exact absurd (congrArg Prod.fst h) (by simp)
    · split at h
      · exact absurd (congrArg Prod.fst h) (by simp)
      · split at h
        · exact absurd (congrArg Prod.fst h) (by simp)
        · split at h
          · exact absurd (congrArg Prod.fst h) (by simp)
          · have := congrArg Prod.snd h
            dsimp only at this
            rw [← this, put_now, if_pos rfl]

/-- the group the socket is to have: that of the name given, or the one of the process -/
def wanted (o : Outcome) (s : Settings) : Option Nat :=
  match s.group with
  | none => some o.ownGroup
  | some name => o.groups name

theorem group_now {me : Nat} {o : Outcome} {s : Settings} {d : Disk} {m : UInt32} {gid : Nat} (hc : o.chown = true) (hw : wanted o s = some gid)
    (h : d.now s.path = some ⟨.socket me, m, o.ownGroup⟩) : (changeGroup o s d).now s.path = some ⟨.socket me, m, gid⟩ := by
  unfold changeGroup
  unfold wanted at hw
  cases hg : s.group with
  | none => rw [hg] at hw; simp at hw; subst hw; exact h
  | some name => rw [hg] at hw; dsimp only at hw ⊢; rw [hw]; simp [hc, h]

/-- **C132**: when the manager listens, the socket is at its path with the mode and the group configured, provided the group exists and the calls that set them succeed
(see `C132_group_violated` and `C132_mode_failed_violated`) -/
theorem C132_listening_partial {me : Nat} {o : Outcome} {s : Settings} {d d' : Disk} {gid : Nat}
    (h : start me o s d = (true, d')) (hc : o.chown = true) (hm : o.chmod = true) (hw : wanted o s = some gid) :
    d'.now s.path = some ⟨.socket me, s.mode, gid⟩ ∧ SameBut [s.path] d.now d'.now := by
  constructor
  · unfold start at h
    split at h
    · rename_i d1 e
      have e1 := group_now hc hw (listen_true e)
      have := congrArg Prod.snd h
      dsimp only at this
      rw [← this]
      unfold changeMode
      simp [hm, e1]
    · exact absurd (congrArg Prod.fst h) (by simp)
  · obtain ⟨new, hb, hs⟩ := C132_only_there me o s d
    rw [h] at hb
    cases new with
    | nil => unfold Between at hb; simp at hb; intro p _; rw [hb.1]
    | cons a l => unfold Between at hb; simp at hb; rw [hb.1]; exact hs a List.mem_cons_self

/-- if all calls succeed, and the path is free or may be freed, the manager does listen -/
theorem C132_starts (me : Nat) (o : Outcome) (s : Settings) (d : Disk) (h1 : o.unlinkOld = true) (h2 : o.socket = true) (h3 : o.setsockopt = true)
    (h4 : o.bind = true) (h5 : o.listen = true) (hf : d.now s.path = none ∨ s.removeOnCreate = true) : (start me o s d).1 = true := by
  have : (listen me o s.path s.removeOnCreate d).1 = true := by
    unfold listen
    rcases hf with hf | hf <;> cases hp : d.now s.path <;> simp_all
  unfold start
  split
  · rfl
  · rename_i e; rw [e] at this; exact this

/-- **C132**: an existing socket that is not to be removed makes listening fail, and stays -/
theorem C132_kept (me : Nat) (o : Outcome) (s : Settings) (d : Disk) (hr : s.removeOnCreate = false) (he : (d.now s.path).isSome = true) :
    start me o s d = (false, d) := by
  have : listen me o s.path s.removeOnCreate d = (false, d) := by
    unfold listen
    simp [hr, he]
  unfold start
  rw [this]

/-! ## The end -/

theorem close_now (o : Outcome) (s : Settings) (d : Disk) (p : Bytes) :
    (close o s d).now p = if s.removeOnClose = true ∧ o.unlinkUsed = true ∧ p = s.path then none else d.now p := by
  unfold close
  split
  · rename_i h
    rw [put_now]
    by_cases e : p = s.path
    · rw [if_pos e, if_pos ⟨h.1, h.2.1, e⟩]
    · rw [if_neg e, if_neg (fun x => e x.2.2)]
  · rename_i h
    split
    · rename_i h2
      rw [h2.2.2]
      cases e : d.now s.path with
      | none => rfl
      | some n => exact absurd ⟨h2.1, h2.2.1, by rw [e]; rfl⟩ h
    · rfl

theorem cleanup_now (c : Course) (p : Process) (pid : Option Bytes) (d : Disk) (q : Bytes) :
    (cleanup c p pid d).now q =
      if p.removePidFile = true ∧ c.unlinkPid = true ∧ pid = some q then none else (close c.manager p.manager d).now q := by
  unfold cleanup
  cases pid with
  | none => simp
  | some f =>
    dsimp only
    generalize close c.manager p.manager d = d1
    split
    · rename_i h
      rw [put_now]
      by_cases e : q = f
      · rw [if_pos e, if_pos ⟨h.1, h.2.1, by rw [e]⟩]
      · rw [if_neg e, if_neg (fun x => e (Option.some.inj x.2.2).symm)]
    · rename_i h
      split
      · rename_i h2
        obtain ⟨a, b, e⟩ := h2
        cases e
        cases e : d1.now q with
        | none => rfl
        | some n => exact absurd ⟨a, b, by rw [e]; rfl⟩ h
      · rfl

theorem closeController_none {c : Course} {s : Option Settings} {d : Disk} {q : Bytes} (h : d.now q = none) : (closeController c s d).now q = none := by
  unfold closeController
  cases s with
  | none => exact h
  | some s => dsimp only; rw [close_now]; split <;> first | rfl | exact h

/-- the disk at the end of a run whose PID file, if any, was written -/
theorem run_now (c : Course) (p : Process) (d : Disk) (hs : c.savePid = true) :
    ∃ f, (∀ q, p.pidFile ≠ some q → f q = d.now q) ∧
      ∀ q, (run c p d).now q =
        if p.removePidFile = true ∧ c.unlinkPid = true ∧ p.pidFile = some q then none
        else if p.manager.removeOnClose = true ∧ c.manager.unlinkUsed = true ∧ q = p.manager.path then none
        else c.others f q := by
  unfold run
  cases hp : p.pidFile with
  | none =>
    refine ⟨d.now, fun _ _ => rfl, fun q => ?_⟩
    dsimp only
    rw [cleanup_now, close_now]
  | some f =>
    refine ⟨(d.put f (some ⟨.file p.me, 0o644, c.manager.ownGroup⟩)).now, fun q h => ?_, fun q => ?_⟩
    · rw [put_now, if_neg (fun e => h (by rw [e]))]
    · dsimp only
      rw [if_neg (by simp [hs]), cleanup_now, close_now]

/-- the stages of a run that goes all the way -/
theorem main_run {c : Course} {p : Process} {d d' : Disk} (h : main c p d = (true, d')) :
    ∃ d1 d2 listening, start p.me c.manager p.manager d = (true, d1) ∧ d' = closeController c listening (run c p d2) ∧
      ((listening = none ∧ (p.controller = none ∧ d2 = d1 ∨ ∃ s, p.controller = some s ∧ start p.me c.controller s d1 = (false, d2))) ∨
        ∃ s, listening = some s ∧ p.controller = some s ∧ start p.me c.controller s d1 = (true, d2)) := by
  unfold main at h
  split at h
  · exact absurd (congrArg Prod.fst h) (by simp)
  · rename_i d1 e1
    split at h
    · exact absurd (congrArg Prod.fst h) (by simp)
    · cases hc : p.controller with
      | none =>
        rw [hc] at h
        dsimp only at h
        split at h
        · exact absurd (congrArg Prod.fst h) (by simp)
        · exact ⟨d1, d1, none, e1, (congrArg Prod.snd h).symm, .inl ⟨rfl, .inl ⟨rfl, rfl⟩⟩⟩
      | some s =>
        rw [hc] at h
        dsimp only at h
        cases e2 : start p.me c.controller s d1 with
        | mk b d2 =>
          cases b with
          | true =>
            rw [e2] at h
            dsimp only at h
            split at h
            · exact absurd (congrArg Prod.fst h) (by simp)
            · exact ⟨d1, d2, some s, e1, (congrArg Prod.snd h).symm, .inr ⟨s, rfl, rfl, e2⟩⟩
          | false =>
            rw [e2] at h
            dsimp only at h
            split at h
            · exact absurd (congrArg Prod.fst h) (by simp)
            · exact ⟨d1, d2, none, e1, (congrArg Prod.snd h).symm, .inl ⟨rfl, .inr ⟨s, rfl, e2⟩⟩⟩

theorem start_same (me : Nat) (o : Outcome) (s : Settings) (d : Disk) : SameBut [s.path] d.now (start me o s d).2.now := by
  obtain ⟨new, hb, hs⟩ := C132_only_there me o s d
  cases new with
  | nil => unfold Between at hb; simp at hb; intro p _; rw [hb.1]
  | cons a l => unfold Between at hb; simp at hb; rw [hb.1]; exact hs a List.mem_cons_self

/-- **C132**: a manager that ran and ended has removed its socket and its PID file, if it is to remove them and could, whatever others did meanwhile -/
theorem C132_gone_partial {c : Course} {p : Process} {d d' : Disk} (h : main c p d = (true, d')) (hs : c.savePid = true) :
    (p.manager.removeOnClose = true → c.manager.unlinkUsed = true → d'.now p.manager.path = none) ∧
      (∀ f, p.pidFile = some f → p.removePidFile = true → c.unlinkPid = true → d'.now f = none) := by
  obtain ⟨d1, d2, l, _, hd, _⟩ := main_run h
  obtain ⟨f, _, hf⟩ := run_now c p d2 hs
  subst hd
  constructor
  · intro h1 h2
    apply closeController_none
    rw [hf]
    split
    · rfl
    · rw [if_pos ⟨h1, h2, rfl⟩]
  · intro f' h1 h2 h3
    apply closeController_none
    rw [hf, if_pos ⟨h2, h3, h1⟩]

/-- **C132**: so is the controller's socket, if the controller could listen on it (the disk `d1` is the one the manager's own listening left) -/
theorem C132_controller_gone_partial {c : Course} {p : Process} {d d' d1 : Disk} {s : Settings} (h : main c p d = (true, d'))
    (hm : start p.me c.manager p.manager d = (true, d1)) (hc : p.controller = some s) (hl : (start p.me c.controller s d1).1 = true)
    (h1 : s.removeOnClose = true) (h2 : c.controller.unlinkUsed = true) : d'.now s.path = none := by
  obtain ⟨d1', d2, l, e1, hd, hw⟩ := main_run h
  rw [hm] at e1
  cases e1
  rcases hw with ⟨_, hw | ⟨s', hs', e⟩⟩ | ⟨s', hl', hs', e⟩
  · rw [hc] at hw; exact absurd hw.1 (by simp)
  · rw [hc] at hs'; cases hs'; rw [e] at hl; exact absurd hl (by simp)
  · rw [hc] at hs'; cases hs'
    subst hd; subst hl'
    show (close c.controller s _).now s.path = none
    rw [close_now, if_pos ⟨h1, h2, rfl⟩]

/-- the paths a process has to do with -/
def paths (p : Process) : List Bytes := p.manager.path :: (p.pidFile.toList ++ (p.controller.map Settings.path).toList)

/-- **C132**: from the start to the end nothing changes at a path others leave alone and the configuration does not name, however the run goes -/
theorem C132_nothing_else (c : Course) (p : Process) (d : Disk) (q : Bytes) (hq : q ∉ paths p) (ho : ∀ f, c.others f q = f q) :
    (main c p d).2.now q = d.now q := by
  unfold paths at hq
  have hq1 : q ≠ p.manager.path := fun e => hq (by simp [e])
  have hq2 : p.pidFile ≠ some q := fun e => hq (by simp [e])
  have hq3 : ∀ s, p.controller = some s → q ≠ s.path := fun s hs e => hq (by simp [hs, e])
  have hs1 := start_same p.me c.manager p.manager d q (by simp [hq1])
  have hrun : ∀ d2 : Disk, (run c p d2).now q = d2.now q := by
    intro d2
    by_cases hs : c.savePid = true
    · obtain ⟨f, h1, h2⟩ := run_now c p d2 hs
      rw [h2, if_neg (fun x => hq2 x.2.2), if_neg (fun x => hq1 x.2.2), ho, h1 q hq2]
    · unfold run
      cases hp : p.pidFile with
      | none =>
        dsimp only
        rw [cleanup_now, close_now, if_neg (fun x => nomatch x.2.2), if_neg (fun x => hq1 x.2.2)]
        exact ho _
      | some f => dsimp only; rw [if_pos (by simpa using hs)]
  have hclose : ∀ l d2, (∀ s, l = some s → p.controller = some s) → (closeController c l d2).now q = d2.now q := by
    intro l d2 hl
    unfold closeController
    cases l with
    | none => rfl
    | some s => dsimp only; rw [close_now, if_neg (fun x => hq3 s (hl s rfl) x.2.2)]
  unfold main
  cases e1 : start p.me c.manager p.manager d with
  | mk b d1 =>
    rw [e1] at hs1
    cases b with
    | false => exact hs1
    | true =>
      dsimp only at hs1 ⊢
      split
      · exact hs1
      · cases hc : p.controller with
        | none =>
          dsimp only
          split
          · exact (hclose _ _ (fun _ h => absurd h (by simp))).trans hs1
          · exact (hclose _ _ (fun _ h => absurd h (by simp))).trans ((hrun _).trans hs1)
        | some s =>
          have hs2 := start_same p.me c.controller s d1 q (by simp [hq3 s hc])
          dsimp only
          cases e2 : start p.me c.controller s d1 with
          | mk b d2 =>
            rw [e2] at hs2
            dsimp only at hs2
            cases b with
            | true =>
              dsimp only
              split
              · exact (hclose _ _ (fun _ h => by rw [hc]; exact h)).trans (hs2.trans hs1)
              · exact (hclose _ _ (fun _ h => by rw [hc]; exact h)).trans ((hrun _).trans (hs2.trans hs1))
            | false =>
              dsimp only
              split
              · exact (hclose _ _ (fun _ h => absurd h (by simp))).trans (hs2.trans hs1)
              · exact (hclose _ _ (fun _ h => absurd h (by simp))).trans ((hrun _).trans (hs2.trans hs1))

/-! ## The controller, over its whole life -/

/-- the sockets of a process -/
def Has (me : Nat) (d : Disk) (p : Bytes) : Prop := ∃ m g, d.now p = some ⟨.socket me, m, g⟩

/-- `listen` and `unlink` succeed and sockets are to be removed when closed -/
def Step.Smooth : Step → Prop
  | .listen o _ remove => o.listen = true ∧ o.unlinkUsed = true ∧ remove = true
  | .error => True
  | .dispose o remove => o.unlinkUsed = true ∧ remove = true

theorem has_put {me : Nat} {d : Disk} {path q : Bytes} {n : Option Node} (h : Has me (d.put path n) q) (hq : q ≠ path) : Has me d q := by
  obtain ⟨m, g, e⟩ := h
  rw [put_now, if_neg hq] at e
  exact ⟨m, g, e⟩

theorem has_group {me : Nat} {o : Outcome} {s : Settings} {d : Disk} {q : Bytes} (h : Has me (changeGroup o s d) q) (hq : q ≠ s.path) : Has me d q := by
  unfold changeGroup at h
  split at h
  · exact h
  · split at h
    · exact h
    · split at h
      · exact has_put h hq
      · exact h

theorem has_mode {me : Nat} {o : Outcome} {s : Settings} {d : Disk} {q : Bytes} (h : Has me (changeMode o s d) q) (hq : q ≠ s.path) : Has me d q := by
  unfold changeMode at h
  split at h
  · exact has_put h hq
  · exact h

theorem listen_false {me : Nat} {o : Outcome} {path : Bytes} {remove : Bool} {d d' : Disk} (hl : o.listen = true) (h : listen me o path remove d = (false, d'))
    {q : Bytes} (hh : Has me d' q) : Has me d q := by
  unfold listen at h
  split at h
  · cases h; exact hh
  · have h1 : ∀ q, Has me (if remove = true ∧ (d.now path).isSome = true then d.put path none else d) q → Has me d q := by
      intro q hq
      split at hq
      · by_cases e : q = path
        · obtain ⟨m, g, x⟩ := hq
          rw [put_now, if_pos e] at x
          exact absurd x (by simp)
        · exact has_put hq e
      · exact hq
    dsimp only at h
    generalize (if remove = true ∧ (d.now path).isSome = true then d.put path none else d) = d1 at h h1
    split at h
    · cases h; exact h1 _ hh
    · split at h
      · cases h; exact h1 _ hh
      · split at h
        · cases h; exact h1 _ hh
        · rw [if_neg (by simp [hl])] at h
          exact absurd (congrArg Prod.fst h) (by simp)

theorem step_inv (me : Nat) (k : Controller) (d : Disk) (st : Step) (hs : Step.Smooth st) (inv : ∀ q, Has me d q → k.listening = some q) :
    ∀ q, Has me (k.step me d st).2 q → (k.step me d st).1.listening = some q := by
  have hdis : ∀ (k : Controller) (o : Outcome), o.unlinkUsed = true → (∀ q, Has me d q → k.listening = some q) →
      (k.disposeSpec o true d).1.listening = none ∧ ∀ q, ¬ Has me (k.disposeSpec o true d).2 q := by
    intro k o ho inv
    unfold Controller.disposeSpec
    cases hk : k.listening with
    | none => exact ⟨hk, fun q hq => by have := inv q hq; rw [hk] at this; exact absurd this (by simp)⟩
    | some path =>
      refine ⟨rfl, fun q hq => ?_⟩
      dsimp only at hq
      split at hq
      · obtain ⟨m, g, x⟩ := hq
        by_cases e : q = path
        · rw [put_now, if_pos e] at x; exact absurd x (by simp)
        · rw [put_now, if_neg e] at x
          have := inv q ⟨m, g, x⟩
          rw [hk] at this
          exact e (Option.some.inj this).symm
      · rename_i hn
        have := inv q hq
        rw [hk] at this
        cases this
        obtain ⟨m, g, x⟩ := hq
        exact hn ⟨rfl, ho, by rw [x]; rfl⟩
  cases st with
  | error => exact inv
  | dispose o remove =>
    obtain ⟨h1, h2⟩ := hs
    subst h2
    intro q hq
    exact absurd hq ((hdis { k with watched := false } o h1 inv).2 q)
  | listen o s remove =>
    obtain ⟨hl, h1, h2⟩ := hs
    subst h2
    unfold Controller.step
    dsimp only
    by_cases hw : k.watched = true
    · rw [if_pos hw]; exact inv
    · rw [if_neg hw]
      obtain ⟨a, b⟩ := hdis k o h1 inv
      cases e : k.disposeSpec o true d with
      | mk k1 d1 =>
        rw [e] at a b
        dsimp only at a b ⊢
        cases s with
        | none => intro q hq; exact absurd hq (b q)
        | some s =>
          dsimp only
          intro q hq
          cases e2 : start me o s d1 with
          | mk r d2 =>
            rw [e2] at hq
            cases r with
            | true =>
              dsimp only at hq ⊢
              by_cases eq : q = s.path
              · rw [eq]
              · have hd2 := start_same me o s d1 q (by simp [eq])
                rw [e2] at hd2
                obtain ⟨m, g, x⟩ := hq
                exact absurd ⟨m, g, by rw [← hd2]; exact x⟩ (b q)
            | false =>
              dsimp only at hq ⊢
              unfold start at e2
              split at e2
              · exact absurd (congrArg Prod.fst e2) (by simp)
              · rename_i d3 e3
                cases e2
                exact absurd (listen_false hl e3 hq) (b q)

/-- **C132**: over any life of a controller (listening again and again on whatever specs the reloaded configuration names, errors on the socket) it has at most the one socket it is
listening on, and none once it is let go -/
theorem C132_controller_partial (me : Nat) (steps : List Step) (d : Disk) (hs : ∀ s ∈ steps, Step.Smooth s) (h0 : ∀ q, ¬ Has me d q)
    (o : Outcome) (ho : o.unlinkUsed = true) :
    (∀ q, Has me (Controller.steps me {} d steps).2 q → (Controller.steps me {} d steps).1.listening = some q) ∧
      ∀ q, ¬ Has me (((Controller.steps me {} d steps).1.step me (Controller.steps me {} d steps).2 (.dispose o true))).2 q := by
  have key : ∀ (steps : List Step) (k : Controller) (d : Disk), (∀ s ∈ steps, Step.Smooth s) → (∀ q, Has me d q → k.listening = some q) →
      ∀ q, Has me (Controller.steps me k d steps).2 q → (Controller.steps me k d steps).1.listening = some q := by
    intro steps
    induction steps with
    | nil => intro k d _ inv; exact inv
    | cons s ss ih =>
      intro k d hs inv
      exact ih _ _ (fun x hx => hs x (List.mem_cons_of_mem _ hx)) (step_inv me k d s (hs s List.mem_cons_self) inv)
  have h := key steps {} d hs (fun q hq => absurd hq (h0 q))
  refine ⟨h, fun q hq => ?_⟩
  have h2 := step_inv me _ _ (.dispose o true) ⟨ho, rfl⟩ h q hq
  have : ∀ (k : Controller) (d : Disk), (k.step me d (.dispose o true)).1.listening = none := by
    intro k d
    unfold Controller.step Controller.disposeSpec
    cases hk : k.listening <;> rfl
  rw [this] at h2
  exact absurd h2 (by simp)

/-- **C132**: while the socket is watched, listening again fails and changes nothing -/
theorem C132_controller_once (me : Nat) (k : Controller) (d : Disk) (o : Outcome) (s : Option Settings) (r : Bool) (hw : k.watched = true) :
    k.step me d (.listen o s r) = (k, d) := by
  unfold Controller.step
  dsimp only
  rw [if_pos hw]

/-! ## The mode configured -/

/-- **C132**: any mode but 0 is used as configured -/
theorem C132_mode_partial (configured own default_ : UInt32) (h : configured ≠ 0) : effectiveMode configured own default_ = configured := by
  unfold effectiveMode
  simp [h]

/-- **C132** fails for 0 (nobody but root may connect): the default is used -/
theorem C132_mode_zero_violated (default_ : UInt32) : effectiveMode 0 0 default_ = default_ := by
  simp [effectiveMode]

/-! ## What is not as promised -/

/-- **C132** fails: with "remove the existing UNIX domain socket", *anything* at the path is removed, such as a file a mistyped spec names -/
theorem C132_file_violated (me : Nat) (s : Settings) (d : Disk) (n : Node) (content : Nat) (hr : s.removeOnCreate = true)
    (hn : d.now s.path = some n) (_hk : n.kind = .file content) (hg : s.group = none) :
    (start me {} s d).1 = true ∧ (start me {} s d).2.now s.path = some ⟨.socket me, s.mode, 0⟩ := by
  have h1 := C132_starts me {} s d rfl rfl rfl rfl rfl (.inr hr)
  refine ⟨h1, ?_⟩
  have h2 : start me {} s d = (true, (start me {} s d).2) := Prod.ext h1 rfl
  exact (C132_listening_partial (gid := 0) h2 rfl rfl (by simp [wanted, hg])).1

/-- **C132** fails: whatever mode is configured, for a moment the socket has the mode of the umask, and connections may come in -/
theorem C132_window_violated {me : Nat} {o : Outcome} {s : Settings} {d d' : Disk} (h : start me o s d = (true, d')) (hm : o.chmod = true) :
    ∃ f ∈ d'.before, ∃ g, f s.path = some ⟨.socket me, 0o777 &&& ~~~o.umask, g⟩ := by
  unfold start at h
  split at h
  · rename_i d1 e
    have hl := listen_true e
    have := congrArg Prod.snd h
    dsimp only at this
    rw [← this]
    unfold changeMode
    rw [if_pos hm]
    refine ⟨(changeGroup o s d1).now, by simp, ?_⟩
    unfold changeGroup
    split
    · exact ⟨_, hl⟩
    · split
      · exact ⟨_, hl⟩
      · rename_i gid _
        split
        · exact ⟨gid, by simp [hl]⟩
        · exact ⟨_, hl⟩
  · exact absurd (congrArg Prod.fst h) (by simp)

/-- **C132** fails: a group that does not exist is no obstacle -/
theorem C132_group_violated {me : Nat} {o : Outcome} {s : Settings} {d d' : Disk} {name : Bytes} (h : start me o s d = (true, d')) (hm : o.chmod = true)
    (hg : s.group = some name) (hn : o.groups name = none) : d'.now s.path = some ⟨.socket me, s.mode, o.ownGroup⟩ := by
  unfold start at h
  split at h
  · rename_i d1 e
    have hl := listen_true e
    have := congrArg Prod.snd h
    dsimp only at this
    rw [← this]
    unfold changeMode changeGroup
    simp [hm, hg, hn, hl]
  · exact absurd (congrArg Prod.fst h) (by simp)

/-- **C132** fails: nor is a failure to set the mode -/
theorem C132_mode_failed_violated {me : Nat} {o : Outcome} {s : Settings} {d d' : Disk} (h : start me o s d = (true, d')) (hm : o.chmod = false)
    (hg : s.group = none) : d'.now s.path = some ⟨.socket me, 0o777 &&& ~~~o.umask, o.ownGroup⟩ := by
  unfold start at h
  split at h
  · rename_i d1 e
    have hl := listen_true e
    have := congrArg Prod.snd h
    dsimp only at this
    rw [← this]
    unfold changeMode changeGroup
    simp [hm, hg, hl]
  · exact absurd (congrArg Prod.fst h) (by simp)

/-- **C132** fails: if `listen` fails after `bind`, the socket stays behind -/
theorem C132_listen_violated (me : Nat) (s : Settings) (d : Disk) (hf : d.now s.path = none) :
    start me { listen := false } s d = (false, d.put s.path (some ⟨.socket me, 0o755, 0⟩)) := by
  have h : listen me { listen := false } s.path s.removeOnCreate d = (false, d.put s.path (some ⟨.socket me, 0o755, 0⟩)) := by
    unfold listen
    simp [hf]
    congr 3
  unfold start
  rw [h]

/-- the manager that could listen but not drop its privileges leaves its socket behind, as does one that could not become a daemon and one that could not write its PID file -/
theorem left {c : Course} {p : Process} {d d1 : Disk} (h : start p.me c.manager p.manager d = (true, d1)) (hc : p.controller = none)
    (hf : c.dropPrivilege = false ∨ c.daemonize = false ∨ p.pidFile.isSome = true ∧ c.savePid = false) : (main c p d).2 = d1 := by
  unfold main
  rw [h, hc]
  dsimp only
  by_cases h1 : c.dropPrivilege = false
  · rw [if_pos (by simp [h1])]
  · rw [if_neg (by simpa using h1)]
    by_cases h2 : c.daemonize = false
    · rw [if_pos (by simp [h2])]; rfl
    · rw [if_neg (by simpa using h2)]
      rcases hf with hf | hf | ⟨h3, h4⟩
      · exact absurd hf h1
      · exact absurd hf h2
      · show run c p d1 = d1
        unfold run
        cases e : p.pidFile with
        | none => rw [e] at h3; exact absurd h3 (by simp)
        | some f => dsimp only; rw [if_pos (by simp [h4])]

/-- **C132** fails: it is not gone then -/
theorem C132_left_violated {c : Course} {p : Process} {d : Disk} (hl : (start p.me c.manager p.manager d).1 = true) (hc : p.controller = none)
    (hm : c.manager.chmod = true) (hg : p.manager.group = none)
    (hf : c.dropPrivilege = false ∨ c.daemonize = false ∨ p.pidFile.isSome = true ∧ c.savePid = false) :
    (main c p d).2.now p.manager.path = some ⟨.socket p.me, p.manager.mode, c.manager.ownGroup⟩ := by
  cases e : start p.me c.manager p.manager d with
  | mk b d1 =>
    rw [e] at hl
    cases hl
    rw [left e hc hf]
    unfold start at e
    split at e
    · rename_i d2 e2
      have h2 := listen_true e2
      cases e
      unfold changeMode changeGroup
      simp [hm, hg, h2]
    · exact absurd (congrArg Prod.fst e) (by simp)

/-- **C132** fails: what is removed at the end is whatever is at the path.  If meanwhile another instance (its replacement, say) has taken over the path, the new instance's socket is
removed, and nobody can connect to it any more although it is listening -/
theorem C132_takeover_violated {c : Course} {p : Process} {d d' : Disk} {other : Nat} {o : Outcome}
    (ho : c.others = fun f => (start other o p.manager ⟨f, []⟩).2.now)
    (_hs : ∀ f, (start other o p.manager ⟨f, []⟩).1 = true) (h : main c p d = (true, d')) (hp : c.savePid = true)
    (hr : p.manager.removeOnClose = true) (hu : c.manager.unlinkUsed = true) :
    (∀ f, ∃ m g, c.others f p.manager.path = some ⟨.socket other, m, g⟩) ∧ d'.now p.manager.path = none := by
  refine ⟨fun f => ?_, (C132_gone_partial h hp).1 hr hu⟩
  rw [ho]
  dsimp only
  have hs := _hs f
  cases e : start other o p.manager ⟨f, []⟩ with
  | mk b d1 =>
    rw [e] at hs
    cases hs
    unfold start at e
    split at e
    · rename_i d2 e2
      have h2 := listen_true e2
      cases e
      unfold changeMode changeGroup
      cases hg : p.manager.group with
      | none => dsimp only; split <;> simp [h2]
      | some name =>
        dsimp only
        cases hn : o.groups name with
        | none => dsimp only; split <;> simp [h2]
        | some gid => dsimp only; split <;> split <;> simp [h2]
    · exact absurd (congrArg Prod.fst e) (by simp)

/-! ## Cases -/

/-- `/m`, with a stale socket of process 7 and a file `/f` -/
def disk : Disk where
  now := fun p => if p = [0x2f, 0x6d] then some ⟨.socket 7, 0o660, 0⟩ else if p = [0x2f, 0x66] then some ⟨.file 1, 0o644, 0⟩ else none

def settings : Settings where
  path := [0x2f, 0x6d]
  mode := 0o660
  group := some [0x67]

def outcome : Outcome where
  groups := fun n => if n = [0x67] then some 100 else none

def process : Process where
  me := 42
  manager := settings
  controller := some { path := [0x2f, 0x63], mode := 0o600 }
  pidFile := some [0x2f, 0x70]

example : (start 42 outcome settings disk).1 = true := by decide +kernel
example : (start 42 outcome settings disk).2.now [0x2f, 0x6d] = some ⟨.socket 42, 0o660, 100⟩ := by decide +kernel
example : (start 42 outcome settings disk).2.before.map (· [0x2f, 0x6d]) =
    [some ⟨.socket 42, 0o755, 100⟩, some ⟨.socket 42, 0o755, 0⟩, none, some ⟨.socket 7, 0o660, 0⟩] := by decide +kernel
example : (start 42 outcome { settings with removeOnCreate := false } disk).1 = false := by decide +kernel
example : (main { manager := outcome } process disk).1 = true := by decide +kernel
example : [[0x2f, 0x6d], [0x2f, 0x63], [0x2f, 0x70], [0x2f, 0x66]].map (main { manager := outcome } process disk).2.now =
    [none, none, none, some ⟨.file 1, 0o644, 0⟩] := by decide +kernel
example : [0x2f, 0x66] ∉ paths process := by decide +kernel
example : (main { manager := outcome, savePid := false } process disk).2.now [0x2f, 0x6d] = some ⟨.socket 42, 0o660, 100⟩ := by decide +kernel
example : wanted outcome settings = some 100 := by decide +kernel
/-- a controller that listens, meets an error and listens elsewhere -/
example : let r := Controller.steps 42 {} disk [.listen {} (some { path := [1], mode := 0o600 }) true, .error, .listen {} (some { path := [2], mode := 0o600 }) true]
    r.1.listening = some [2] ∧ r.2.now [1] = none ∧ r.2.now [2] = some ⟨.socket 42, 0o600, 0⟩ := by decide +kernel
/-- without the removal on close, the first socket stays -/
example : let r := Controller.steps 42 {} disk [.listen {} (some { path := [1], mode := 0o600 }) false, .error, .listen {} (some { path := [2], mode := 0o600 }) false]
    r.2.now [1] = some ⟨.socket 42, 0o600, 0⟩ := by decide +kernel

end Verif.Props.UnixSocket
