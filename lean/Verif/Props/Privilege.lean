import Verif.Spec.Credentials
import Verif.Manager.Startup
/-
C88: dropping privileges.
-/
namespace Verif.Props.Privilege
open Verif Verif.Credentials Verif.Spec.Credentials Verif.Privilege

/-- a process that is all of one user, not root, stays what it is -/
theorem syscall_identity (db : Database) (p : Passwd) (g : Nat) (h : p.uid ≠ 0) (x : Syscall) : syscall (identity db p g) x = identity db p g := by
  cases x with
  | setuid u =>
    simp only [syscall, setuid, identity, h, Bool.false_eq_true, if_false, or_self]
    split
    · rename_i e; subst e; rfl
    · rfl
  | setgid u =>
    simp only [syscall, setgid, identity, h, Bool.false_eq_true, if_false, or_self]
    split
    · rename_i e; subst e; rfl
    · rfl
  | setgroups gs => simp [syscall, setgroups, identity, h]
  | setresuid a b c =>
    simp only [syscall, identity, h, false_or, or_self]
    split
    · rename_i e; obtain ⟨e1, e2, e3⟩ := e; subst e1 e2 e3; rfl
    · rfl
  | setresgid a b c =>
    simp only [syscall, identity, h, false_or, or_self]
    split
    · rename_i e; obtain ⟨e1, e2, e3⟩ := e; subst e1 e2 e3; rfl
    · rfl

theorem identity_forever (db : Database) (p : Passwd) (g : Nat) (h : p.uid ≠ 0) : Forever (identity db p g) (· = identity db p g) := by
  intro calls
  induction calls with
  | nil => rfl
  | cons x xs ih => rw [List.foldl_cons, syscall_identity db p g h]; exact ih

/-- what root becomes -/
theorem drop_root (db : Database) (w : Wanted) (r : Refusals) (s s' : State) (hr : s.creds.euid = 0) (h : drop db w r s = (s', true)) :
    ∃ p, db.password (w.user.getD (ascii "nobody")) = some p ∧
      (∀ name, w.group = some name → ∃ g, db.group name = some g ∧ s'.creds = identity db p g) ∧
      (w.group = none → s'.creds = { s.creds with ruid := p.uid, euid := p.uid, suid := p.uid }) ∧
      (∀ owner, s.socket = some owner → s'.socket = some (if r.chown then owner else p.uid)) := by
  unfold drop at h
  rw [if_neg (by simp [hr])] at h
  have chown : ∀ (s : State) (p : Passwd), (giveSocket r p s).creds = s.creds ∧
      ∀ owner, s.socket = some owner → (giveSocket r p s).socket = some (if r.chown then owner else p.uid) := by
    intro s p
    unfold giveSocket
    cases e : s.socket with
    | none => exact ⟨rfl, fun _ x => nomatch x⟩
    | some o =>
      cases r.chown with
      | true => exact ⟨rfl, fun _ x => by simpa [e] using x⟩
      | false => exact ⟨rfl, fun _ _ => rfl⟩
  have user : ∀ s1 : State, s1.creds.euid = 0 → s1.socket = s.socket → switchUser db w r s1 = (s', true) → ∃ p, db.password (w.user.getD (ascii "nobody")) = some p ∧
      s'.creds = { s1.creds with ruid := p.uid, euid := p.uid, suid := p.uid } ∧
      (∀ owner, s.socket = some owner → s'.socket = some (if r.chown then owner else p.uid)) := by
    intro s1 h1 h2 h
    unfold switchUser at h
    cases hp : findPassword db w.user with
    | none => simp [hp] at h
    | some p =>
      refine ⟨p, hp, ?_⟩
      obtain ⟨c1, c2⟩ := chown s1 p
      simp only [hp] at h
      cases hu : r.setuid with
      | true => simp [hu, setuid] at h
      | false =>
        have e : setuid (giveSocket r p s1).creds p.uid false = some { s1.creds with ruid := p.uid, euid := p.uid, suid := p.uid } := by
          rw [c1]; simp [setuid, h1]
        rw [hu, e] at h
        simp only [Prod.mk.injEq, and_true] at h
        subst h
        refine ⟨rfl, fun owner ho => ?_⟩
        exact c2 owner (h2.trans ho)
  cases hg : w.group with
  | none =>
    simp only [switchGroup, hg, if_true] at h
    obtain ⟨p, h1, h2, h3⟩ := user s hr rfl h
    exact ⟨p, h1, (fun _ x => nomatch x), (fun _ => h2), h3⟩
  | some name =>
    simp only [switchGroup, hg] at h
    cases hn : db.group name with
    | none => simp [hn] at h
    | some g =>
      simp only [hn] at h
      cases hx : r.setgid with
      | true => simp [hx, setgid] at h
      | false =>
        simp only [hx, setgid, hr, Bool.false_eq_true, if_false, if_true] at h
        cases hp : findPassword db w.user with
        | none => simp [hp] at h
        | some p =>
          simp only [hp, initgroups, setgroups, if_true] at h
          cases hi : r.initgroups with
          | true => simp [hi] at h
          | false =>
            simp only [hi, Bool.false_eq_true, if_false, if_true] at h
            obtain ⟨p', h1, h2, h3⟩ := user { s with creds := { s.creds with euid := 0, rgid := g, egid := g, sgid := g, groups := g :: db.memberships p.name } } rfl rfl h
            have : p' = p := by
              have e : findPassword db w.user = some p' := h1
              rw [hp] at e; cases e; rfl
            subst this
            refine ⟨p', h1, fun n e => ⟨g, by cases e; exact hn, ?_⟩, fun e => (nomatch e), h3⟩
            rw [h2]; rfl

/-- **C88** (partial): if a group is asked for, then whoever was root is, after dropping its privileges succeeded, exactly the user asked for (or "nobody"), in that group
and in the groups of that user, and - if that is not root again - stays so whatever it does. -/
theorem C88_partial (db : Database) (user : Option Bytes) (group : Bytes) (r : Refusals) (s s' : State) (hr : s.creds.euid = 0)
    (h : drop db ⟨user, some group⟩ r s = (s', true)) :
    ∃ p g, db.password (user.getD (ascii "nobody")) = some p ∧ db.group group = some g ∧ s'.creds = identity db p g ∧
      (p.uid ≠ 0 → Forever s'.creds (· = identity db p g)) := by
  obtain ⟨p, h1, h2, _⟩ := drop_root db _ r s s' hr h
  obtain ⟨g, h3, h4⟩ := h2 group rfl
  exact ⟨p, g, h1, h3, h4, fun hu => by rw [h4]; exact identity_forever db p g hu⟩

/-- a process with no rights about groups keeps the groups it has -/
theorem syscall_groups (c : Creds) (u : Nat) (h : u ≠ 0) (hu : c.ruid = u ∧ c.euid = u ∧ c.suid = u) (x : Syscall) :
    (syscall c x).groups = c.groups ∧ ((syscall c x).ruid = u ∧ (syscall c x).euid = u ∧ (syscall c x).suid = u) := by
  obtain ⟨h1, h2, h3⟩ := hu
  cases x with
  | setuid v =>
    dsimp only [syscall, setuid]
    rw [if_neg (by simp), if_neg (by rw [h2]; exact h)]
    split
    · rename_i e
      exact ⟨rfl, h1, e.elim (·.trans h1) (·.trans h3), h3⟩
    · exact ⟨rfl, h1, h2, h3⟩
  | setgid v =>
    dsimp only [syscall, setgid]
    rw [if_neg (by simp), if_neg (by rw [h2]; exact h)]
    split
    · exact ⟨rfl, h1, h2, h3⟩
    · exact ⟨rfl, h1, h2, h3⟩
  | setgroups gs => simp [syscall, setgroups, h2, h, h1, h3]
  | setresuid a b d =>
    simp only [syscall, h1, h2, h3, h, false_or, or_self]
    split
    · rename_i e; exact ⟨rfl, e⟩
    · exact ⟨rfl, h1, h2, h3⟩
  | setresgid a b d =>
    simp only [syscall]
    split
    · exact ⟨rfl, h1, h2, h3⟩
    · exact ⟨rfl, h1, h2, h3⟩

/-- **C88** is violated: if no group is asked for - the default - a process started by root has the group ids and all the supplementary groups of root after its privileges were
"dropped", and can never get rid of the latter. -/
theorem C88_violated (db : Database) (user : Option Bytes) (r : Refusals) (s s' : State) (hr : s.creds.euid = 0) (h : drop db ⟨user, none⟩ r s = (s', true)) :
    s'.creds.rgid = s.creds.rgid ∧ s'.creds.egid = s.creds.egid ∧ s'.creds.sgid = s.creds.sgid ∧ s'.creds.groups = s.creds.groups ∧
      (s'.creds.ruid ≠ 0 → Forever s'.creds fun c => c.groups = s.creds.groups) := by
  obtain ⟨p, _, _, h3, _⟩ := drop_root db _ r s s' hr h
  have e := h3 rfl
  refine ⟨by rw [e], by rw [e], by rw [e], by rw [e], fun hu calls => ?_⟩
  have inv : ∀ c : Creds, c.groups = s.creds.groups → (c.ruid = s'.creds.ruid ∧ c.euid = s'.creds.ruid ∧ c.suid = s'.creds.ruid) →
      (calls.foldl syscall c).groups = s.creds.groups := by
    induction calls with
    | nil => exact fun c hc _ => hc
    | cons x xs ih =>
      intro c hc hu'
      obtain ⟨a, b⟩ := syscall_groups c _ hu hu' x
      exact ih _ (a.trans hc) b
  exact inv _ (by rw [e]) ⟨rfl, by rw [e], by rw [e]⟩

/-- root -/
def root : Creds := { ruid := 0, euid := 0, suid := 0, rgid := 0, egid := 0, sgid := 0, groups := [0, 4] }

/-- two users and their groups -/
def base : Database :=
  { password := fun n => if n = ascii "nobody" then some ⟨n, 65534, 65534⟩ else if n = ascii "milter" then some ⟨n, 101, 102⟩ else none
    group := fun n => if n = ascii "milter" then some 102 else none
    memberships := fun n => if n = ascii "milter" then [7] else [] }

example : drop base ⟨some (ascii "milter"), some (ascii "milter")⟩ {} { creds := root, socket := some 0 } =
    ({ creds := { ruid := 101, euid := 101, suid := 101, rgid := 102, egid := 102, sgid := 102, groups := [102, 7] }, socket := some 101 }, true) := by decide

example : drop base ⟨none, none⟩ {} { creds := root } =
    ({ creds := { ruid := 65534, euid := 65534, suid := 65534, rgid := 0, egid := 0, sgid := 0, groups := [0, 4] } }, true) := by decide

/-- **C88**: whoever is not root is not changed. -/
theorem C88_not_root (db : Database) (w : Wanted) (r : Refusals) (s : State) (h : s.creds.euid ≠ 0) : drop db w r s = (s, true) := by
  simp [drop, h]

/-- **C88**: if one of the calls to drop privileges is refused, or the user or the group does not exist, dropping them fails. -/
theorem C88_refused (db : Database) (user : Option Bytes) (group : Bytes) (r : Refusals) (s : State) (hr : s.creds.euid = 0)
    (h : r.setgid = true ∨ r.initgroups = true ∨ r.setuid = true ∨ db.group group = none ∨ db.password (user.getD (ascii "nobody")) = none) :
    (drop db ⟨user, some group⟩ r s).2 = false := by
  cases hd : (drop db ⟨user, some group⟩ r s).2 with
  | false => rfl
  | true =>
    exfalso
    have hd' : drop db ⟨user, some group⟩ r s = ((drop db ⟨user, some group⟩ r s).1, true) := by rw [← hd]
    obtain ⟨p, g, h1, h2, _⟩ := C88_partial db user group r s _ hr hd'
    have nb : findPassword db user = some p := h1
    have hc : ¬ s.creds.euid ≠ 0 := fun x => x hr
    rcases h with h | h | h | h | h
    · rw [drop, if_neg hc] at hd
      simp only [switchGroup, h2, setgid, h, if_true, Bool.false_eq_true, if_false] at hd
    · rw [drop, if_neg hc] at hd
      simp only [switchGroup, h2, nb] at hd
      cases e : setgid s.creds g r.setgid with
      | none => simp only [e, Bool.false_eq_true, if_false] at hd
      | some c => simp only [e, initgroups, setgroups, h, if_true, Bool.false_eq_true, if_false] at hd
    · rw [drop, if_neg hc] at hd
      have : ∀ s1, (switchUser db ⟨user, some group⟩ r s1).2 = false := by
        intro s1
        simp only [switchUser, nb, setuid, h, if_true]
      dsimp only at hd
      split at hd
      · rw [this] at hd; cases hd
      · cases hd
    · rw [h] at h2; cases h2
    · rw [h] at h1; cases h1

open Verif.Startup in
/-- **C88**: milter-manager started by root with a group serves the MTA and its controllers, and makes the socket of the latter, only as the user and in the group asked for; if it
cannot become them it gives up. -/
theorem C88_serves (db : Database) (user : Option Bytes) (group : Bytes) (mode : Bool) (a : Startup.Answers) (c c' : Creds) (hr : c.euid = 0)
    (h : .serve c' ∈ Startup.main db ⟨user, some group⟩ mode a c ∨ .control c' ∈ Startup.main db ⟨user, some group⟩ mode a c) :
    ∃ p g, db.password (user.getD (ascii "nobody")) = some p ∧ db.group group = some g ∧ c' = identity db p g := by
  have key : ∀ s : State, s.creds = c → (drop db ⟨user, some group⟩ a.refusals s).2 = true → c' = (drop db ⟨user, some group⟩ a.refusals s).1.creds →
      ∃ p g, db.password (user.getD (ascii "nobody")) = some p ∧ db.group group = some g ∧ c' = identity db p g := by
    intro s hs hd e
    have hd' : drop db ⟨user, some group⟩ a.refusals s = ((drop db ⟨user, some group⟩ a.refusals s).1, true) := by rw [← hd]
    obtain ⟨p, g, h1, h2, h3, _⟩ := C88_partial db user group a.refusals s _ (by rw [hs]; exact hr) hd'
    exact ⟨p, g, h1, h2, e.trans h3⟩
  have out : ∀ x, (x = Act.serve c' ∨ x = Act.control c') → x ∈ Startup.main db ⟨user, some group⟩ mode a c →
      ∃ s : State, s.creds = c ∧ (drop db ⟨user, some group⟩ a.refusals s).2 = true ∧ c' = (drop db ⟨user, some group⟩ a.refusals s).1.creds := by
    intro x hx hm
    refine ⟨{ creds := c, socket := if a.unix then some c.euid else none }, rfl, ?_⟩
    have hm' : x ∈ afterDrop a (drop db ⟨user, some group⟩ a.refusals { creds := c, socket := if a.unix then some c.euid else none }) := by
      unfold Startup.main at hm
      split at hm
      · rcases hx with rfl | rfl <;> simp at hm
      · dsimp only at hm
        split at hm
        · rcases hx with rfl | rfl <;> cases mode <;> simp at hm
        · rcases hx with rfl | rfl <;> cases mode <;> simpa using hm
    generalize drop db ⟨user, some group⟩ a.refusals { creds := c, socket := if a.unix then some c.euid else none } = d at hm'
    unfold afterDrop at hm'
    cases hd : d.2 with
    | false => rcases hx with rfl | rfl <;> simp [hd] at hm'
    | true =>
      refine ⟨rfl, ?_⟩
      simp only [hd, Bool.not_true, Bool.false_eq_true, if_false] at hm'
      split at hm'
      · rcases hx with rfl | rfl <;> cases hc : a.control <;> simp [hc] at hm' <;> exact hm'
      · rcases hx with rfl | rfl <;> cases hc : a.control <;> simp [hc] at hm' <;> exact hm'
  rcases h with h | h
  · obtain ⟨s, h1, h2, h3⟩ := out _ (.inl rfl) h
    exact key s h1 h2 h3
  · obtain ⟨s, h1, h2, h3⟩ := out _ (.inr rfl) h
    exact key s h1 h2 h3

example : Startup.main base ⟨some (ascii "milter"), some (ascii "milter")⟩ true {} root =
    [.launcher root, .listen root, .control (identity base ⟨ascii "milter", 101, 102⟩ 102), .serve (identity base ⟨ascii "milter", 101, 102⟩ 102)] := by decide

example : Startup.main base ⟨some (ascii "milter"), some (ascii "milter")⟩ true { refusals := { setuid := true } } root =
    [.launcher root, .listen root, .fail] := by decide

/-- **C88** is violated: dropping privileges succeeds although the socket could not be given to the user. -/
theorem C88_socket_violated : ∃ s', drop base ⟨some (ascii "milter"), some (ascii "milter")⟩ { chown := true } { creds := root, socket := some 0 } = (s', true) ∧
    s'.socket = some 0 := ⟨_, rfl, rfl⟩

end Verif.Props.Privilege
