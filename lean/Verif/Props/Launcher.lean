import Verif.Spec.Launcher
import Verif.Props.Privilege
/-
C89: the process launcher.
-/
namespace Verif.Props.Launcher
open Verif Verif.Credentials Verif.Spec.Credentials Verif.Launcher
open Verif.Spec.Launcher hiding trace
open Verif.Spec.Launcher (trace)
open Verif.Control (Launch)

/-- what a request does -/
theorem request_cases (db : Database) (s : State) (l : Launch) (a : Answers) :
    (request db s l a = (s, [.error]) ∧ (alreadyLaunched s l.commandLine = true ∨ (∃ u, l.userName = some u ∧ (a.tooLong = true ∨ db.password u = none)) ∨ a.argv = none ∨ a.pid = none)) ∨
    ∃ argv pid c, alreadyLaunched s l.commandLine = false ∧ a.argv = some argv ∧ a.pid = some pid ∧
      (l.userName = none ∧ c = s.creds ∨ ∃ u p, l.userName = some u ∧ db.password u = some p ∧ c = setupChild db a (some p) s.creds) ∧
      request db s l a = ({ s with processes := ⟨pid, l.commandLine, l.userName⟩ :: s.processes }, [.started pid argv c, .success]) := by
  unfold request launch
  cases hl : alreadyLaunched s l.commandLine with
  | true => exact .inl ⟨rfl, .inl rfl⟩
  | false =>
    have sp : ∀ p : Option Passwd, (spawn db s l a p = (s, [], false) ∧ (a.argv = none ∨ a.pid = none)) ∨ ∃ argv pid, a.argv = some argv ∧ a.pid = some pid ∧
        spawn db s l a p = ({ s with processes := ⟨pid, l.commandLine, l.userName⟩ :: s.processes }, [.started pid argv (setupChild db a p s.creds)], true) := by
      intro p
      unfold spawn
      cases a.argv with
      | none => exact .inl ⟨rfl, .inl rfl⟩
      | some argv =>
        cases a.pid with
        | none => exact .inl ⟨rfl, .inr rfl⟩
        | some pid => exact .inr ⟨argv, pid, rfl, rfl, rfl⟩
    simp only [Bool.false_eq_true, if_false, false_or]
    cases hu : l.userName with
    | none =>
      rcases sp none with ⟨e, h⟩ | ⟨argv, pid, h1, h2, e⟩
      · left
        simp only [e]
        exact ⟨rfl, .inr h⟩
      · right
        simp only [e]
        exact ⟨argv, pid, s.creds, trivial, h1, h2, .inl ⟨trivial, rfl⟩, by rw [hu]; rfl⟩
    | some u =>
      cases ht : a.tooLong with
      | true => exact .inl ⟨rfl, .inl ⟨u, rfl, .inl rfl⟩⟩
      | false =>
        simp only [Bool.false_eq_true, if_false]
        cases hp : db.password u with
        | none => exact .inl ⟨rfl, .inl ⟨u, rfl, .inr hp⟩⟩
        | some p =>
          rcases sp (some p) with ⟨e, h⟩ | ⟨argv, pid, h1, h2, e⟩
          · left
            simp only [e]
            exact ⟨rfl, .inr h⟩
          · right
            simp only [e]
            exact ⟨argv, pid, _, trivial, h1, h2, .inr ⟨u, p, rfl, hp, rfl⟩, by rw [hu]; rfl⟩

theorem run_creds (db : Database) (s : State) (es : List Event) : (run db s es).1.creds = s.creds := by
  induction es generalizing s with
  | nil => rfl
  | cons e es ih =>
    show (run db (step db s e).1 es).1.creds = s.creds
    rw [ih]
    cases e with
    | exited pid => rfl
    | request l a =>
      show (request db s l a).1.creds = s.creds
      rcases request_cases db s l a with ⟨h, _⟩ | ⟨_, _, _, _, _, _, _, h⟩ <;> rw [h]

/-- **C89**: whatever happened before, a request gets exactly one reply: "error" and nothing is started, or one process is started and the reply is "success". -/
theorem C89_answered (db : Database) (s : State) (es : List Event) (l : Launch) (a : Answers) : Truthful (request db (run db s es).1 l a).2 := by
  rcases request_cases db (run db s es).1 l a with ⟨h, _⟩ | ⟨argv, pid, c, _, _, _, _, h⟩
  · exact .inl (by rw [h])
  · exact .inr ⟨pid, argv, c, by rw [h]⟩

/-- **C89** (partial): a launcher that is root, and whose children are not refused what root may do, starts every command as the user asked for, whatever happened before. -/
theorem C89_identity_partial (db : Database) (s : State) (es : List Event) (l : Launch) (a : Answers) (hr : s.creds.euid = 0)
    (h1 : a.setgid = false) (h2 : a.initgroups = false) (h3 : a.setuid = false) (pid : Nat) (argv : List Bytes) (c : Creds)
    (h : .started pid argv c ∈ (request db (run db s es).1 l a).2) : RunsAs db s.creds l.userName c := by
  rcases request_cases db (run db s es).1 l a with ⟨e, _⟩ | ⟨argv', pid', c', _, _, _, hc, e⟩
  · rw [e] at h; simp at h
  · rw [e] at h
    have e' : c = c' := by simp at h; exact h.2.2
    subst e'
    rw [run_creds] at hc
    rcases hc with ⟨hu, hc⟩ | ⟨u, p, hu, hp, hc⟩
    · rw [hu]; exact hc
    · rw [hu]
      refine ⟨p, hp, ?_⟩
      rw [hc]
      simp [setupChild, setgid, initgroups, setgroups, setuid, h1, h2, h3, hr, identity]

/-- **C89** is violated: if a call is refused to the new process of a launcher that is root (setuid(2) may fail with EAGAIN), the command is run as root all the same, and the reply is
"success". -/
theorem C89_violated (db : Database) (s : State) (l : Launch) (a : Answers) (u : Bytes) (p : Passwd) (argv : List Bytes) (pid : Nat) (hr : s.creds.euid = 0)
    (hl : alreadyLaunched s l.commandLine = false) (hu : l.userName = some u) (hp : db.password u = some p) (ht : a.tooLong = false) (ha : a.argv = some argv) (hi : a.pid = some pid)
    (h : a.setgid = true ∨ a.initgroups = true ∨ a.setuid = true) :
    ∃ c, (request db s l a).2 = [.started pid argv c, .success] ∧ c.euid = 0 ∧ c.ruid = s.creds.ruid := by
  rcases request_cases db s l a with ⟨_, x | ⟨u', x, y | y⟩ | x | x⟩ | ⟨argv', pid', c, _, h1, h2, hc, e⟩
  · rw [hl] at x; cases x
  · rw [ht] at y; cases y
  · rw [hu] at x; cases x; rw [hp] at y; cases y
  · rw [ha] at x; cases x
  · rw [hi] at x; cases x
  · rw [ha] at h1; cases h1
    rw [hi] at h2; cases h2
    refine ⟨c, by rw [e], ?_⟩
    rcases hc with ⟨x, _⟩ | ⟨u', p', x, y, hc⟩
    · rw [hu] at x; cases x
    · rw [hc]
      rcases h with h | h | h
      · simp [setupChild, setgid, h, hr]
      · cases hg : a.setgid <;> simp [setupChild, setgid, initgroups, setgroups, h, hr, hg]
      · cases hg : a.setgid <;> cases hi : a.initgroups <;> simp [setupChild, setgid, initgroups, setgroups, setuid, h, hr, hg, hi]

/-- **C89** is violated: a launcher that is not root - milter-manager was not started by root, and its configuration switches the privilege mode on - runs the command of a user whose
group is not its own as itself, and the reply is "success". -/
theorem C89_not_root_violated (db : Database) (s : State) (l : Launch) (a : Answers) (u : Bytes) (p : Passwd) (argv : List Bytes) (pid : Nat) (hr : s.creds.euid ≠ 0)
    (hl : alreadyLaunched s l.commandLine = false) (hu : l.userName = some u) (hp : db.password u = some p) (ht : a.tooLong = false) (ha : a.argv = some argv) (hi : a.pid = some pid)
    (hg : p.gid ≠ s.creds.rgid ∧ p.gid ≠ s.creds.sgid) :
    (request db s l a).2 = [.started pid argv s.creds, .success] := by
  rcases request_cases db s l a with ⟨_, x | ⟨u', x, y | y⟩ | x | x⟩ | ⟨argv', pid', c, _, h1, h2, hc, e⟩
  · rw [hl] at x; cases x
  · rw [ht] at y; cases y
  · rw [hu] at x; cases x; rw [hp] at y; cases y
  · rw [ha] at x; cases x
  · rw [hi] at x; cases x
  · rw [ha] at h1; cases h1
    rw [hi] at h2; cases h2
    rcases hc with ⟨x, _⟩ | ⟨u', p', x, y, hc⟩
    · rw [hu] at x; cases x
    · rw [hu] at x; cases x
      rw [hp] at y; cases y
      rw [e, hc]
      cases hs : a.setgid <;> simp [setupChild, setgid, hs, hr, hg]

/-- the processes a launcher knows -/
def known (s : State) : List (Nat × Bytes) := s.processes.map fun p => (p.pid, p.commandLine)

theorem launched_known (s : State) (c : Bytes) : alreadyLaunched s c = true ↔ ∃ pid, (pid, c) ∈ known s := by
  simp only [alreadyLaunched, known, List.any_eq_true, List.mem_map, beq_iff_eq, Prod.mk.injEq]
  constructor
  · rintro ⟨p, h1, h2⟩; exact ⟨p.pid, p, h1, rfl, h2⟩
  · rintro ⟨pid, p, h1, _, h2⟩; exact ⟨p, h1, h2⟩

theorem map_eraseP (l : List Process) (pid : Nat) (h : (l.map (·.pid)).Nodup) :
    (l.eraseP fun p => p.pid == pid).map (fun p => (p.pid, p.commandLine)) = (l.map fun p => (p.pid, p.commandLine)).filter fun p => p.1 != pid := by
  induction l with
  | nil => rfl
  | cons p l ih =>
    rw [List.map_cons, List.nodup_cons] at h
    by_cases e : p.pid = pid
    · rw [List.eraseP_cons_of_pos (by simp [e])]
      rw [List.map_cons, List.filter_cons_of_neg (by simp [e])]
      symm
      rw [List.filter_eq_self]
      intro q hq
      obtain ⟨r, hr, rfl⟩ := List.mem_map.mp hq
      simp only [bne_iff_ne, ne_eq]
      intro e'
      exact h.1 (List.mem_map.mpr ⟨r, hr, e'.trans e.symm⟩)
    · rw [List.eraseP_cons_of_neg (by simp [e]), List.map_cons, List.map_cons, List.filter_cons_of_pos (by simp [e]), ih h.2]

/-- the launcher knows what runs -/
theorem known_running (db : Database) (es : List Event) (s : State) (hn : (s.processes.map (·.pid)).Nodup) (hc : (s.processes.map (·.commandLine)).Nodup)
    (h : Fresh (known s) (trace db s es)) :
    known (run db s es).1 = (trace db s es).foldl runningStep (known s) ∧ ((run db s es).1.processes.map (·.pid)).Nodup ∧ ((run db s es).1.processes.map (·.commandLine)).Nodup := by
  induction es generalizing s with
  | nil => exact ⟨rfl, hn, hc⟩
  | cons e es ih =>
    obtain ⟨hf, hfs⟩ := h
    have key : known (step db s e).1 = runningStep (known s) (e, (step db s e).2) ∧ ((step db s e).1.processes.map (·.pid)).Nodup ∧
        ((step db s e).1.processes.map (·.commandLine)).Nodup := by
      cases e with
      | exited pid =>
        refine ⟨map_eraseP _ _ hn, ?_, ?_⟩
        · exact hn.sublist (List.Sublist.map _ List.eraseP_sublist)
        · exact hc.sublist (List.Sublist.map _ List.eraseP_sublist)
      | request l a =>
        dsimp only [step] at hf ⊢
        rcases request_cases db s l a with ⟨e, _⟩ | ⟨argv, pid, c, h1, _, _, _, e⟩
        · rw [e]; exact ⟨rfl, hn, hc⟩
        · rw [e] at hf ⊢
          refine ⟨rfl, List.nodup_cons.mpr ⟨?_, hn⟩, List.nodup_cons.mpr ⟨?_, hc⟩⟩
          · intro hm
            obtain ⟨q, hq, e'⟩ := List.mem_map.mp hm
            exact hf pid argv c (by simp) (q.pid, q.commandLine) (List.mem_map.mpr ⟨q, hq, rfl⟩) e'
          · intro hm
            obtain ⟨q, hq, e'⟩ := List.mem_map.mp hm
            have : alreadyLaunched s l.commandLine = true := (launched_known s _).mpr ⟨q.pid, List.mem_map.mpr ⟨q, hq, by simp only [Prod.mk.injEq, true_and]; exact e'⟩⟩
            rw [h1] at this; cases this
    obtain ⟨k1, k2, k3⟩ := key
    have := ih (step db s e).1 k2 k3 (by rw [k1]; exact hfs)
    refine ⟨?_, this.2⟩
    show known (run db (step db s e).1 es).1 = _
    rw [this.1, k1]; rfl

/-- **C89**: at no time do two processes run the same command line. -/
theorem C89_once (db : Database) (c : Creds) (es : List Event) (h : Fresh [] (trace db { creds := c } es)) :
    ((running (trace db { creds := c } es)).map (·.2)).Nodup := by
  obtain ⟨h1, _, h3⟩ := known_running db es { creds := c } List.nodup_nil List.nodup_nil h
  have : running (trace db { creds := c } es) = known (run db { creds := c } es).1 := h1.symm
  rw [this]
  simpa [known, Function.comp_def] using h3

/-- **C89**: a command is refused because it runs only while it does: otherwise it is started, if its user is known, the line can be parsed and there is a process to be had.  So one that ended
can be started again. -/
theorem C89_again (db : Database) (c : Creds) (es : List Event) (h : Fresh [] (trace db { creds := c } es)) (l : Launch) (a : Answers) :
    (∃ pid argv c', (request db (run db { creds := c } es).1 l a).2 = [.started pid argv c', .success]) ↔
      l.commandLine ∉ (running (trace db { creds := c } es)).map (·.2) ∧ (∀ u, l.userName = some u → a.tooLong = false ∧ db.password u ≠ none) ∧ a.argv ≠ none ∧ a.pid ≠ none := by
  obtain ⟨h1, _, _⟩ := known_running db es { creds := c } List.nodup_nil List.nodup_nil h
  have hk : running (trace db { creds := c } es) = known (run db { creds := c } es).1 := h1.symm
  have hm : l.commandLine ∈ (running (trace db { creds := c } es)).map (·.2) ↔ alreadyLaunched (run db { creds := c } es).1 l.commandLine = true := by
    rw [hk, launched_known]
    simp only [List.mem_map]
    constructor
    · rintro ⟨⟨pid, x⟩, h1, rfl⟩; exact ⟨pid, h1⟩
    · rintro ⟨pid, h1⟩; exact ⟨_, h1, rfl⟩
  rcases request_cases db (run db { creds := c } es).1 l a with ⟨e, x⟩ | ⟨argv, pid, c', x1, x2, x3, x4, e⟩
  · rw [e]
    refine ⟨fun ⟨_, _, _, y⟩ => by simp at y, fun ⟨y1, y2, y3, y4⟩ => ?_⟩
    rcases x with x | ⟨u, x, z | z⟩ | x | x
    · exact absurd (hm.mpr x) y1
    · have := (y2 u x).1; rw [z] at this; cases this
    · exact absurd z (y2 u x).2
    · exact absurd x y3
    · exact absurd x y4
  · rw [e]
    refine ⟨fun _ => ⟨?_, ?_, by simp [x2], by simp [x3]⟩, fun _ => ⟨pid, argv, c', rfl⟩⟩
    · rw [hm, x1]; simp
    · intro u hu
      rcases x4 with ⟨z, _⟩ | ⟨u', p, z, zp, _⟩
      · rw [hu] at z; cases z
      · rw [hu] at z; cases z
        refine ⟨?_, by simp [zp]⟩
        cases ht : a.tooLong with
        | false => rfl
        | true =>
          exfalso
          have : (request db (run db { creds := c } es).1 l a).2 = [.error] := by
            simp [request, launch, x1, hu, ht]
          rw [e] at this; simp at this

open Verif.Props.Privilege (root base) in
/-- launched, launched again while it runs, ended, launched again -/
example : running (trace base { creds := root }
    [.request ⟨ascii "true -x", some (ascii "milter")⟩ { argv := some [ascii "true", ascii "-x"], pid := some 5 },
     .request ⟨ascii "true -x", none⟩ { argv := some [ascii "true", ascii "-x"], pid := some 6 },
     .exited 5,
     .request ⟨ascii "true -x", none⟩ { argv := some [ascii "true", ascii "-x"], pid := some 7 }]) = [(7, ascii "true -x")] := by decide

open Verif.Props.Privilege (root base) in
example : (run base { creds := root }
    [.request ⟨ascii "true -x", some (ascii "milter")⟩ { argv := some [ascii "true", ascii "-x"], pid := some 5 },
     .request ⟨ascii "true -x", none⟩ { argv := some [ascii "true", ascii "-x"], pid := some 6 },
     .exited 5,
     .request ⟨ascii "true -x", some (ascii "milter")⟩ { argv := some [ascii "true", ascii "-x"], pid := some 7, setuid := true }]).2 =
    [.started 5 [ascii "true", ascii "-x"] (identity base ⟨ascii "milter", 101, 102⟩ 102), .success, .error,
     .started 7 [ascii "true", ascii "-x"] { identity base ⟨ascii "milter", 101, 102⟩ 102 with ruid := 0, euid := 0, suid := 0 }, .success] := by decide

end Verif.Props.Launcher
