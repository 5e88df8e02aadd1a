import Verif.Spec.RubySettings
/-
C137: a milter written in Ruby runs with the settings it was given last.
-/
namespace Verif.Props.RubySettings
open Verif Verif.RubySettings Verif.Spec.RubySettings

/-! ### stored values -/

/-- the stored value `c` is what the value `v` given means -/
def Holds (k : Key) (c v : Value) : Prop :=
  match k with
  | .eventLoopBackend => ∃ s, v = .text s ∧ s ∈ backends ∧ (c = .text s ∨ c = .backend s)
  | .fallbackStatus => c = status v
  | .maintenanceInterval | .packetBufferSize | .maxPendingFinishedSessions | .nWorkers | .maxFileDescriptors | .maxConnections => c = orElse v (.int 0)
  | .suspendTime => c = orElse v (.int 5)
  | _ => c = v

theorem lower_underscore (c : UInt8) : (let d := Headers.lower c; if d = 0x5f then (0x2d : UInt8) else d) = if c = 0x5f then 0x2d else Headers.lower c := by
  have key : ∀ n : Fin 256, (let d := Headers.lower (UInt8.ofNat n); if d = 0x5f then (0x2d : UInt8) else d) =
      if UInt8.ofNat n = 0x5f then 0x2d else Headers.lower (UInt8.ofNat n) := by decide +kernel
  have := key ⟨c.toNat, c.toNat_lt⟩
  simpa using this

theorem normalize_eq (s : Bytes) : normalizeStatus s = s.map fun c => if c = 0x5f then 0x2d else Headers.lower c := by
  unfold normalizeStatus
  exact List.map_congr_left fun c _ => lower_underscore c

theorem status_plain {s : Bytes} (h : s ∈ fallbacks) : status (.text s) = .text s := by
  unfold fallbacks at h
  rcases List.mem_cons.mp h with rfl | h
  · decide +kernel
  rcases List.mem_cons.mp h with rfl | h
  · decide +kernel
  rcases List.mem_cons.mp h with rfl | h
  · decide +kernel
  rcases List.mem_cons.mp h with rfl | h
  · decide +kernel
  · cases h

theorem assign_legal {w : World} {k : Key} {v : Value} (h : Legal w k v) : ∃ c, assign w k v = .ok c ∧ Holds k c v := by
  cases k <;> unfold Legal at h <;> dsimp only at h
  case connectionSpec => obtain ⟨s, rfl, hs⟩ := h; exact ⟨_, by simp [assign, hs], rfl⟩
  case fallbackStatus =>
    rcases h with rfl | ⟨s, rfl, hs⟩
    · exact ⟨.nil, rfl, rfl⟩
    · refine ⟨.text (normalizeStatus s), ?_, ?_⟩
      · unfold assign
        dsimp only
        rw [if_pos]
        rw [normalize_eq]
        exact hs
      · show _ = status (.text s)
        rw [normalize_eq]
        rfl
  case eventLoopBackend =>
    obtain ⟨s, rfl, hs⟩ := h
    refine ⟨.backend s, ?_, s, rfl, hs, .inr rfl⟩
    unfold assign
    dsimp only
    rw [if_pos (show s ∈ backends from hs)]
  all_goals exact ⟨_, rfl, rfl⟩

/-! ### the settings so far -/

/-- the configuration is that of the settings `a` -/
def Follows (c : Config) (a : Key → Value) : Prop := ∀ k, k ≠ .name → k ≠ .environment → Holds k (c k) (a k)

/-- the settings after some more -/
def after (a : Key → Value) (l : List (Key × Value)) : Key → Value := fun k => last k (a k) l

theorem last_append (k : Key) (l m : List (Key × Value)) : ∀ a, last k a (l ++ m) = last k (last k a l) m := by
  induction l with
  | nil => intro a; rfl
  | cons x l ih => intro a; obtain ⟨k', v⟩ := x; exact ih _

theorem after_append (a : Key → Value) (l m : List (Key × Value)) : after a (l ++ m) = after (after a l) m := by
  funext k; exact last_append k l m (a k)

theorem follows_put {c : Config} {a : Key → Value} {k : Key} {x v : Value} (h : Follows c a) (hx : Holds k x v) :
    Follows (c.put k x) (after a [(k, v)]) := by
  intro k' h1 h2
  unfold Config.put after
  show Holds k' (if k' = k then x else c k') (if k = k' then v else a k')
  by_cases e : k' = k
  · subst e; rw [if_pos rfl, if_pos rfl]; exact hx
  · rw [if_neg e, if_neg (fun h => e h.symm)]; exact h k' h1 h2

/-- the name is left alone, and every value is legal or the default -/
structure Reached (w : World) (c c' : Config) (a : Key → Value) (l : List (Key × Value)) : Prop where
  follows : Follows c a → Follows c' (after a l)
  name : c' .name = c .name

theorem Reached.trans {w : World} {c c1 c2 : Config} {a : Key → Value} {l m : List (Key × Value)} (h : Reached w c c1 a l)
    (h' : Reached w c1 c2 (after a l) m) : Reached w c c2 a (l ++ m) :=
  ⟨fun f => by rw [after_append]; exact h'.follows (h.follows f), h'.name.trans h.name⟩

mutual
theorem stmt_fine {w : World} : ∀ (s : Stmt) (c : Config) (a : Key → Value), Fine w s → ∃ c', stmt w c s = (c', .ok) ∧ Reached w c c' a (written s)
  | .set k v, c, a, h => by
    unfold Fine at h
    obtain ⟨x, hx, hh⟩ := assign_legal h
    refine ⟨c.put k x, by unfold stmt; rw [hx], fun f => follows_put f hh, ?_⟩
    cases k <;> first | rfl | (unfold Legal at h; cases h)
  | .load files, c, a, h => by
    unfold Fine at h
    obtain ⟨c', h1, h2⟩ := files_fine files c a h.2
    refine ⟨c', ?_, h2⟩
    unfold stmt
    rw [if_neg (by cases files with
      | nil => exact absurd rfl h.1
      | cons _ _ => simp)]
    exact h1
  | .loadIfExist files, c, a, h => by
    unfold Fine at h
    obtain ⟨c', h1, h2⟩ := files_fine files c a h
    unfold stmt
    by_cases he : files.isEmpty = true
    · rw [if_pos he]
      cases files with
      | nil => unfold loadPaths at h1; obtain ⟨rfl, _⟩ := Prod.mk.inj h1; exact ⟨_, rfl, h2⟩
      | cons _ _ => cases he
    · rw [if_neg he]; exact ⟨c', h1, h2⟩
  | .raise, c, a, h => by unfold Fine at h; cases h
theorem stmts_fine {w : World} : ∀ (l : List Stmt) (c : Config) (a : Key → Value), FineAll w l → ∃ c', stmts w c l = (c', .ok) ∧ Reached w c c' a (writtenAll l)
  | [], c, a, _ => ⟨c, rfl, id, rfl⟩
  | s :: rest, c, a, h => by
    unfold FineAll at h
    obtain ⟨c1, h1, r1⟩ := stmt_fine s c a h.1
    obtain ⟨c2, h2, r2⟩ := stmts_fine rest c1 (after a (written s)) h.2
    refine ⟨c2, ?_, r1.trans r2⟩
    unfold stmts
    rw [h1]
    exact h2
theorem files_fine {w : World} : ∀ (l : List (List Stmt)) (c : Config) (a : Key → Value), FineFiles w l →
    ∃ c', loadPaths w c l = (c', .ok) ∧ Reached w c c' a (writtenFiles l)
  | [], c, a, _ => ⟨c, rfl, id, rfl⟩
  | f :: rest, c, a, h => by
    unfold FineFiles at h
    obtain ⟨c1, h1, r1⟩ := stmts_fine f c a h.1
    obtain ⟨c2, h2, r2⟩ := files_fine rest c1 (after a (writtenAll f)) h.2
    refine ⟨c2, ?_, r1.trans r2⟩
    unfold loadPaths
    rw [h1]
    exact h2
end

theorem option_fine {w : World} (o : Switch) (c : Config) (a : Key → Value) (h : FineOption w o) :
    ∃ c', option w c o = .ok c' ∧ Reached w c c' a (given o) := by
  cases o
  case help => cases h
  case bad => cases h
  case maintenanceInterval => cases h
  case configuration files =>
    obtain ⟨c', h1, h2⟩ := stmt_fine (.load files) c a (by unfold Fine; exact h)
    refine ⟨c', by unfold option; dsimp only; rw [h1], ?_⟩
    unfold written at h2
    exact h2
  case fallbackStatus s =>
    exact ⟨_, by unfold option; exact if_pos (show s ∈ fallbacks from h), fun f => follows_put f (status_plain h).symm, rfl⟩
  case statusOnError s => exact ⟨_, rfl, fun f => follows_put f (status_plain h).symm, rfl⟩
  case eventLoopBackend s =>
    exact ⟨_, by unfold option; exact if_pos (show s ∈ backends from h), fun f => follows_put f ⟨s, rfl, h, .inl rfl⟩, rfl⟩
  case nWorkers n => exact ⟨_, by unfold option; exact if_neg (by have := h.1; omega), fun f => follows_put f rfl, rfl⟩
  case packetBufferSize n => exact ⟨_, by unfold option; exact if_neg (by have := h.1; omega), fun f => follows_put f rfl, rfl⟩
  case maxPendingFinishedSessions n => exact ⟨_, by unfold option; exact if_neg (by have := h.1; omega), fun f => follows_put f rfl, rfl⟩
  case maxFileDescriptors n => exact ⟨_, rfl, fun f => follows_put f rfl, rfl⟩
  all_goals exact ⟨_, rfl, fun f => follows_put f rfl, rfl⟩

theorem parse_fine {w : World} : ∀ (argv : List Switch) (c : Config) (a : Key → Value), (∀ o ∈ argv, FineOption w o) →
    ∃ c', parse w c argv = .ok c' ∧ Reached w c c' a (argv.flatMap given)
  | [], c, a, _ => ⟨c, rfl, id, rfl⟩
  | o :: rest, c, a, h => by
    obtain ⟨c1, h1, r1⟩ := option_fine o c a (h o List.mem_cons_self)
    obtain ⟨c2, h2, r2⟩ := parse_fine rest c1 (after a (given o)) fun o' ho => h o' (List.mem_cons_of_mem _ ho)
    refine ⟨c2, ?_, ?_⟩
    · unfold parse; rw [h1]; exact h2
    · rw [List.flatMap_cons]; exact r1.trans r2

theorem start_follows (w : World) (n : Option Bytes) : Follows (start w n) default := by
  intro k h1 h2
  cases k <;> first | exact absurd rfl h1 | exact absurd rfl h2 | exact rfl | skip
  · exact ⟨ascii "glib", rfl, by decide +kernel, .inl rfl⟩

/-! ### legal all the time -/

/-- a setting that can be asked for: from the file, from the command line, or by default -/
def Askable (w : World) (k : Key) (v : Value) : Prop := Legal w k v ∨ (k = .handleSignal ∧ ∃ b, v = .bool b) ∨ k = .environment ∨ k = .name

theorem askable_default (w : World) (hw : w.isSpec (ascii "inet:20025") = true) (k : Key) : Askable w k (default k) := by
  cases k
  case name => exact .inr (.inr (.inr rfl))
  case environment => exact .inr (.inr (.inl rfl))
  case handleSignal => exact .inr (.inl ⟨rfl, true, rfl⟩)
  case connectionSpec => exact .inl ⟨_, rfl, hw⟩
  case unixSocketMode => exact .inl (.inl ⟨_, rfl, by decide, by decide⟩)
  case fallbackStatus => exact .inl (.inr ⟨_, rfl, by unfold StatusWord; decide +kernel⟩)
  case eventLoopBackend => exact .inl ⟨_, rfl, by decide +kernel⟩
  case maxFileDescriptors => exact .inl (.inr ⟨_, rfl⟩)
  case daemon => exact .inl ⟨_, rfl⟩
  case runGc => exact .inl ⟨_, rfl⟩
  case useSyslog => exact .inl ⟨_, rfl⟩
  case removeOnCreate => exact .inl ⟨_, rfl⟩
  case removeOnClose => exact .inl ⟨_, rfl⟩
  case unixSocketGroup => exact .inl (.inl rfl)
  case pidFile => exact .inl (.inl rfl)
  case effectiveUser => exact .inl (.inl rfl)
  case effectiveGroup => exact .inl (.inl rfl)
  case syslogFacility => exact .inl (.inr ⟨_, rfl⟩)
  all_goals exact .inl (.inr ⟨_, rfl, by decide, by decide⟩)

mutual
theorem stmt_askable {w : World} : ∀ (s : Stmt), Fine w s → ∀ p ∈ written s, Askable w p.1 p.2
  | .set k v, h, p, hp => by unfold Fine at h; unfold written at hp; rw [List.mem_singleton.mp hp]; exact .inl h
  | .load files, h, p, hp => by unfold Fine at h; unfold written at hp; exact files_askable files h.2 p hp
  | .loadIfExist files, h, p, hp => by unfold Fine at h; unfold written at hp; exact files_askable files h p hp
  | .raise, h, _, _ => by unfold Fine at h; cases h
theorem stmts_askable {w : World} : ∀ (l : List Stmt), FineAll w l → ∀ p ∈ writtenAll l, Askable w p.1 p.2
  | [], _, p, hp => by unfold writtenAll at hp; cases hp
  | s :: rest, h, p, hp => by
    unfold FineAll at h; unfold writtenAll at hp
    rcases List.mem_append.mp hp with hp | hp
    · exact stmt_askable s h.1 p hp
    · exact stmts_askable rest h.2 p hp
theorem files_askable {w : World} : ∀ (l : List (List Stmt)), FineFiles w l → ∀ p ∈ writtenFiles l, Askable w p.1 p.2
  | [], _, p, hp => by unfold writtenFiles at hp; cases hp
  | f :: rest, h, p, hp => by
    unfold FineFiles at h; unfold writtenFiles at hp
    rcases List.mem_append.mp hp with hp | hp
    · exact stmts_askable f h.1 p hp
    · exact files_askable rest h.2 p hp
end

theorem status_word {s : Bytes} (h : s ∈ fallbacks) : StatusWord s := by
  have := status_plain h
  unfold status at this
  injection this with this
  unfold StatusWord
  rw [this]
  exact h

theorem option_askable {w : World} (o : Switch) (h : FineOption w o) : ∀ p ∈ given o, Askable w p.1 p.2 := by
  intro p hp
  cases o
  case help => cases h
  case bad => cases h
  case maintenanceInterval => cases h
  case configuration files => exact files_askable files h.2 p hp
  all_goals rw [List.mem_singleton.mp hp]
  case environment => exact .inr (.inr (.inl rfl))
  case handleSignal b => exact .inr (.inl ⟨rfl, b, rfl⟩)
  case connectionSpec s => exact .inl ⟨s, rfl, h⟩
  case unixSocketMode s => obtain ⟨m, hm⟩ := h; exact .inl (.inr ⟨s, m, rfl, hm⟩)
  case fallbackStatus s => exact .inl (.inr ⟨s, rfl, status_word h⟩)
  case statusOnError s => exact .inl (.inr ⟨s, rfl, status_word h⟩)
  case eventLoopBackend s => exact .inl ⟨s, rfl, h⟩
  case maxFileDescriptors n => exact .inl (.inr ⟨n, rfl⟩)
  case nWorkers n => exact .inl (.inr ⟨n, rfl, by have := h.1; omega, h.2⟩)
  case packetBufferSize n => exact .inl (.inr ⟨n, rfl, h.1, h.2⟩)
  case maxPendingFinishedSessions n => exact .inl (.inr ⟨n, rfl, by have := h.1; omega, h.2⟩)
  case daemon b => exact .inl ⟨b, rfl⟩
  case runGc b => exact .inl ⟨b, rfl⟩
  case syslog b => exact .inl ⟨b, rfl⟩
  all_goals exact .inl (.inr ⟨_, rfl⟩)

theorem last_askable {w : World} (k : Key) : ∀ (l : List (Key × Value)) (v : Value), Askable w k v → (∀ p ∈ l, Askable w p.1 p.2) →
    Askable w k (last k v l)
  | [], _, h, _ => h
  | (k', x) :: rest, v, h, hl => by
    unfold last
    refine last_askable k rest _ ?_ fun p hp => hl p (List.mem_cons_of_mem _ hp)
    by_cases e : k' = k
    · rw [if_pos e, ← e]; exact hl _ List.mem_cons_self
    · rw [if_neg e]; exact h

theorem asked_askable {w : World} {argv : List Switch} (hw : w.isSpec (ascii "inet:20025") = true) (h : ∀ o ∈ argv, FineOption w o) (k : Key) :
    Askable w k (asked argv k) := by
  refine last_askable k _ _ (askable_default w hw k) fun p hp => ?_
  obtain ⟨o, ho, hp⟩ := List.mem_flatMap.mp hp
  exact option_askable o (h o ho) p hp

/-! ### the client -/

theorem uint_ok {n : Int} (h0 : 0 ≤ n) (h1 : n ≤ 4294967295) : uint (.int n) = .ok n.toNat := by
  unfold uint
  dsimp only
  rw [if_pos ⟨by omega, by omega⟩, Int.emod_eq_of_lt h0 (by omega)]

theorem uint_number {m : Int} (hm : m ≤ 4294967295) {c v : Value} (hv : Number m v) (h : c = orElse v (.int 0)) : uint c = .ok (number v) := by
  subst h
  rcases hv with rfl | ⟨n, rfl, h0, h1⟩
  · exact uint_ok (by decide) (by decide)
  · exact uint_ok h0 (by omega)

theorem cstrOrNil_word {v : Value} (h : Word v) : cstrOrNil v = .ok (word v) := by
  rcases h with rfl | ⟨s, rfl⟩ <;> rfl

theorem truthy_bool (b : Bool) : truthy (.bool b) = b := by cases b <;> rfl

/-- C137: whatever options are given, and whatever files without errors are loaded among them, the milter runs with the setting given last in each case, counting the settings of a file at
the place of its `-c`, and with the default if there is none. -/
theorem C137_last_partial (w : World) (name : Option Bytes) (argv : List Switch) (hw : w.isSpec (ascii "inet:20025") = true)
    (h : ∀ o ∈ argv, FineOption w o) :
    ∃ r, run w name argv = .ok r ∧ RunsWith (name.getD w.program) (asked argv) r := by
  obtain ⟨c, hc, hr⟩ := parse_fine argv (start w name) default h
  have hf : Follows c (asked argv) := hr.follows (start_follows w name)
  have hname : c .name = .text (name.getD w.program) := hr.name
  have ha := asked_askable hw h
  have get : ∀ {k : Key}, k ≠ .handleSignal → k ≠ .environment → k ≠ .name → Legal w k (asked argv k) := fun {k} h1 h2 h3 => by
    rcases ha k with h | ⟨e, _⟩ | e | e
    · exact h
    · exact absurd e h1
    · exact absurd e h2
    · exact absurd e h3
  generalize hq : asked argv = a at *
  -- each setting
  obtain ⟨spec, e1, l1⟩ := get (k := .connectionSpec) (by decide) (by decide) (by decide)
  have f1 : c .connectionSpec = .text spec := (hf .connectionSpec (by decide) (by decide)).trans e1
  have l2 : Word (a .unixSocketGroup) := get (k := .unixSocketGroup) (by decide) (by decide) (by decide)
  have f2 : c .unixSocketGroup = a .unixSocketGroup := hf .unixSocketGroup (by decide) (by decide)
  have f3 : c .unixSocketMode = a .unixSocketMode := hf .unixSocketMode (by decide) (by decide)
  have m3 : ∃ m, ifGiven socketMode none (c .unixSocketMode) = .ok (some m) ∧ mode (a .unixSocketMode) = some m := by
    rw [f3]
    rcases get (k := .unixSocketMode) (by decide) (by decide) (by decide) with ⟨n, e, h0, h1⟩ | ⟨s, m, e, hm⟩ <;> rw [e]
    · exact ⟨n.toNat, by show (uint (.int n)).map some = _; rw [uint_ok h0 h1]; rfl, rfl⟩
    · exact ⟨m, by show socketMode (.text s) = _; unfold socketMode; dsimp only; rw [hm], hm⟩
  obtain ⟨m, s3, m3⟩ := m3
  have f4 : c .fallbackStatus = status (a .fallbackStatus) := hf .fallbackStatus (by decide) (by decide)
  obtain ⟨b, e5, l5, f5⟩ := hf .eventLoopBackend (by decide) (by decide)
  have n5 : enum (c .eventLoopBackend) = .ok b := by
    rcases f5 with f5 | f5 <;> rw [f5]
    · unfold enum; dsimp only; rw [if_pos l5]
    · rfl
  have f6 : uint (c .packetBufferSize) = .ok (number (a .packetBufferSize)) :=
    uint_number (by decide) (get (k := .packetBufferSize) (by decide) (by decide) (by decide)) (hf .packetBufferSize (by decide) (by decide))
  have l7 : Word (a .pidFile) := get (k := .pidFile) (by decide) (by decide) (by decide)
  have f7 : c .pidFile = a .pidFile := hf .pidFile (by decide) (by decide)
  have f8 : uint (c .maintenanceInterval) = .ok (number (a .maintenanceInterval)) :=
    uint_number (by decide) (get (k := .maintenanceInterval) (by decide) (by decide) (by decide)) (hf .maintenanceInterval (by decide) (by decide))
  obtain ⟨gc, e9⟩ := get (k := .runGc) (by decide) (by decide) (by decide)
  have f9 : c .runGc = .bool gc := (hf .runGc (by decide) (by decide)).trans e9
  have l10 : Number 1000 (a .nWorkers) := get (k := .nWorkers) (by decide) (by decide) (by decide)
  have f10 : uint (c .nWorkers) = .ok (number (a .nWorkers)) := uint_number (by decide) l10 (hf .nWorkers (by decide) (by decide))
  have b10 : min (number (a .nWorkers)) 1000 = number (a .nWorkers) := by
    rcases l10 with e | ⟨n, e, h0, h1⟩ <;> rw [e]
    · rfl
    · show min n.toNat 1000 = n.toNat
      omega
  have f11 : uint (c .maxPendingFinishedSessions) = .ok (number (a .maxPendingFinishedSessions)) :=
    uint_number (by decide) (get (k := .maxPendingFinishedSessions) (by decide) (by decide) (by decide)) (hf .maxPendingFinishedSessions (by decide) (by decide))
  have l12 : Word (a .effectiveUser) := get (k := .effectiveUser) (by decide) (by decide) (by decide)
  have f12 : c .effectiveUser = a .effectiveUser := hf .effectiveUser (by decide) (by decide)
  have l13 : Word (a .effectiveGroup) := get (k := .effectiveGroup) (by decide) (by decide) (by decide)
  have f13 : c .effectiveGroup = a .effectiveGroup := hf .effectiveGroup (by decide) (by decide)
  obtain ⟨sys, e14⟩ := get (k := .useSyslog) (by decide) (by decide) (by decide)
  have f14 : c .useSyslog = .bool sys := (hf .useSyslog (by decide) (by decide)).trans e14
  have l15 : Word (a .syslogFacility) := get (k := .syslogFacility) (by decide) (by decide) (by decide)
  have f15 : c .syslogFacility = a .syslogFacility := hf .syslogFacility (by decide) (by decide)
  have f16 : limitOf (c .maxFileDescriptors) = .ok (limit (a .maxFileDescriptors)) := by
    rw [show c .maxFileDescriptors = orElse (a .maxFileDescriptors) (.int 0) from hf .maxFileDescriptors (by decide) (by decide)]
    rcases get (k := .maxFileDescriptors) (by decide) (by decide) (by decide) with e | ⟨n, e⟩ <;> rw [e] <;> rfl
  obtain ⟨dm, e17⟩ := get (k := .daemon) (by decide) (by decide) (by decide)
  have f17 : c .daemon = .bool dm := (hf .daemon (by decide) (by decide)).trans e17
  have l18 : ∃ hs, a .handleSignal = .bool hs := by
    rcases ha .handleSignal with h | ⟨_, h⟩ | e | e
    · cases h
    · exact h
    · cases e
    · cases e
  obtain ⟨hs, e18⟩ := l18
  have f18 : c .handleSignal = .bool hs := (hf .handleSignal (by decide) (by decide)).trans e18
  -- the groups
  have g1 : setupLog c {} = .ok { ({} : Client) with syslog := if sys then some (name.getD w.program, word (a .syslogFacility)) else none } := by
    unfold setupLog
    rw [f14, truthy_bool, hname, f15, cstrOrNil_word l15]
    cases sys <;> rfl
  have g2 : ∀ x : Client, x.user = none → x.group = none →
      setupSecurity c x = .ok { x with user := word (a .effectiveUser), group := word (a .effectiveGroup) } := by
    intro x hx hy
    obtain ⟨⟩ := x
    cases hx; cases hy
    unfold setupSecurity
    rw [f12, f13]
    rcases l12 with e | ⟨s, e⟩ <;> rcases l13 with e' | ⟨s', e'⟩ <;> rw [e, e'] <;> rfl
  have g3 : ∀ x : Client, x.socketMode = none → setupMilter w c x = .ok { x with
      spec := some spec, socketGroup := word (a .unixSocketGroup), socketMode := some m, fallback := status (a .fallbackStatus), backend := some b
      packetBuffer := number (a .packetBufferSize), pidFile := word (a .pidFile), maintenance := number (a .maintenanceInterval), gc := gc
      workers := number (a .nWorkers), maxPending := number (a .maxPendingFinishedSessions), limit := limit (a .maxFileDescriptors) } := by
    intro x hx
    unfold setupMilter
    rw [f1, f2, hx, s3, f4, n5, f6, f7, f8, f9, f10, f11, f16, truthy_bool, cstrOrNil_word l2, cstrOrNil_word l7]
    unfold specOf
    dsimp only
    rw [if_pos l1]
    simp only [bind, Except.bind, b10]
  refine ⟨_, by unfold run; rw [hc]; show (setup w c >>= _) = _; unfold setup; rw [g1]; show (setupSecurity c _ >>= _) >>= _ = _
                rw [g2 _ rfl rfl]; show (setupMilter w c _ >>= _) = _; rw [g3 _ rfl]; rfl, ?_⟩
  refine ⟨by rw [e1]; rfl, rfl, m3.symm, rfl, by rw [e5]; rfl, rfl, rfl, rfl, by rw [e9]; rfl, rfl, rfl, rfl, rfl, by rw [e14]; rfl, rfl, ?_, ?_⟩
  · rw [e17]; show truthy (c .daemon) = _; rw [f17]; exact truthy_bool dm
  · rw [e18]; show truthy (c .handleSignal) = _; rw [f18]; exact truthy_bool hs

/-! ### a case -/

/-- a machine on which everything with a colon is a connection spec -/
def machine : World := { env := none, program := ascii "milter-regexp", isSpec := fun s => s.contains 0x3a }

/-- `milter.connection_spec = "inet:12345"`, `milter.n_workers = 4`, `milter.fallback_status = :Temporary_Failure`, and another file with `log.use_syslog = true` -/
def file : List Stmt :=
  [.set .connectionSpec (.text (ascii "inet:12345")), .set .nWorkers (.int 4), .set .fallbackStatus (.text (ascii "Temporary_Failure")),
   .loadIfExist [[.set .useSyslog (.bool true)]]]

/-- `--daemon -c FILE --n-workers=2` -/
def options : List Switch := [.daemon true, .configuration [file], .nWorkers 2]

theorem options_fine : ∀ o ∈ options, FineOption machine o := by
  intro o ho
  rcases List.mem_cons.mp ho with rfl | ho
  · trivial
  rcases List.mem_cons.mp ho with rfl | ho
  · refine ⟨by simp, ?_, trivial⟩
    exact ⟨⟨_, rfl, by decide +kernel⟩, .inr ⟨4, rfl, by decide, by decide⟩, .inr ⟨_, rfl, by unfold StatusWord; decide +kernel⟩,
      ⟨⟨⟨true, rfl⟩, trivial⟩, trivial⟩, trivial⟩
  rcases List.mem_cons.mp ho with rfl | ho
  · exact ⟨by decide, by decide⟩
  · cases ho

example : ∃ r, run machine none options = .ok r ∧ r.client.spec = some (ascii "inet:12345") ∧ r.client.workers = 2 ∧ r.daemon = true ∧
    r.client.fallback = .text (ascii "temporary-failure") ∧ r.client.syslog = some (ascii "milter-regexp", some (ascii "mail")) ∧ r.client.maintenance = 100 := by
  obtain ⟨r, h, g⟩ := C137_last_partial machine none options (by decide +kernel) options_fine
  exact ⟨r, h, g.spec, g.workers, g.daemon, g.fallback.trans (by decide +kernel), g.syslog, g.maintenance⟩

/-! ### errors -/

/-- what starts -/
def Starts (w : World) (name : Option Bytes) (argv : List Switch) : Prop := ∃ r, run w name argv = .ok r

theorem parse_error {w : World} {o : Switch} {e : Stop} (ho : ∀ c, option w c o = .error e) (l m : List Switch) (c : Config) :
    ∃ e, parse w c (l ++ o :: m) = .error e := by
  induction l generalizing c with
  | nil => exact ⟨e, by show parse w c (o :: m) = _; unfold parse; rw [ho c]⟩
  | cons x l ih =>
    show ∃ e, parse w c (x :: (l ++ o :: m)) = .error e
    unfold parse
    cases hx : option w c x with
    | ok c' => exact ih c'
    | error e' => exact ⟨e', rfl⟩

theorem not_starts {w : World} {name : Option Bytes} {argv : List Switch} {e : Stop} (h : parse w (start w name) argv = .error e) : ¬ Starts w name argv := by
  rintro ⟨r, hr⟩
  unfold run at hr
  rw [h] at hr
  cases hr

/-- C137: with an option that is wrong, a file that is not there, or a number that is not allowed among the options the milter does not start, wherever the option stands. -/
theorem C137_wrong (w : World) (name : Option Bytes) (l m : List Switch) (o : Switch)
    (h : o = .bad ∨ o = .configuration [] ∨ (∃ s, o = .fallbackStatus s ∧ s ∉ [ascii "accept", ascii "reject", ascii "temporary-failure", ascii "discard"]) ∨
      (∃ s, o = .eventLoopBackend s ∧ s ∉ [ascii "default", ascii "glib", ascii "libev"]) ∨ (∃ n, o = .nWorkers n ∧ n ≤ 0) ∨
      (∃ n, o = .packetBufferSize n ∧ n < 0) ∨ ∃ n, o = .maxPendingFinishedSessions n ∧ n ≤ 0) :
    ¬ Starts w name (l ++ o :: m) := by
  have ho : ∀ c, option w c o = .error (.exited false) := by
    intro c
    rcases h with rfl | rfl | ⟨s, rfl, hs⟩ | ⟨s, rfl, hs⟩ | ⟨n, rfl, hn⟩ | ⟨n, rfl, hn⟩ | ⟨n, rfl, hn⟩
    · rfl
    · unfold option; dsimp only; unfold stmt; rfl
    · unfold option; exact if_neg hs
    · unfold option; exact if_neg hs
    · unfold option; exact if_pos hn
    · unfold option; exact if_pos hn
    · unfold option; exact if_pos hn
  obtain ⟨e, he⟩ := parse_error ho l m (start w name)
  exact not_starts he

example : ¬ Starts machine none ([.daemon true] ++ .nWorkers 0 :: []) :=
  C137_wrong machine none _ _ _ (.inr (.inr (.inr (.inr (.inl ⟨0, rfl, by decide⟩)))))

/-! ### what is not as documented -/

theorem bind_ok {α β : Type} {e : Set α} {f : α → Set β} {y : β} (h : (e >>= f) = .ok y) : ∃ x, e = .ok x ∧ f x = .ok y := by
  cases e with
  | ok x => exact ⟨x, rfl, h⟩
  | error e => cases h

/-- the settings nobody hands on -/
def Untouched (x : Client) : Prop := x.suspendTime = 5 ∧ x.maxConnections = 0 ∧ x.removeOnCreate = true ∧ x.removeOnClose = true

theorem log_untouched {c : Config} {x y : Client} (hx : Untouched x) (h : setupLog c x = .ok y) : Untouched y := by
  unfold setupLog at h
  split at h
  · obtain ⟨_, _, h⟩ := bind_ok h
    obtain ⟨_, _, h⟩ := bind_ok h
    injection h with h
    subst h
    exact hx
  · injection h with h; subst h; exact hx

theorem security_untouched {c : Config} {x y : Client} (hx : Untouched x) (h : setupSecurity c x = .ok y) : Untouched y := by
  unfold setupSecurity at h
  obtain ⟨_, _, h⟩ := bind_ok h
  obtain ⟨_, _, h⟩ := bind_ok h
  injection h with h
  subst h
  exact hx

/-- what a milter that starts has been given at least -/
theorem milter_untouched {w : World} {c : Config} {x y : Client} (hx : Untouched x) (h : setupMilter w c x = .ok y) :
    Untouched y ∧ ∃ n, uint (c .maintenanceInterval) = .ok n := by
  unfold setupMilter at h
  obtain ⟨_, _, h⟩ := bind_ok h
  obtain ⟨_, _, h⟩ := bind_ok h
  obtain ⟨_, _, h⟩ := bind_ok h
  obtain ⟨_, _, h⟩ := bind_ok h
  obtain ⟨_, _, h⟩ := bind_ok h
  obtain ⟨_, _, h⟩ := bind_ok h
  obtain ⟨n, hn, h⟩ := bind_ok h
  obtain ⟨_, _, h⟩ := bind_ok h
  obtain ⟨_, _, h⟩ := bind_ok h
  obtain ⟨_, _, h⟩ := bind_ok h
  injection h with h
  subst h
  exact ⟨hx, n, hn⟩

theorem run_untouched {w : World} {name : Option Bytes} {argv : List Switch} {r : Running} (h : run w name argv = .ok r) :
    Untouched r.client ∧ ∃ c n, parse w (start w name) argv = .ok c ∧ uint (c .maintenanceInterval) = .ok n := by
  unfold run at h
  obtain ⟨c, hc, h⟩ := bind_ok h
  obtain ⟨x, hx, h⟩ := bind_ok h
  injection h with h
  subst h
  unfold setup at hx
  obtain ⟨x1, h1, hx⟩ := bind_ok hx
  obtain ⟨x2, h2, hx⟩ := bind_ok hx
  obtain ⟨u, n, hn⟩ := milter_untouched (security_untouched (log_untouched ⟨rfl, rfl, rfl, rfl⟩ h1) h2) hx
  exact ⟨u, c, n, hc, hn⟩

/-- The documentation lists `milter.max_connections`, `milter.suspend_time_on_unacceptable`, `milter.remove_unix_socket_on_create` and `milter.remove_unix_socket_on_close`.
They never take effect, whatever is given: a milter with a limit of connections runs without one. -/
theorem C137_ignored_violated (w : World) (name : Option Bytes) (argv : List Switch) (r : Running) (h : run w name argv = .ok r) :
    r.client.suspendTime = 5 ∧ r.client.maxConnections = 0 ∧ r.client.removeOnCreate = true ∧ r.client.removeOnClose = true ∧
    (number (asked argv .maxConnections) ≠ 0 → ¬ AlsoWith (asked argv) r) := by
  obtain ⟨⟨h1, h2, h3, h4⟩, _⟩ := run_untouched h
  exact ⟨h1, h2, h3, h4, fun hn a => hn (a.maxConnections.symm.trans h2)⟩

/-- `milter.max_connections = 10` -/
example : ∃ r, run machine none [.configuration [[.set .maxConnections (.int 10)]]] = .ok r ∧
    ¬ AlsoWith (asked [.configuration [[.set .maxConnections (.int 10)]]]) r := by
  obtain ⟨r, h, _⟩ := C137_last_partial machine none [.configuration [[.set .maxConnections (.int 10)]]] (by decide +kernel) (fun o ho => by
    rw [List.mem_singleton.mp ho]
    exact ⟨by simp, ⟨.inr ⟨10, rfl, by decide, by decide⟩, trivial⟩, trivial⟩)
  exact ⟨r, h, (C137_ignored_violated _ _ _ _ h).2.2.2.2 (by decide)⟩

mutual
theorem stmt_other {w : World} {k : Key} : ∀ (s : Stmt) (c : Config), (∀ p ∈ written s, p.1 ≠ k) → (stmt w c s).1 k = c k
  | .set k' v, c, h => by
    unfold stmt
    cases assign w k' v with
    | ok x => exact if_neg (fun e => h (k', v) (by unfold written; exact List.mem_singleton.mpr rfl) e.symm)
    | error e => rfl
  | .load files, c, h => by
    unfold written at h
    unfold stmt
    split
    · rfl
    · exact files_other files c h
  | .loadIfExist files, c, h => by
    unfold written at h
    unfold stmt
    split
    · rfl
    · exact files_other files c h
  | .raise, c, _ => by unfold stmt; rfl
theorem stmts_other {w : World} {k : Key} : ∀ (l : List Stmt) (c : Config), (∀ p ∈ writtenAll l, p.1 ≠ k) → (stmts w c l).1 k = c k
  | [], c, _ => by unfold stmts; rfl
  | s :: rest, c, h => by
    unfold writtenAll at h
    have h1 := stmt_other (w := w) s c fun p hp => h p (List.mem_append_left _ hp)
    unfold stmts
    cases hs : stmt w c s with
    | mk c' e =>
      rw [hs] at h1
      cases e with
      | ok => exact (stmts_other rest c' fun p hp => h p (List.mem_append_right _ hp)).trans h1
      | invalid => exact h1
      | raised => exact h1
theorem files_other {w : World} {k : Key} : ∀ (l : List (List Stmt)) (c : Config), (∀ p ∈ writtenFiles l, p.1 ≠ k) → (loadPaths w c l).1 k = c k
  | [], c, _ => by unfold loadPaths; rfl
  | f :: rest, c, h => by
    unfold writtenFiles at h
    have h1 := stmts_other (w := w) f c fun p hp => h p (List.mem_append_left _ hp)
    unfold loadPaths
    cases hs : stmts w c f with
    | mk c' e =>
      rw [hs] at h1
      cases e with
      | ok => exact (files_other rest c' fun p hp => h p (List.mem_append_right _ hp)).trans h1
      | invalid => exact (files_other rest c' fun p hp => h p (List.mem_append_right _ hp)).trans h1
      | raised => exact h1
end

theorem option_other {w : World} {k : Key} {o : Switch} {c c' : Config} (h : ∀ p ∈ given o, p.1 ≠ k) (ho : option w c o = .ok c') : c' k = c k := by
  have put : ∀ {k' : Key} {v : Value}, k' ≠ k → (c.put k' v) k = c k := fun hk => if_neg (fun e => hk e.symm)
  cases o
  case help => cases ho
  case bad => cases ho
  case configuration files =>
    have := stmt_other (w := w) (k := k) (.load files) c (by unfold written; exact h)
    unfold option at ho
    dsimp only at ho
    cases hs : stmt w c (.load files) with
    | mk c1 e =>
      rw [hs] at ho this
      cases e with
      | ok => injection ho with ho; subst ho; exact this
      | invalid => cases ho
      | raised => cases ho
  all_goals
    have hk := h _ (List.mem_singleton.mpr rfl)
    unfold option at ho
    dsimp only at ho
    try split at ho
    all_goals first
      | (injection ho with ho; subst ho; exact put hk)
      | cases ho

theorem parse_other {w : World} {k : Key} : ∀ (argv : List Switch) (c c' : Config), (∀ o ∈ argv, ∀ p ∈ given o, p.1 ≠ k) → parse w c argv = .ok c' → c' k = c k
  | [], c, c', _, h => by unfold parse at h; injection h with h; rw [h]
  | o :: rest, c, c', ho, h => by
    unfold parse at h
    cases hx : option w c o with
    | ok c1 =>
      rw [hx] at h
      exact (parse_other rest c1 c' (fun o' h' => ho o' (List.mem_cons_of_mem _ h')) h).trans (option_other (ho o List.mem_cons_self) hx)
    | error e => rw [hx] at h; cases h

theorem parse_append {w : World} (m : List Switch) : ∀ (l : List Switch) (c c' : Config), parse w c (l ++ m) = .ok c' →
    ∃ c1, parse w c l = .ok c1 ∧ parse w c1 m = .ok c'
  | [], c, c', h => ⟨c, rfl, h⟩
  | o :: l, c, c', h => by
    have h : parse w c (o :: (l ++ m)) = .ok c' := h
    unfold parse at h
    cases hx : option w c o with
    | ok c1 =>
      rw [hx] at h
      obtain ⟨c2, h2, h3⟩ := parse_append m l c1 c' h
      exact ⟨c2, by unfold parse; rw [hx]; exact h2, h3⟩
    | error e => rw [hx] at h; cases h

/-- `--maintenance-interval=N` never works: the number stays a text, and the milter dies when it is handed on, unless a later file sets another. -/
theorem C137_maintenance_violated (w : World) (name : Option Bytes) (l m : List Switch) (s : Bytes)
    (hm : ∀ o ∈ m, ∀ p ∈ given o, p.1 ≠ Key.maintenanceInterval) : ¬ Starts w name (l ++ .maintenanceInterval s :: m) := by
  rintro ⟨r, hr⟩
  obtain ⟨_, c, n, hc, hn⟩ := run_untouched hr
  obtain ⟨c1, _, h2⟩ := parse_append _ _ _ _ hc
  unfold parse at h2
  have := parse_other m _ c hm h2
  rw [this] at hn
  cases hn

example : ¬ Starts machine none ([] ++ .maintenanceInterval (ascii "10") :: [.daemon true]) :=
  C137_maintenance_violated machine none [] _ _ (by
    intro o ho p hp
    rw [List.mem_singleton.mp ho] at hp
    rw [List.mem_singleton.mp hp]
    decide)

/-- The settings of a file win over options before its `-c`, unlike milter-manager's. -/
theorem C137_order_violated (w : World) (name : Option Bytes) (l : List Switch) (t : Bytes) (hw : w.isSpec (ascii "inet:20025") = true)
    (h : ∀ o ∈ l, FineOption w o) (ht : w.isSpec t = true) :
    ∃ r, run w name (l ++ [.configuration [[.set .connectionSpec (.text t)]]]) = .ok r ∧ r.client.spec = some t := by
  obtain ⟨r, hr, g⟩ := C137_last_partial w name (l ++ [.configuration [[.set .connectionSpec (.text t)]]]) hw (fun o ho => by
    rcases List.mem_append.mp ho with ho | ho
    · exact h o ho
    · rw [List.mem_singleton.mp ho]
      exact ⟨by simp, ⟨⟨t, rfl, ht⟩, trivial⟩, trivial⟩)
  refine ⟨r, hr, g.spec.trans ?_⟩
  unfold asked
  rw [List.flatMap_append, last_append]
  rfl

/-- `--connection-spec=inet:10025 -c FILE` -/
example : ∃ r, run machine none ([.connectionSpec (ascii "inet:10025")] ++ [.configuration [[.set .connectionSpec (.text (ascii "inet:12345"))]]]) = .ok r ∧
    r.client.spec = some (ascii "inet:12345") :=
  C137_order_violated machine none _ _ (by decide +kernel) (fun o ho => by rw [List.mem_singleton.mp ho]; show _ = _; decide +kernel) (by decide +kernel)

theorem stmts_invalid {w : World} (bad : Stmt) (hb : ∀ c, stmt w c bad = (c, .invalid)) (post : List Stmt) : ∀ (pre : List Stmt) (c c' : Config),
    stmts w c pre = (c', .ok) → stmts w c (pre ++ bad :: post) = (c', .invalid)
  | [], c, c', h => by
    unfold stmts at h
    obtain ⟨rfl, _⟩ := Prod.mk.inj h
    show stmts w _ (bad :: post) = _
    unfold stmts
    rw [hb]
  | s :: pre, c, c', h => by
    show stmts w c (s :: (pre ++ bad :: post)) = _
    unfold stmts at h ⊢
    cases hs : stmt w c s with
    | mk c1 e =>
      rw [hs] at h
      cases e with
      | ok => exact stmts_invalid bad hb post pre c1 c' h
      | invalid => cases h
      | raised => cases h

/-- A file with a status that does not exist is used all the same: what stands before the error holds, what stands behind it does not, and the milter starts. -/
theorem C137_illegal_violated (w : World) (name : Option Bytes) (pre post : List Stmt) (s : Bytes) (hw : w.isSpec (ascii "inet:20025") = true)
    (hp : FineAll w pre) (hs : ¬ StatusWord s) :
    ∃ r, run w name [.configuration [pre ++ .set .fallbackStatus (.text s) :: post]] = .ok r ∧
      RunsWith (name.getD w.program) (asked [.configuration [pre]]) r := by
  obtain ⟨r, hr, g⟩ := C137_last_partial w name [.configuration [pre]] hw (fun o ho => by
    rw [List.mem_singleton.mp ho]
    exact ⟨by simp, hp, trivial⟩)
  refine ⟨r, ?_, g⟩
  rw [← hr]
  have hb : ∀ c, stmt w c (.set .fallbackStatus (.text s)) = (c, .invalid) := by
    intro c
    unfold stmt assign
    dsimp only
    rw [if_neg (by rw [normalize_eq]; exact hs)]
  have key : ∀ c, option w c (.configuration [pre ++ .set .fallbackStatus (.text s) :: post]) = option w c (.configuration [pre]) := by
    intro c
    obtain ⟨c', h1, _⟩ := stmts_fine pre c default hp
    unfold option
    dsimp only
    unfold stmt
    rw [if_neg (by simp), if_neg (by simp)]
    unfold loadPaths
    rw [h1, stmts_invalid _ hb post pre c c' h1]
  unfold run parse
  rw [key]

/-- `milter.fallback_status = "rejekt"` before `milter.connection_spec = "inet:12345"`: the milter listens at the default port -/
example : ∃ r, run machine none [.configuration [[] ++ .set .fallbackStatus (.text (ascii "rejekt")) :: [.set .connectionSpec (.text (ascii "inet:12345"))]]] = .ok r ∧
    r.client.spec = some (ascii "inet:20025") := by
  obtain ⟨r, h, g⟩ := C137_illegal_violated machine none [] [.set .connectionSpec (.text (ascii "inet:12345"))] (ascii "rejekt") (by decide +kernel) trivial
    (by unfold StatusWord; decide +kernel)
  exact ⟨r, h, g.spec⟩

/-- A configuration that no command line has named has no proper name, so that it cannot be used with syslog. -/
theorem C137_name_violated (w : World) (c : Config) (hn : c .name = fresh w .name) (hs : truthy (c .useSyslog) = true) : setup w c = .error .died := by
  unfold setup setupLog
  rw [if_pos hs, hn]
  rfl

example : ∃ c : Config, c .name = fresh machine .name ∧ truthy (c .useSyslog) = true := ⟨(fresh machine).put .useSyslog (.bool true), rfl, rfl⟩

/-- A negative number in a file becomes a large one. -/
theorem C137_negative_violated : ∃ r, run machine none [.configuration [[.set .packetBufferSize (.int (-1))]]] = .ok r ∧ r.client.packetBuffer = 4294967295 := by
  refine ⟨_, rfl, ?_⟩
  decide +kernel

end Verif.Props.RubySettings
