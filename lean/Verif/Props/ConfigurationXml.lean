import Verif.Spec.ConfigurationXml
/-
C85: the XML of the configuration says what the configuration is.
-/
namespace Verif.Props.Xml
open Verif Verif.Xml
open Verif.Configuration hiding Event
open Verif.Egg (Egg Condition)
open Verif.Spec.Xml Verif.Spec.ConfigurationXml

/-! ### from bytes to events -/

/-- these bytes, wherever they stand in the text of a document, are read as these events -/
def Writes (b : Bytes) (evs : List Event) : Prop :=
  13 ∉ b ∧ ∀ r, tokens .text (b ++ r) = (tokens .text r).map (evs ++ ·)

theorem writes_nil : Writes [] [] := ⟨by simp, fun r => by simp⟩

theorem Writes.append {b b' : Bytes} {e e' : List Event} (h : Writes b e) (h' : Writes b' e') :
    Writes (b ++ b') (e ++ e') := by
  refine ⟨by simp [h.1, h'.1], ?_⟩
  intro r
  rw [List.append_assoc, h.2, h'.2, Option.map_map]
  congr 1
  funext x
  simp

theorem ref_run (s b r : Bytes) (h : 0x3b ∉ b) : tokens (.ref s) (b ++ 0x3b :: r) =
    (reference (s ++ b)).bind fun t => (tokens .text r).map (t.map .char ++ ·) := by
  induction b generalizing s with
  | nil => simp [tokens]
  | cons c b ih =>
    rw [List.mem_cons, not_or] at h
    have hc : ¬ c = 0x3b := fun e => h.1 e.symm
    simp only [List.cons_append, tokens, hc, if_false]
    rw [ih _ h.2]
    simp

theorem tag_run (s b r : Bytes) (h : 0x3e ∉ b) : tokens (.tag s) (b ++ 0x3e :: r) =
    (tag (s ++ b)).bind fun e => (tokens .text r).map (e :: ·) := by
  induction b generalizing s with
  | nil => simp [tokens]
  | cons c b ih =>
    rw [List.mem_cons, not_or] at h
    have hc : ¬ c = 0x3e := fun e => h.1 e.symm
    simp only [List.cons_append, tokens, hc, if_false]
    rw [ih _ h.2]
    simp

theorem writes_ref {b t : Bytes} (h : 0x3b ∉ b) (h' : 13 ∉ b) (hr : reference b = some t) :
    Writes (0x26 :: b ++ [0x3b]) (t.map .char) := by
  refine ⟨by simp [h'], ?_⟩
  intro r
  have : tokens .text (0x26 :: b ++ [0x3b] ++ r) = tokens (.ref []) (b ++ 0x3b :: r) := by
    simp [tokens]
  rw [this, ref_run [] b r h, List.nil_append, hr]
  rfl

theorem isName_mem {n : Bytes} (h : isName n = true) (c : UInt8) (hc : c ∈ n) :
    nameStart c = true ∨ (0x30 ≤ c ∧ c ≤ 0x39) ∨ c = 0x2d ∨ c = 0x2e := by
  cases n with
  | nil => cases hc
  | cons d r =>
    simp only [isName, Bool.and_eq_true, List.all_eq_true] at h
    rcases List.mem_cons.mp hc with rfl | hc
    · exact .inl h.1
    · have := h.2 c hc
      simpa [or_assoc] using this

theorem isName_no {n : Bytes} (h : isName n = true) : 0x3e ∉ n ∧ 13 ∉ n ∧ 0x2f ∉ n := by
  refine ⟨fun hc => ?_, fun hc => ?_, fun hc => ?_⟩ <;>
    exact absurd (isName_mem h _ hc) (by decide)

theorem writes_start {n : Bytes} (h : isName n = true) : Writes (0x3c :: n ++ [0x3e]) [.start n] := by
  obtain ⟨h1, h2, h3⟩ := isName_no h
  refine ⟨by simp [h2], ?_⟩
  intro r
  have : tokens .text (0x3c :: n ++ [0x3e] ++ r) = tokens (.tag []) (n ++ 0x3e :: r) := by
    simp [tokens]
  rw [this, tag_run [] n r h1, List.nil_append]
  have ht : tag n = some (.start n) := by
    unfold tag
    split
    · exact (h3 (List.mem_cons_self ..)).elim
    · simp [h]
  rw [ht]
  rfl

theorem writes_stop {n : Bytes} (h : isName n = true) : Writes (0x3c :: 0x2f :: n ++ [0x3e]) [.stop n] := by
  obtain ⟨h1, h2, h3⟩ := isName_no h
  refine ⟨by simp [h2], ?_⟩
  intro r
  have : tokens .text (0x3c :: 0x2f :: n ++ [0x3e] ++ r) = tokens (.tag []) ((0x2f :: n) ++ 0x3e :: r) := by
    simp [tokens]
  rw [this, tag_run [] (0x2f :: n) r (by simp [h1]), List.nil_append]
  simp [tag, h]

theorem writes_char {c : UInt8} (h1 : c ≠ 0x3c) (h2 : c ≠ 0x26) (h3 : 0x20 ≤ c ∨ c = 9 ∨ c = 10) :
    Writes [c] [.char c] := by
  refine ⟨?_, ?_⟩
  · intro h
    rw [List.mem_singleton] at h
    subst h
    revert h3
    decide
  · intro r
    have : (c < 0x20 && c != 9 && c != 10 && c != 13) = false := by
      rcases h3 with h | rfl | rfl
      · have : ¬ c < 0x20 := by
          rw [UInt8.lt_iff_toNat_lt]
          rw [UInt8.le_iff_toNat_le] at h
          omega
        simp [this]
      · rfl
      · rfl
    simp only [List.cons_append, List.nil_append, tokens, h1, h2, if_false, this, Bool.false_eq_true]

theorem writes_chars {s : Bytes} (h : ∀ c ∈ s, c ≠ 0x3c ∧ c ≠ 0x26 ∧ (0x20 ≤ c ∨ c = 9 ∨ c = 10)) :
    Writes s (s.map .char) := by
  induction s with
  | nil => exact writes_nil
  | cons c s ih =>
    obtain ⟨h1, h2, h3⟩ := h c (List.mem_cons_self ..)
    exact (writes_char h1 h2 h3).append (ih fun d hd => h d (List.mem_cons_of_mem _ hd))

theorem forall_byte (P : UInt8 → Prop) (h : ∀ n, n < 256 → P (UInt8.ofNat n)) (c : UInt8) : P c := by
  have := h c.toNat (UInt8.toNat_lt c)
  rwa [UInt8.ofNat_toNat] at this

theorem escapeByte_ctl : ∀ c : UInt8, (0x20 ≤ c ∨ c = 9 ∨ c = 10) →
    c = 0x26 ∨ c = 0x3c ∨ c = 0x3e ∨ c = 0x27 ∨ c = 0x22 ∨ c = 0x7f ∨ (escapeByte c = [c] ∧ c ≠ 0x3c ∧ c ≠ 0x26) := by
  apply forall_byte
  decide +kernel

theorem writes_escapeByte {c : UInt8} (h : 0x20 ≤ c ∨ c = 9 ∨ c = 10) : Writes (escapeByte c) [.char c] := by
  rcases escapeByte_ctl c h with rfl | rfl | rfl | rfl | rfl | rfl | ⟨he, h1, h2⟩
  · exact writes_ref (b := ascii "amp") (t := [0x26]) (by decide) (by decide) (by decide)
  · exact writes_ref (b := ascii "lt") (t := [0x3c]) (by decide) (by decide) (by decide)
  · exact writes_ref (b := ascii "gt") (t := [0x3e]) (by decide) (by decide) (by decide)
  · exact writes_ref (b := ascii "apos") (t := [0x27]) (by decide) (by decide) (by decide)
  · exact writes_ref (b := ascii "quot") (t := [0x22]) (by decide) (by decide) (by decide)
  · exact writes_ref (b := ascii "#x7f") (t := [0x7f]) (by decide) (by decide) (by decide)
  · rw [he]
    exact writes_char h1 h2 h

theorem c1_ref : ∀ d : UInt8, c1 d = true →
    charRef d = 0x26 :: (ascii "#x" ++ hex d) ++ [0x3b] ∧ 0x3b ∉ ascii "#x" ++ hex d ∧ 13 ∉ ascii "#x" ++ hex d ∧
      reference (ascii "#x" ++ hex d) = some [0xc2, d] := by
  apply forall_byte
  decide +kernel

theorem writes_escape (s : Bytes) (h : Plain s) : Writes (escape s) (s.map .char) := by
  fun_induction escape s with
  | case1 => exact writes_nil
  | case2 c => exact writes_escapeByte (h c (by simp))
  | case3 c d r hc ih =>
    simp only [Bool.and_eq_true, decide_eq_true_eq] at hc
    obtain ⟨rfl, hd⟩ := hc
    obtain ⟨e, h1, h2, h3⟩ := c1_ref d hd
    rw [e]
    exact (writes_ref h1 h2 h3).append (ih fun x hx => h x (by simp [hx]))
  | case4 c d r hc ih =>
    exact (writes_escapeByte (h c (by simp))).append (ih fun x hx => h x (List.mem_cons_of_mem _ hx))

/-! ### the events of a configuration -/

/-- text -/
def chars (s : Bytes) : List Event := s.map .char

/-- an element on a line -/
def leafEv (name t : Bytes) (n : Nat) : List Event :=
  chars (indent n) ++ [.start name] ++ chars t ++ [.stop name] ++ chars [10]

/-- an element that may be absent -/
def maybeEv (name : Bytes) (t : Option Bytes) (n : Nat) : List Event :=
  match t with
  | some t => leafEv name t n
  | none => []

/-- a tag on a line -/
def openEv (name : Bytes) (n : Nat) : List Event := chars (indent n) ++ [.start name] ++ chars [10]

/-- an end tag on a line -/
def closeEv (name : Bytes) (n : Nat) : List Event := chars (indent n) ++ [.stop name] ++ chars [10]

/-- a milter -/
def eggEv (e : Egg) (n : Nat) : List Event :=
  openEv (ascii "milter") n ++
  maybeEv (ascii "name") e.name (n + 2) ++
  maybeEv (ascii "description") e.description (n + 2) ++
  leafEv (ascii "enabled") (if e.enabled then ascii "true" else ascii "false") (n + 2) ++
  leafEv (ascii "fallback-status") (statusNick e.fallback) (n + 2) ++
  leafEv (ascii "evaluation-mode") (if e.evaluation then ascii "true" else ascii "false") (n + 2) ++
  maybeEv (ascii "connection-spec") e.connectionSpec (n + 2) ++
  maybeEv (ascii "command") e.command (n + 2) ++
  maybeEv (ascii "command-options") e.commandOptions (n + 2) ++
  (if e.conditions.isEmpty then []
   else openEv (ascii "applicable-conditions") (n + 2) ++
    (e.conditions.flatMap fun c => leafEv (ascii "applicable-condition") (conditionName c) (n + 4)) ++
    closeEv (ascii "applicable-conditions") (n + 2)) ++
  closeEv (ascii "milter") n

/-- a condition -/
def conditionEv (c : Condition) (n : Nat) : List Event :=
  openEv (ascii "applicable-condition") n ++
  leafEv (ascii "name") (conditionName c) (n + 2) ++
  maybeEv (ascii "description") c.description (n + 2) ++
  closeEv (ascii "applicable-condition") n

/-- a configuration -/
def confEv (modified : Option Bytes) (c : Conf) (n : Nat) : List Event :=
  openEv (ascii "configuration") n ++
  maybeEv (ascii "last-modified") modified (n + 2) ++
  (if c.conditions.isEmpty then []
   else openEv (ascii "applicable-conditions") (n + 2) ++
    (c.conditions.flatMap fun x => conditionEv x (n + 4)) ++
    closeEv (ascii "applicable-conditions") (n + 2)) ++
  (if c.eggs.isEmpty then []
   else openEv (ascii "milters") (n + 2) ++
    (c.eggs.flatMap fun e => eggEv e (n + 4)) ++
    closeEv (ascii "milters") (n + 2)) ++
  closeEv (ascii "configuration") n

theorem writes_indent (n : Nat) : Writes (indent n) (chars (indent n)) := by
  apply writes_chars
  intro c hc
  rw [List.eq_of_mem_replicate hc]
  decide

theorem writes_newline : Writes [0x0a] (chars [10]) := writes_chars (by decide)

theorem writes_leaf {name t : Bytes} (n : Nat) (hn : isName name = true) (ht : Plain t) :
    Writes (textElement name t n) (leafEv name t n) :=
  ((((writes_indent n).append (writes_start hn)).append (writes_escape t ht)).append (writes_stop hn)).append
    writes_newline

theorem writes_maybe {name : Bytes} {t : Option Bytes} (n : Nat) (hn : isName name = true) (ht : ∀ s ∈ t, Plain s) :
    Writes (optionalElement name t n) (maybeEv name t n) := by
  cases t with
  | none => exact writes_nil
  | some t => exact writes_leaf n hn (ht t rfl)

theorem writes_open {name : Bytes} (n : Nat) (hn : isName name = true) : Writes (openLine name n) (openEv name n) :=
  ((writes_indent n).append (writes_start hn)).append writes_newline

theorem writes_close {name : Bytes} (n : Nat) (hn : isName name = true) : Writes (closeLine name n) (closeEv name n) :=
  ((writes_indent n).append (writes_stop hn)).append writes_newline

theorem writes_flatMap {α : Type} (l : List α) (f : α → Bytes) (g : α → List Event) (h : ∀ x ∈ l, Writes (f x) (g x)) :
    Writes (l.flatMap f) (l.flatMap g) := by
  induction l with
  | nil => exact writes_nil
  | cons x l ih =>
    rw [List.flatMap_cons, List.flatMap_cons]
    exact (h x (List.mem_cons_self ..)).append (ih fun y hy => h y (List.mem_cons_of_mem _ hy))

theorem plain_truth (b : Bool) : Plain (if b then ascii "true" else ascii "false") := by
  cases b <;> (unfold Plain; decide)

theorem plain_status (s : Status) : Plain (statusNick s) := by
  cases s <;> (unfold Plain; decide)

theorem writes_egg (e : Egg) (n : Nat) (h : PlainEgg e) : Writes (eggXml e n) (eggEv e n) := by
  obtain ⟨h1, h2, h3, h4, h5, h6⟩ := h
  refine Writes.append (Writes.append ?_ ?_) (writes_close _ (by decide))
  · exact ((((((((writes_open _ (by decide)).append (writes_maybe _ (by decide) h1)).append
      (writes_maybe _ (by decide) h2)).append (writes_leaf _ (by decide) (plain_truth _))).append
      (writes_leaf _ (by decide) (plain_status _))).append (writes_leaf _ (by decide) (plain_truth _))).append
      (writes_maybe _ (by decide) h3)).append (writes_maybe _ (by decide) h4)).append (writes_maybe _ (by decide) h5)
  · split
    · exact writes_nil
    · exact ((writes_open _ (by decide)).append
        (writes_flatMap _ _ _ fun c hc => writes_leaf _ (by decide) (h6 c hc))).append (writes_close _ (by decide))

theorem writes_condition (c : Condition) (n : Nat) (h : Plain (conditionName c)) (h' : ∀ t ∈ c.description, Plain t) :
    Writes (conditionXml c n) (conditionEv c n) :=
  (((writes_open _ (by decide)).append (writes_leaf _ (by decide) h)).append (writes_maybe _ (by decide) h')).append
    (writes_close _ (by decide))

theorem writes_conf (modified : Option Bytes) (c : Conf) (n : Nat) (h : PlainConf modified c) :
    Writes (toXml modified c n) (confEv modified c n) := by
  obtain ⟨h1, h2, h3⟩ := h
  refine Writes.append (Writes.append (Writes.append ((writes_open _ (by decide)).append
    (writes_maybe _ (by decide) h1)) ?_) ?_) (writes_close _ (by decide))
  · split
    · exact writes_nil
    · exact ((writes_open _ (by decide)).append
        (writes_flatMap _ _ _ fun c hc => writes_condition c _ (h3 c hc).1 (h3 c hc).2)).append (writes_close _ (by decide))
  · split
    · exact writes_nil
    · exact ((writes_open _ (by decide)).append
        (writes_flatMap _ _ _ fun e he => writes_egg e _ (h2 e he))).append (writes_close _ (by decide))

theorem lineEnds_eq (b : Bytes) (h : 13 ∉ b) : lineEnds b = b := by
  fun_induction lineEnds b <;> simp_all

theorem events_conf (modified : Option Bytes) (c : Conf) (n : Nat) (h : PlainConf modified c) :
    events (toXml modified c n) = some (confEv modified c n) := by
  have hw := writes_conf modified c n h
  unfold events
  rw [lineEnds_eq _ hw.1]
  have := hw.2 []
  simpa [tokens] using this

/-! ### from events to a tree -/

/-- these events, inside any element, add white space and these elements to it -/
def Adds (evs : List Event) (ns : List Node) : Prop :=
  ∃ w, blank w = true ∧ ∀ f st r, build (f :: st) (evs ++ r) =
    build ({ f with text := f.text ++ w, nodes := f.nodes ++ ns } :: st) r

theorem adds_nil : Adds [] [] := ⟨[], rfl, fun f st r => by simp⟩

theorem Adds.append {a b : List Event} {m n : List Node} (ha : Adds a m) (hb : Adds b n) : Adds (a ++ b) (m ++ n) := by
  obtain ⟨v, hv, ha⟩ := ha
  obtain ⟨w, hw, hb⟩ := hb
  refine ⟨v ++ w, by simp_all [blank], ?_⟩
  intro f st r
  rw [List.append_assoc, ha, hb]
  simp

theorem build_char (f : Frame) (st : List Frame) (c : UInt8) (r : List Event) :
    build (f :: st) (.char c :: r) = build ({ f with text := f.text ++ [c] } :: st) r := by
  simp [build]

theorem build_start (f : Frame) (st : List Frame) (n : Bytes) (r : List Event) :
    build (f :: st) (.start n :: r) = build (⟨n, [], []⟩ :: f :: st) r := by
  simp [build]

theorem build_chars (s : Bytes) (f : Frame) (st : List Frame) (r : List Event) :
    build (f :: st) (chars s ++ r) = build ({ f with text := f.text ++ s } :: st) r := by
  induction s generalizing f with
  | nil => simp [chars]
  | cons c s ih =>
    change build (f :: st) (.char c :: (chars s ++ r)) = _
    rw [build_char, ih]
    simp

theorem adds_chars {s : Bytes} (h : blank s = true) : Adds (chars s) [] :=
  ⟨s, h, fun f st r => by rw [build_chars]; simp⟩

theorem blank_indent (n : Nat) : blank (indent n) = true := by
  simp [blank, indent]

theorem adds_elem_leaf (name t : Bytes) : Adds ([.start name] ++ chars t ++ [.stop name]) [.leaf name t] := by
  refine ⟨[], rfl, ?_⟩
  intro f st r
  have : [Event.start name] ++ chars t ++ [.stop name] ++ r = .start name :: (chars t ++ (.stop name :: r)) := by simp
  rw [this, build_start, build_chars]
  simp [build, close]

theorem adds_elem_branch {name : Bytes} {evs : List Event} {n : Node} {ns : List Node} (h : Adds evs (n :: ns)) :
    Adds ([.start name] ++ evs ++ [.stop name]) [.branch name (n :: ns)] := by
  obtain ⟨w, hw, h⟩ := h
  refine ⟨[], rfl, ?_⟩
  intro f st r
  have : [Event.start name] ++ evs ++ [.stop name] ++ r = .start name :: (evs ++ (.stop name :: r)) := by simp
  rw [this, build_start, h]
  simp [build, close, hw]

theorem adds_leaf (name t : Bytes) (n : Nat) : Adds (leafEv name t n) [.leaf name t] := by
  have := ((adds_chars (blank_indent n)).append (adds_elem_leaf name t)).append (adds_chars (s := [10]) rfl)
  simpa [leafEv] using this

theorem adds_maybe (name : String) (t : Option Bytes) (n : Nat) : Adds (maybeEv (ascii name) t n) (maybe name t) := by
  cases t with
  | none => exact adds_nil
  | some t => exact adds_leaf _ t n

theorem adds_branch {name : Bytes} (n : Nat) {evs : List Event} {x : Node} {ns : List Node} (h : Adds evs (x :: ns)) :
    Adds (openEv name n ++ evs ++ closeEv name n) [.branch name (x :: ns)] := by
  have h1 : Adds (chars [10] ++ evs ++ chars (indent n)) (x :: ns) := by
    have := ((adds_chars (s := [10]) rfl).append h).append (adds_chars (blank_indent n))
    simpa using this
  have := ((adds_chars (blank_indent n)).append (adds_elem_branch (name := name) h1)).append (adds_chars (s := [10]) rfl)
  simpa [openEv, closeEv] using this

theorem adds_flatMap {α : Type} (l : List α) (g : α → List Event) (node : α → Node) (h : ∀ x ∈ l, Adds (g x) [node x]) :
    Adds (l.flatMap g) (l.map node) := by
  induction l with
  | nil => exact adds_nil
  | cons x l ih =>
    rw [List.flatMap_cons, List.map_cons]
    exact (h x (List.mem_cons_self ..)).append (ih fun y hy => h y (List.mem_cons_of_mem _ hy))

theorem adds_group {α : Type} (name : String) (n : Nat) (l : List α) (g : α → List Event) (node : α → Node)
    (h : ∀ x ∈ l, Adds (g x) [node x]) :
    Adds (if l.isEmpty then [] else openEv (ascii name) n ++ l.flatMap g ++ closeEv (ascii name) n)
      (group name (l.map node)) := by
  cases l with
  | nil => exact adds_nil
  | cons x l =>
    exact adds_branch n (adds_flatMap (x :: l) g node h)

theorem truth_eq (name : String) (b : Bool) :
    truth name b = .leaf (ascii name) (if b then ascii "true" else ascii "false") := by
  cases b <;> rfl

theorem adds_egg (e : Egg) (n : Nat) : Adds (eggEv e n) [milter e] := by
  have inner := (((((((((adds_maybe "name" e.name (n + 2)).append
      (adds_maybe "description" e.description (n + 2))).append
      (adds_leaf (ascii "enabled") (if e.enabled then ascii "true" else ascii "false") (n + 2))).append
      (adds_leaf (ascii "fallback-status") (statusNick e.fallback) (n + 2))).append
      (adds_leaf (ascii "evaluation-mode") (if e.evaluation then ascii "true" else ascii "false") (n + 2))).append
      (adds_maybe "connection-spec" e.connectionSpec (n + 2))).append
      (adds_maybe "command" e.command (n + 2))).append
      (adds_maybe "command-options" e.commandOptions (n + 2))).append
      (adds_group "applicable-conditions" (n + 2) e.conditions
        (fun c => leafEv (ascii "applicable-condition") (conditionName c) (n + 4))
        (fun c => .leaf (ascii "applicable-condition") (conditionName c))
        (fun c _ => adds_leaf _ _ _)))
  rw [← truth_eq, ← truth_eq] at inner
  have hne : ∃ x ns, maybe "name" e.name ++ maybe "description" e.description ++ [truth "enabled" e.enabled] ++
      [.leaf (ascii "fallback-status") (statusNick e.fallback)] ++ [truth "evaluation-mode" e.evaluation] ++
      maybe "connection-spec" e.connectionSpec ++ maybe "command" e.command ++
      maybe "command-options" e.commandOptions ++
      group "applicable-conditions"
        (e.conditions.map fun c => .leaf (ascii "applicable-condition") (conditionName c)) = x :: ns := by
    cases e.name with
    | some t => exact ⟨_, _, rfl⟩
    | none =>
      cases e.description with
      | some t => exact ⟨_, _, rfl⟩
      | none => exact ⟨_, _, rfl⟩
  obtain ⟨x, ns, hx⟩ := hne
  rw [hx] at inner
  have := adds_branch (name := ascii "milter") n inner
  rw [← hx] at this
  simpa [eggEv, milter] using this

theorem adds_condition (c : Condition) (n : Nat) : Adds (conditionEv c n) [condition c] := by
  have := adds_branch (name := ascii "applicable-condition") n
    ((adds_leaf (ascii "name") (conditionName c) (n + 2)).append (adds_maybe "description" c.description (n + 2)))
  simpa [conditionEv, condition] using this

theorem adds_conf (modified : Option Bytes) (c : Conf) : Adds (confEv modified c 0) [document modified c] := by
  have inner := ((adds_maybe "last-modified" modified 2).append
    (adds_group "applicable-conditions" 2 c.conditions (fun x => conditionEv x 4) condition
      (fun x _ => adds_condition x 4))).append
    (adds_group "milters" 2 c.eggs (fun e => eggEv e 4) milter (fun e _ => adds_egg e 4))
  change Adds _ (parts modified c) at inner
  unfold document
  cases hp : parts modified c with
  | nil =>
    have : confEv modified c 0 = leafEv (ascii "configuration") [10] 0 := by
      unfold parts at hp
      rw [List.append_eq_nil_iff, List.append_eq_nil_iff] at hp
      obtain ⟨⟨h1, h2⟩, h3⟩ := hp
      have e1 : modified = none := by
        cases modified with
        | none => rfl
        | some t => cases h1
      have e2 : c.conditions = [] := by
        cases hc : c.conditions with
        | nil => rfl
        | cons x l => rw [hc] at h2; cases h2
      have e3 : c.eggs = [] := by
        cases hc : c.eggs with
        | nil => rfl
        | cons x l => rw [hc] at h3; cases h3
      simp [confEv, e1, e2, e3, maybeEv, openEv, closeEv, leafEv, indent, chars]
    rw [this]
    exact adds_leaf _ _ _
  | cons x ns =>
    rw [hp] at inner
    have := adds_branch (name := ascii "configuration") 0 inner
    simpa [confEv] using this

/-- C85 (partial).  For every configuration whose texts XML can carry, whatever quotes, angle
brackets, ampersands or entities they contain, the XML the controller hands out is a document
that reads as exactly the tree that lists the modification time, the applicable conditions and
the milters in order, each with its settings.  What is missing: texts with control characters
or carriage returns (`C85_violated`, `C85_carriage_return_violated`). -/
theorem C85_partial (modified : Option Bytes) (c : Conf) (h : PlainConf modified c) :
    parse (toXml modified c 0) = some (document modified c) := by
  obtain ⟨w, hw, ha⟩ := adds_conf modified c
  have := ha ⟨[], [], []⟩ [] []
  unfold parse
  rw [events_conf modified c 0 h]
  simp only [Option.bind_some, List.append_nil, List.nil_append] at this ⊢
  rw [this]
  simp [build, hw]

/-- a milter whose name and description are full of markup -/
def exEgg : Egg :=
  { name := some (ascii "</name><name>a & b"), description := some (ascii "\"&lt;\" ' \n]]>"),
    connectionSpec := some (ascii "inet:10025@[::1]"), conditions := [{ name := some (ascii "S25R") }] }

/-- a configuration with that milter -/
def exConf (e : Egg) : Conf := { newConf ⟨none, none, none, none, none, ascii "inet:1", none⟩ [] with eggs := [e] }

example : PlainConf (some (ascii "1283232")) (exConf exEgg) := by
  refine ⟨?_, ?_, ?_⟩
  · intro t ht
    cases ht
    unfold Plain
    decide
  · intro e he
    rcases List.mem_cons.mp he with rfl | he
    · refine ⟨?_, ?_, ?_, ?_, ?_, ?_⟩
      · intro t ht; cases ht; unfold Plain; decide
      · intro t ht; cases ht; unfold Plain; decide
      · intro t ht; cases ht; unfold Plain; decide
      · intro t ht; cases ht
      · intro t ht; cases ht
      · intro x hx
        rcases List.mem_cons.mp hx with rfl | hx
        · unfold Plain; decide
        · cases hx
    · cases he
  · intro x hx
    cases hx

/-- C85 is violated: a control character in a description makes the document one that no XML
reader may accept. -/
theorem C85_violated : ∃ c : Conf, (parse (toXml none c 0)).isNone = true ∧
    ∃ e ∈ c.eggs, e.description = some [1] :=
  ⟨exConf { name := some (ascii "a"), description := some [1] }, by decide +kernel, _, List.mem_cons_self .., rfl⟩

/-- C85 is violated: a carriage return comes back as a newline, so that two configurations with
different milters have the same meaning. -/
theorem C85_carriage_return_violated : ∃ c c' : Conf, c.eggs ≠ c'.eggs ∧
    events (toXml none c 0) = events (toXml none c' 0) ∧ (events (toXml none c 0)).isSome = true :=
  ⟨exConf { name := some (ascii "a"), description := some [13] },
    exConf { name := some (ascii "a"), description := some [10] }, by decide, by decide +kernel, by decide +kernel⟩

end Verif.Props.Xml
