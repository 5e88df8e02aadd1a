import Verif.Spec.PythonSettings
/-
The settings of a milter written in Python (C144).
-/
namespace Verif.Props.PythonSettings
open Verif Verif.PythonSettings Verif.Spec.PythonSettings

/-- the section of a setting -/
def sectionOf : Key → Bytes
  | .environment => ascii "basic"
  | .logLevel | .logPath | .useSyslog | .syslogFacility => ascii "log"
  | _ => ascii "milter"

theorem attribute_inj {k k' : Key} (h : k.attribute = k'.attribute) : k = k' := by
  cases k <;> cases k' <;> first | rfl | exact absurd h (by decide)

theorem rows_fit : ∀ r ∈ rows, r.section_ = sectionOf r.key ∧ r.isBool = isSwitch r.key := by
  intro r hr
  simp only [rows, List.mem_cons, List.not_mem_nil, or_false] at hr
  rcases hr with rfl | rfl | rfl | rfl | rfl | rfl | rfl | rfl | rfl | rfl | rfl | rfl | rfl | rfl | rfl <;> exact ⟨rfl, rfl⟩

theorem plain_entry {e : Entry} (h : PlainEntry e) :
    ∃ k, e.section_ = sectionOf k ∧ e.option = k.attribute ∧ written e = some (k, value k e.text) ∧ (isSwitch k = true → (truth e.text).isSome) ∧ k ≠ .effectiveGroup := by
  obtain ⟨s, o, t⟩ := e
  obtain ⟨k, h1, h2, h3⟩ := h
  simp only [settings, List.mem_cons, List.not_mem_nil, or_false, Prod.mk.injEq] at h1
  rcases h1 with ⟨rfl, rfl, rfl⟩ | ⟨rfl, rfl, rfl⟩ | ⟨rfl, rfl, rfl⟩ | ⟨rfl, rfl, rfl⟩ | ⟨rfl, rfl, rfl⟩ | ⟨rfl, rfl, rfl⟩ | ⟨rfl, rfl, rfl⟩ | ⟨rfl, rfl, rfl⟩ |
    ⟨rfl, rfl, rfl⟩ | ⟨rfl, rfl, rfl⟩ | ⟨rfl, rfl, rfl⟩ | ⟨rfl, rfl, rfl⟩ | ⟨rfl, rfl, rfl⟩ | ⟨rfl, rfl, rfl⟩ | ⟨rfl, rfl, rfl⟩ <;>
    first
    | exact ⟨_, rfl, rfl, rfl, h3, fun h => nomatch h⟩
    | exact absurd (by simp) h2

theorem boolean_truth (t : Bytes) : boolean t = truth t := by
  unfold boolean truth
  dsimp only
  generalize t.map Headers.lower = u
  by_cases h1 : u ∈ [ascii "1", ascii "yes", ascii "true", ascii "on"]
  · rw [if_pos h1]
    simp only [List.mem_cons, List.not_mem_nil, or_false] at h1
    rcases h1 with rfl | rfl | rfl | rfl <;> decide
  · rw [if_neg h1]
    by_cases h2 : u ∈ [ascii "0", ascii "no", ascii "false", ascii "off"]
    · rw [if_pos h2]
      simp only [List.mem_cons, List.not_mem_nil, or_false] at h2
      rcases h2 with rfl | rfl | rfl | rfl <;> decide
    · rw [if_neg h2]
      have : words.find? (fun w => w.1 == u) = none := by
        rw [List.find?_eq_none]
        intro w hw hu
        have hu : w.1 = u := eq_of_beq hu
        simp only [words, List.mem_cons, List.not_mem_nil, or_false] at hw
        rcases hw with rfl | rfl | rfl | rfl | rfl | rfl | rfl | rfl <;> first | (refine h1 ?_; simp [← hu]; done) | (refine h2 ?_; simp [← hu]; done)
      rw [this]
      rfl

/-- what the last setting found is -/
def found (k : Key) (d : Value) : Option Bytes → Value
  | none => d
  | some t => value k t

theorem find_last (k : Key) (d : Value) (es : List Entry) (h : ∀ e ∈ es, PlainEntry e) : ∀ acc : Option Bytes,
    last k (found k d acc) (es.filterMap written) = found k d (find (sectionOf k) k.attribute acc es) := by
  induction es with
  | nil => exact fun _ => rfl
  | cons e es ih =>
    intro acc
    have ih := ih fun e' he' => h e' (List.mem_cons_of_mem _ he')
    obtain ⟨k', h1, h2, h3, _⟩ := plain_entry (h e List.mem_cons_self)
    rw [List.filterMap_cons, h3]
    show last k (if k' = k then value k' e.text else found k d acc) _ = found k d (find _ _ (if e.section_ = sectionOf k ∧ e.option = k.attribute then _ else _) es)
    rw [h1, h2]
    by_cases hk : k' = k
    · subst hk
      rw [if_pos rfl, if_pos ⟨rfl, rfl⟩, ← ih]
      rfl
    · rw [if_neg hk, if_neg (fun hh => hk (attribute_inj hh.2)), ih]

theorem find_legal (k : Key) (hk : isSwitch k = true) (es : List Entry) (h : ∀ e ∈ es, PlainEntry e) : ∀ acc : Option Bytes, (∀ t, acc = some t → (truth t).isSome) →
    ∀ t, find (sectionOf k) k.attribute acc es = some t → (truth t).isSome := by
  induction es with
  | nil => exact fun _ h => h
  | cons e es ih =>
    intro acc hacc
    refine ih (fun e' he' => h e' (List.mem_cons_of_mem _ he')) _ ?_
    intro t ht
    obtain ⟨k', h1, h2, _, h4, _⟩ := plain_entry (h e List.mem_cons_self)
    split at ht
    · rename_i hh
      cases ht
      refine h4 ?_
      rw [h2] at hh
      rw [attribute_inj hh.2]
      exact hk
    · exact hacc t ht

theorem setConfig_plain (es : List Entry) (h : ∀ e ∈ es, PlainEntry e) (n : Namespace) (r : Row) (hr : r.section_ = sectionOf r.key ∧ r.isBool = isSwitch r.key) :
    setConfig es n r = some (n.put r.key (last r.key (n r.key) (es.filterMap written))) := by
  have e := find_last r.key (n r.key) es h none
  rw [show found r.key (n r.key) none = n r.key from rfl] at e
  have hl := fun hb => find_legal r.key hb es h none (fun _ h => nomatch h)
  unfold setConfig
  rw [e, hr.1]
  cases hf : find (sectionOf r.key) r.key.attribute none es with
  | none =>
    show some n = some (n.put r.key (n r.key))
    congr 1
    funext k
    unfold Namespace.put
    split
    · rename_i hk; rw [hk]
    · rfl
  | some t =>
    show (if r.isBool = true then _ else _) = some (n.put r.key (value r.key t))
    unfold value
    rw [hr.2]
    by_cases hb : isSwitch r.key = true
    · rw [if_pos hb, if_pos hb]
      obtain ⟨b, hb'⟩ := Option.isSome_iff_exists.mp (hl hb t hf)
      rw [boolean_truth, hb']
      rfl
    · rw [if_neg hb, if_neg hb]

theorem setAll_plain (es : List Entry) (h : ∀ e ∈ es, PlainEntry e) (rs : List Row) : ∀ (n : Namespace), (∀ r ∈ rs, r.section_ = sectionOf r.key ∧ r.isBool = isSwitch r.key) →
    (rs.map (·.key)).Nodup →
    ∃ n', setAll es rs n = some n' ∧ ∀ k, n' k = if k ∈ rs.map (·.key) then last k (n k) (es.filterMap written) else n k := by
  induction rs with
  | nil => exact fun n _ _ => ⟨n, rfl, fun k => rfl⟩
  | cons r rs ih =>
    intro n hr hn
    rw [List.map_cons, List.nodup_cons] at hn
    obtain ⟨n', h1, h2⟩ := ih (n.put r.key (last r.key (n r.key) (es.filterMap written))) (fun r' hr' => hr r' (List.mem_cons_of_mem _ hr')) hn.2
    refine ⟨n', ?_, fun k => ?_⟩
    · unfold setAll
      rw [setConfig_plain es h n r (hr r List.mem_cons_self)]
      exact h1
    · rw [h2 k, List.map_cons]
      unfold Namespace.put
      by_cases hk : k = r.key
      · subst hk
        rw [if_neg hn.1, if_pos rfl, if_pos List.mem_cons_self]
      · rw [if_neg hk]
        by_cases hm : k ∈ rs.map (·.key)
        · rw [if_pos hm, if_pos (List.mem_cons_of_mem _ hm)]
        · rw [if_neg hm, if_neg (fun hh => (List.mem_cons.mp hh).elim hk hm)]

theorem last_append (k : Key) (a b : List (Key × Value)) : ∀ d, last k d (a ++ b) = last k (last k d a) b := by
  induction a with
  | nil => exact fun _ => rfl
  | cons x a ih => exact fun d => ih _

theorem last_absent (k : Key) (l : List (Key × Value)) : (∀ x ∈ l, x.1 ≠ k) → ∀ d, last k d l = d := by
  induction l with
  | nil => exact fun _ _ => rfl
  | cons x l ih =>
    intro h d
    show last k (if x.1 = k then _ else d) l = d
    rw [if_neg (h x List.mem_cons_self), ih fun y hy => h y (List.mem_cons_of_mem _ hy)]

theorem put_last (n : Namespace) (k' : Key) (v : Value) (k : Key) : (n.put k' v) k = last k (n k) [(k', v)] := by
  show (if k = k' then v else n k) = if k' = k then v else n k
  by_cases h : k = k'
  · rw [if_pos h, if_pos h.symm]
  · rw [if_neg h, if_neg (fun hh => h hh.symm)]

theorem written_name {es : List Entry} (h : ∀ e ∈ es, PlainEntry e) : ∀ x ∈ es.filterMap written, x.1 ≠ .name ∧ x.1 ≠ .effectiveGroup := by
  intro x hx
  obtain ⟨e, he, hw⟩ := List.mem_filterMap.mp hx
  obtain ⟨k, _, h2, h3, _, h5⟩ := plain_entry (h e he)
  rw [h3] at hw
  cases hw
  refine ⟨?_, h5⟩
  intro hk
  have hk : k = .name := hk
  subst hk
  obtain ⟨s, o, t⟩ := e
  obtain ⟨k, h1, _⟩ := h _ he
  have h2 : o = ascii "name" := h2
  subst h2
  simp only [settings, List.mem_cons, List.not_mem_nil, or_false, Prod.mk.injEq] at h1
  rcases h1 with h1 | h1 | h1 | h1 | h1 | h1 | h1 | h1 | h1 | h1 | h1 | h1 | h1 | h1 | h1 <;> exact absurd h1.2.1 (by decide)

theorem option_plain (w : World) (p : Parsed) (o : Switch) (ho : PlainOption w o) (hc : isConfiguration o = true → p.config = []) :
    ∃ p', option w p o = .ok p' ∧ (isConfiguration o = false → p'.config = p.config) ∧ ∀ k, p'.values k = last k (p.values k) (given o) := by
  cases o with
  | help => exact ho.elim
  | bad => exact ho.elim
  | group s => exact ho.elim
  | configuration file =>
    have ho : ∀ e ∈ file, PlainEntry e := ho
    obtain ⟨n', h1, h2⟩ := setAll_plain file ho rows p.values rows_fit (by decide)
    refine ⟨⟨n', p.config ++ file⟩, ?_, (fun h => nomatch h), fun k => ?_⟩
    · unfold option
      dsimp only
      rw [hc rfl, List.nil_append, h1]
    · rw [show (Parsed.mk n' (p.config ++ file)).values k = n' k from rfl, h2 k]
      by_cases hk : k ∈ rows.map (·.key)
      · rw [if_pos hk]; rfl
      · rw [if_neg hk]
        have : k = .name := by cases k <;> first | rfl | exact absurd (by decide) hk
        subst this
        exact (last_absent _ _ (fun x hx => (written_name ho x hx).1) _).symm
  | fallbackStatus s =>
    have ho : s ∈ fallbacks := ho
    exact ⟨{ p with values := p.values.put .fallbackStatus (.text s) }, if_pos ho, fun _ => rfl, fun k => put_last _ _ _ k⟩
  | eventLoopBackend s =>
    have ho : s ∈ backends := ho
    exact ⟨{ p with values := p.values.put .eventLoopBackend (.text s) }, if_pos ho, fun _ => rfl, fun k => put_last _ _ _ k⟩
  | syslogFacility s =>
    have ho : s ∈ w.facilities := ho
    exact ⟨{ p with values := p.values.put .syslogFacility (.text s) }, if_pos ho, fun _ => rfl, fun k => put_last _ _ _ k⟩
  | _ => exact ⟨_, rfl, fun _ => rfl, fun k => put_last _ _ _ k⟩

theorem parse_plain (w : World) (argv : List Switch) : ∀ (p : Parsed), (∀ o ∈ argv, PlainOption w o) →
    (argv.filter isConfiguration).length ≤ (if p.config = [] then 1 else 0) →
    ∃ p', parse w p argv = .ok p' ∧ ∀ k, p'.values k = last k (p.values k) (argv.flatMap given) := by
  induction argv with
  | nil => exact fun p _ _ => ⟨p, rfl, fun _ => rfl⟩
  | cons o argv ih =>
    intro p ho hc
    have hc0 : isConfiguration o = true → p.config = [] ∧ (argv.filter isConfiguration).length = 0 := by
      intro h
      rw [List.filter_cons, if_pos h, List.length_cons] at hc
      by_cases hp : p.config = []
      · rw [if_pos hp] at hc; exact ⟨hp, by omega⟩
      · rw [if_neg hp] at hc; omega
    obtain ⟨p1, h1, h2, h3⟩ := option_plain w p o (ho o List.mem_cons_self) (fun h => (hc0 h).1)
    obtain ⟨p', h4, h5⟩ := ih p1 (fun o' ho' => ho o' (List.mem_cons_of_mem _ ho')) (by
      cases h : isConfiguration o with
      | true => rw [(hc0 h).2]; exact Nat.zero_le _
      | false =>
        rw [h2 h]
        rw [List.filter_cons, h] at hc
        exact hc)
    refine ⟨p', ?_, fun k => ?_⟩
    · unfold parse
      rw [h1]
      exact h4
    · rw [h5 k, h3 k, List.flatMap_cons, last_append]

theorem word_eq (v : Value) : word v = text v := by
  cases v with
  | text s => cases s <;> rfl
  | _ => rfl

theorem digits_octal (s : Bytes) : ∀ n, (∀ c ∈ s, 0x30 ≤ c.toNat ∧ c.toNat ≤ 0x37) → digits 8 s n = some (s.foldl (fun n c => n * 8 + (c.toNat - 48)) n) := by
  induction s with
  | nil => exact fun _ _ => rfl
  | cons c s ih =>
    intro n h
    have hc := h c List.mem_cons_self
    show (if _ then _ else _) = _
    rw [if_pos ⟨hc.1, by omega⟩]
    exact ih _ fun c' hc' => h c' (List.mem_cons_of_mem _ hc')

theorem mode_eq (v : Value) (h : ∀ s, text v = some s → s.head? = some 0x30 ∧ ∀ c ∈ s, 0x30 ≤ c.toNat ∧ c.toNat ≤ 0x37) :
    PythonSettings.mode v = some (Spec.PythonSettings.mode v) := by
  cases v with
  | text s =>
    cases s with
    | nil => rfl
    | cons c cs =>
      obtain ⟨h1, h2⟩ := h (c :: cs) rfl
      have h1 : c = 0x30 := Option.some.inj h1
      subst h1
      show ((digits 8 (0x30 :: cs) 0).map fun n => (n : Int)).map some = _
      rw [digits_octal (0x30 :: cs) 0 h2]
      rfl
  | _ => rfl

theorem digits_decimal (s : Bytes) : ∀ n, (∀ c ∈ s, 0x30 ≤ c.toNat ∧ c.toNat ≤ 0x39) → digits 10 s n = some (s.foldl (fun n c => n * 10 + (c.toNat - 48)) n) := by
  induction s with
  | nil => exact fun _ _ => rfl
  | cons c s ih =>
    intro n h
    have hc := h c List.mem_cons_self
    show (if _ then _ else _) = _
    rw [if_pos ⟨hc.1, by omega⟩]
    exact ih _ fun c' hc' => h c' (List.mem_cons_of_mem _ hc')

theorem toInt_number {s : Bytes} {n : Int} (h : IsNumber s n) : toInt 10 s = some n := by
  obtain ⟨ds, h1, h2, h3⟩ := h
  have e := digits_decimal ds 0 h2
  cases ds with
  | nil => exact absurd rfl h1
  | cons d ds =>
    rcases h3 with ⟨rfl, rfl⟩ | ⟨rfl, rfl⟩ | ⟨rfl, rfl⟩
    · have hd := (h2 d List.mem_cons_self).1
      have g1 : d ≠ 0x2d := fun h => by rw [h] at hd; exact absurd hd (by decide)
      have g2 : d ≠ 0x2b := fun h => by rw [h] at hd; exact absurd hd (by decide)
      have : toInt 10 (d :: ds) = (digits 10 (d :: ds) 0).map fun n => (n : Int) := by
        unfold toInt
        split
        · rename_i hh; cases hh
        · rename_i hh; exact absurd (List.cons.inj hh).1 g1
        · rename_i hh; exact absurd (List.cons.inj hh).1 g2
        · rfl
      rw [this, e]
      rfl
    · simp only [toInt, e]
      rfl
    · simp only [toInt, e]
      rfl

theorem limit_eq (v : Value) (h : ∀ s, text v = some s → ∃ n, IsNumber s n) : ∃ l, PythonSettings.limit v = some l ∧ Limit v l := by
  cases v with
  | text s =>
    cases s with
    | nil => exact ⟨none, rfl, rfl⟩
    | cons c cs =>
      obtain ⟨n, hn⟩ := h (c :: cs) rfl
      refine ⟨if 0 < n then some n else none, ?_, n, hn, rfl⟩
      show (toInt 10 (c :: cs)).map _ = _
      rw [toInt_number hn]
      rfl
  | int n => exact ⟨_, rfl, rfl⟩
  | none => exact ⟨none, rfl, rfl⟩
  | bool b => exact ⟨none, rfl, rfl⟩

theorem backend_eq (v : Value) (h : ∀ s, text v = some s → s.map Headers.lower ∈ [ascii "default", ascii "glib", ascii "libev"]) :
    backend v = some ((text v).map (·.map Headers.lower)) := by
  cases v with
  | text s =>
    cases s with
    | nil => rfl
    | cons c cs => exact if_pos (h (c :: cs) rfl)
  | _ => rfl

theorem group_absent (w : World) (argv : List Switch) (h : ∀ o ∈ argv, PlainOption w o) : ∀ x ∈ argv.flatMap given, x.1 ≠ .effectiveGroup := by
  intro x hx
  obtain ⟨o, ho, hx⟩ := List.mem_flatMap.mp hx
  have hp := h o ho
  cases o with
  | help => cases hx
  | bad => cases hx
  | group s => exact hp.elim
  | configuration file => exact (written_name hp x hx).2
  | _ => rw [List.mem_singleton.mp hx]; exact fun h => nomatch h

/-- **C144**: a milter runs with the settings given last, on the command line or in the configuration file it names, and with the defaults for those not given.
Missing: `--group` (`C144_group_violated`), `user`, `group`, `level` and `path` in a configuration file (`C144_file_violated`), modes that do not begin with 0 (`C144_mode_violated`), and more than
one configuration file (`C144_two_files_violated`). -/
theorem C144_partial (w : World) (given : Option Bytes) (name : Bytes) (hname : name = match given with | some (b :: bs) => b :: bs | _ => w.program) (argv : List Switch)
    (h : ∀ o ∈ argv, PlainOption w o) (hc : (argv.filter isConfiguration).length ≤ 1) (hl : Legal (asked name argv)) :
    ∃ r, start w given argv = .ok r ∧ RunsWith (asked name argv) r := by
  obtain ⟨p, h1, h2⟩ := parse_plain w argv ⟨fresh w given, []⟩ h hc
  have hv : ∀ k, k ≠ .environment → p.values k = asked name argv k := by
    intro k hk
    rw [h2 k]
    unfold asked
    congr 1
    cases k <;> first | exact absurd rfl hk | rfl | exact congrArg Value.text hname.symm
  have hgroup : asked name argv .effectiveGroup = .none := last_absent _ _ (group_absent w argv h) _
  obtain ⟨l, hl1, hl2⟩ := limit_eq (asked name argv .maxFileDescriptors) hl.limit
  unfold start
  rw [h1]
  dsimp only
  rw [hv .unixSocketMode (fun h => nomatch h), hv .maxFileDescriptors (fun h => nomatch h), hv .eventLoopBackend (fun h => nomatch h),
    mode_eq _ hl.mode, hl1, backend_eq _ hl.backend]
  refine ⟨_, rfl, ?_⟩
  constructor
  · exact hv _ (fun h => nomatch h)
  · exact hv _ (fun h => nomatch h)
  · exact hv _ (fun h => nomatch h)
  · exact (word_eq _).trans (congrArg text (hv _ (fun h => nomatch h)))
  · exact (word_eq _).trans (congrArg text (hv _ (fun h => nomatch h)))
  · show (if isSet (p.values .useSyslog) = true then some (p.values .name, p.values .syslogFacility) else none) = _
    rw [hv .useSyslog (fun h => nomatch h), hv .name (fun h => nomatch h), hv .syslogFacility (fun h => nomatch h)]
    cases asked name argv .useSyslog with
    | bool b => cases b <;> rfl
    | _ => rfl
  · show (match word (p.values .effectiveGroup) with | some g => some g | none => word (p.values .effectiveUser)) = _
    rw [hv .effectiveGroup (fun h => nomatch h), hgroup, hv .effectiveUser (fun h => nomatch h)]
    exact word_eq _
  · show none = _
    rw [hgroup]
    rfl
  · exact (word_eq _).trans (congrArg text (hv _ (fun h => nomatch h)))
  · rfl
  · exact hl2
  · rfl
  · show isSet (p.values .daemon) = true ↔ _
    rw [hv .daemon (fun h => nomatch h)]
    cases asked name argv .daemon with
    | bool b => cases b <;> simp [isSet]
    | _ => simp [isSet]

/-- a world -/
def world : World := ⟨none, ascii "milter", [ascii "mail", ascii "daemon"]⟩

/-- a command line with a configuration file -/
def line : List Switch := [.user (ascii "nobody"), .configuration [⟨ascii "milter", ascii "fallback_status", ascii "reject"⟩, ⟨ascii "milter", ascii "daemon", ascii "Yes"⟩,
  ⟨ascii "milter", ascii "unix_socket_mode", ascii "0660"⟩, ⟨ascii "log", ascii "use_syslog", ascii "on"⟩], .fallbackStatus (ascii "discard"), .maxFileDescriptors 100]

/-- what comes of it -/
def outcome : Running where
  logLevel := .text (ascii "default")
  logPath := .text (ascii "-")
  spec := .text (ascii "inet:20025")
  fallback := some (ascii "discard")
  syslog := some (.text (ascii "milter"), .text (ascii "mail"))
  user := some (ascii "nobody")
  socketMode := some 0o660
  limit := some 100
  backend := some (ascii "default")
  daemon := true

/-- the hypotheses of C144, and what comes of it -/
example : (∀ o ∈ line, PlainOption world o) ∧ (line.filter isConfiguration).length ≤ 1 ∧ Legal (asked (ascii "milter") line) ∧
    (start world none line).toOption = some outcome := by
  refine ⟨?_, by decide, ⟨?_, ?_, ?_⟩, by decide +kernel⟩
  · intro o ho
    simp only [line, List.mem_cons, List.not_mem_nil, or_false] at ho
    rcases ho with rfl | rfl | rfl | rfl
    · exact True.intro
    · intro e he
      simp only [List.mem_cons, List.not_mem_nil, or_false] at he
      rcases he with rfl | rfl | rfl | rfl
      · exact ⟨.fallbackStatus, by decide, by decide, by decide⟩
      · exact ⟨.daemon, by decide, by decide, by decide⟩
      · exact ⟨.unixSocketMode, by decide, by decide, by decide⟩
      · exact ⟨.useSyslog, by decide, by decide, by decide⟩
    · show _ ∈ _
      decide
    · exact True.intro
  · intro s hs
    have : s = ascii "0660" := (Option.some.inj ((show text (asked (ascii "milter") line .unixSocketMode) = some (ascii "0660") by decide +kernel).symm.trans hs)).symm
    subst this
    decide
  · intro s hs
    exact absurd ((show text (asked (ascii "milter") line .maxFileDescriptors) = none by decide +kernel).symm.trans hs) (fun h => nomatch h)
  · intro s hs
    have : s = ascii "default" := (Option.some.inj ((show text (asked (ascii "milter") line .eventLoopBackend) = some (ascii "default") by decide +kernel).symm.trans hs)).symm
    subst this
    decide

/-- **C144 is violated**: a milter started with `--user` and `--group` runs as the user with the name of the group, and with no group set. -/
theorem C144_group_violated :
    (start world none [.user (ascii "milter"), .group (ascii "postfix")]).toOption.map (fun r => (r.user, r.group)) = some (some (ascii "postfix"), none) := by
  decide +kernel

/-- **C144 is violated**: a user in a configuration file is not read: a milter started by root goes on as root.  The path of the log is not, either. -/
theorem C144_file_violated :
    (start world none [.configuration [⟨ascii "milter", ascii "user", ascii "nobody"⟩, ⟨ascii "log", ascii "path", ascii "/var/log/milter"⟩]]).toOption.map (fun r => (r.user, r.logPath)) =
      some (none, .text (ascii "-")) := by
  decide +kernel

/-- **C144 is violated**: the mode "660" is taken as a decimal number, which is 1224 in octal: the group may write, but not read, and others may read. -/
theorem C144_mode_violated :
    (start world none [.unixSocketMode (ascii "660")]).toOption.map (·.socketMode) = some (some 0o1224) := by
  decide +kernel

/-- **C144 is violated**: a fallback status there is not is taken from a configuration file; then no session can be made (`C142_no_session_violated`). -/
theorem C144_fallback_violated :
    (start world none [.configuration [⟨ascii "milter", ascii "fallback_status", ascii "tempfail"⟩]]).toOption.map (·.fallback) = some (some (ascii "tempfail")) := by
  decide +kernel

/-- **C144 is violated**: a second configuration file brings back the settings of the first. -/
theorem C144_two_files_violated :
    (start world none [.configuration [⟨ascii "milter", ascii "fallback_status", ascii "accept"⟩], .fallbackStatus (ascii "reject"), .configuration []]).toOption.map (·.fallback) =
      some (some (ascii "accept")) := by
  decide +kernel

end Verif.Props.PythonSettings
