import Verif.Manager.DetectorUpstart
import Verif.Props.DetectorRcWhole
/-
C140: milters of pkgsrc.
-/
namespace Verif.Props.Pkgsrc
open Verif Verif.Detector Verif.Props.Detector Spec.Detector Spec.DetectorRc

/-- the variable that switches a milter on: what the script says, or else its name -/
def switch (name : Bytes) (lines : List ScriptLine) : Bytes := (lastAssigned (ascii "rcvar") lines).getD name

/-- the directory of scripts: as the package option says, or else rc.d below the prefix, which is /usr/pkg/etc unless a
package option says otherwise -/
def scripts (o : PkgOptions) : Bytes :=
  match o.rcddir with
  | some d => d
  | none =>
    match o.pkgPrefix with
    | some p => p ++ ascii "/rc.d"
    | none => ascii "/usr/pkg/etc/rc.d"

/-- a machine with pkgsrc: the script of a milter of a name, and the three files of settings, of which any may be
missing; none of them has a variable named `rcvar` -/
structure OnPkgsrc (m : Machine) (o : PkgOptions) (script name : Bytes) (lines : List ScriptLine) (conf confLocal confOwn : List ConfLine) : Prop where
  file : m.file (scripts o ++ ascii "/" ++ script) = some (printScript name lines)
  isName : Name name
  named : lastAssigned (ascii "name") lines = some name
  fine : ∀ l ∈ lines, l.Fine name
  once : ∀ k, (defaultsOf k lines).length ≤ 1
  inConf : contentOf m (ascii "/etc/rc.conf") = printConf conf
  inLocal : contentOf m (ascii "/etc/rc.conf.local") = printConf confLocal
  inOwn : contentOf m (ascii "/etc/rc.conf.d/" ++ name) = printConf confOwn
  fineConf : ∀ l ∈ conf ++ confLocal ++ confOwn, l.Fine
  noRcvar : ∀ q v, ConfLine.set (ascii "rcvar") q v ∉ conf ++ confLocal ++ confOwn

theorem rcd_eq (o : PkgOptions) : o.rcd = scripts o := by
  obtain ⟨a, b⟩ := o
  cases a <;> cases b <;> first | rfl | decide +kernel

/-! ### the files of settings -/

theorem line_vars (self : Option Bytes) (own : Bytes) (other : Vars) (s : PkgConf) (l : Bytes) :
    (s.line self own other l).vars =
      match rcSetting own l with
      | some (n, v) => fun k => if k = n then rcNormalize self other s.vars v else s.vars k
      | none => s.vars := by
  unfold PkgConf.line
  cases rcSetting own l with
  | some p => rfl
  | none =>
    dsimp only
    cases assigned (ascii "rcvar") l with
    | some v => rfl
    | none => dsimp only; cases assigned (s.rcvar.getD own) l <;> rfl

theorem pkgConf_vars (self : Option Bytes) (own : Bytes) (other : Vars) (content : Bytes) (s : PkgConf) :
    (pkgConf self own other content s).vars = rcConf self own other content s.vars := by
  unfold pkgConf rcConf
  generalize eachLine content = ls
  induction ls generalizing s with
  | nil => rfl
  | cons l ls ih =>
    rw [List.foldl_cons, List.foldl_cons, ih, line_vars]
    rfl

/-- the value of the variable with the name of the milter is the last one, unless a variable `rcvar` is set -/
theorem pkgConf_value (self : Option Bytes) (p : Bytes) (hp : Name p) (other : Vars) :
    ∀ (ls : List ConfLine) (s : PkgConf), (∀ l ∈ ls, l.Fine) → (∀ q v, ConfLine.set (ascii "rcvar") q v ∉ ls) → s.rcvar = none →
      (pkgConf self p other (printConf ls) s).value = (lastSet p ls).or s.value ∧ (pkgConf self p other (printConf ls) s).rcvar = none := by
  intro ls
  induction ls with
  | nil => intro s _ _ h; exact ⟨rfl, h⟩
  | cons l ls ih =>
    intro s h hr hs
    have hl := h l (List.mem_cons_self ..)
    obtain ⟨b, hb, h0⟩ := confLine_end l hl
    have e : printConf (l :: ls) = l.print ++ printConf ls := rfl
    have ih' := fun s => ih s (fun l' hl' => h l' (List.mem_cons_of_mem _ hl')) fun q v hm => hr q v (List.mem_cons_of_mem _ hm)
    have e2 : pkgConf self p other (printConf (l :: ls)) s = pkgConf self p other (printConf ls) (s.line self p other l.print) := by
      unfold pkgConf
      rw [e, hb, eachLine_cons b h0, ← hb, List.foldl_cons]
    rw [e2]
    suffices hh : (s.line self p other l.print).value = (lastSet p [l]).or s.value ∧ (s.line self p other l.print).rcvar = none by
      obtain ⟨a, c⟩ := ih' _ hh.2
      refine ⟨?_, c⟩
      rw [a, hh.1, show l :: ls = [l] ++ ls from rfl, lastSet_append]
      cases lastSet p ls <;> cases lastSet p [l] <;> rfl
    have hp0 : p ≠ [] := hp.1
    have hd : ∀ c ∈ p.head?, Word c := by
      intro c hc
      exact hp.2.1 c (List.mem_of_mem_head? hc)
    have quiet : ∀ (c : UInt8) (t : Bytes), ¬Word c → l.print = c :: t → lastSet p [l] = none →
        (s.line self p other l.print).value = (lastSet p [l]).or s.value ∧ (s.line self p other l.print).rcvar = none := by
      intro c t hc hpr hn
      have a1 : rcSetting p (c :: t) = none := rcSetting_head hp c t hc
      have a2 : assigned (ascii "rcvar") (c :: t) = none := by
        refine assigned_head 0x72 (ascii "cvar") c t ?_
        rintro rfl
        exact hc (by decide)
      have a3 : assigned p (c :: t) = none := by
        cases p with
        | nil => exact absurd rfl hp0
        | cons d q =>
          refine assigned_head d q c t ?_
          rintro rfl
          exact hc (hd c rfl)
      rw [hpr, hn]
      unfold PkgConf.line
      rw [a1]
      dsimp only
      rw [a2]
      dsimp only
      rw [hs, Option.getD_none, a3]
      exact ⟨by simp, hs⟩
    cases l with
    | blank => exact quiet 0x0a [] (by decide) rfl rfl
    | comment t => exact quiet 0x23 (t ++ [0x0a]) (by decide) (by simp [ConfLine.print]) rfl
    | set n q v =>
      have hnr : n ≠ ascii "rcvar" := by
        rintro rfl
        exact hr q v List.mem_cons_self
      have pr : ConfLine.print (.set n q v) = n ++ 0x3d :: (q.print v ++ [0x0a]) := by simp [ConfLine.print]
      by_cases hn : ∃ k', k' ≠ [] ∧ n = p ++ [0x5f] ++ k'
      · obtain ⟨k', hk', rfl⟩ := hn
        have hf : 0x0a ∉ k' := fun hm => name_no_feed hl.1 (List.mem_append_right _ hm)
        have hne : p ++ [0x5f] ++ k' ≠ p := by
          intro e
          have := congrArg List.length e
          simp at this
        unfold PkgConf.line
        rw [rcSetting_own hk' hf hl.2]
        simp only [lastSet, if_neg hne]
        exact ⟨by simp, hs⟩
      · have hno : ∀ k', k' ≠ [] → n ≠ p ++ [0x5f] ++ k' := fun k' h0 e => hn ⟨k', h0, e⟩
        unfold PkgConf.line
        rw [rcSetting_other hp hl.2 hno (name_no_feed hl.1)]
        dsimp only
        rw [show assigned (ascii "rcvar") (ConfLine.print (.set n q v)) = none by
          rw [pr]; exact assigned_other _ n _ (by decide) (name_no_equals hl.1) hnr]
        dsimp only
        rw [hs, Option.getD_none]
        by_cases hnp : n = p
        · subst hnp
          rw [show assigned n (ConfLine.print (.set n q v)) = some (q.print v) by
            have := assigned_self n (q.print v) (fine_not_empty hl.2) (fine_no_feed hl.2)
            simpa [ConfLine.print] using this]
          dsimp only
          rw [rcNormalize_fine hl.2]
          simp only [lastSet, if_pos]
          exact ⟨by simp, by first | trivial | exact hs⟩
        · rw [show assigned p (ConfLine.print (.set n q v)) = none by
            rw [pr]; exact assigned_other p n _ (name_no_equals hp) (name_no_equals hl.1) hnp]
          dsimp only
          simp only [lastSet, if_neg hnp]
          exact ⟨by simp, by first | trivial | exact hs⟩

theorem pkg_read {m : Machine} {o : PkgOptions} {script name : Bytes} {lines : List ScriptLine} {c1 c2 c3 : List ConfLine}
    (h : OnPkgsrc m o script name lines c1 c2 c3) :
    rcName (printScript name lines) = some name ∧
    (∀ k, k ≠ [] → (pkgRead m name (printScript name lines)).1.vars k = effective name (c1 ++ c2 ++ c3) lines k) ∧
    (pkgRead m name (printScript name lines)).1.value = lastSet name (c1 ++ c2 ++ c3) ∧
    (pkgRead m name (printScript name lines)).2 = lastAssigned (ascii "command_args") lines := by
  have f := h.fineConf
  have g := h.noRcvar
  refine ⟨?_, ?_, ?_, ?_⟩
  · refine (rcName_fine name h.isName lines none h.fine).trans ?_
    rw [h.named]
    rfl
  · intro k hk
    unfold pkgRead
    dsimp only
    rw [pkgConf_vars, pkgConf_vars, pkgConf_vars, h.inConf, h.inLocal, h.inOwn,
      rcConf_fine _ name h.isName _ k hk c3 _ (fun l hl => f l (by simp [hl])),
      rcConf_fine _ name h.isName _ k hk c2 _ (fun l hl => f l (by simp [hl])),
      rcConf_fine _ name h.isName _ k hk c1 _ (fun l hl => f l (by simp [hl]))]
    dsimp only
    rw [(rcScript_fine name h.isName _ _ lines _ h.fine).1 k]
    unfold effective
    rw [lastSet_append, lastSet_append]
    have ho := h.once k
    have : (defaultsOf k lines).getLast? = (defaultsOf k lines).head? := by
      cases hd : defaultsOf k lines with
      | nil => rfl
      | cons x xs =>
        rw [hd] at ho
        cases xs with
        | nil => rfl
        | cons y ys => simp at ho
    rw [this]
    cases lastSet (name ++ [0x5f] ++ k) c3 <;> cases lastSet (name ++ [0x5f] ++ k) c2 <;>
      cases lastSet (name ++ [0x5f] ++ k) c1 <;> cases (defaultsOf k lines).head? <;> rfl
  · unfold pkgRead
    dsimp only
    generalize (eachLine (printScript name lines)).foldl (otherLine (some name)) (fun _ => none) = other
    generalize ((eachLine (printScript name lines)).foldl (Rc.line (some name) name other) {}).vars = vars
    rw [h.inConf, h.inLocal, h.inOwn]
    have p1 := pkgConf_value (some name) name h.isName other c1 { vars := vars } (fun l hl => f l (by simp [hl]))
      (fun q v hm => g q v (by simp [hm])) rfl
    have p2 := pkgConf_value (some name) name h.isName other c2 _ (fun l hl => f l (by simp [hl])) (fun q v hm => g q v (by simp [hm])) p1.2
    have p3 := pkgConf_value (some name) name h.isName other c3 _ (fun l hl => f l (by simp [hl])) (fun q v hm => g q v (by simp [hm])) p2.2
    rw [p3.1, p2.1, p1.1, lastSet_append, lastSet_append]
    cases lastSet name c3 <;> cases lastSet name c2 <;> cases lastSet name c1 <;> rfl
  · unfold pkgRead
    dsimp only
    rw [(rcScript_fine name h.isName _ _ lines _ h.fine).2]
    simp

/-! ### enma.conf -/

/-- a line of enma.conf: the socket, or something else -/
inductive EnmaLine where
  | socket (indent before after value : Bytes)
  | other (text : Bytes)

def EnmaLine.print : EnmaLine → Bytes
  | .socket i b a v => i ++ ascii "milter.socket" ++ b ++ [0x3a] ++ a ++ v ++ [0x0a]
  | .other t => t ++ [0x0a]

def EnmaLine.Fine : EnmaLine → Prop
  | .socket i b a v => Blanks i ∧ Blanks b ∧ Blanks a ∧ v ≠ [] ∧ 0x0a ∉ v ∧ ∀ c, v.head? = some c → ¬Blank c
  | .other t => 0x0a ∉ t ∧ ∀ i r, t = i ++ ascii "milter.socket" ++ r → ¬Blanks i

def printEnma (es : List EnmaLine) : Bytes := (es.map EnmaLine.print).flatten

/-- what it says of the socket -/
def sockets (es : List EnmaLine) : List Bytes := es.filterMap fun | .socket _ _ _ v => some v | .other _ => none

theorem drop_blanks {i : Bytes} (hi : Blanks i) {c : UInt8} (hc : ¬Blank c) (r : Bytes) : (i ++ c :: r).dropWhile Conditions.isBlank = c :: r := by
  induction i with
  | nil =>
    rw [List.nil_append, List.dropWhile_cons_of_neg]
    exact fun e => hc ((blank_iff c).mp e)
  | cons x i ih =>
    rw [List.cons_append, List.dropWhile_cons_of_pos ((blank_iff x).mpr (hi x List.mem_cons_self).1)]
    exact ih fun y hy => hi y (List.mem_cons_of_mem _ hy)

theorem blanks_no_feed {i : Bytes} (h : Blanks i) : 0x0a ∉ i := fun hm => (h _ hm).2 rfl

theorem enma_end (l : EnmaLine) (h : l.Fine) : ∃ b, l.print = b ++ [0x0a] ∧ 0x0a ∉ b := by
  cases l with
  | other t => exact ⟨t, rfl, h.1⟩
  | socket i b a v =>
    refine ⟨_, rfl, ?_⟩
    obtain ⟨h1, h2, h3, _, h5, _⟩ := h
    have := blanks_no_feed h1
    have := blanks_no_feed h2
    have := blanks_no_feed h3
    have : 0x0a ∉ ascii "milter.socket" := by decide
    simp only [List.mem_append, List.mem_singleton]
    rintro (((((e | e) | e) | e) | e) | e) <;> first | contradiction | cases e

theorem enmaLine_socket {i b a v : Bytes} (h : (EnmaLine.socket i b a v).Fine) : enmaLine (EnmaLine.socket i b a v).print = some v := by
  obtain ⟨h1, h2, h3, h4, h5, h6⟩ := h
  have e0 : (EnmaLine.socket i b a v).print.dropWhile Conditions.isBlank = ascii "milter.socket" ++ (b ++ 0x3a :: (a ++ (v ++ [0x0a]))) := by
    have := drop_blanks h1 (c := 0x6d) (by decide) (ascii "ilter.socket" ++ (b ++ 0x3a :: (a ++ (v ++ [0x0a]))))
    rw [show ascii "milter.socket" = 0x6d :: ascii "ilter.socket" from rfl]
    rw [← List.cons_append] at this
    rw [← this]
    simp [EnmaLine.print, ascii]
  unfold enmaLine
  dsimp only
  rw [e0, if_pos (by rw [List.isPrefixOf_iff_prefix]; exact List.prefix_append _ _), List.drop_left]
  rw [drop_blanks h2 (by decide)]
  rw [if_pos (by rfl)]
  cases v with
  | nil => exact absurd rfl h4
  | cons c v =>
    rw [List.tail_cons, List.cons_append, drop_blanks h3 (h6 c rfl), if_pos (by simp)]
    have := takeWhile_feed (c :: v) [] h5
    simpa using this

theorem enmaLine_other {t : Bytes} (h : (EnmaLine.other t).Fine) : enmaLine (EnmaLine.other t).print = none := by
  unfold enmaLine
  dsimp only
  rw [if_neg]
  intro e
  rw [List.isPrefixOf_iff_prefix] at e
  obtain ⟨r, hr⟩ := e
  have hspan := List.takeWhile_append_dropWhile (p := Conditions.isBlank) (l := (EnmaLine.other t).print)
  rw [← hr] at hspan
  have hpr : (EnmaLine.other t).print = t ++ [0x0a] := rfl
  -- the rest is not empty, and ends with the line feed
  have hlast : (ascii "milter.socket" ++ r).getLast? = some 0x0a := by
    have : (t ++ [0x0a]).getLast? = some 0x0a := by simp
    rw [← hpr, ← hspan, List.getLast?_append] at this
    have hn : (ascii "milter.socket" ++ r).getLast? ≠ none := by
      rw [Ne, List.getLast?_eq_none_iff]
      simp [ascii]
    cases hg : (ascii "milter.socket" ++ r).getLast? with
    | none => exact absurd hg hn
    | some x => rw [hg] at this; simpa using this
  obtain ⟨r', hr'⟩ : ∃ r', r = r' ++ [0x0a] := by
    rcases List.eq_nil_or_concat r with rfl | ⟨r', x, rfl⟩
    · exact absurd hlast (by decide)
    · refine ⟨r', ?_⟩
      rw [List.concat_eq_append] at hlast ⊢
      rw [← List.append_assoc, List.getLast?_append] at hlast
      simp at hlast
      rw [hlast]
  rw [hr', hpr] at hspan
  have ht : t = (t ++ [0x0a]).takeWhile Conditions.isBlank ++ ascii "milter.socket" ++ r' := by
    have : ((t ++ [0x0a]).takeWhile Conditions.isBlank ++ ascii "milter.socket" ++ r') ++ [0x0a] = t ++ [0x0a] := by
      simp only [List.append_assoc]
      exact hspan
    exact (List.append_cancel_right this).symm
  refine h.2 _ _ ht ?_
  intro c hc
  have hb : Conditions.isBlank c = true := by
    have := List.all_takeWhile (p := Conditions.isBlank) (l := t ++ [0x0a])
    exact List.all_eq_true.mp this c hc
  refine ⟨(blank_iff c).mp hb, ?_⟩
  rintro rfl
  apply h.1
  rw [ht]
  exact List.mem_append_left _ (List.mem_append_left _ hc)

theorem enma_fine (es : List EnmaLine) (h : ∀ l ∈ es, l.Fine) : enma (printEnma es) = (sockets es).getLast? := by
  unfold enma printEnma
  rw [eachLine_print EnmaLine.print EnmaLine.Fine enma_end es h]
  have key : ∀ (es : List EnmaLine) (x : Option Bytes), (∀ l ∈ es, l.Fine) →
      (es.map EnmaLine.print).foldl (fun spec line => (enmaLine line).or spec) x = (sockets es).getLast?.or x := by
    intro es
    induction es with
    | nil => intro x _; simp [sockets]
    | cons l es ih =>
      intro x h
      rw [List.map_cons, List.foldl_cons, ih _ fun y hy => h y (List.mem_cons_of_mem _ hy)]
      have hl := h l List.mem_cons_self
      cases l with
      | socket i b a v =>
        rw [enmaLine_socket hl, show sockets (.socket i b a v :: es) = [v] ++ sockets es from rfl, List.getLast?_append]
        cases (sockets es).getLast? <;> simp
      | other t =>
        rw [enmaLine_other hl, show sockets (.other t :: es) = sockets es from rfl]
        simp
  rw [key es none h]
  simp

/-! ### C140 -/

/-- **C140** (enabled; partial).  A milter of pkgsrc whose script names no other variable for it is enabled if and only
if the files of settings say yes, last, to the variable that switches it on. -/
theorem C140_enabled_partial (m : Machine) (o : PkgOptions) (script name : Bytes) (lines : List ScriptLine) (c1 c2 c3 : List ConfLine)
    (custom : Option (Option Bytes → Option Bytes)) (h : OnPkgsrc m o script name lines c1 c2 c3) (hs : switch name lines = name) :
    ∃ d, pkgsrc m o script custom = some d ∧
      (d.enabled = true ↔ ∃ v, lastSet (switch name lines) (c1 ++ c2 ++ c3) = some v ∧ Yes v) := by
  obtain ⟨r1, _, r3, _⟩ := pkg_read h
  unfold pkgsrc
  rw [rcd_eq, h.file]
  dsimp only
  rw [r1]
  dsimp only
  refine ⟨_, rfl, ?_⟩
  dsimp only
  rw [r3, hs]
  cases hv : lastSet name (c1 ++ c2 ++ c3) with
  | none =>
    have : isYes (ascii "NO") = false := by decide
    simp [this]
  | some v => simp [isYes_iff]

/-- **C140 fails** for a milter whose script names another variable: whatever is said of that, the milter is not enabled
as long as nothing is said of the variable with its name. -/
theorem C140_rcvar_violated (m : Machine) (o : PkgOptions) (script name : Bytes) (lines : List ScriptLine) (c1 c2 c3 : List ConfLine)
    (custom : Option (Option Bytes → Option Bytes)) (h : OnPkgsrc m o script name lines c1 c2 c3)
    (hn : lastSet name (c1 ++ c2 ++ c3) = none) :
    ∃ d, pkgsrc m o script custom = some d ∧ d.enabled = false := by
  obtain ⟨r1, _, r3, _⟩ := pkg_read h
  unfold pkgsrc
  rw [rcd_eq, h.file]
  dsimp only
  rw [r1]
  dsimp only
  refine ⟨_, rfl, ?_⟩
  dsimp only
  rw [r3, hn]
  decide

/-- **C140** (the socket; partial).  For a milter other than enma, it is found at the first of `socket`, `sockfile` and
`connection_spec` that is set by rc.conf or by default. -/
theorem C140_socket_partial (m : Machine) (o : PkgOptions) (script name : Bytes) (lines : List ScriptLine) (c1 c2 c3 : List ConfLine) (s : Bytes)
    (h : OnPkgsrc m o script name lines c1 c2 c3) (h1 : script ≠ ascii "enma") (h2 : name ≠ ascii "enma")
    (hs : FirstSet (effective name (c1 ++ c2 ++ c3) lines) [ascii "socket", ascii "sockfile", ascii "connection_spec"] s)
    (hs1 : Stripped s) (hs0 : s ≠ []) :
    ∃ d, pkgsrc m o script none = some d ∧ d.spec = some (finish s) := by
  obtain ⟨r1, r2, _, _⟩ := pkg_read h
  generalize effective name (c1 ++ c2 ++ c3) lines = env at *
  unfold pkgsrc
  rw [rcd_eq, h.file]
  dsimp only
  rw [r1]
  dsimp only
  refine ⟨_, rfl, ?_⟩
  dsimp only
  unfold pkgSpec
  have hn := normalizeSpec_some hs1 hs0
  have nn : normalizeSpec none = none := rfl
  rw [r2 (ascii "socket") (by decide), r2 (ascii "sockfile") (by decide), r2 (ascii "connection_spec") (by decide),
    if_neg (by simp [h1, h2])]
  rcases hs with e | ⟨e1, e | ⟨e2, e | ⟨_, e⟩⟩⟩
  · simp [e, hn]
  · simp [e1, e, hn, nn]
  · simp [e1, e2, e, hn, nn]
  · exact e.elim

/-- **C140** (the socket among the flags; partial).  Otherwise it is the argument of `-p` in the variable `flags`, as
the shell would split it. -/
theorem C140_flags_partial (m : Machine) (o : PkgOptions) (script name : Bytes) (lines : List ScriptLine) (c1 c2 c3 : List ConfLine) (f v : Bytes)
    (a b : List Bytes) (h : OnPkgsrc m o script name lines c1 c2 c3) (h1 : script ≠ ascii "enma") (h2 : name ≠ ascii "enma")
    (hs : ∀ k ∈ [ascii "socket", ascii "sockfile", ascii "connection_spec"], effective name (c1 ++ c2 ++ c3) lines k = none)
    (hf : effective name (c1 ++ c2 ++ c3) lines (ascii "flags") = some f)
    (hw : m.words f = a ++ ascii "-p" :: v :: b) (hl : ascii "-p" ∉ v :: b) (hv : v.head? ≠ some 0x24) :
    ∃ d, pkgsrc m o script none = some d ∧ d.spec = some (finish v) := by
  obtain ⟨r1, r2, _, _⟩ := pkg_read h
  generalize effective name (c1 ++ c2 ++ c3) lines = env at *
  unfold pkgsrc
  rw [rcd_eq, h.file]
  dsimp only
  rw [r1]
  dsimp only
  refine ⟨_, rfl, ?_⟩
  dsimp only
  have hp : flag m (some f) "-p" = some v := by
    unfold flag
    rw [Option.bind_some, hw, C126_word _ v a b hl, if_neg hv]
  have nn : normalizeSpec none = none := rfl
  unfold pkgSpec
  rw [r2 (ascii "socket") (by decide), r2 (ascii "sockfile") (by decide), r2 (ascii "connection_spec") (by decide),
    r2 (ascii "flags") (by decide), hs _ (by simp), hs _ (by simp), hs _ (by simp), hf, if_neg (by simp [h1, h2])]
  simp [hp, nn]

/-- **C140** (enma; partial).  Its socket is what its configuration says: the file that `-c` in `command_args` names, or
else enma.conf below the prefix of pkgsrc. -/
theorem C140_enma_partial (m : Machine) (o : PkgOptions) (name : Bytes) (lines : List ScriptLine) (c1 c2 c3 : List ConfLine) (s : Bytes)
    (es : List EnmaLine) (h : OnPkgsrc m o (ascii "enma") name lines c1 c2 c3) (ha : lastAssigned (ascii "command_args") lines = none)
    (hf : m.file (o.pkgPrefix.getD (ascii "/usr/pkg/etc") ++ ascii "/enma.conf") = some (printEnma es)) (he : ∀ l ∈ es, l.Fine)
    (hs : (sockets es).getLast? = some s) :
    ∃ d, pkgsrc m o (ascii "enma") none = some d ∧ d.spec = some (finish s) := by
  obtain ⟨r1, _, _, r4⟩ := pkg_read h
  unfold pkgsrc
  rw [rcd_eq, h.file]
  dsimp only
  rw [r1]
  dsimp only
  refine ⟨_, rfl, ?_⟩
  dsimp only
  unfold pkgSpec
  have hc : enma (contentOf m (o.root ++ ascii "/enma.conf")) = some s := by
    unfold contentOf PkgOptions.root
    rw [hf, Option.getD_some, enma_fine es he, hs]
  rw [r4, ha, if_pos (Or.inl rfl), show flag m none "-c" = none from rfl, Option.getD_none, hc]
  simp

/-! ### Concrete cases -/

/-- a machine with pkgsrc: a script that names its variable, and /etc/rc.conf -/
def pkgMachine (script conf : String) : Machine where
  file p :=
    if p = ascii "/usr/pkg/etc/rc.d/x" then some (ascii script)
    else if p = ascii "/etc/rc.conf" then some (ascii conf)
    else if p = ascii "/usr/pkg/etc/rc.d/enma" then some (ascii "name=enma\n")
    else if p = ascii "/usr/pkg/etc/enma.conf" then some (ascii "# enma\nmilter.socket : inet:10025@127.0.0.1\n")
    else none
  words f := List.splitOn 0x20 f

example : pkgsrc (pkgMachine "name=\"x\"\nrcvar=x\n: ${x_socket-/run/x}\n" "x=YES\n") {} (ascii "x") none =
    some ⟨some (ascii "unix:/run/x"), none, true⟩ := by decide +kernel

example : pkgsrc (pkgMachine "name=x\nrcvar=y\n" "y=YES\nx_flags=\"-p inet:99@localhost\"\n") {} (ascii "x") none =
    some ⟨some (ascii "inet:99@localhost"), none, false⟩ := by decide +kernel

example : pkgsrc (pkgMachine "" "enma=yes\n") {} (ascii "enma") none = some ⟨some (ascii "inet:10025@127.0.0.1"), none, true⟩ := by decide +kernel

/-- the script of a milter that names another variable than its name -/
def otherLines : List ScriptLine := [.comment (ascii "!/bin/sh"), .assign (ascii "name") .no (ascii "x"), .assign (ascii "rcvar") .no (ascii "y")]

def otherConf : List ConfLine := [.set (ascii "y") .no (ascii "YES")]

theorem other_on : OnPkgsrc (pkgMachine "#!/bin/sh\nname=x\nrcvar=y\n" "y=YES\n") {} (ascii "x") (ascii "x") otherLines otherConf [] [] where
  file := by decide +kernel
  isName := by refine ⟨by decide, ?_, ?_⟩ <;> decide +kernel
  named := by decide +kernel
  fine := by
    intro l hl
    simp only [otherLines, List.mem_cons, List.not_mem_nil, or_false] at hl
    rcases hl with rfl | rfl | rfl
    · exact ⟨by decide +kernel, by decide +kernel⟩
    · exact ⟨⟨by decide, by decide +kernel, by decide +kernel⟩, by unfold FineValue; decide +kernel, by decide +kernel, by decide +kernel, by decide +kernel⟩
    · exact ⟨⟨by decide, by decide +kernel, by decide +kernel⟩, by unfold FineValue; decide +kernel, by decide +kernel, by decide +kernel, by decide +kernel⟩
  once := by intro k; simp [otherLines, defaultsOf]
  inConf := by decide +kernel
  inLocal := by decide +kernel
  inOwn := by decide +kernel
  fineConf := by
    intro l hl
    simp only [otherConf, List.append_nil, List.mem_cons, List.not_mem_nil, or_false] at hl
    subst hl
    exact ⟨⟨by decide, by decide +kernel, by decide +kernel⟩, by unfold FineValue; decide +kernel⟩
  noRcvar := by
    intro q v hm
    simp only [otherConf, List.append_nil, List.mem_cons, List.not_mem_nil, or_false, ConfLine.set.injEq] at hm
    exact absurd hm.1 (by decide)

/-- the files say yes to the variable the script names, and the milter is not enabled -/
example : lastSet (switch (ascii "x") otherLines) otherConf = some (ascii "YES") ∧
    ∃ d, pkgsrc (pkgMachine "#!/bin/sh\nname=x\nrcvar=y\n" "y=YES\n") {} (ascii "x") none = some d ∧ d.enabled = false :=
  ⟨by decide +kernel, C140_rcvar_violated _ _ _ _ _ _ _ _ none other_on (by decide +kernel)⟩

end Verif.Props.Pkgsrc
