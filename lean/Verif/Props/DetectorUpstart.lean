import Verif.Spec.DetectorUpstart
import Verif.Manager.DetectorUpstart
import Verif.Props.DetectorRcWhole
import Verif.Props.Systemd
/-
C139: milters that upstart starts, and the choice on Red Hat.
-/
namespace Verif.Props.Upstart
open Verif Verif.Detector Verif.Props.Detector Verif.Spec.Detector Verif.Spec.DetectorUpstart

theorem joinSpace_eq : ∀ l : List Bytes, joinSpace l = List.intercalate [0x20] l
  | [] => rfl
  | [a] => by simp [joinSpace, List.intercalate]
  | a :: b :: c => by
    have ih := joinSpace_eq (b :: c)
    simp only [joinSpace] at ih ⊢
    rw [ih]
    simp [List.intercalate]

theorem print_end (l : JobLine) (h : l.Fine) : ∃ b, l.print = b ++ [0x0a] ∧ 0x0a ∉ b := by
  cases l with
  | comment t => exact ⟨ascii "# " ++ t, rfl, by simpa [ascii] using h.1⟩
  | start t => exact ⟨ascii "start on " ++ t, rfl, by intro hm; rcases List.mem_append.mp hm with e | e; revert e; decide; exact h e⟩
  | exec t => exact ⟨ascii "exec " ++ t, rfl, by intro hm; rcases List.mem_append.mp hm with e | e; revert e; decide; exact h e⟩
  | other t => exact ⟨t, rfl, h.1⟩

theorem prefix_self (p t : Bytes) : p.isPrefixOf (p ++ t ++ [0x0a]) = true := by
  rw [List.isPrefixOf_iff_prefix, List.append_assoc]; exact List.prefix_append _ _

theorem prefix_no {p t : Bytes} (h : ¬p <+: t) (hp : 0x0a ∉ p) : ¬p.isPrefixOf (t ++ [0x0a]) = true := by
  rw [List.isPrefixOf_iff_prefix]
  intro e
  exact h (isPrefix_stop hp e)

/-- what a line does to a job -/
def step (j : Job) : JobLine → Job
  | .comment t => if j.head ∧ t ≠ [] then { j with comments := j.comments ++ [t] } else j.close
  | .start _ => { j with enabled := true }.close
  | .exec t => { j with exec := some (t ++ [0x0a]) }.close
  | .other _ => j.close

theorem step_comment {j : Job} {t : Bytes} (h : j.head = true) (ht : t ≠ []) : step j (.comment t) = { j with comments := j.comments ++ [t] } := by
  unfold step; dsimp only; rw [if_pos ⟨h, ht⟩]

theorem step_empty (j : Job) : step j (.comment []) = j.close := by
  unfold step; dsimp only; rw [if_neg (by simp)]

theorem line_step (l : JobLine) (h : l.Fine) (j : Job) : j.line l.print = step j l := by
  cases l with
  | comment t =>
    have e : Conditions.strip ((JobLine.print (.comment t)).drop 2) = t := by
      have := strip_pad (i := []) (x := t) (t := [0x0a]) (by simp) h.2 (by simp [Blank])
      simpa [JobLine.print, ascii] using this
    unfold Job.line
    rw [if_pos (show (ascii "# ").isPrefixOf (JobLine.print (.comment t)) = true from prefix_self _ _)]
    dsimp only
    rw [e]
    rfl
  | start t =>
    unfold Job.line
    rw [if_neg, if_pos (show (ascii "start on ").isPrefixOf (JobLine.print (.start t)) = true from prefix_self _ _)]
    · rfl
    · simp [JobLine.print, ascii, List.isPrefixOf]
  | exec t =>
    unfold Job.line
    rw [if_neg, if_neg, if_pos (show (ascii "exec ").isPrefixOf (JobLine.print (.exec t)) = true from prefix_self _ _)]
    · rfl
    · simp [JobLine.print, ascii, List.isPrefixOf]
    · simp [JobLine.print, ascii, List.isPrefixOf]
  | other t =>
    unfold Job.line
    have h2 := h.2
    rw [if_neg, if_neg, if_neg]
    · rfl
    · exact prefix_no (h2 _ (by simp)) (by decide)
    · exact prefix_no (h2 _ (by simp)) (by decide)
    · exact prefix_no (h2 _ (by simp)) (by decide)

theorem fold_step (ls : List JobLine) : ∀ j : Job, (∀ l ∈ ls, l.Fine) → (ls.map JobLine.print).foldl Job.line j = ls.foldl step j := by
  induction ls with
  | nil => intros; rfl
  | cons l ls ih =>
    intro j h
    rw [List.map_cons, List.foldl_cons, List.foldl_cons, line_step l (h l List.mem_cons_self)]
    exact ih _ fun x hx => h x (List.mem_cons_of_mem _ hx)

theorem step_enabled (j : Job) (l : JobLine) : (step j l).enabled = (j.enabled || starts [l]) := by
  cases l with
  | comment t => unfold step; dsimp only; split <;> simp [Job.close, starts]
  | _ => simp [step, Job.close, starts]

theorem fold_enabled (ls : List JobLine) : ∀ j : Job, (ls.foldl step j).enabled = (j.enabled || starts ls) := by
  induction ls with
  | nil => intro j; simp [starts]
  | cons l ls ih =>
    intro j
    rw [List.foldl_cons, ih, step_enabled]
    simp [starts, Bool.or_assoc]

theorem step_exec (j : Job) (l : JobLine) : (step j l).exec = ((commands [l]).getLast?.map (· ++ [0x0a])).or j.exec := by
  cases l with
  | comment t => unfold step; dsimp only; split <;> simp [Job.close, commands]
  | _ => simp [step, Job.close, commands]

theorem fold_exec (ls : List JobLine) : ∀ j : Job, (ls.foldl step j).exec = ((commands ls).getLast?.map (· ++ [0x0a])).or j.exec := by
  induction ls with
  | nil => intro j; simp [commands]
  | cons l ls ih =>
    intro j
    rw [List.foldl_cons, ih, step_exec]
    have e : commands (l :: ls) = commands [l] ++ commands ls := by
      unfold commands; rw [← List.filterMap_append]; rfl
    rw [e, List.getLast?_append]
    cases (commands ls).getLast? <;> cases (commands [l]).getLast? <;> simp

/-- the comments of a job whose head is over do not change any more, nor does its description -/
theorem fold_over (ls : List JobLine) : ∀ j : Job, j.head = false → (j.comments = [] → j.description = none) →
    (j.comments ≠ [] → j.description = some (joinSpace j.comments)) →
    (ls.foldl step j).description = j.description := by
  induction ls with
  | nil => intros; rfl
  | cons l ls ih =>
    intro j h0 h1 h2
    have hs : (step j l).head = false ∧ (step j l).comments = j.comments ∧ (step j l).description = j.description := by
      have hd : (if j.comments = [] then j.description else some (joinSpace j.comments)) = j.description := by
        split
        · rfl
        · exact (h2 ‹_›).symm
      cases l with
      | comment t => unfold step; dsimp only; rw [if_neg (by simp [h0])]; exact ⟨rfl, rfl, hd⟩
      | _ => exact ⟨rfl, rfl, hd⟩
    rw [List.foldl_cons, ih _ hs.1 (by rw [hs.2.1, hs.2.2]; exact h1) (by rw [hs.2.1, hs.2.2]; exact h2), hs.2.2]

/-- the head: something follows the comments -/
theorem fold_head (ls : List JobLine) : ∀ j : Job, j.head = true → j.description = none → (headComments ls).length < ls.length →
    (ls.foldl step j).description =
      if j.comments ++ headComments ls = [] then none else some (joinSpace (j.comments ++ headComments ls)) := by
  induction ls with
  | nil => intro j _ _ h; simp at h
  | cons l ls ih =>
    intro j h0 h1 hl
    have over : ∀ k : Job, k.description = none → k.comments = j.comments →
        (ls.foldl step k.close).description = if j.comments = [] then none else some (joinSpace j.comments) := by
      intro k hk hc
      rw [fold_over ls k.close rfl]
      · simp [Job.close, hk, hc]
      · intro e; simp only [Job.close] at e ⊢; rw [if_pos e]; exact hk
      · intro e; simp only [Job.close] at e ⊢; rw [if_neg e]
    rw [List.foldl_cons]
    cases l with
    | comment t =>
      by_cases ht : t = []
      · rw [ht, step_empty, over j h1 rfl]
        simp [headComments]
      · rw [step_comment h0 ht]
        have e : headComments (.comment t :: ls) = t :: headComments ls := by simp [headComments, ht]
        rw [e] at hl ⊢
        rw [ih { j with comments := j.comments ++ [t] } h0 h1 (by simpa using hl)]
        simp
    | start t => exact (over { j with enabled := true } h1 rfl).trans (by simp [headComments])
    | exec t => exact (over { j with exec := some (t ++ [0x0a]) } h1 rfl).trans (by simp [headComments])
    | other t => exact (over j h1 rfl).trans (by simp [headComments])

/-- **C139** (what is read of a job).  Whether it starts by itself, its last command, and the comments at its head as
its description, if anything follows them. -/
theorem C139_job (ls : List JobLine) (h : ∀ l ∈ ls, l.Fine) :
    (parseJob (printJob ls)).enabled = starts ls ∧
      (parseJob (printJob ls)).exec = (commands ls).getLast?.map (· ++ [0x0a]) ∧
      ((headComments ls).length < ls.length → (parseJob (printJob ls)).description = about ls) := by
  unfold parseJob printJob
  rw [eachLine_print JobLine.print JobLine.Fine print_end ls h, fold_step ls _ h]
  refine ⟨by rw [fold_enabled]; rfl, by rw [fold_exec]; simp, fun hl => ?_⟩
  rw [fold_head ls {} rfl rfl hl]
  simp [about, joinSpace_eq]

/-- **C139** (clamav-milter; partial).  Its socket is what the configuration file says that `-c` in the command of the
job names; it is used if the job starts by itself and that file is not the example. -/
theorem C139_clamav_partial (m : Machine) (ls : List JobLine) (command conf s : Bytes) (a b : List Bytes) (ks : List KeyLine)
    (hu : m.file (ascii "/etc/event.d/clamav-milter") = some (printJob ls)) (hl : ∀ l ∈ ls, l.Fine) (hh : (headComments ls).length < ls.length)
    (he : (commands ls).getLast? = some command) (hw : m.words (command ++ [0x0a]) = a ++ ascii "-c" :: conf :: b)
    (hc : ascii "-c" ∉ conf :: b) (hd : conf.head? ≠ some 0x24)
    (hconf : m.file conf = some ((ks.map KeyLine.print).flatten)) (hks : ∀ l ∈ ks, l.Fine) (hs : said (ascii "MilterSocket") ks = some (some s)) :
    upstart m (ascii "clamav-milter") none = some ⟨some (finish s), about ls, starts ls && (said (ascii "Example") ks).isNone⟩ := by
  obtain ⟨hen, hexec, hdesc⟩ := C139_job ls hl
  have e1 : jobClamavConf m (parseJob (printJob ls)) = conf := by
    unfold jobClamavConf flag
    rw [hexec, he]
    dsimp only [Option.bind, Option.map]
    rw [hw, C126_word _ _ _ _ hc, if_neg hd]
    rfl
  have e2 : contentOf m conf = (ks.map KeyLine.print).flatten := by unfold contentOf; rw [hconf]; rfl
  have e3 : setting (parseKeywords (contentOf m conf)) (ascii "MilterSocket") = some s := by
    unfold setting
    rw [e2, C124_partial ks hks, hs]
    rfl
  have e4 : jobSpec m (ascii "clamav-milter") (parseJob (printJob ls)) none = some s := by
    unfold jobSpec
    rw [e1]
    simp only [if_true, e3, Option.some_or]
  unfold upstart
  rw [show ascii "/etc/event.d/" ++ ascii "clamav-milter" = ascii "/etc/event.d/clamav-milter" from rfl, hu]
  dsimp only
  rw [e4, hdesc hh, hen, e1, e2, C124_partial ks hks]
  cases said (ascii "Example") ks <;> simp

/-- **C139** (milter-greylist; partial).  Its socket is what the configuration file says that `-f` in the command of the
job names; it is used if the job starts by itself. -/
theorem C139_greylist_partial (m : Machine) (ls : List JobLine) (command conf s : Bytes) (a b : List Bytes) (gs : List GreyLine)
    (hu : m.file (ascii "/etc/event.d/milter-greylist") = some (printJob ls)) (hl : ∀ l ∈ ls, l.Fine) (hh : (headComments ls).length < ls.length)
    (he : (commands ls).getLast? = some command) (hw : m.words (command ++ [0x0a]) = a ++ ascii "-f" :: conf :: b)
    (hc : ascii "-f" ∉ conf :: b) (hd : conf.head? ≠ some 0x24)
    (hconf : m.file conf = some ((gs.map GreyLine.print).flatten)) (hgs : ∀ l ∈ gs, l.Fine) (hs : greySaid (ascii "socket") gs = some s) :
    upstart m (ascii "milter-greylist") none = some ⟨some (finish s), about ls, starts ls⟩ := by
  obtain ⟨hen, hexec, hdesc⟩ := C139_job ls hl
  have e1 : (flag m (parseJob (printJob ls)).exec "-f").getD (ascii "/etc/mail/greylist.conf") = conf := by
    unfold flag
    rw [hexec, he]
    dsimp only [Option.bind, Option.map]
    rw [hw, C126_word _ _ _ _ hc, if_neg hd]
    rfl
  have e2 : contentOf m conf = (gs.map GreyLine.print).flatten := by unfold contentOf; rw [hconf]; rfl
  have e4 : jobSpec m (ascii "milter-greylist") (parseJob (printJob ls)) none = some s := by
    unfold jobSpec
    rw [e1, e2, C124_greylist_partial gs hgs, hs]
    rfl
  unfold upstart
  rw [show ascii "/etc/event.d/" ++ ascii "milter-greylist" = ascii "/etc/event.d/milter-greylist" from rfl, hu]
  dsimp only
  rw [e4, hdesc hh, hen, show decide (ascii "milter-greylist" = ascii "clamav-milter") = false by decide]
  simp

/-- **C139** (the choice).  Whatever the three detectors find: what is used is systemd's if that is enabled, else
upstart's if that is enabled, else what the init script says. -/
theorem C139_choice (systemd upstart init : Option Detected) :
    ((∃ d, systemd = some d ∧ d.enabled = true) → chooseRedHat systemd upstart init = systemd) ∧
      ((¬∃ d, systemd = some d ∧ d.enabled = true) → (∃ d, upstart = some d ∧ d.enabled = true) → chooseRedHat systemd upstart init = upstart) ∧
      ((¬∃ d, systemd = some d ∧ d.enabled = true) → (¬∃ d, upstart = some d ∧ d.enabled = true) → chooseRedHat systemd upstart init = init) := by
  unfold chooseRedHat
  refine ⟨?_, ?_, ?_⟩
  · rintro ⟨d, rfl, h⟩; simp [choose, h]
  · rintro h1 ⟨d, rfl, h⟩
    cases systemd with
    | none => simp [choose, h]
    | some e =>
      have : e.enabled = false := by
        cases he : e.enabled
        · rfl
        · exact absurd ⟨e, rfl, he⟩ h1
      simp [choose, h, this]
  · intro h1 h2
    have k : ∀ (o rest : Option Detected), (¬∃ d, o = some d ∧ d.enabled = true) →
        choose o rest = rest := by
      intro o rest ho
      cases o with
      | none => rfl
      | some e =>
        cases he : e.enabled
        · simp [choose, he]
        · exact absurd ⟨e, rfl, he⟩ ho
    rw [k _ _ h1, k _ _ h2]

/-! ### Concrete cases -/

/-- a machine with jobs for clamav-milter and milter-greylist -/
def jobMachine : Machine where
  file p :=
    if p = ascii "/etc/event.d/clamav-milter" then
      some (ascii "# clamav-milter\n# scans mails\n\nstart on runlevel 3\nexec clamav-milter -c /etc/c.conf\n")
    else if p = ascii "/etc/c.conf" then some (ascii "MilterSocket /run/clamav\n")
    else if p = ascii "/etc/event.d/milter-greylist" then some (ascii "# greylist\nexec milter-greylist -f /etc/g.conf\n")
    else if p = ascii "/etc/g.conf" then some (ascii "socket \"/run/grey\"\n")
    else none
  words s := List.splitOn 0x20 (s.takeWhile (· ≠ 0x0a))

def clamavJob : List JobLine :=
  [.comment (ascii "clamav-milter"), .comment (ascii "scans mails"), .other [], .start (ascii "runlevel 3"), .exec (ascii "clamav-milter -c /etc/c.conf")]

def greylistJob : List JobLine := [.comment (ascii "greylist"), .exec (ascii "milter-greylist -f /etc/g.conf")]

instance (t : Bytes) : Decidable (Trimmed t) :=
  match h : t.head?, h2 : t.getLast? with
  | some a, some b => if h' : ¬Blank a ∧ ¬Blank b then .isTrue ⟨by intro c hc; rw [h] at hc; cases hc; exact h'.1, by intro c hc; rw [h2] at hc; cases hc; exact h'.2⟩
      else .isFalse fun e => h' ⟨e.1 a h, e.2 b h2⟩
  | none, _ => .isTrue (by cases t with
    | nil => exact ⟨by simp, by simp⟩
    | cons x y => cases h)
  | _, none => .isTrue (by cases t with
    | nil => exact ⟨by simp, by simp⟩
    | cons x y => simp at h2)

instance (l : JobLine) : Decidable l.Fine := by
  cases l <;> unfold JobLine.Fine <;> infer_instance

example : upstart jobMachine (ascii "clamav-milter") none =
      some ⟨some (finish (ascii "/run/clamav")), about clamavJob, starts clamavJob && (said (ascii "Example") [.set [] (ascii "MilterSocket") [0x20] (ascii "/run/clamav")]).isNone⟩ :=
  C139_clamav_partial jobMachine clamavJob (ascii "clamav-milter -c /etc/c.conf") (ascii "/etc/c.conf") (ascii "/run/clamav") [ascii "clamav-milter"] []
    [.set [] (ascii "MilterSocket") [0x20] (ascii "/run/clamav")] (by decide +kernel) (by decide +kernel) (by decide +kernel) (by decide +kernel) (by decide +kernel)
    (by decide +kernel) (by decide +kernel) (by decide +kernel)
    (by intro l hl; rw [List.mem_singleton.mp hl]; simp only [KeyLine.Fine]; simp [Blanks, Key, Word, Blank, ascii, Setting]) (by decide +kernel)

example : upstart jobMachine (ascii "clamav-milter") none = some ⟨some (ascii "unix:/run/clamav"), some (ascii "clamav-milter scans mails"), true⟩ := by
  decide +kernel

example : upstart jobMachine (ascii "milter-greylist") none = some ⟨some (ascii "unix:/run/grey"), some (ascii "greylist"), false⟩ := by
  decide +kernel

/-! ### Where the code is not what is expected -/

/-- **C139 fails** for a job of any other milter: whatever it and its configuration say, it is not used. -/
theorem C139_other_violated (m : Machine) (script : Bytes) (h1 : script ≠ ascii "clamav-milter") (h2 : script ≠ ascii "milter-greylist")
    (systemd init : Option Detected) :
    chooseRedHat systemd (upstart m script none) init = chooseRedHat systemd none init := by
  unfold chooseRedHat upstart
  cases m.file (ascii "/etc/event.d/" ++ script) with
  | none => rfl
  | some c => simp [jobSpec, h1, h2, choose]

/-- **C139 fails** for the command that starts a job: where there is `service`, upstart's `start` is called with
`start` as one of its arguments, as if it were a job or a setting, whatever the milter. -/
theorem C139_command_violated (service : Bytes) (systemctl : Option Bytes) (script : Bytes) :
    ascii "start" ∈ (upstartCommand systemctl (some service) script).tail := by
  cases systemctl <;> simp [upstartCommand]

/-- without `service` it is right -/
theorem C139_command_partial (systemctl : Option Bytes) (script : Bytes) :
    upstartCommand systemctl none script = [ascii "/sbin/start", script] := rfl

/-- **C139 fails** for a job of comments only: it has no description. -/
theorem C139_comments_violated (ls : List JobLine) (h : ∀ l ∈ ls, l.Fine) (hl : (headComments ls).length = ls.length) :
    (parseJob (printJob ls)).description = none := by
  unfold parseJob printJob
  rw [eachLine_print JobLine.print JobLine.Fine print_end ls h, fold_step ls _ h]
  have key : ∀ (ls : List JobLine) (j : Job), j.head = true → j.description = none → (headComments ls).length = ls.length →
      (ls.foldl step j).description = none := by
    intro ls
    induction ls with
    | nil => intro j _ h _; exact h
    | cons l ls ih =>
      intro j h0 h1 hl
      cases l with
      | comment t =>
        by_cases ht : t = []
        · simp [headComments, ht] at hl
        · rw [List.foldl_cons, step_comment h0 ht]
          exact ih { j with comments := j.comments ++ [t] } h0 h1 (by simpa [headComments, ht] using hl)
      | start t => simp [headComments] at hl
      | exec t => simp [headComments] at hl
      | other t => simp [headComments] at hl
  exact key ls {} rfl rfl hl

end Verif.Props.Upstart
