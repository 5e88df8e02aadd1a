import Verif.Server.Macros
import Verif.Spec.MacrosSent
import Verif.Props.Codec
/-
C48: macros sent along with a command.
-/
namespace Verif.Props
open Verif Verif.Spec Verif.Server Verif.Spec.MacrosSent Verif.Decoder Verif.Enc

/-- the loop of `filterMacros` -/
def filterLoop (macros : MacroTable) (symbols : List Bytes) (acc : MacroTable) : MacroTable :=
  symbols.foldl (fun acc symbol =>
    match macros.lookup symbol with
    | some (some value) => CmdDec.tableInsert acc symbol (some value)
    | _ => acc) acc

theorem filterLoop_lookup (macros : MacroTable) (symbols : List Bytes) : ∀ (acc : MacroTable) (name : Bytes),
    (filterLoop macros symbols acc).lookup name =
    if name ∈ symbols then
      (match macros.lookup name with
      | some (some value) => some (some value)
      | _ => acc.lookup name)
    else acc.lookup name := by
  induction symbols with
  | nil => intro acc name; simp [filterLoop]
  | cons s symbols ih =>
    intro acc name
    have hstep : filterLoop macros (s :: symbols) acc = filterLoop macros symbols
        (match macros.lookup s with
          | some (some value) => CmdDec.tableInsert acc s (some value)
          | _ => acc) := rfl
    rw [hstep, ih]
    by_cases hs : name = s
    · subst hs
      rcases hl : macros.lookup name with _ | _ | v
      · simp
      · simp
      · simp [CmdDec.lookup_tableInsert]
    · rcases hl : macros.lookup s with _ | _ | v
      · simp [hs]
      · simp [hs]
      · simp [hs, CmdDec.lookup_tableInsert]

theorem mem_tableInsert {t : MacroTable} {k : Bytes} {v : Option Bytes} {e : Bytes × Option Bytes}
    (h : e ∈ CmdDec.tableInsert t k v) : e ∈ t ∨ e = (k, v) := by
  induction t with
  | nil => exact .inr (List.mem_singleton.mp h)
  | cons a t ih =>
    obtain ⟨k', v'⟩ := a
    unfold CmdDec.tableInsert at h
    split at h
    · rename_i hk
      rcases List.mem_cons.mp h with rfl | h
      · exact .inr (by rw [hk])
      · exact .inl (List.mem_cons_of_mem _ h)
    · rcases List.mem_cons.mp h with rfl | h
      · exact .inl List.mem_cons_self
      · exact (ih h).imp (List.mem_cons_of_mem _) id

theorem keys_tableInsert (t : MacroTable) (k : Bytes) (v : Option Bytes) :
    ∀ x, x ∈ (CmdDec.tableInsert t k v).map (·.1) ↔ x ∈ t.map (·.1) ∨ x = k := by
  intro x
  induction t with
  | nil => simp [CmdDec.tableInsert]
  | cons a t ih =>
    obtain ⟨k', v'⟩ := a
    unfold CmdDec.tableInsert
    split
    · rename_i hk
      subst hk
      simp only [List.map_cons, List.mem_cons]
      constructor
      · exact .inl
      · rintro (h | rfl)
        · exact h
        · exact .inl rfl
    · simp only [List.map_cons, List.mem_cons, ih, or_assoc]

theorem nodup_tableInsert {t : MacroTable} (k : Bytes) (v : Option Bytes) (h : (t.map (·.1)).Nodup) :
    ((CmdDec.tableInsert t k v).map (·.1)).Nodup := by
  induction t with
  | nil => simp [CmdDec.tableInsert]
  | cons a t ih =>
    obtain ⟨k', v'⟩ := a
    obtain ⟨h1, h2⟩ := List.nodup_cons.mp h
    unfold CmdDec.tableInsert
    split
    · exact List.nodup_cons.mpr ⟨h1, h2⟩
    · rename_i hk
      refine List.nodup_cons.mpr ⟨?_, ih h2⟩
      rw [keys_tableInsert]
      exact fun h => h.elim h1 hk

theorem lookup_mem {t : MacroTable} {k : Bytes} {v : Option Bytes} (h : t.lookup k = some v) : (k, v) ∈ t := by
  induction t with
  | nil => cases h
  | cons a t ih =>
    obtain ⟨k', v'⟩ := a
    rw [List.lookup_cons] at h
    by_cases hk : k = k'
    · subst hk
      simp only [beq_self_eq_true, Option.some.injEq] at h
      rw [h]
      exact List.mem_cons_self
    · have : (k == k') = false := by simpa using hk
      rw [this] at h
      exact List.mem_cons_of_mem _ (ih h)

theorem mem_lookup {t : MacroTable} {k : Bytes} {v : Option Bytes} (h : (k, v) ∈ t) (hn : (t.map (·.1)).Nodup) :
    t.lookup k = some v := by
  induction t with
  | nil => cases h
  | cons a t ih =>
    obtain ⟨k', v'⟩ := a
    obtain ⟨h1, h2⟩ := List.nodup_cons.mp hn
    rw [List.lookup_cons]
    rcases List.mem_cons.mp h with h | h
    · cases h
      simp
    · have hk : k ≠ k' := fun e => h1 (e ▸ List.mem_map.mpr ⟨_, h, rfl⟩)
      have : (k == k') = false := by simpa using hk
      rw [this]
      exact ih h h2

theorem filterLoop_normal {macros : MacroTable} (hm : Normal macros) (symbols : List Bytes) : ∀ (acc : MacroTable),
    (∀ e ∈ acc, e ∈ macros) → (acc.map (·.1)).Nodup → Normal (filterLoop macros symbols acc) := by
  induction symbols with
  | nil => intro acc h1 h2; exact ⟨fun e he => hm.strings e (h1 e he), h2⟩
  | cons s symbols ih =>
    intro acc h1 h2
    have hstep : filterLoop macros (s :: symbols) acc = filterLoop macros symbols
        (match macros.lookup s with
          | some (some value) => CmdDec.tableInsert acc s (some value)
          | _ => acc) := rfl
    rw [hstep]
    rcases hl : macros.lookup s with _ | _ | v
    · exact ih acc h1 h2
    · exact ih acc h1 h2
    · refine ih _ (fun e he => ?_) (nodup_tableInsert _ _ h2)
      rcases mem_tableInsert he with he | rfl
      · exact h1 e he
      · exact lookup_mem hl

/-- a normal table stands for itself -/
theorem definitions_normal {t : MacroTable} (h : Normal t) : definitions t = t := by
  unfold definitions
  have h1 : t.filter (fun e => !e.1.isEmpty) = t := List.filter_eq_self.mpr fun e he => by
    have := (h.strings e he).2.1
    cases hk : e.1 with
    | nil => exact absurd hk this
    | cons _ _ => rfl
  rw [h1]
  conv => rhs; rw [← List.map_id t]
  refine List.map_congr_left fun e he => ?_
  obtain ⟨_, _, hn, v, hv, _⟩ := h.strings e he
  obtain ⟨k, w⟩ := e
  simp only at hn hv
  simp [hn, hv]

theorem normal_ok {t : MacroTable} (h : Normal t) {stage : UInt8} (hs : stage ∈ macroStages) : CmdOk (.defineMacro stage t) := by
  refine ⟨hs, fun e he => ?_, by rw [definitions_normal h]; exact h.distinct⟩
  obtain ⟨h1, _, _, v, hv, h2⟩ := h.strings e he
  exact ⟨h1, by rw [hv]; exact h2⟩

theorem write_stage (s : State) (c : Cmd) (n : Server.St) (ok : Bool) (rest : List Action) (hr : rest = [] ∨ rest = [.notProcessing])
    (c' : Cmd) (h : Item.wrote c' ∈ (returning (writePacket s c n ok) rest).2) :
    c' = c ∧ (returning (writePacket s c n ok) rest).1.nextStates = s.nextStates ++ [n] := by
  unfold writePacket at h ⊢
  by_cases h1 : n ≠ .abort ∧ n ≠ .quit ∧ isProcessing s = true
  · rw [if_pos h1] at h
    simp [returning, andThen, pause] at h
  · rw [if_neg h1] at h ⊢
    cases ok with
    | false => simp [returning, andThen, pause] at h
    | true =>
      rcases hr with rfl | rfl <;>
        (simp only [returning, andThen, go, exec, act, if_true, Bool.false_eq_true, if_false] at h ⊢
         refine ⟨by simpa using h, ?_⟩
         split <;> rfl)

/-- **C48**: the state a command leads to decides which macros go with it (below); they are those of the stage of the very
command that is written. -/
theorem C48_stage (s : State) (c : Cmd) (stop ok : Bool) (c' : Cmd) (h : Item.wrote c' ∈ (command s c stop ok).2) :
    ∃ next, (command s c stop ok).1.nextStates = s.nextStates ++ [next] ∧ macroStage next = stageOf c' := by
  have silent : ∀ s n, ¬ Item.wrote c' ∈ (stopOn s n).2 := fun s n => by simp [stopOn, returning, andThen, pause]
  have silent' : ∀ s n r, ¬ Item.wrote c' ∈ (answer s n r).2 := fun s n r => by simp [answer, returning, andThen, pause]
  have wr : ∀ (s0 : State) (c0 : Cmd) (n : Server.St) (rest : List Action), (rest = [] ∨ rest = [.notProcessing]) →
      s0.nextStates = s.nextStates → macroStage n = stageOf c0 → Item.wrote c' ∈ (returning (writePacket s0 c0 n ok) rest).2 →
      ∃ next, (returning (writePacket s0 c0 n ok) rest).1.nextStates = s.nextStates ++ [next] ∧ macroStage next = stageOf c' := by
    intro s0 c0 n rest hr h0 hm hw
    obtain ⟨h1, h2⟩ := write_stage s0 c0 n ok rest hr c' hw
    exact ⟨n, by rw [h2, h0], by rw [h1]; exact hm⟩
  cases c with
  | defineMacro _ _ => simp [command] at h
  | body chunk =>
    simp only [command] at h ⊢
    split at h
    · exact absurd h (silent _ _)
    · rename_i h1
      split at h
      · exact absurd h (silent' _ _ _)
      · rename_i h2
        rw [if_neg h1, if_neg h2]
        have hs0 : ({ ensureResult s (Result.told (.body chunk)) with body := (ensureResult s (Result.told (.body chunk))).body ++ chunk } : State).nextStates = s.nextStates := rfl
        generalize ({ ensureResult s (Result.told (.body chunk)) with body := (ensureResult s (Result.told (.body chunk))).body ++ chunk } : State) = s0 at h hs0 ⊢
        unfold flushBody writePacket at h ⊢
        simp only [ne_eq, reduceCtorEq, not_false_eq_true, true_and, or_self, if_false] at h ⊢
        by_cases h3 : isProcessing (appendBodyQueue s0) = true
        · simp [returning, andThen, pause, h3] at h
        · rw [if_neg h3] at h ⊢
          cases ok with
          | false => simp [returning, andThen, pause] at h
          | true =>
            simp only [if_true, returning, andThen, go, exec, Bool.false_eq_true, if_false] at h ⊢
            have hc : ∃ b, c' = .body b := ⟨_, by simpa using h⟩
            obtain ⟨b, rfl⟩ := hc
            refine ⟨.body, ?_, rfl⟩
            rw [← hs0]
            simp only [incrementBodyQueue, appendBodyQueue]
            split <;> rfl
  | data =>
    simp only [command] at h ⊢
    split at h
    · exact absurd h (silent _ _)
    · rename_i h1
      rw [if_neg h1]
      cases ho : (ensureResult s (Result.told .data)).option with
      | none => rw [ho] at h; simp at h
      | some o =>
        simp only [ho] at h ⊢
        split at h
        · exact absurd h (silent' _ _ _)
        · rename_i h2
          rw [if_neg h2]
          exact wr _ _ _ _ (.inl rfl) rfl rfl h
  | negotiate o => exact wr _ _ _ _ (.inl rfl) rfl rfl h
  | quit => exact wr _ _ _ _ (.inl rfl) rfl rfl h
  | abort => exact wr _ _ _ _ (.inr rfl) rfl rfl h
  | unknown _ =>
    simp only [command] at h ⊢
    split at h
    · exact absurd h (silent' _ _ _)
    · rename_i h2
      rw [if_neg h2]
      exact wr _ _ _ _ (.inl rfl) rfl rfl h
  | endOfMessage _ =>
    simp only [command] at h ⊢
    split at h
    · exact absurd h (silent _ _)
    · rename_i h2
      rw [if_neg h2]
      exact wr _ _ _ _ (.inl rfl) rfl rfl h
  | _ =>
    simp only [command] at h ⊢
    split at h
    · exact absurd h (silent _ _)
    · rename_i h1
      split at h
      · exact absurd h (silent' _ _ _)
      · rename_i h2
        rw [if_neg h1, if_neg h2]
        exact wr _ _ _ _ (.inl rfl) rfl rfl h

/-- **C48**: what is written for a command that belongs to a stage is the command's packet, and before it, if
there is a macro of the stage the milter wants, exactly one macro definition, which the milter reads as one
for that stage defining exactly the macros of the stage it wants, with their values.  (For a milter
that either requested no macros at all or requested some for this stage, by their names without
braces.) -/
theorem C48_partial (inet : Inet) (hinet : InetLaws inet) (sort : MacroTable → MacroTable) (hsort : ∀ t, (sort t).Perm t)
    (macros : UInt8 → Option MacroTable) (requests : Option MacrosRequests.Requests) (s : State) (asked c : Cmd) (stop ok : Bool)
    (hwrote : Item.wrote c ∈ (command s asked stop ok).2) (next : Server.St)
    (hnext : (command s asked stop ok).1.nextStates.getLast? = some next) (packet : Bytes) (stage : UInt8)
    (hof : stageOf c = some stage) (table : MacroTable) (htable : (macros stage).getD [] = table) (hnormal : Normal table)
    (hrequests : ∀ r, requests = some r → ∃ names, r stage = some names ∧ names ≠ [] ∧ ∀ x ∈ names, macroName x = x) :
    let wants := wanted (requests.getD fun _ => none) stage
    ((∀ name v, table.lookup name = some v → wants name = false) →
      packedPacket inet sort macros requests next packet = packet) ∧
    ((∃ name v, table.lookup name = some v ∧ wants name = true) →
      ∃ content read, packedPacket inet sort macros requests next packet = pack content ++ packet ∧
        alone (CmdDec.decode inet) content = .ok (.defineMacro stage read) ∧
        ∀ name, read.lookup name = if wants name = true then table.lookup name else none) := by
  intro wants
  have hstage : macroStage next = some stage := by
    obtain ⟨n, h1, h2⟩ := C48_stage s asked stop ok c hwrote
    rw [h1, List.getLast?_concat] at hnext
    cases hnext
    rw [h2, hof]
  have hst : stage ∈ macroStages := by
    revert hstage
    cases next <;> simp only [macroStage, Option.some.injEq, reduceCtorEq, false_implies] <;> intro h <;> subst h <;> decide
  -- a table that is sent
  have send : ∀ t : MacroTable, Normal t → prependMacro (macros stage) requests stage = some (.defineMacro stage t) →
      ∃ content read, packedPacket inet sort macros requests next packet = pack content ++ packet ∧
        alone (CmdDec.decode inet) content = .ok (.defineMacro stage read) ∧ ∀ name, read.lookup name = t.lookup name := by
    intro t ht hp
    obtain ⟨t', h1, h2⟩ := C08_table inet hinet sort hsort stage t (normal_ok ht hst)
    refine ⟨_, t', ?_, h1, fun name => by rw [h2, definitions_normal ht]⟩
    simp only [packedPacket, hstage, hp]
    rfl
  have quiet : prependMacro (macros stage) requests stage = none → packedPacket inet sort macros requests next packet = packet := by
    intro hp
    simp only [packedPacket, hstage, hp]
  -- values are never missing
  have hval : ∀ name, table.lookup name ≠ some none := by
    intro name hl
    obtain ⟨_, _, _, v, hv, _⟩ := hnormal.strings _ (lookup_mem hl)
    cases hv
  cases hm : macros stage with
  | none =>
    rw [hm] at htable
    have : table = [] := htable.symm
    refine ⟨fun _ => quiet (by rw [hm]; rfl), fun ⟨name, v, hl, _⟩ => ?_⟩
    rw [this] at hl
    cases hl
  | some t =>
    rw [hm] at htable
    have htt : t = table := htable
    subst htt
    by_cases he : t = []
    · refine ⟨fun _ => quiet (by rw [hm, he]; rfl), fun ⟨name, v, hl, _⟩ => ?_⟩
      rw [he] at hl
      cases hl
    · have hlen : ¬ t.length = 0 := fun h => he (List.length_eq_zero_iff.mp h)
      cases hr : requests with
      | none =>
        have hw : ∀ name, wants name = true := fun name => by
          show wanted (requests.getD fun _ => none) stage name = true
          rw [hr]; rfl
        constructor
        · intro hno
          exfalso
          obtain ⟨e, he'⟩ := List.exists_mem_of_ne_nil t he
          have := hno e.1 e.2 (mem_lookup he' hnormal.distinct)
          rw [hw] at this
          cases this
        · intro _
          rw [← hr]
          obtain ⟨c, r, h1, h2, h3⟩ := send t hnormal (by rw [hm, hr]; simp [prependMacro, hlen])
          exact ⟨c, r, h1, h2, fun name => by rw [h3, hw]; simp⟩
      | some r =>
        obtain ⟨names, hn, hne, hplain⟩ := hrequests r hr
        have hw : ∀ name v, t.lookup name = some v → (wants name = true ↔ name ∈ names) := fun name v hl => by
          have hname : macroName name = name := (hnormal.strings _ (lookup_mem hl)).2.2.1
          have hmap : names.map macroName = names := by
            conv => rhs; rw [← List.map_id names]
            exact List.map_congr_left fun x hx => hplain x hx
          show wanted (requests.getD fun _ => none) stage name = true ↔ _
          rw [hr]
          simp only [wanted, Option.getD_some, hn, hmap, hname, List.contains_iff_mem]
        have hf : prependMacro (macros stage) requests stage =
            if filterLoop t names [] = [] then none else some (.defineMacro stage (filterLoop t names [])) := by
          rw [hm, hr]
          simp only [prependMacro, hlen, if_false, MacrosRequests.getSymbols, hn, Option.getD_some, ne_eq, hne, not_false_eq_true,
            if_true, filterMacros]
          change (match (if filterLoop t names [] = [] then none else some (filterLoop t names [])) with
            | none => none
            | some filtered => some (Cmd.defineMacro stage filtered)) = _
          by_cases h0 : filterLoop t names [] = [] <;> simp [h0]
        have hlook : ∀ name, (filterLoop t names []).lookup name = if name ∈ names then t.lookup name else none := fun name => by
          rw [filterLoop_lookup]
          rcases hl : t.lookup name with _ | _ | v
          · simp
          · exact absurd hl (hval name)
          · simp
        have hnorm := filterLoop_normal hnormal names [] (fun e he => by cases he) (by simp)
        rw [← hr]
        constructor
        · intro hno
          refine quiet ?_
          rw [hf, if_pos]
          refine Classical.byContradiction fun h0 => ?_
          obtain ⟨e, he'⟩ := List.exists_mem_of_ne_nil _ h0
          have hl := mem_lookup he' hnorm.distinct
          rw [hlook] at hl
          split at hl
          · rename_i hin
            have := (hw e.1 e.2 hl).mpr hin
            rw [hno e.1 e.2 hl] at this
            cases this
          · cases hl
        · rintro ⟨name, v, hl, hwn⟩
          have h0 : filterLoop t names [] ≠ [] := by
            intro h0
            have := hlook name
            rw [if_pos ((hw name v hl).mp hwn), hl, h0] at this
            cases this
          obtain ⟨c, rd, h1, h2, h3⟩ := send _ hnorm (by rw [hf, if_neg h0])
          refine ⟨c, rd, h1, h2, fun x => ?_⟩
          rw [h3, hlook]
          rcases hx : t.lookup x with _ | w
          · simp
          · simp only [hw x w hx]

/-- commands that belong to no stage are written as they are -/
theorem C48_plain (inet : Inet) (sort : MacroTable → MacroTable) (macros : UInt8 → Option MacroTable)
    (requests : Option MacrosRequests.Requests) (packet : Bytes) :
    packedPacket inet sort macros requests .negotiate packet = packet ∧
    packedPacket inet sort macros requests .unknown packet = packet ∧
    packedPacket inet sort macros requests .abort packet = packet ∧
    packedPacket inet sort macros requests .quit packet = packet := ⟨rfl, rfl, rfl, rfl⟩

namespace Cases

def mailMacros : MacroTable := [(ascii "i", some (ascii "42")), (ascii "mail_addr", some (ascii "a@b")), (ascii "auth_type", some [])]

end Cases
open Cases

/-- a sender is written, and its macros are those of stage M -/
example : Item.wrote (.envelopeFrom [60, 62]) ∈ (command { option := some ⟨6, 0x1ff, 0⟩ } (.envelopeFrom [60, 62]) false true).2 ∧
    (command { option := some ⟨6, 0x1ff, 0⟩ } (.envelopeFrom [60, 62]) false true).1.nextStates.getLast? = some .envelopeFrom ∧
    stageOf (.envelopeFrom [60, 62]) = some 0x4d := by decide

/-- a milter that asks for two of three macros -/
example : Normal mailMacros ∧
    (∀ r, some (MacrosRequests.setSymbols MacrosRequests.new 0x4d [ascii "mail_addr", ascii "i", ascii "x"]) = some r →
      ∃ names, r 0x4d = some names ∧ names ≠ [] ∧ ∀ x ∈ names, macroName x = x) ∧
    prependMacro (some mailMacros) (some (MacrosRequests.setSymbols MacrosRequests.new 0x4d [ascii "mail_addr", ascii "i", ascii "x"])) 0x4d =
      some (.defineMacro 0x4d [(ascii "mail_addr", some (ascii "a@b")), (ascii "i", some (ascii "42"))]) := by
  refine ⟨⟨?_, by decide⟩, ?_, by decide⟩
  · intro e he
    have : e = (ascii "i", some (ascii "42")) ∨ e = (ascii "mail_addr", some (ascii "a@b")) ∨ e = (ascii "auth_type", some []) := by
      simpa [mailMacros] using he
    rcases this with rfl | rfl | rfl
    · exact ⟨by decide, by decide, by decide, _, rfl, by decide⟩
    · exact ⟨by decide, by decide, by decide, _, rfl, by decide⟩
    · exact ⟨by decide, by decide, by decide, _, rfl, by decide⟩
  · rintro r h
    cases h
    refine ⟨_, rfl, by decide, by decide⟩

/-- **C48 fails** for a milter that names a macro with braces, as macros with long names are named in the
protocol: it is defined, and wanted, but not sent -/
theorem C48_braces_violated :
    mailMacros.lookup (ascii "mail_addr") = some (some (ascii "a@b")) ∧
    wanted (MacrosRequests.setSymbols MacrosRequests.new 0x4d [ascii "{mail_addr}"]) 0x4d (ascii "mail_addr") = true ∧
    prependMacro (some mailMacros) (some (MacrosRequests.setSymbols MacrosRequests.new 0x4d [ascii "{mail_addr}"])) 0x4d = none := by
  decide

/-- **C48 fails** for a milter that named macros for another stage only -/
theorem C48_other_stage_violated :
    wanted (MacrosRequests.setSymbols MacrosRequests.new 0x52 [ascii "rcpt_addr"]) 0x4d (ascii "mail_addr") = true ∧
    prependMacro (some mailMacros) (some (MacrosRequests.setSymbols MacrosRequests.new 0x52 [ascii "rcpt_addr"])) 0x4d = none := by
  decide

end Verif.Props
