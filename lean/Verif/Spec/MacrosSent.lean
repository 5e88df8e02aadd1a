import Verif.Spec.Command
/-
Which macros a milter should be sent before a command.
-/
namespace Verif.Spec.MacrosSent
open Verif

/-- does the milter want this macro at this stage?  If it named macros for the stage, only those it named;
braces do not matter -/
def wanted (requests : UInt8 → Option (List Bytes)) (stage : UInt8) (name : Bytes) : Bool :=
  match requests stage with
  | none => true
  | some names => (names.map macroName).contains (macroName name)

/-- a table as a macro definition packet gives it: no empty names, no braces, no name twice -/
structure Normal (t : MacroTable) : Prop where
  strings : ∀ e ∈ t, IsCStr e.1 ∧ e.1 ≠ [] ∧ macroName e.1 = e.1 ∧ ∃ v, e.2 = some v ∧ IsCStr v
  distinct : (t.map (·.1)).Nodup

/-- The stage whose macros go with a command: the letter of the command itself, for the commands that have macros. -/
def stageOf : Cmd → Option UInt8
  | .connect _ _ => some 0x43             -- C
  | .helo _ => some 0x48                  -- H
  | .envelopeFrom _ => some 0x4d          -- M
  | .envelopeRecipient _ => some 0x52     -- R
  | .data => some 0x54                    -- T
  | .header _ _ => some 0x4c              -- L
  | .endOfHeader => some 0x4e             -- N
  | .body _ => some 0x42                  -- B
  | .endOfMessage _ => some 0x45          -- E
  | _ => none

end Verif.Spec.MacrosSent
