import Verif.Spec.Detector
/-
What a unit file of systemd says (C133), see systemd.syntax(7) and systemd.exec(5), as far as lines without continuations go.
-/
namespace Verif.Spec.Systemd
open Verif Verif.Spec.Detector

/-- a line: nothing, a comment (beginning with `#` or `;`), the name of a section, a setting -/
inductive UnitLine where
  | blank (indent : Bytes)
  | comment (indent : Bytes) (semicolon : Bool) (text : Bytes)
  | header (indent name trail : Bytes)
  | set (indent key before after value trail : Bytes)

def UnitLine.print : UnitLine → Bytes
  | .blank i => i ++ [0x0a]
  | .comment i s t => i ++ (if s then [0x3b] else [0x23]) ++ t ++ [0x0a]
  | .header i n t => i ++ [0x5b] ++ n ++ [0x5d] ++ t ++ [0x0a]
  | .set i k b a v t => i ++ k ++ b ++ [0x3d] ++ a ++ v ++ t ++ [0x0a]

/-- a key: letters and digits -/
def UnitKey (k : Bytes) : Prop := k ≠ [] ∧ ∀ c ∈ k, Word c

/-- a value: a text that does not begin or end with a blank -/
def UnitValue (v : Bytes) : Prop := v ≠ [] ∧ 0x0a ∉ v ∧ (∀ c, v.head? = some c → ¬Blank c) ∧ ∀ c, v.getLast? = some c → ¬Blank c

def UnitLine.Fine : UnitLine → Prop
  | .blank i => Blanks i
  | .comment i _ t => Blanks i ∧ 0x0a ∉ t
  | .header i n t => Blanks i ∧ Blanks t ∧ n ≠ [] ∧ 0x0a ∉ n
  | .set i k b a v t => Blanks i ∧ UnitKey k ∧ Blanks b ∧ Blanks a ∧ UnitValue v ∧ Blanks t

def printUnit (ls : List UnitLine) : Bytes := (ls.map UnitLine.print).flatten

/-- the settings of a section, in order, with the section that is current at the beginning -/
def settingsOf (wanted : Bytes) : Option Bytes → List UnitLine → List (Bytes × Bytes)
  | _, [] => []
  | cur, .blank _ :: ls => settingsOf wanted cur ls
  | cur, .comment _ _ _ :: ls => settingsOf wanted cur ls
  | _, .header _ n _ :: ls => settingsOf wanted (some n) ls
  | cur, .set _ k _ _ v _ :: ls => (if cur = some wanted then [(k, v)] else []) ++ settingsOf wanted cur ls

/-- all values of a key -/
def valuesOf (key : Bytes) (l : List (Bytes × Bytes)) : List Bytes := (l.filter (·.1 = key)).map (·.2)

/-- the environment files of a service; a dash tells systemd that the file may be missing -/
def environmentFiles (ls : List UnitLine) : List Bytes :=
  (valuesOf (ascii "EnvironmentFile") (settingsOf (ascii "Service") none ls)).map fun v => if v.head? = some 0x2d then v.tail else v

/-! ### environment files: as files of the shell, but nothing is expanded -/

def Piece.literal : Piece → Bytes
  | .text b => b
  | .var n true => [0x24, 0x7b] ++ n ++ [0x7d]
  | .var n false => [0x24] ++ n

def Value.literal : Value → Bytes
  | .plain ps => (ps.map Piece.literal).flatten
  | .double ps => (ps.map Piece.literal).flatten
  | .single b => b

def Line.setEnv (env : Env) : Line → Env
  | .blank _ => env
  | .comment _ _ => env
  | .assign _ _ n v _ _ => fun m => if m = n then some (Value.literal v) else env m

/-- the environment a file gives the service -/
def environment (env : Env) (ls : List Line) : Env := ls.foldl Line.setEnv env

/-- nothing in the file looks like a variable -/
def NoVariables (ls : List Line) : Prop :=
  ∀ l ∈ ls, ∀ e i n v r c, l = .assign e i n v r c → match v with
    | .plain ps => ∀ p ∈ ps, ∃ b, p = .text b
    | .double ps => ∀ p ∈ ps, ∃ b, p = .text b
    | .single _ => True

end Verif.Spec.Systemd
