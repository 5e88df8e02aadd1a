import Verif.Spec.Detector
/-
What is expected of the detection of milters on FreeBSD (C136): how rc.conf and a script in rc.d are
written, and which value a variable of a milter has.
-/
namespace Verif.Spec.DetectorRc
open Verif Verif.Spec.Detector

/-- the quotes of a value, if any -/
inductive Quote where
  | no
  | double
  | single

/-- a value as it is written -/
def Quote.print : Quote → Bytes → Bytes
  | .no, v => v
  | .double, v => [0x22] ++ v ++ [0x22]
  | .single, v => [0x27] ++ v ++ [0x27]

/-- a value that means itself: no variables, no equals sign, no comment behind a quote -/
def FineValue (q : Quote) (v : Bytes) : Prop :=
  match q with
  | .no => v ≠ [] ∧ ∀ c ∈ v, ¬Blank c ∧ c ∉ ascii "=\"'#$\\`;&|<>()*?[]{}~!"
  | .double => ∀ c ∈ v, c ∉ ascii "=\"$\\`\n"
  | .single => ∀ c ∈ v, c ∉ ascii "='$\n"

/-- a line of rc.conf -/
inductive ConfLine where
  | blank
  | comment (text : Bytes)
  | set (name : Bytes) (q : Quote) (v : Bytes)

def ConfLine.print : ConfLine → Bytes
  | .blank => [0x0a]
  | .comment t => [0x23] ++ t ++ [0x0a]
  | .set n q v => n ++ [0x3d] ++ q.print v ++ [0x0a]

def ConfLine.Fine : ConfLine → Prop
  | .blank => True
  | .comment t => 0x0a ∉ t
  | .set n q v => Name n ∧ FineValue q v

def printConf (ls : List ConfLine) : Bytes := (ls.map ConfLine.print).flatten

/-- the last value given to a name -/
def lastSet (name : Bytes) : List ConfLine → Option Bytes
  | [] => none
  | .set n _ v :: ls => if n = name then (lastSet name ls).or (some v) else lastSet name ls
  | _ :: ls => lastSet name ls

/-- a default is written with one of these -/
inductive Separator where
  | equals
  | colonMinus
  | minus

def Separator.print : Separator → Bytes
  | .equals => ascii "="
  | .colonMinus => ascii ":-"
  | .minus => ascii "-"

/-- a line of a script: a comment, a command, an assignment, or a default for a variable of the
milter -/
inductive ScriptLine where
  | comment (text : Bytes)
  | command (text : Bytes)
  | assign (name : Bytes) (q : Quote) (v : Bytes)
  | default (key : Bytes) (s : Separator) (q : Quote) (v : Bytes)

/-- `own` is the name of the milter -/
def ScriptLine.print (own : Bytes) : ScriptLine → Bytes
  | .comment t => [0x23] ++ t ++ [0x0a]
  | .command t => t ++ [0x0a]
  | .assign n q v => n ++ [0x3d] ++ q.print v ++ [0x0a]
  | .default k s q v => ascii ": ${" ++ own ++ [0x5f] ++ k ++ s.print ++ q.print v ++ [0x7d, 0x0a]

def ScriptLine.Fine (own : Bytes) : ScriptLine → Prop
  | .comment t => 0x0a ∉ t ∧ 0x7b ∉ t
  | .command t => 0x0a ∉ t ∧ 0x7b ∉ t ∧ 0x3d ∉ t
  | .assign n q v => Name n ∧ FineValue q v ∧ 0x7b ∉ v ∧ q.print v ≠ [] ∧ ¬(own ++ [0x5f]) <+: n
  | .default k _ q v => Name k ∧ FineValue q v

def printScript (own : Bytes) (ls : List ScriptLine) : Bytes := (ls.map (ScriptLine.print own)).flatten

/-- the last value assigned to a name -/
def lastAssigned (name : Bytes) : List ScriptLine → Option Bytes
  | [] => none
  | .assign n _ v :: ls => if n = name then (lastAssigned name ls).or (some v) else lastAssigned name ls
  | _ :: ls => lastAssigned name ls

/-- the defaults of a variable: the shell takes the first -/
def defaultsOf (key : Bytes) (ls : List ScriptLine) : List Bytes :=
  ls.filterMap fun
    | .default k _ _ v => if k = key then some v else none
    | _ => none

/-- the value a milter of a name sees of a variable: what the files of rc.conf say last, or else the
default of the script -/
def effective (own : Bytes) (conf : List ConfLine) (script : List ScriptLine) (key : Bytes) : Option Bytes :=
  (lastSet (own ++ [0x5f] ++ key) conf).or (defaultsOf key script).head?

/-- yes, in small or capital letters -/
def Yes (v : Bytes) : Prop :=
  ∃ a b c, v = [a, b, c] ∧ (a = 0x59 ∨ a = 0x79) ∧ (b = 0x45 ∨ b = 0x65) ∧ (c = 0x53 ∨ c = 0x73)

end Verif.Spec.DetectorRc
