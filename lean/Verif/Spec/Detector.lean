import Verif.Manager.Detector
/-
What is expected of the detection of milters (C123-C126): how the shell reads a file of
assignments, how such a file is written, and what the configuration files of milters say.
-/
namespace Verif.Spec.Detector
open Verif

/-- letters, digits and the underscore -/
def Word (c : UInt8) : Prop := (0x30 ≤ c ∧ c ≤ 0x39) ∨ (0x41 ≤ c ∧ c ≤ 0x5a) ∨ (0x61 ≤ c ∧ c ≤ 0x7a) ∨ c = 0x5f

instance (c : UInt8) : Decidable (Word c) := by unfold Word; infer_instance

/-- blanks, a line feed included -/
def Blank (c : UInt8) : Prop := c = 0x20 ∨ (0x09 ≤ c ∧ c ≤ 0x0d)

instance (c : UInt8) : Decidable (Blank c) := by unfold Blank; infer_instance

/-- a name of a shell variable -/
def Name (n : Bytes) : Prop := n ≠ [] ∧ (∀ c ∈ n, Word c) ∧ ∀ c, n.head? = some c → ¬(0x30 ≤ c ∧ c ≤ 0x39)

/-- the small letters -/
def Small (c : UInt8) : Prop := 0x61 ≤ c ∧ c ≤ 0x7a

/-- a part of a word of the shell: text, or a variable, with braces or without -/
inductive Piece where
  | text (b : Bytes)
  | var (name : Bytes) (braces : Bool)

/-- the value of an assignment: without quotes, in double or in single quotes -/
inductive Value where
  | plain (ps : List Piece)
  | double (ps : List Piece)
  | single (b : Bytes)

/-- a line of a file: nothing, a comment, or an assignment, which may be exported, indented and
followed by a comment -/
inductive Line where
  | blank (indent : Bytes)
  | comment (indent text : Bytes)
  | assign (exported : Bool) (indent name : Bytes) (v : Value) (rest : Bytes) (comment : Option Bytes)

def Piece.print : Piece → Bytes
  | .text b => b
  | .var n true => [0x24, 0x7b] ++ n ++ [0x7d]
  | .var n false => [0x24] ++ n

def printAll (ps : List Piece) : Bytes := (ps.map Piece.print).flatten

def Value.print : Value → Bytes
  | .plain ps => printAll ps
  | .double ps => [0x22] ++ printAll ps ++ [0x22]
  | .single b => [0x27] ++ b ++ [0x27]

def Line.print : Line → Bytes
  | .blank i => i ++ [0x0a]
  | .comment i t => i ++ [0x23] ++ t ++ [0x0a]
  | .assign e i n v r c =>
    i ++ (if e then ascii "export " else []) ++ n ++ [0x3d] ++ v.print ++ r ++
      (match c with | some t => [0x23] ++ t | none => []) ++ [0x0a]

/-- the variables of a shell -/
abbrev Env := Bytes → Option Bytes

/-- what the shell makes of a part: a variable that is not set is nothing -/
def Piece.value (env : Env) : Piece → Bytes
  | .text b => b
  | .var n _ => (env n).getD []

def valueAll (env : Env) (ps : List Piece) : Bytes := (ps.map (Piece.value env)).flatten

def Value.value (env : Env) : Value → Bytes
  | .plain ps => valueAll env ps
  | .double ps => valueAll env ps
  | .single b => b

/-- what a line does -/
def Line.run (env : Env) : Line → Env
  | .blank _ => env
  | .comment _ _ => env
  | .assign _ _ n v _ _ => fun m => if m = n then some (v.value env) else env m

/-- what a file does -/
def shell (env : Env) (ls : List Line) : Env := ls.foldl Line.run env

/-! ### files the detection reads as the shell does -/

/-- text without quotes: no blanks, quotes, braces or other characters that mean something to the
shell -/
def PlainText (b : Bytes) : Prop :=
  ∀ c ∈ b, ¬Blank c ∧ c ∉ ascii "\"'#$\\`;&|<>()*?[]{}~!"

/-- text in double quotes -/
def DoubleText (b : Bytes) : Prop := ∀ c ∈ b, c ∉ ascii "\"#$\\`\n"

/-- text in single quotes -/
def SingleText (b : Bytes) : Prop := ∀ c ∈ b, c ∉ ascii "'#$\n"

/-- parts: text is text, variables have names, are set, and a variable without braces ends before
what follows -/
def Parts (text : Bytes → Prop) (env : Env) : List Piece → Prop
  | [] => True
  | .text b :: ps => text b ∧ Parts text env ps
  | .var n braces :: ps =>
    Name n ∧ n ≠ ascii "name" ∧ env n ≠ none ∧
      (braces = false → ∀ c, (printAll ps).head? = some c → ¬Word c ∧ c ≠ 0x7d) ∧ Parts text env ps

def Value.Fine (env : Env) : Value → Prop
  | .plain ps => Parts PlainText env ps
  | .double ps => Parts DoubleText env ps
  | .single b => SingleText b

/-- blanks within a line -/
def Blanks (b : Bytes) : Prop := ∀ c ∈ b, Blank c ∧ c ≠ 0x0a

/-- a line of an assignment to a variable whose name may have small letters if `lower` -/
def Line.Fine (lower : Bool) (env : Env) : Line → Prop
  | .blank i => Blanks i
  | .comment i t => Blanks i ∧ 0x0a ∉ t
  | .assign _ i n v r c =>
    Blanks i ∧ Name n ∧ (lower = false → ∀ x ∈ n, ¬Small x) ∧ v.Fine env ∧ Blanks r ∧
      (∀ t, c = some t → 0x0a ∉ t ∧ r ≠ [])

/-- every line is fine when it is reached -/
def FineFile (lower : Bool) : Env → List Line → Prop
  | _, [] => True
  | env, l :: ls => l.Fine lower env ∧ FineFile lower (l.run env) ls

def printFile (ls : List Line) : Bytes := (ls.map Line.print).flatten

/-! ### configuration files of milters -/

/-- a line of clamav-milter.conf or opendkim.conf: nothing, a comment, a keyword with a value, a
keyword alone -/
inductive KeyLine where
  | blank (indent : Bytes)
  | comment (indent text : Bytes)
  | set (indent key sep value : Bytes)
  | alone (indent key : Bytes)

def KeyLine.print : KeyLine → Bytes
  | .blank i => i ++ [0x0a]
  | .comment i t => i ++ [0x23] ++ t ++ [0x0a]
  | .set i k s v => i ++ k ++ s ++ v ++ [0x0a]
  | .alone i k => i ++ k ++ [0x0a]

/-- a keyword -/
def Key (k : Bytes) : Prop := k ≠ [] ∧ ∀ c ∈ k, Word c

/-- a value does not begin with a blank and does not end the line -/
def Setting (v : Bytes) : Prop := 0x0a ∉ v ∧ ∃ c, v.head? = some c ∧ ¬Blank c

def KeyLine.Fine : KeyLine → Prop
  | .blank i => Blanks i
  | .comment i t => Blanks i ∧ 0x0a ∉ t
  | .set i k s v => Blanks i ∧ Key k ∧ Blanks s ∧ s ≠ [] ∧ Setting v
  | .alone i k => Blanks i ∧ Key k

/-- what a configuration says about a keyword: what the last line that sets it says; `some none` if
that line has no value -/
def said (key : Bytes) : List KeyLine → Option (Option Bytes)
  | [] => none
  | l :: ls =>
    match said key ls with
    | some v => some v
    | none =>
      match l with
      | .set _ k _ v => if k = key then some (some v) else none
      | .alone _ k => if k = key then some none else none
      | _ => none

/-- a line of greylist.conf: nothing, a comment, a list for recipients or for data, with or without
a time for which a client is kept waiting, or a setting with or without quotes and a mode -/
inductive GreyLine where
  | blank (indent : Bytes)
  | comment (indent text : Bytes)
  | quiet (indent : Bytes) (letter : Option UInt8) (sep text : Bytes)
  | tarpit (indent : Bytes) (r : Bool) (sep before blanks digits : Bytes) (unit : Option UInt8) (after : Bytes)
  | quoted (indent key sep value : Bytes) (rest : Bytes)

def GreyLine.print : GreyLine → Bytes
  | .blank i => i ++ [0x0a]
  | .comment i t => i ++ [0x23] ++ t ++ [0x0a]
  | .quiet i l s t => i ++ l.toList ++ ascii "acl" ++ s ++ t ++ [0x0a]
  | .tarpit i r s b bl ds u a =>
    i ++ (if r then [0x72] else []) ++ ascii "acl" ++ s ++ b ++ ascii "tarpit" ++ bl ++ ds ++ u.toList ++ a ++ [0x0a]
  | .quoted i k s v r => i ++ k ++ s ++ [0x22] ++ v ++ [0x22] ++ r ++ [0x0a]

/-- seconds, minutes, hours, days, weeks -/
def seconds : Option UInt8 → Nat
  | none => 1
  | some c =>
    if c = 0x73 then 1 else if c = 0x6d then 60 else if c = 0x68 then 3600 else if c = 0x64 then 86400 else 604800

/-- the number that digits stand for -/
def number (ds : Bytes) : Nat := ds.foldl (fun n c => n * 10 + (c.toNat - 0x30)) 0

def Digit (c : UInt8) : Prop := 0x30 ≤ c ∧ c ≤ 0x39

instance (c : UInt8) : Decidable (Digit c) := by unfold Digit; infer_instance

/-- `tarpit` does not occur in a text -/
def NoTarpit (t : Bytes) : Prop := ∀ a b, t ≠ a ++ ascii "tarpit" ++ b

/-- text of a list begins with something -/
def Begins (t : Bytes) : Prop := ∀ c, t.head? = some c → ¬Blank c

def GreyLine.Fine : GreyLine → Prop
  | .blank i => Blanks i
  | .comment i t => Blanks i ∧ 0x0a ∉ t
  | .quiet i l s t =>
    Blanks i ∧ (∀ c, l = some c → c = 0x72 ∨ c = 0x64) ∧ Blanks s ∧ s ≠ [] ∧ 0x0a ∉ t ∧ t.getLast? ≠ some 0x0d ∧ Begins t ∧
      (NoTarpit t ∨ l = some 0x64) ∧ t ≠ []
  | .tarpit i _ s b bl ds u a =>
    Blanks i ∧ Blanks s ∧ s ≠ [] ∧ 0x0a ∉ b ∧ Begins b ∧ NoTarpit b ∧ (∀ c, b.getLast? = some c → Blank c) ∧
      Blanks bl ∧ bl ≠ [] ∧ ds ≠ [] ∧ (∀ c ∈ ds, Digit c) ∧ (∀ c, u = some c → c ∈ ascii "smhdw") ∧
      0x0a ∉ a ∧ a.getLast? ≠ some 0x0d ∧ (∀ c, a.head? = some c → ¬Word c)
  | .quoted i k s v r =>
    Blanks i ∧ Key k ∧ k ∉ [ascii "acl", ascii "racl", ascii "dacl"] ∧ Blanks s ∧ s ≠ [] ∧ v ≠ [] ∧
      0x22 ∉ v ∧ 0x0a ∉ v ∧
      (Blanks r ∧ r.getLast? ≠ some 0x0d ∨ ∃ bl ds, r = bl ++ ds ∧ Blanks bl ∧ ds ≠ [] ∧ ∀ c ∈ ds, Digit c)

/-- how long a recipient may be kept waiting, in seconds -/
def waits : GreyLine → List Nat
  | .tarpit _ _ _ _ _ ds u _ => [number ds * seconds u]
  | _ => []

/-- the longest wait -/
def longest (ls : List GreyLine) : Nat := (ls.flatMap waits).foldr max 0

/-- the last setting -/
def greySaid (key : Bytes) : List GreyLine → Option Bytes
  | [] => none
  | l :: ls =>
    match greySaid key ls with
    | some v => some v
    | none =>
      match l with
      | .quoted _ k _ v _ => if k = key then some v else none
      | _ => none

/-- names of scripts with rules of their own -/
def special : List Bytes :=
  [ascii "enma", ascii "clamav-milter", ascii "opendkim", ascii "rspamd", ascii "milter-greylist"]

end Verif.Spec.Detector
