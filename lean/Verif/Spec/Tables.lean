import Verif.Manager.Tables
/-
What a table of regular expressions is to mean, after Postfix's regexp_table(5), and what the variables of an action are.  Of the model, only the types of lines and patterns are used.
-/
namespace Verif.Spec.Tables
open Verif Verif.Tables

/-- does a line's pattern apply to the text? -/
def applies (negative : Bool) (p : Pattern) (text : Bytes) : Bool := (p text).isSome != negative

/-- what the variables of the action stand for: nothing, if the pattern is negated -/
def groups (negative : Bool) (p : Pattern) (text : Bytes) : Option Groups := if negative then none else p text

/-- the lines are gone through in order; lines between an `if` whose pattern does not apply and its `endif` are skipped (the number is how many `if`s deep one is in
such lines); the first rule that applies decides -/
def decides (text : Bytes) : Nat → List Line → Option (Bytes × Option Groups)
  | _, [] => none
  | 0, .if neg p :: ls => if applies neg p text then decides text 0 ls else decides text 1 ls
  | 0, .rule neg p action :: ls => if applies neg p text then some (action, groups neg p text) else decides text 0 ls
  | 0, .endif :: ls => decides text 0 ls
  | 0, .invalid :: ls => decides text 0 ls
  | depth + 1, .if _ _ :: ls => decides text (depth + 2) ls
  | depth + 1, .endif :: ls => decides text depth ls
  | depth + 1, _ :: ls => decides text (depth + 1) ls

/-- decimal digits, and the number they denote -/
def Digits (ds : Bytes) : Prop := ds ≠ [] ∧ ∀ d ∈ ds, 0x30 ≤ d ∧ d ≤ 0x39

/-- the number is the value in base ten -/
def value : Bytes → Nat
  | [] => 0
  | d :: ds => (d.toNat - 0x30) * 10 ^ ds.length + value ds

/-- after a `$`: the text of a variable for group `n`: digits (as many as there are), or digits in parentheses or braces -/
inductive Variable : Bytes → Nat → Bytes → Prop where
  | plain (ds rest : Bytes) (h : Digits ds) (maximal : ∀ c r, rest = c :: r → ¬ (0x30 ≤ c ∧ c ≤ 0x39)) : Variable (ds ++ rest) (value ds) rest
  | parentheses (ds rest : Bytes) (h : Digits ds) : Variable ([0x28] ++ ds ++ [0x29] ++ rest) (value ds) rest
  | braces (ds rest : Bytes) (h : Digits ds) : Variable ([0x7b] ++ ds ++ [0x7d] ++ rest) (value ds) rest

/-- what an action becomes: `$$` a `$`, a variable the text of the group (nothing, if there is none), everything else itself -/
inductive Expands (g : Nat → Option Bytes) : Bytes → Bytes → Prop where
  | nil : Expands g [] []
  | char (c : UInt8) (rest out : Bytes) (h : c ≠ 0x24) : Expands g rest out → Expands g (c :: rest) (c :: out)
  | dollar (rest out : Bytes) : Expands g rest out → Expands g (0x24 :: 0x24 :: rest) (0x24 :: out)
  | variable (text rest out : Bytes) (n : Nat) : Variable text n rest → Expands g rest out → Expands g (0x24 :: text) ((g n).getD [] ++ out)
  | alone (rest out : Bytes) (h : ∀ r, rest ≠ 0x24 :: r) (h' : ∀ n r, ¬ Variable rest n r) : Expands g rest out → Expands g (0x24 :: rest) (0x24 :: out)

end Verif.Spec.Tables
