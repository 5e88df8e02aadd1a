/-
What a macro lookup should return, as a function of the history of calls.
Independent of the model of the agent: no cache, no tables per stage.
-/
namespace Verif.Spec.Macros

/-- a call on an agent; stages are command bytes, names and values byte strings -/
inductive Call where
  /-- the session enters a stage -/
  | setContext (stage : UInt8)
  /-- one macro is defined for a stage (or removed, value `none`) -/
  | setMacro (stage : UInt8) (name : List UInt8) (value : Option (List UInt8))
  /-- several macros are defined with the variadic call -/
  | setMacros (stage : UInt8) (defs : List (List UInt8 × Option (List UInt8)))
  /-- all macros of a stage are replaced by a table -/
  | setTable (stage : UInt8) (table : List UInt8 → Option (List UInt8))
  /-- all macros of a stage are removed -/
  | clear (stage : UInt8)
  /-- all macros of the current message are removed -/
  | clearMessage
  /-- a macro is looked up -/
  | lookup (name : List UInt8)
  /-- the table of available macros is requested -/
  | available

/-- protocol stages in the order in which they happen: connect, helo, envelope-from,
envelope-recipient, data, header, end-of-header, body, end-of-message -/
def stages : List UInt8 := [0x43, 0x48, 0x4d, 0x52, 0x54, 0x4c, 0x4e, 0x42, 0x45]

/-- stages that belong to one message: envelope-from and everything later -/
def messageStages : List UInt8 := stages.drop 2

/-- the stages up to and including `current`; every stage if `current` is not one of them
(the state after an unknown SMTP command, or before connect) -/
def upTo (current : UInt8) : List UInt8 :=
  if current ∈ stages then stages.take (stages.idxOf current + 1) else stages

/-- the last pair for `name` in a definition list -/
def lastDef (name : List UInt8) : List (List UInt8 × Option (List UInt8)) →
    Option (Option (List UInt8))
  | [] => none
  | (n, v) :: l => match lastDef name l with
    | some w => some w
    | none => if n = name then some v else none

/-- the value of a macro of a stage after a history, the newest call first -/
def defined (stage : UInt8) (name : List UInt8) : List Call → Option (List UInt8)
  | [] => none
  | .setMacro s n v :: h => if s = stage ∧ n = name then v else defined stage name h
  | .setMacros s l :: h =>
    if s = stage then
      match lastDef name l with
      | some v => v
      | none => defined stage name h
    else defined stage name h
  | .setTable s t :: h => if s = stage then t name else defined stage name h
  | .clear s :: h => if s = stage then none else defined stage name h
  | .clearMessage :: h => if stage ∈ messageStages then none else defined stage name h
  | .setContext _ :: h => defined stage name h
  | .lookup _ :: h => defined stage name h
  | .available :: h => defined stage name h

/-- the current stage after a history, the newest call first (initially "unknown") -/
def current : List Call → UInt8
  | [] => 0x55
  | .setContext c :: _ => c
  | _ :: h => current h

/-- the value of `name` in the latest of the given stages that defines it -/
def latest (h : List Call) (name : List UInt8) : List UInt8 → Option (List UInt8)
  | [] => none
  | s :: l => match latest h name l with
    | some v => some v
    | none => defined s name h

/-- the value visible under exactly this name -/
def visible (h : List Call) (name : List UInt8) : Option (List UInt8) :=
  latest h name (upTo (current h))

/-- the result of a lookup: the name itself, or what is between enclosing braces -/
def Result (h : List Call) (name : List UInt8) (r : Option (List UInt8)) : Prop :=
  (visible h name ≠ none → r = visible h name) ∧
  (visible h name = none → ∀ inner, name = [0x7b] ++ inner ++ [0x7d] → r = visible h inner) ∧
  (visible h name = none → (∀ inner, name ≠ [0x7b] ++ inner ++ [0x7d]) → r = none)

/-- no variadic definition was made between a lookup and the last call that changes what is
visible (newest call first); this is the situation in which the code loses a definition -/
def Fresh : List Call → Prop
  | [] => True
  | .setMacros _ _ :: h => Unread h
  | .lookup _ :: h => Fresh h
  | .available :: h => Fresh h
  | _ :: _ => True
where
  /-- no lookup since the last call that changes what is visible -/
  Unread : List Call → Prop
    | [] => True
    | .setMacros _ _ :: h => Unread h
    | .lookup _ :: _ => False
    | .available :: _ => False
    | _ :: _ => True

end Verif.Spec.Macros
