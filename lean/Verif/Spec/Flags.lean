import Verif.Core.Logger
/-
What a string of flag names means, and which log messages are wanted.
-/
namespace Verif.Spec.Flags
open Verif Verif.Names

/-- a name in the list, with a sign or without -/
structure Item where
  sign : Option Bool
  name : Bytes

def signText : Option Bool → Bytes
  | none => []
  | some true => [0x2b]
  | some false => [0x2d]

/-- the string: a sign or none, and the names separated by bars -/
def text (lead : Option Bool) (items : List Item) : Bytes :=
  signText lead ++ joinWith [0x7c] (items.map fun i => signText i.sign ++ i.name)

/-- a string that can be read in one way only: names contain no bar and do not begin with a sign, the first sign belongs to the
list as a whole, and a single name is not empty -/
structure Readable (lead : Option Bool) (items : List Item) : Prop where
  names : ∀ i ∈ items, 0x7c ∉ i.name ∧ i.name.head? ≠ some 0x2b ∧ i.name.head? ≠ some 0x2d
  first : lead = none → ∀ i, items.head? = some i → i.sign = none
  single : joinWith [0x7c] (items.map fun i => signText i.sign ++ i.name) = [] → items = []

/-- the name is known -/
def known (c : Class) (name : Bytes) : Bool := decide (name = Names.all) || (byNick c name).isSome

/-- flag `k` is one of those a name stands for; "all" stands for the flags of the class when they are added, and for everything when they
are removed -/
def standsFor (c : Class) (defaultFlags : UInt32) (adds : Bool) (name : Bytes) (k : Nat) : Bool :=
  if name = Names.all then !adds || c.any fun v => v.2.toNat.testBit k
  else match byNick c name with
    | none => false
    | some v => if v = 0 ∧ name = Names.default then defaultFlags.toNat.testBit k else v.toNat.testBit k

/-- what a name in a list says about flag `k`: set it, clear it, or nothing -/
def says (c : Class) (defaultFlags : UInt32) (lead : Option Bool) (k : Nat) (i : Item) : Option Bool :=
  let adds := i.sign.getD (lead.getD true)
  if standsFor c defaultFlags adds i.name k then some adds else none

end Verif.Spec.Flags

namespace Verif.Spec.Logger
open Verif Verif.Logger

/-- the levels by name: bit `k` stands for the level (doc of MILTER_LOG_LEVEL) -/
def levelNames : List (Bytes × Nat) :=
  [(ascii "critical", 1), (ascii "error", 2), (ascii "warning", 3), (ascii "message", 4), (ascii "info", 5), (ascii "debug", 6), (ascii "trace", 7),
   (ascii "statistics", 8), (ascii "profile", 9)]

/-- the levels which are written when nothing was asked for -/
def usual (k : Nat) : Bool := k ∈ [1, 2, 3, 4, 8]

/-- level `k` is one of those the name stands for -/
def means (name : Bytes) (k : Nat) : Bool :=
  decide (name = ascii "all") || (decide (name = ascii "default") && usual k) || decide ((name, k) ∈ levelNames)

/-- a name that may be used -/
def isName (name : Bytes) : Bool := decide (name = ascii "all") || decide (name = ascii "default") || decide (name = ascii "none") || levelNames.any (·.1 = name)

/-- the levels wanted: in the log (0 is the default), in syslog, and by others -/
structure Wanted where
  log : UInt32
  syslog : Option UInt32
  others : Bytes → UInt32

/-- a level by its name, counted from the level `current`; a name with something unknown in it changes nothing -/
def named (current : UInt32) : Option Bytes → UInt32
  | none => 0
  | some name => if (levelFromString name current).2 = [] then (levelFromString name current).1 else current

def Wanted.after (w : Wanted) : Op → Wanted
  | .setTarget l => { w with log := l }
  | .setTargetByString name => { w with log := named w.log name }
  | .setInteresting key l => { w with others := fun k => if k = key then l else w.others k }
  | .startSyslog environment => if w.syslog.isSome then w else
    { w with syslog := some (if environment.isSome then named 0 environment else w.log) }
  | .setSyslog l => { w with syslog := w.syslog.map fun _ => l }
  | .setSyslogByString name => { w with syslog := w.syslog.map fun l => named l name }
  | .stopSyslog => { w with syslog := none }
  | .setProperty _ | .setSyslogProperty _ => w

def wanted (ops : List Op) : Wanted := ops.foldl Wanted.after ⟨0, none, fun _ => 0⟩

/-- 0 is the default -/
def actual (level : UInt32) : UInt32 := if level = 0 then defaultLevel else level

/-- two sets of levels have one in common -/
def meets (a b : UInt32) : Bool := a &&& b != 0

/-- it is left to the logger's functions to set levels: not done by setting the objects' properties, or by
being interested under the names the loggers use -/
def proper : Op → Bool
  | .setProperty _ | .setSyslogProperty _ => false
  | .setInteresting key _ => key ≠ consoleKey && key ≠ syslogKey
  | _ => true

end Verif.Spec.Logger
