import Verif.Core.Connection
import Verif.Core.Status
/-
Milter definitions ("eggs"), applicable conditions and the list of them a configuration
keeps: `milter/manager/milter-manager-egg.c`, `milter-manager-applicable-condition.c` 270-285,
`milter-manager-configuration.c` 1643-1766 and the part of `binding/ruby/lib/milter/manager.rb`
that defines milters (1113-1121, 1206-1210).

A timeout is a `gdouble` that is stored and handed on, never computed with; it is a number
here.  Strings are NUL-free byte strings; `none` is NULL.  Reference counts, log messages and
the text of errors are left out.  Eggs are values: `merge` of an egg into itself (where the
setters free the string they are about to copy) is not modelled.
-/
namespace Verif.Egg
open Verif.Connection (Net SockAddr parseSpec)

/-- `MilterManagerApplicableConditionPrivate` (applicable-condition.c 34-40) -/
structure Condition where
  name : Option Bytes := none
  description : Option Bytes := none
  data : Option Bytes := none
deriving DecidableEq, Repr

/-- `milter_manager_applicable_condition_merge` (applicable-condition.c 270-285) -/
def mergeCondition (c other : Condition) : Condition :=
  let c := match other.description with
    | some d => { c with description := some d }
    | none => c
  match other.data with
  | some d => { c with data := some d }
  | none => c

/-- the four timeouts of `MilterManagerEggPrivate` -/
structure Timeouts where
  connection : Nat
  writing : Nat
  reading : Nat
  endOfMessage : Nat
deriving DecidableEq, Repr

/-- `DEFAULT_..._TIMEOUT` (egg.c 27-35): the defaults of milter-server-context.h 59-80 less
`TIMEOUT_LEEWAY`, in seconds -/
def defaultTimeouts : Timeouts := ⟨300 - 3, 10 - 3, 10 - 3, 300 - 3⟩

/-- `MilterManagerEggPrivate` (egg.c 41-58); the initial values are those of
`milter_manager_egg_init` (239-260).  `conditions` is the list `applicable_conditions`. -/
structure Egg where
  name : Option Bytes := none
  description : Option Bytes := none
  enabled : Bool := true
  connectionSpec : Option Bytes := none
  timeouts : Timeouts := defaultTimeouts
  userName : Option Bytes := none
  command : Option Bytes := none
  commandOptions : Option Bytes := none
  conditions : List Condition := []
  fallback : Status := .accept
  evaluation : Bool := false
deriving DecidableEq, Repr

/-- `milter_manager_egg_new` (428-432) -/
def newEgg (name : Bytes) : Egg := { name := some name }

/-- `milter_manager_egg_set_connection_spec` (545-589): NULL is always taken, anything else
must be a spec `milter_connection_parse_spec` can read; `none` is undefined behaviour of that
function, the Boolean is the result -/
def setConnectionSpec (net : Net) (e : Egg) : Option Bytes → Option (Bool × Egg)
  | none => some (true, { e with connectionSpec := none })
  | some spec =>
    match parseSpec net spec with
    | .ok _ => some (true, { e with connectionSpec := some spec })
    | .fail => some (false, e)
    | .ub => none

/-- `milter_manager_egg_clear_applicable_conditions` (773-783) -/
def clearConditions (e : Egg) : Egg := { e with conditions := [] }

/-- `milter_manager_egg_add_applicable_condition` (745-756) -/
def addCondition (e : Egg) (c : Condition) : Egg := { e with conditions := e.conditions ++ [c] }

/-- `milter_manager_egg_merge` (797-853) -/
def merge (net : Net) (e other : Egg) : Option (Bool × Egg) := do
  let (ok, e) ← match other.connectionSpec with
    | some spec => setConnectionSpec net e (some spec)
    | none => some (true, e)
  if !ok then
    return (false, e)
  let e := { e with timeouts := { e.timeouts with connection := other.timeouts.connection } }
  let e := { e with timeouts := { e.timeouts with writing := other.timeouts.writing } }
  let e := { e with timeouts := { e.timeouts with reading := other.timeouts.reading } }
  let e := { e with timeouts := { e.timeouts with endOfMessage := other.timeouts.endOfMessage } }
  let e := match other.description with
    | some d => { e with description := some d }
    | none => e
  let e := { e with enabled := other.enabled }
  let e := match other.userName with
    | some u => { e with userName := some u }
    | none => e
  let e := match other.command with
    | some c => { e with command := some c, commandOptions := other.commandOptions }
    | none => e
  let e := clearConditions e
  return (true, other.conditions.foldl addCondition e)

/-- what a `MilterManagerChild` is created with (egg.c 462-472), and the address its
context connects to; `address = none` if the spec could not be read, so that the milter
cannot be reached -/
structure Child where
  name : Option Bytes
  timeouts : Timeouts
  userName : Option Bytes
  command : Option Bytes
  commandOptions : Option Bytes
  fallback : Status
  evaluation : Bool
  address : Option SockAddr
deriving DecidableEq, Repr

/-- `milter_manager_egg_hatch` (453-496) with `milter_server_context_set_connection_spec`
(server-context.c 3321-3346).  The outer `none` is undefined behaviour, the inner one the
NULL child; the Boolean tells whether the "hatched" signal was emitted. -/
def hatch (net : Net) (e : Egg) : Option (Option (Child × Bool)) :=
  match e.connectionSpec with
  | none => some none
  | some spec =>
    let child (a : Option SockAddr) : Child :=
      { name := e.name, timeouts := e.timeouts, userName := e.userName, command := e.command,
        commandOptions := e.commandOptions, fallback := e.fallback, evaluation := e.evaluation,
        address := a }
    match parseSpec net spec with
    | .ok a => some (some (child (some a), true))
    | .fail => some (some (child none, false))
    | .ub => none

/-- `g_str_equal (name, egg name)`: `none` if the egg has no name (`strcmp` of NULL) -/
def sameName (name : Bytes) (e : Egg) : Option Bool :=
  match e.name with
  | some n => some (name == n)
  | none => none

/-- `milter_manager_configuration_find_egg` (configuration.c 1665-1681) -/
def find (name : Bytes) : List Egg → Option (Option Egg)
  | [] => some none
  | e :: es => do
    if ← sameName name e then return some e
    find name es

/-- `milter_manager_configuration_remove_egg_by_name` (1707-1724) -/
def remove (name : Bytes) : List Egg → Option (List Egg)
  | [] => some []
  | e :: es => do
    if ← sameName name e then return es
    return e :: (← remove name es)

/-- `milter_manager_configuration_add_egg` (1643-1654) -/
def add (es : List Egg) (e : Egg) : List Egg := es ++ [e]

/-- `milter_manager_configuration_setup_children` (1741-1766): the children of a session in
the order they are added, each with the conditions attached to it -/
def setup (net : Net) : List Egg → Option (List (Child × List Condition))
  | [] => some []
  | e :: es => do
    if !e.enabled then
      return ← setup net es
    match ← hatch net e with
    | some (c, _) => return (c, e.conditions) :: (← setup net es)
    | none => setup net es

/-- `EggConfigurationLoader#initialize` (manager.rb 1114-1120): the definition a configuration
file starts from when it defines the milter `name`.  A merge that fails raises an error,
which ends the loading of the file: the result then is `none` inside. -/
def openEgg (net : Net) (es : List Egg) (name : Bytes) : Option (Option Egg) := do
  match ← find name es with
  | none => return some (newEgg name)
  | some old =>
    let (ok, e) ← merge net (newEgg name) old
    return if ok then some e else none

/-- `EggConfigurationLoader#apply` (manager.rb 1207-1210) for an egg with a name -/
def apply (es : List Egg) (name : Bytes) (e : Egg) : Option (List Egg) := do
  return add (← remove name es) e

/-- `define_milter` (manager.rb 461-467): open, change with the block, apply -/
def define (net : Net) (es : List Egg) (name : Bytes) (change : Egg → Egg) : Option (List Egg) := do
  match ← openEgg net es name with
  | none => return es
  | some e => apply es name (change e)

end Verif.Egg
