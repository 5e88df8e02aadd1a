import Verif.Core.XmlReader
import Verif.Core.Text
import Verif.Manager.Egg
/-
`XMLConfigurationLoader::Listener` (binding/ruby/lib/milter/manager.rb 524-707), which loads a
custom configuration that is XML: what it does with the milters of the configuration.

Namespaces and attributes are left out: the local part of a name is the name.  A section
(security, controller, manager) has the settings `settings` says; what is sent to it is
recorded.  Source locations and log messages are left out.  An exception ends the loading;
`Milter::Callback.guard` (378-381) or the rescue clause (511-515) then ends it quietly with
whatever has been done so far.
-/
namespace Verif.XmlLoader
open Verif.Xml (Event)
open Verif.Egg (Egg Condition)
open Verif.Connection (Net)

/-- the sections a configuration may have besides the milters -/
inductive Section where
  | security | controller | manager
deriving DecidableEq, Repr

/-- `"milter_" + local` (manager.rb 665-671, 679-682) -/
inductive Item where
  | name | description | enabled | connectionSpec | command | commandOptions | fallbackStatus | evaluationMode
  | applicableCondition
deriving DecidableEq, Repr

/-- the elements of the state stack -/
inductive State where
  | root | configuration
  | section_ (s : Section)
  | setting (name : Bytes)
  | milters | milter | conditions
  | item (i : Item)
deriving DecidableEq, Repr

/-- `@egg_config` -/
structure EggConfig where
  name : Option Bytes := none
  description : Option Bytes := none
  enabled : Option Bool := none
  connectionSpec : Option Bytes := none
  command : Option Bytes := none
  commandOptions : Option Bytes := none
  fallbackStatus : Option Bytes := none
  evaluationMode : Option Bool := none
  conditions : Option (List Bytes) := none
deriving DecidableEq, Repr

/-- `@state_stack` with `@text_stack`, innermost first, `@egg_config`, and what is loaded into:
the milters of the configuration, its applicable conditions, and what the sections were sent -/
structure Loader where
  stack : List (State × Bytes)
  egg : EggConfig := {}
  eggs : List Egg
  conditions : List Condition
  sent : List (Section × Bytes × Bytes) := []

/-- how a step ends: `raised` with what was done before the exception, `ub` for undefined
behaviour of the C functions below -/
inductive Out (α : Type) where
  | on (a : α)
  | raised
  | ub

/-- `normalize_local` (701-703) -/
def normalize (n : Bytes) : Bytes := n.map fun c => if c = 0x2d then 0x5f else c

/-- the states of the elements of a milter (662-677) -/
def milterItem (n : Bytes) : Option Item :=
  if n = ascii "name" then some .name
  else if n = ascii "description" then some .description
  else if n = ascii "enabled" then some .enabled
  else if n = ascii "connection_spec" then some .connectionSpec
  else if n = ascii "command" then some .command
  else if n = ascii "command_options" then some .commandOptions
  else if n = ascii "fallback_status" then some .fallbackStatus
  else if n = ascii "evaluation_mode" then some .evaluationMode
  else none

/-- `next_state` (626-697); `none` is an exception -/
def nextState (settings : Section → Bytes → Bool) (s : State) (name : Bytes) : Option State :=
  let n := normalize name
  match s with
  | .root => if n = ascii "configuration" then some .configuration else none
  | .configuration =>
    if n = ascii "security" then some (.section_ .security)
    else if n = ascii "controller" then some (.section_ .controller)
    else if n = ascii "manager" then some (.section_ .manager)
    else if n = ascii "milters" then some .milters
    else none
  | .section_ x => if settings x n then some (.setting n) else none
  | .milter =>
    if n = ascii "applicable_conditions" then some .conditions
    else (milterItem n).map .item
  | .conditions => if n = ascii "applicable_condition" then some (.item .applicableCondition) else none
  | .milters => if n = ascii "milter" then some .milter else none
  | .setting _ | .item _ => none

/-- what `next_state` does to `@egg_config` (660, 685) -/
def nextEgg (s : State) (e : EggConfig) : EggConfig :=
  match s with
  | .conditions => { e with conditions := some [] }
  | .milter => {}
  | _ => e

/-- `tag_start` (536-555) -/
def tagStart (settings : Section → Bytes → Bool) (l : Loader) (name : Bytes) : Option Loader :=
  match l.stack with
  | [] => none
  | (s, _) :: _ =>
    match nextState settings s name with
    | none => none
    | some s' => some { l with stack := (s', []) :: l.stack, egg := nextEgg s' l.egg }

/-- `milter_manager_configuration_find_applicable_condition` (configuration.c 1873-1892) -/
def findCondition (name : Bytes) : List Condition → Option (Option Condition)
  | [] => some none
  | c :: cs =>
    match c.name with
    | none => none
    | some n => if name = n then some (some c) else findCondition name cs

/-- the conditions of `applicable_conditions=` (1135-1152) -/
def lookupConditions (conds : List Condition) : List Bytes → Out (List Condition)
  | [] => .on []
  | n :: ns =>
    match findCondition n conds with
    | none => .ub
    | some none => .raised
    | some (some c) =>
      match lookupConditions conds ns with
      | .on cs => .on (c :: cs)
      | .raised => .raised
      | .ub => .ub

/-- `downcase` on ASCII and `gsub(/_/, '-')` (1187) -/
def normalizeStatus (s : Bytes) : Bytes :=
  s.map fun c => if c = 0x5f then 0x2d else if 0x41 ≤ c && c ≤ 0x5a then c + 32 else c

/-- the statuses `fallback_status=` knows (1178-1183) -/
def fallbackStatus (s : Bytes) : Option Status :=
  let n := normalizeStatus s
  if n = ascii "accept" then some .accept
  else if n = ascii "reject" then some .reject
  else if n = ascii "temporary-failure" then some .temporaryFailure
  else if n = ascii "discard" then some .discard
  else none

/-- the block given to `define_milter` (567-588) -/
def configure (net : Net) (conds : List Condition) (c : EggConfig) (e : Egg) : Out Egg :=
  let spec := c.connectionSpec.getD []
  let set := if spec = [] then some (true, e) else Egg.setConnectionSpec net e (some spec)
  match set with
  | none => .ub
  | some (false, _) => .raised
  | some (true, e) =>
    match lookupConditions conds (c.conditions.getD []) with
    | .ub => .ub
    | .raised => .raised
    | .on cs =>
      let e := cs.foldl Egg.addCondition (Egg.clearConditions e)
      let e := match c.enabled with
        | some b => { e with enabled := b }
        | none => e
      let e := match c.description with
        | some d => { e with description := some d }
        | none => e
      let command : Option Egg := match c.command with
        | none => some e
        | some x =>
          match c.commandOptions with
          | none => none -- `nil.empty?`
          | some o => some { e with command := some x, commandOptions := some o }
      match command with
      | none => .raised
      | some e =>
        let fallback : Option Egg := match c.fallbackStatus with
          | none => some e
          | some s => (fallbackStatus s).map fun v => { e with fallback := v }
        match fallback with
        | none => .raised
        | some e =>
          .on (match c.evaluationMode with
            | some b => { e with evaluation := b }
            | none => e)

/-- `define_milter` (461-467) with that block; without a name `Egg.new` raises -/
def defineMilter (net : Net) (l : Loader) : Out Loader :=
  match l.egg.name with
  | none => .raised
  | some name =>
    match Egg.openEgg net l.eggs name with
    | none => .ub
    | some none => .raised
    | some (some e) =>
      match configure net l.conditions l.egg e with
      | .ub => .ub
      | .raised => .raised
      | .on e =>
        match Egg.apply l.eggs name e with
        | none => .ub
        | some es => .on { l with eggs := es }

/-- `@egg_config[...] = text` (591-598) -/
def setItem (e : EggConfig) (i : Item) (text : Bytes) : EggConfig :=
  match i with
  | .name => { e with name := some text }
  | .description => { e with description := some text }
  | .enabled => { e with enabled := some (text = ascii "true") }
  | .connectionSpec => { e with connectionSpec := some text }
  | .command => { e with command := some text }
  | .commandOptions => { e with commandOptions := some text }
  | .fallbackStatus => { e with fallbackStatus := some text }
  | .evaluationMode => { e with evaluationMode := some (text = ascii "true") }
  | .applicableCondition => { e with conditions := some (e.conditions.getD [] ++ [text]) }

/-- `tag_end` (557-605) -/
def tagEnd (net : Net) (l : Loader) : Out Loader :=
  match l.stack with
  | [] => .raised
  | (s, text) :: rest =>
    let l := { l with stack := rest }
    match s with
    | .root | .configuration | .section_ _ | .milters | .conditions => .on l
    | .milter => defineMilter net l
    | .item i => .on { l with egg := setItem l.egg i text }
    | .setting n =>
      match rest with
      | (.section_ x, _) :: _ => .on { l with sent := l.sent ++ [(x, n, text)] }
      | _ => .raised

/-- `text` (607-609) -/
def text (l : Loader) (c : UInt8) : Loader :=
  match l.stack with
  | [] => l
  | (s, t) :: rest => { l with stack := (s, t ++ [c]) :: rest }

/-- one event of the parser -/
def step (settings : Section → Bytes → Bool) (net : Net) (l : Loader) : Event → Out Loader
  | .start n =>
    match tagStart settings l n with
    | some l => .on l
    | none => .raised
  | .stop _ => tagEnd net l
  | .char c => .on (text l c)

/-- the events of a document: the milters of the configuration afterwards, what was sent to the
sections, and whether the document was loaded to the end; `none` is undefined behaviour -/
def run (settings : Section → Bytes → Bool) (net : Net) (l : Loader) : List Event → Option (Loader × Bool)
  | [] => some (l, true)
  | e :: es =>
    match step settings net l e with
    | .on l => run settings net l es
    | .raised => some (l, false)
    | .ub => none

/-- `XMLConfigurationLoader#load` (505-521).  A document the parser does not understand is taken
to be refused as a whole. -/
def load (settings : Section → Bytes → Bool) (net : Net) (conds : List Condition) (eggs : List Egg) (document : Bytes) :
    Option (Loader × Bool) :=
  let l : Loader := { stack := [(.root, [])], eggs := eggs, conditions := conds }
  match Xml.events document with
  | none => some (l, false)
  | some es => run settings net l es

end Verif.XmlLoader
