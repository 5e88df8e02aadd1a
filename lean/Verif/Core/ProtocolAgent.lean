import Verif.Core.Bytes
/-
Macros of a protocol agent: `milter/core/milter-protocol-agent.c`.

A `MilterCommand` is its command byte.  A string-keyed hash table is modelled by its lookup
function; the iteration order of `g_hash_table_foreach` cannot be observed here because each
key is visited once and only its own entry is written.
-/
namespace Verif.Macros

abbrev Context := UInt8
abbrev Table := Bytes → Option Bytes

/-- a new hash table -/
def Table.empty : Table := fun _ => none

/-- `update_macro` (294-302): replace, or remove when the value is NULL -/
def Table.update (t : Table) (name : Bytes) (value : Option Bytes) : Table :=
  fun n => if n = name then value else t n

/-- `milter_utils_merge_hash_string_string` (`milter-utils.c` 469-479): every entry of `src`
is inserted into `dest`; also `cb_copy_macro` (366-377) into a new table -/
def Table.merge (dest src : Table) : Table :=
  fun n => match src n with
    | some v => some v
    | none => dest n

/-- `macro_search_order` (52-63): connect C, helo H, from M, recipient R, data T, header L,
end of header N, body B, end of message E -/
def searchOrder : List Context := [0x43, 0x48, 0x4d, 0x52, 0x54, 0x4c, 0x4e, 0x42, 0x45]

/-- `MilterProtocolAgentPrivate` (39-45), without `macros_requests` -/
structure Agent where
  macros : Context → Option Table
  available : Option Table
  context : Context

/-- `milter_protocol_agent_init` (102-113); `MILTER_COMMAND_UNKNOWN` is `U` -/
def Agent.init : Agent := ⟨fun _ => none, none, 0x55⟩

/-- `clear_available_macros` (115-122) -/
def Agent.invalidate (a : Agent) : Agent := { a with available := none }

/-- the macros of one context are merged in, if it has any (232-235) -/
def addContext (acc : Table) : Option Table → Table
  | some t => acc.merge t
  | none => acc

/-- the loop of `milter_protocol_agent_get_available_macros` (226-239) over the rest of the
search order -/
def collect (macros : Context → Option Table) (context : Context) : List Context → Table → Table
  | [], acc => acc
  | c :: order, acc =>
    if c = context then addContext acc (macros c)
    else collect macros context order (addContext acc (macros c))

/-- `milter_protocol_agent_get_available_macros` (214-242) -/
def Agent.getAvailable (a : Agent) : Table × Agent :=
  match a.available with
  | some t => (t, a)
  | none =>
    let t := collect a.macros a.context searchOrder Table.empty
    (t, { a with available := some t })

/-- `g_str_has_prefix (name, "{") && g_str_has_suffix (name, "}")` -/
def bracketed (name : Bytes) : Bool := name.head? == some 0x7b && name.getLast? == some 0x7d

/-- `milter_protocol_agent_get_macro` (183-205), for a non-NULL name -/
def Agent.getMacro (a : Agent) (name : Bytes) : Option Bytes × Agent :=
  match a.getAvailable with
  | (t, a) =>
    match t name with
    | some v => (some v, a)
    | none =>
      if bracketed name then (t ((name.drop 1).take (name.length - 2)), a) else (none, a)

/-- `milter_protocol_agent_clear_macros` (261-270) -/
def Agent.clear (a : Agent) (c : Context) : Agent :=
  ({ a with macros := fun d => if d = c then none else a.macros d }).invalidate

/-- the contexts removed by `milter_protocol_agent_clear_message_related_macros` (282-288) -/
def messageContexts : List Context := [0x4d, 0x52, 0x54, 0x4c, 0x4e, 0x42, 0x45]

/-- `milter_protocol_agent_clear_message_related_macros` (272-292) -/
def Agent.clearMessage (a : Agent) : Agent :=
  ({ a with macros := fun d => if messageContexts.contains d then none else a.macros d }).invalidate

/-- `ensure_macros` (304-318): the table of a context, created if missing -/
def Agent.ensure (a : Agent) (c : Context) : Table := (a.macros c).getD Table.empty

/-- store the (shared, mutable) table of a context -/
def Agent.put (a : Agent) (c : Context) (t : Table) : Agent :=
  { a with macros := fun d => if d = c then some t else a.macros d }

/-- `milter_protocol_agent_set_macro_context` (320-329) -/
def Agent.setContext (a : Agent) (c : Context) : Agent :=
  ({ a with context := c }).invalidate

/-- `milter_protocol_agent_set_macro` (397-411) -/
def Agent.setMacro (a : Agent) (c : Context) (name : Bytes) (value : Option Bytes) : Agent :=
  (a.put c ((a.ensure c).update name value)).invalidate

/-- `milter_protocol_agent_set_macros` (331-364): the cache of available macros is *not*
cleared -/
def Agent.setMacros (a : Agent) (c : Context) (l : List (Bytes × Option Bytes)) : Agent :=
  a.put c (l.foldl (fun t p => t.update p.1 p.2) (a.ensure c))

/-- `milter_protocol_agent_set_macros_hash_table` (379-395): the table is replaced -/
def Agent.setTable (a : Agent) (c : Context) (t : Table) : Agent :=
  (a.put c (Table.empty.merge t)).invalidate

end Verif.Macros
