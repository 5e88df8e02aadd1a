import Verif.Manager.Conditions
import Verif.Manager.Egg
/-
Policies: binding/ruby/lib/milter/manager/policy-manager.rb (`PolicyManager`, `Policy`) and binding/ruby/lib/milter/manager.rb 488-492 (`define_policy`), 502-513
(`apply_configurations`, `apply_policies`).

A criterion of a policy is any object with `===`: a function that answers or raises an exception (`none`).  `nil` - no criterion - equals no string and no address, so that
`nil === x` is false.
-/
namespace Verif.Policy
open Verif.Macros
open Verif.Conditions (Address)

/-- an object asked with `===`: the answer, or `none` for an exception -/
abbrev Criterion (α : Type) := α → Option Bool

/-- `Policy`, policy-manager.rb:93-103; the name is never used and left out -/
structure Policy where
  milters : List Bytes := []
  host : Option (Criterion Bytes) := none
  address : Option (Criterion Address) := none
  fqdn : Option (Criterion Bytes) := none
  sender : Option (Criterion Bytes) := none
  recipient : Option (Criterion Bytes) := none

/-- `criterion === x` -/
def matches_ {α : Type} (c : Option (Criterion α)) (x : α) : Option Bool :=
  match c with
  | none => some false
  | some f => f x

/-- `target_milter?`, 130-132 -/
def Policy.target (p : Policy) (milter : Bytes) : Bool := p.milters.contains milter

/-- `Policy#stop_on_connect?`, 105-108: the address is looked at only if the host does not match -/
def Policy.stopOnConnect (p : Policy) (milter host : Bytes) (address : Address) : Option Bool :=
  if !p.target milter then some false
  else
    match matches_ p.host host with
    | none => none
    | some true => some false
    | some false => (matches_ p.address address).map (!·)

/-- `Policy#stop_on_envelope_from?`, 115-118 -/
def Policy.stopOnEnvelopeFrom (p : Policy) (milter sender : Bytes) : Option Bool :=
  if !p.target milter then some false else (matches_ p.sender sender).map (!·)

/-- `Policy#stop_on_envelope_recipient?`, 120-123 -/
def Policy.stopOnEnvelopeRecipient (p : Policy) (milter recipient : Bytes) : Option Bool :=
  if !p.target milter then some false else (matches_ p.recipient recipient).map (!·)

/-- `Policy#stop_on_data?`, 125-127 -/
def Policy.stopOnData (p : Policy) (milter : Bytes) : Option Bool := some !p.target milter

/-- `@policies.any?`: an exception ends it -/
def anyPolicy (f : Policy → Option Bool) : List Policy → Option Bool
  | [] => some false
  | p :: ps =>
    match f p with
    | none => none
    | some true => some true
    | some false => anyPolicy f ps

/-- the name of the condition, 30 -/
def policyName : Bytes := ascii "Policy"

/-- the condition `apply` defines, 31-53, as it works for the milter of the given name (`context.name`, child-context.rb 32-34).
`PolicyManager#stop_on_helo?` (68-72) hands on `helo`, which is not defined there: a `NameError` as soon as there is a policy. -/
def condition (ps : List Policy) (milter : Bytes) : Conditions.Condition :=
  { name := policyName
    connect := [fun host address a => (anyPolicy (fun p => p.stopOnConnect milter host address) ps, a)]
    helo := [fun _ a => (anyPolicy (fun _ => none) ps, a)]
    envelopeFrom := [fun sender a => (anyPolicy (fun p => p.stopOnEnvelopeFrom milter sender) ps, a)]
    envelopeRecipient := [fun recipient a => (anyPolicy (fun p => p.stopOnEnvelopeRecipient milter recipient) ps, a)]
    data := [fun a => (anyPolicy (fun p => p.stopOnData milter) ps, a)] }

/-- `find_applicable_condition` (milter-manager-configuration.c 1874-1893), of the list of conditions of a configuration -/
def findCondition (cs : List Egg.Condition) (name : Bytes) : Option Egg.Condition := cs.find? fun c => c.name == some name

/-- `define_applicable_condition` (manager.rb 474-479, 1214-1229, 1298-1302; milter-manager-configuration.c 1851-1864, 1922-1942) with a block that sets the description: the new condition, and the list with it at the end -/
def defineCondition (cs : List Egg.Condition) (name description : Bytes) : Egg.Condition × List Egg.Condition :=
  let c : Egg.Condition := { name := some name }
  let c := match findCondition cs name with
    | some old => Egg.mergeCondition c old
    | none => c
  let c := { c with description := some description }
  (c, cs.eraseP (fun old => old.name == some name) ++ [c])

/-- the description, 32 -/
def policyDescription : Bytes := ascii "Apply policies defined by define_policy"

/-- the loop of `apply` over the names of the milters, 55-59.  An egg without a name is not modelled (outer `none`); an exception of `define_milter` ends the loop. -/
def redefine (net : Connection.Net) (c : Egg.Condition) : List (Option Bytes) → List Egg.Egg → Option (List Egg.Egg)
  | [], es => some es
  | none :: _, _ => none
  | some n :: ns, es => do
    match ← Egg.openEgg net es n with
    | none => return es
    | some e => redefine net c ns (← Egg.apply es n (Egg.addCondition e c))

/-- `PolicyManager#apply`, 27-60, on the conditions and the milters of the configuration -/
def apply (net : Connection.Net) (ps : List Policy) (cs : List Egg.Condition) (es : List Egg.Egg) :
    Option (List Egg.Condition × List Egg.Egg) :=
  if ps.isEmpty then some (cs, es)
  else
    let (c, cs) := defineCondition cs policyName policyDescription
    (redefine net c (es.map (·.name)) es).map fun es => (cs, es)

end Verif.Policy
