import Verif.Core.Xml
import Verif.Manager.Configuration
/-
The configuration as XML: `milter-manager-configuration.c` 2166-2250 and
`milter-manager-egg.c` 855-935.  Nothing in the repository but a test connects to the signals
"to-xml", which let others add elements; they are left out.
-/
namespace Verif.Configuration
open Verif.Egg (Egg Condition)
open Verif.Xml

/-- the nicks `glib-mkenums` makes of `MilterStatus` (core/milter-protocol.h 99-116) -/
def statusNick : Status → Bytes
  | .default => ascii "default"
  | .notChange => ascii "not-change"
  | .continue_ => ascii "continue"
  | .reject => ascii "reject"
  | .discard => ascii "discard"
  | .accept => ascii "accept"
  | .temporaryFailure => ascii "temporary-failure"
  | .noReply => ascii "no-reply"
  | .skip => ascii "skip"
  | .allOptions => ascii "all-options"
  | .progress => ascii "progress"
  | .abort => ascii "abort"
  | .quarantine => ascii "quarantine"
  | .stop => ascii "stop"
  | .error => ascii "error"

/-- `milter_utils_xml_append_enum_element` (milter-utils.c 691-704) for a status -/
def statusElement (name : Bytes) (s : Status) (n : Nat) : Bytes := textElement name (statusNick s) n

/-- `if (value) milter_utils_xml_append_text_element(...)` -/
def optionalElement (name : Bytes) (v : Option Bytes) (n : Nat) : Bytes :=
  match v with
  | some t => textElement name t n
  | none => []

/-- the name of a condition; a NULL name is printed as `(null)` -/
def conditionName (c : Condition) : Bytes := c.name.getD (ascii "(null)")

/-- `milter_manager_egg_to_xml_string` (egg.c 866-935) -/
def eggXml (e : Egg) (n : Nat) : Bytes :=
  openLine (ascii "milter") n ++
  optionalElement (ascii "name") e.name (n + 2) ++
  optionalElement (ascii "description") e.description (n + 2) ++
  booleanElement (ascii "enabled") e.enabled (n + 2) ++
  statusElement (ascii "fallback-status") e.fallback (n + 2) ++
  booleanElement (ascii "evaluation-mode") e.evaluation (n + 2) ++
  optionalElement (ascii "connection-spec") e.connectionSpec (n + 2) ++
  optionalElement (ascii "command") e.command (n + 2) ++
  optionalElement (ascii "command-options") e.commandOptions (n + 2) ++
  (if e.conditions.isEmpty then []
   else openLine (ascii "applicable-conditions") (n + 2) ++
    (e.conditions.flatMap fun c => textElement (ascii "applicable-condition") (conditionName c) (n + 4)) ++
    closeLine (ascii "applicable-conditions") (n + 2)) ++
  closeLine (ascii "milter") n

/-- one condition in `milter_manager_configuration_to_xml_string` (configuration.c 2204-2226) -/
def conditionXml (c : Condition) (n : Nat) : Bytes :=
  openLine (ascii "applicable-condition") n ++
  textElement (ascii "name") (conditionName c) (n + 2) ++
  optionalElement (ascii "description") c.description (n + 2) ++
  closeLine (ascii "applicable-condition") n

/-- `milter_manager_configuration_to_xml_string` (configuration.c 2176-2250); `modified` is
the time of the custom configuration file, printed, if there is such a file -/
def toXml (modified : Option Bytes) (c : Conf) (n : Nat) : Bytes :=
  openLine (ascii "configuration") n ++
  optionalElement (ascii "last-modified") modified (n + 2) ++
  (if c.conditions.isEmpty then []
   else openLine (ascii "applicable-conditions") (n + 2) ++
    (c.conditions.flatMap fun x => conditionXml x (n + 4)) ++
    closeLine (ascii "applicable-conditions") (n + 2)) ++
  (if c.eggs.isEmpty then []
   else openLine (ascii "milters") (n + 2) ++
    (c.eggs.flatMap fun e => eggXml e (n + 4)) ++
    closeLine (ascii "milters") (n + 2)) ++
  closeLine (ascii "configuration") n

end Verif.Configuration
