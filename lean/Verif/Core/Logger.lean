import Verif.Core.Names
/-
core/milter-logger.c and core/milter-syslog-logger.c: which messages are written where.

Not modelled: what is written (items, colours), the file (core/milter-logger.c:654-673, 815-841), and several syslog loggers at a time.
-/
namespace Verif.Logger
open Verif

/-- the values of `MilterLogLevelFlags`, core/milter-logger.h:90-103 -/
def levels : Names.Class :=
  [(Names.default, 0), (ascii "none", 1), (ascii "critical", 2), (ascii "error", 4), (ascii "warning", 8), (ascii "message", 0x10),
   (ascii "info", 0x20), (ascii "debug", 0x40), (ascii "trace", 0x80), (ascii "statistics", 0x100), (ascii "profile", 0x200)]

/-- `MILTER_LOG_LEVEL_ALL`, core/milter-logger.h:105-113 -/
def allLevels : UInt32 := 0x3fe

/-- `DEFAULT_LEVEL`, core/milter-logger.c:38-43: critical, error, warning, message, statistics -/
def defaultLevel : UInt32 := 0x11e

/-- `milter_log_level_flags_from_string`, core/milter-logger.c:303-322 -/
def levelFromString (s : Bytes) (base : UInt32) : UInt32 × List Bytes :=
  if s = Names.all then (allLevels, [])
  else Names.flagsFromString levels s (if base = 0 && Names.signed s then defaultLevel else base) defaultLevel

/-- `DEFAULT_KEY`, core/milter-logger.c:37 -/
def consoleKey : Bytes := Names.default
/-- `INTERESTING_LEVEL_KEY`, core/milter-syslog-logger.c:28 -/
def syslogKey : Bytes := ascii "syslog"

structure State where
  /-- `target_level` of the logger -/
  target : UInt32
  /-- `interesting_levels`: who wants which levels (a hash table; its order does not matter here) -/
  interests : List (Bytes × UInt32)
  /-- `interesting_level` -/
  interesting : UInt32
  /-- the syslog logger's `target_level`, if there is one -/
  syslog : Option UInt32

/-- `milter_logger_init`, core/milter-logger.c:209-223 -/
def init : State := ⟨0, [(consoleKey, defaultLevel)], defaultLevel, none⟩

/-- `g_hash_table_insert` -/
def put (t : List (Bytes × UInt32)) (key : Bytes) (level : UInt32) : List (Bytes × UInt32) :=
  (key, level) :: t.filter (·.1 ≠ key)

/-- `milter_logger_set_interesting_level` with `update_interesting_level`, core/milter-logger.c:729-752 -/
def setInteresting (s : State) (key : Bytes) (level : UInt32) : State :=
  let t := put s.interests key level
  { s with interests := t, interesting := t.foldl (fun m v => m ||| v.2) 0 }

/-- `milter_logger_set_target_level`, core/milter-logger.c:692-702 -/
def setTarget (s : State) (level : UInt32) : State :=
  setInteresting { s with target := level } consoleKey (if level = 0 then defaultLevel else level)

/-- `milter_logger_set_target_level_by_string`, core/milter-logger.c:704-727 -/
def setTargetByString (s : State) : Option Bytes → Bool × State
  | none => (true, setTarget s 0)
  | some name =>
    let r := levelFromString name s.target
    if r.2 = [] then (true, setTarget s r.1) else (false, s)

/-- `milter_syslog_logger_set_target_level`, core/milter-syslog-logger.c:384-395 -/
def setSyslog (s : State) (level : UInt32) : State := setInteresting { s with syslog := some level } syslogKey level

/-- `milter_syslog_logger_set_target_level_by_string`, core/milter-syslog-logger.c:397-420 -/
def setSyslogByString (s : State) (current : UInt32) : Option Bytes → Bool × State
  | none => (true, setSyslog s 0)
  | some name =>
    let r := levelFromString name current
    if r.2 = [] then (true, setSyslog s r.1) else (false, s)

/-- `constructor` of the syslog logger, core/milter-syslog-logger.c:242-275; `environment` is MILTER_LOG_SYSLOG_LEVEL -/
def startSyslog (s : State) (environment : Option Bytes) : State :=
  match environment with
  | some level => (setSyslogByString { s with syslog := some 0 } 0 (some level)).2
  | none => setSyslog s s.target

/-- `teardown_logger`, core/milter-syslog-logger.c:231-240 -/
def stopSyslog (s : State) : State := setInteresting { s with syslog := none } syslogKey 0

/-- `milter_logger_get_resolved_target_level`, core/milter-logger.c:681-690 -/
def resolved (s : State) : UInt32 := if s.target = 0 then defaultLevel else s.target

/-- `milter_need_log`, core/milter-logger.h:69-70 -/
def needLog (s : State) (level : UInt32) : Bool := s.interesting &&& level != 0

/-- `milter_log` (core/milter-logger.h:30-41) and `milter_logger_default_log_handler`, core/milter-logger.c:466-485: is the message written to the
log -/
def console (s : State) (level : UInt32) : Bool := needLog s level && level &&& resolved s != 0

/-- `milter_log` and `cb_log`, core/milter-syslog-logger.c:132-159: is the message sent to syslog -/
def syslogs (s : State) (level : UInt32) : Bool :=
  match s.syslog with
  | none => false
  | some target => needLog s level && level &&& (if target = 0 then s.interesting else target) != 0

/-- what can be done to the loggers -/
inductive Op where
  | setTarget (level : UInt32)
  | setTargetByString (name : Option Bytes)
  /-- somebody else (a program with a handler of its own) is interested in `level` -/
  | setInteresting (key : Bytes) (level : UInt32)
  /-- `g_object_set (logger, "target-level", level)`, core/milter-logger.c:262-265 -/
  | setProperty (level : UInt32)
  | startSyslog (environment : Option Bytes)
  | setSyslog (level : UInt32)
  | setSyslogByString (name : Option Bytes)
  /-- `g_object_set (syslog_logger, "target-level", level)`, core/milter-syslog-logger.c:327-329 -/
  | setSyslogProperty (level : UInt32)
  | stopSyslog

def step (s : State) : Op → State
  | .setTarget l => setTarget s l
  | .setTargetByString n => (setTargetByString s n).2
  | .setInteresting k l => setInteresting s k l
  | .setProperty l => { s with target := l }
  | .startSyslog e => if s.syslog.isSome then s else startSyslog s e
  | .setSyslog l => if s.syslog.isSome then setSyslog s l else s
  | .setSyslogByString n => match s.syslog with
    | some current => (setSyslogByString s current n).2
    | none => s
  | .setSyslogProperty l => if s.syslog.isSome then { s with syslog := some l } else s
  | .stopSyslog => if s.syslog.isSome then stopSyslog s else s

def run (s : State) (ops : List Op) : State := ops.foldl step s

end Verif.Logger
