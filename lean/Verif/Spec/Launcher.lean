import Verif.Manager.Launcher
import Verif.Spec.Credentials
/-
What is said about the process launcher, in terms of the requests it gets, the processes it starts, their ends, and its replies.
-/
namespace Verif.Spec.Launcher
open Verif Verif.Credentials
open Verif.Launcher (Event Item)
open Verif.Control (Launch)

/-- what happened, and what could be seen then -/
abbrev Trace := List (Event × List Item)

/-- the history of a launcher that begins as this one -/
def trace (db : Database) (s : Launcher.State) : List Event → Trace
  | [] => []
  | e :: es => (e, (Launcher.step db s e).2) :: trace db (Launcher.step db s e).1 es

/-- the processes started by these items for this command -/
def startedBy (command : Bytes) (items : List Item) : List (Nat × Bytes) :=
  items.filterMap fun i => match i with
    | .started pid _ _ => some (pid, command)
    | _ => none

/-- the processes that run after one more event, given those that ran before -/
def runningStep (before : List (Nat × Bytes)) : Event × List Item → List (Nat × Bytes)
  | (.request l _, items) => startedBy l.commandLine items ++ before
  | (.exited pid, _) => before.filter fun p => p.1 != pid

/-- the processes, with the command line of each, that were started and did not end -/
def running (t : Trace) : List (Nat × Bytes) := t.foldl runningStep []

/-- a new process never has the id of one that still runs, and is one -/
def FreshStep (before : List (Nat × Bytes)) : Event × List Item → Prop
  | (.request _ _, items) => ∀ pid argv c, .started pid argv c ∈ items → ∀ p ∈ before, p.1 ≠ pid
  | _ => True

/-- at every point of the history -/
def Fresh : List (Nat × Bytes) → Trace → Prop
  | _, [] => True
  | before, x :: t => FreshStep before x ∧ Fresh (runningStep before x) t

/-- who a command should run as: the user asked for, in the groups of that user; the launcher's own identity if none is asked for -/
def RunsAs (db : Database) (launcher : Creds) (user : Option Bytes) (c : Creds) : Prop :=
  match user with
  | none => c = launcher
  | some u => ∃ p, db.password u = some p ∧ c = Credentials.identity db p p.gid

/-- the reply, and what it is about -/
def Truthful (items : List Item) : Prop :=
  items = [.error] ∨ ∃ pid argv c, items = [.started pid argv c, .success]

end Verif.Spec.Launcher
