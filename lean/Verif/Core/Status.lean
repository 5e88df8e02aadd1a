import Verif.Core.Types
/-
core/milter-protocol.c: statuses and their severity.
-/
namespace Verif

/-- `MilterStatus`, core/milter-protocol.h:99-116, in declaration order. -/
inductive Status where
  | default | notChange | continue_ | reject | discard | accept | temporaryFailure | noReply
  | skip | allOptions | progress | abort | quarantine | stop | error
deriving DecidableEq, Repr

namespace Status

/-- `milter_status_compare`, core/milter-protocol.c:26-77 -/
def compare (current new : Status) : Int :=
  if current = new then 0
  else match current with
  | .discard => 1
  | .reject => if new = .discard then -1 else 1
  | .temporaryFailure => if new = .discard ∨ new = .reject then -1 else 1
  | .continue_ => if new = .discard ∨ new = .reject ∨ new = .temporaryFailure then -1 else 1
  | .skip =>
    if new = .discard ∨ new = .reject ∨ new = .temporaryFailure ∨ new = .continue_ then -1 else 1
  | .accept =>
    if new = .discard ∨ new = .reject ∨ new = .temporaryFailure ∨ new = .skip ∨ new = .continue_
    then -1 else 1
  | _ => -1

/-- `MILTER_STATUS_IS_PASS`, core/milter-protocol.h:118-120 -/
def isPass : Status → Bool
  | .default | .notChange | .continue_ => true
  | _ => false

/-- `compile_reply_status` with `milter_manager_children_is_important_status`,
manager/milter-manager-children.c:793-807, 4155-4164: the status kept for the state after
a child's status is taken into account. -/
def compile (current new : Status) : Status :=
  if compare current new < 0 then new else current

/-- A series of replies to one command; nothing recorded is NOT_CHANGE
(`get_reply_status_for_state`, manager/milter-manager-children.c:776-791). -/
def compileAll (current : Status) (l : List Status) : Status := l.foldl compile current

end Status
end Verif
