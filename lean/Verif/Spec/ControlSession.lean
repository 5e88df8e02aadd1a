import Verif.Manager.ControlSession
import Verif.Spec.Framing
/-
What is expected of a control connection (C122).
-/
namespace Verif.Spec.Control
open Verif Verif.Control

/-- the packet of a request: its name, a NUL, and the new configuration if there is one -/
def request : Command → Bytes
  | .setConfiguration c => ascii "set-configuration" ++ [0] ++ c
  | .getConfiguration => ascii "get-configuration" ++ [0]
  | .reload => ascii "reload" ++ [0]
  | .getStatus => ascii "get-status" ++ [0]

/-- what was read from a connection -/
def readFrom (is : List ControlSession.Input) : Bytes :=
  (is.filterMap fun i => match i with
    | .chunk b => some b
    | .other _ => none).flatten

/-- text has no NUL -/
def Text (b : Bytes) : Prop := (0 : UInt8) ∉ b

/-- a request that can be sent: a configuration is text -/
def Sendable : Command → Prop
  | .setConfiguration c => Text c
  | _ => True

/-- what happens to a manager -/
inductive Happening where
  | request (c : Command)
  | other (e : Configuration.Event)

/-- the requests, in order -/
def requests (h : List Happening) : List Command := h.filterMap fun x => match x with
  | .request c => some c
  | .other _ => none

/-- the rest, in order -/
def others (h : List Happening) : List Configuration.Event := h.filterMap fun x => match x with
  | .request _ => none
  | .other e => some e

/-- what else happened while a connection was read -/
def besides (is : List ControlSession.Input) : List Configuration.Event := is.filterMap fun i => match i with
  | .chunk _ => none
  | .other e => some e

/-- the replies when things happen one after the other, and what becomes of the manager -/
def play (w : Configuration.World) (xml : Configuration.FS → Configuration.Conf → Bytes) (message : Bytes) :
    Configuration.System → List Happening → List Control.Reply × Configuration.System
  | s, [] => ([], s)
  | s, .request c :: h =>
    ((Configuration.control w xml message s c).2 :: (play w xml message (Configuration.control w xml message s c).1 h).1,
      (play w xml message (Configuration.control w xml message s c).1 h).2)
  | s, .other e :: h => play w xml message (Configuration.event w xml message s e) h

end Verif.Spec.Control
