import Verif.Core.CommandEncoder
import Verif.Core.Decoder
/-
The control protocol and the launch protocol: `milter/manager/milter-manager-control-*`,
`milter-manager-reply-*` and `milter-manager-launch-*` encoders and decoders.  Every encoder
clears its buffer first, so an encoded packet is a function of its arguments.

Signals carry payloads as `G_TYPE_STRING`, that is, `g_signal_emit` copies the C string at
the payload; where a length goes with it the receiver reads that many bytes of the copy.
-/
namespace Verif.Control
open Verif Verif.Decoder Verif.Enc

/-- control commands; `milter-manager-control-protocol.h`:27-31 (stop-child is commented out
in the decoder and has no encoder; get-configuration has no encoder) -/
inductive Command where
  | setConfiguration (configuration : Bytes)
  | getConfiguration
  | reload
  | getStatus
deriving DecidableEq, Repr

/-- "set-configuration" -/
def setConfigurationName : Bytes := ascii "set-configuration"
/-- "get-configuration" -/
def getConfigurationName : Bytes := ascii "get-configuration"
/-- "reload" -/
def reloadName : Bytes := ascii "reload"
/-- "get-status" -/
def getStatusName : Bytes := ascii "get-status"

/-- `milter_manager_control_command_encoder_encode_set_configuration` (59-76), `_reload`
(78-93), `_get_status` (95-110): the content before `milter_encoder_pack`.  There is no
encoder for get-configuration. -/
def encodeCommand : Command → Option Bytes
  | .setConfiguration c => some (setConfigurationName ++ [0] ++ c)
  | .getConfiguration => none
  | .reload => some (reloadName ++ [0])
  | .getStatus => some (getStatusName ++ [0])

/-- what the handler of a (string, length) signal reads: `length` bytes of the copied C
string -/
def payload (m : Bytes) (length : Nat) : HRes Bytes := do
  let s ← cstr m
  -- the copy has one byte more, its NUL
  if length ≤ s.length then return s.take length
  else if length = s.length + 1 then return s ++ [0]
  else .ub

/-- `decode` of milter-manager-control-command-decoder.c (204-250) with the functions it
calls (143-202) -/
def decodeCommand : Handler Command := fun m len => do
  let k ← findNull1 m len
  let name ← cstr m
  let content := m.drop (k + 1)
  let n := len - (k + 1)
  if name = setConfigurationName then do
    let c ← payload content n
    return .setConfiguration c
  else if name = getConfigurationName then do
    checkExact n 0
    return .getConfiguration
  else if name = reloadName then do
    checkExact n 0
    return .reload
  else if name = getStatusName then do
    checkExact n 0
    return .getStatus
  else .fail

/-- replies; `milter-manager-reply-protocol.h`:27-29, `milter-manager-control-protocol.h`:36-37 -/
inductive Reply where
  | success
  | failure (message : Bytes)
  | error (message : Bytes)
  | configuration (configuration : Bytes)
  | status (status : Bytes)
deriving DecidableEq, Repr

/-- "success" -/
def successName : Bytes := ascii "success"
/-- "failure" -/
def failureName : Bytes := ascii "failure"
/-- "error" -/
def errorName : Bytes := ascii "error"
/-- "configuration" -/
def configurationName : Bytes := ascii "configuration"
/-- "status" -/
def statusName : Bytes := ascii "status"

/-- `milter_manager_reply_encoder_encode_success` (59-74), `_failure` (76-93), `_error`
(95-112); `milter_manager_control_reply_encoder_encode_configuration` (93-110), `_status`
(112-129) -/
def encodeReply : Reply → Bytes
  | .success => successName ++ [0]
  | .failure t => failureName ++ [0] ++ t
  | .error t => errorName ++ [0] ++ t
  | .configuration c => configurationName ++ [0] ++ c
  | .status s => statusName ++ [0] ++ s

/-- `decode` of milter-manager-reply-decoder.c (146-182) with the functions it calls
(114-144) -/
def decodeBaseReply : Handler Reply := fun m len => do
  let k ← findNull1 m len
  let name ← cstr m
  let content := m.drop (k + 1)
  let n := len - (k + 1)
  if name = successName then do
    checkExact n 0
    return .success
  else if name = failureName then do
    let t ← cstr content
    return .failure t
  else if name = errorName then do
    let t ← cstr content
    return .error t
  else .fail

/-- `decode` of milter-manager-control-reply-decoder.c (98-144); when the parent's decoder
fails its error is dropped and the name is tried again -/
def decodeReply : Handler Reply := fun m len => do
  let k ← findNull1 m len
  match decodeBaseReply m len with
  | .ok r => .ok r
  | .ub => .ub
  | .fail => do
    let name ← cstr m
    if name = configurationName then do
      let c ← payload (m.drop (k + 1)) (len - (k + 1))
      return .configuration c
    else .fail

/-- a launch request -/
structure Launch where
  commandLine : Bytes
  userName : Option Bytes
deriving DecidableEq, Repr

/-- "launch", `milter-manager-launch-protocol.h`:27 -/
def launchName : Bytes := ascii "launch"

/-- `milter_manager_launch_command_encoder_encode_launch` (59-80) -/
def encodeLaunch (l : Launch) : Bytes :=
  launchName ++ [0] ++ l.commandLine ++ [0] ++ l.userName.getD []

/-- `decode_launch` (92-120) on the memory and length after the command name -/
def decodeLaunchContent (m : Bytes) (len : Nat) : HRes Launch := do
  let k ← findNull1 m len
  let c ← cstr m
  if k + 1 < len then do
    let u ← cstr (m.drop (k + 1))
    return ⟨c, some u⟩
  else return ⟨c, none⟩

/-- `decode` of milter-manager-launch-command-decoder.c (122-156) -/
def decodeLaunch : Handler Launch := fun m len => do
  let k ← findNull1 m len
  let name ← cstr m
  if name = launchName then decodeLaunchContent (m.drop (k + 1)) (len - (k + 1)) else .fail

end Verif.Control
