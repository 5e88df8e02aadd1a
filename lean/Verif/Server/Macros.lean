import Verif.Core.CommandDecoder
import Verif.Core.MacrosRequests
import Verif.Server.Context
/-
Macros sent along with a command: `milter/server/milter-server-context.c`.

The macros of a stage are those `milter_protocol_agent_get_macros` returns (`Core/ProtocolAgent.lean`), as a list
of distinct keys with their values; a stored value is never NULL.
-/
namespace Verif.Server
open Verif

/-- `filter_macros` (970-995); `none` is a NULL table -/
def filterMacros (macros : MacroTable) (symbols : List Bytes) : Option MacroTable :=
  let filtered := symbols.foldl (fun acc symbol =>
    match macros.lookup symbol with
    | some (some value) => CmdDec.tableInsert acc symbol (some value)
    | _ => acc) []
  if filtered = [] then none else some filtered

/-- `prepend_macro` (997-1059): the macro definition written before the command, if any.  `macros` are the
macros of the stage, `requests` the milter's requests, both NULL when missing. -/
def prependMacro (macros : Option MacroTable) (requests : Option MacrosRequests.Requests) (command : UInt8) : Option Cmd :=
  match macros with
  | none => none
  | some macros =>
    if macros.length = 0 then none
    else
      match requests with
      | none => some (.defineMacro command macros)
      | some requests =>
        let symbols := MacrosRequests.getSymbols requests command
        match (if symbols ≠ [] then filterMacros macros symbols else none) with
        | none => none
        | some filtered => some (.defineMacro command filtered)

/-- the stage for which `write_packet` prepends macros (1556-1588) -/
def macroStage : St → Option UInt8
  | .helo => some 0x48
  | .connect => some 0x43
  | .envelopeFrom => some 0x4d
  | .envelopeRecipient => some 0x52
  | .data => some 0x54
  | .header => some 0x4c
  | .endOfHeader => some 0x4e
  | .body => some 0x42
  | .endOfMessage => some 0x45
  | _ => none

/-- the bytes `write_packet` hands to the agent for a command (1555-1593), when the state the command leads to
is `next`; `macros` are the tables of the agent -/
def packedPacket (inet : Inet) (sort : MacroTable → MacroTable) (macros : UInt8 → Option MacroTable)
    (requests : Option MacrosRequests.Requests) (next : St) (packet : Bytes) : Bytes :=
  match macroStage next with
  | none => packet
  | some stage =>
    match prependMacro (macros stage) requests stage with
    | none => packet
    | some definition => Enc.encodeCommand inet sort [] definition ++ packet

end Verif.Server
