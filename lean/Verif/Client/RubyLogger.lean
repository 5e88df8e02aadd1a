import Verif.Tool.Testing
/-!
Logging from Ruby (`binding/ruby/lib/milter/core/logger.rb`) and the guard around callbacks
(`binding/ruby/lib/milter/core/callback.rb`).  Not modelled: where the call was made (file, line), `ActiveRecordLogger`.
-/
namespace Verif.RubyLogger

open Verif
open Verif.Testing (lines chomp)

/-- A message: nil, a String, an Exception (its class, its message, and its backtrace: nil if it was never raised), or anything
else, with its `inspect` (logger.rb:80-91). -/
inductive Message
  | nothing
  | text (s : Bytes)
  | exception (cls message : Bytes) (backtrace : Option (List Bytes))
  | other (inspect : Bytes)
deriving DecidableEq, Repr

/-- `join("\n")` (logger.rb:87). -/
def join : List Bytes → Bytes
  | [] => []
  | [l] => l
  | l :: m :: r => l ++ 0x0a :: join (m :: r)

/-- `ensure_message` (logger.rb:80-91); `none`: NoMethodError, as nil has no `join`. -/
def ensureMessage : Message → Option Bytes
  | .nothing => some []
  | .text s => some s
  | .exception _ _ none => none
  | .exception cls message (some backtrace) => some (cls ++ [0x3a, 0x20] ++ message ++ [0x3a, 0x0a] ++ join backtrace)
  | .other inspect => some inspect

/-- How a call ends: with these lines given to `log_literal`, and whether the block was called; or with an exception. -/
inductive Outcome
  | logged (lines : List Bytes) (called : Bool)
  | noMethodError
  | localJumpError
deriving DecidableEq, Repr

/-- The lines of a message (logger.rb:69-76). -/
def literal (m : Message) (called : Bool) : Outcome := match ensureMessage m with
  | some s => .logged ((lines s).map chomp) called
  | none => .noMethodError

/-- `log` (logger.rb:61-77): whether the level is interesting, the message, the block. -/
def log (interesting : Bool) (message : Message) (block : Option Message) : Outcome :=
  if !interesting then .logged [] false
  else match message with
    | .nothing => match block with
      | some m => literal m true
      | none => .localJumpError
    | m => literal m false

/-- What a callback does: gives a value, or raises an exception. -/
inductive Body (α : Type)
  | value (v : α)
  | raised (cls message : Bytes) (backtrace : List Bytes)

/-- `guard` (callback.rb:19-24): what it gives, and what is logged; all exceptions are rescued, and a raised one has a
backtrace. -/
def guard {α : Type} (interesting : Bool) (fallback : α) : Body α → α × Outcome
  | .value v => (v, .logged [] false)
  | .raised cls message backtrace => (fallback, log interesting (.exception cls message (some backtrace)) none)

end Verif.RubyLogger
