import Verif.Client.Samples
import Verif.Client.Python
/-
The sample milter of the Python binding that changes messages: binding/python/sample/milter-replace.py, as a class of `Client/Python.lean`.

Left out: regular expressions.  `subn` with a pattern is a function of a text in UTF-8.
-/
namespace Verif.Samples
open Verif Verif.Client Verif.Ruby

/-- which bytes may come after the first one of a character: how many, and the least and the greatest the next of them may be; none if no character begins so.  As in `bytes.decode`. -/
def leads (a : Nat) : Option (Nat × Nat × Nat) :=
  if a < 0x80 then some (0, 0, 0)
  else if a < 0xc2 then none
  else if a < 0xe0 then some (1, 0x80, 0xbf)
  else if a = 0xe0 then some (2, 0xa0, 0xbf)
  else if a = 0xed then some (2, 0x80, 0x9f)
  else if a < 0xf0 then some (2, 0x80, 0xbf)
  else if a = 0xf0 then some (3, 0x90, 0xbf)
  else if a < 0xf4 then some (3, 0x80, 0xbf)
  else if a = 0xf4 then some (3, 0x80, 0x8f)
  else none

/-- `decode("utf-8")`, milter-replace.py:52, does not raise; `left` bytes of a character are to come, the next one from `lo` to `hi` -/
def decodes (left lo hi : Nat) : Bytes → Bool
  | [] => left == 0
  | b :: rest =>
    if left = 0 then match leads b.toNat with
      | some (left, lo, hi) => decodes left lo hi rest
      | none => false
    else decide (lo ≤ b.toNat ∧ b.toNat ≤ hi) && decodes (left - 1) 0x80 0xbf rest

/-- some changes, and then something else; a change that fails raises -/
def thenDo {σ : Type} : List Modification → Prog σ → Prog σ
  | [], p => p
  | m :: ms, p => .act (.modify m) fun ok => if ok then thenDo ms p else .raise

/-- `MilterReplace`, milter-replace.py:26-59.  The body is decoded in the loop over the patterns (51-52), so not at all if there are none. -/
def replacePython (patterns : List (Bytes → Bytes)) : Python.Class Kept where
  start := {}
  reset := fun _ => {}
  header := some fun name value => .own (fun x => { x with headers := x.headers ++ [(name, value)] }) fun _ => .done
  body := some fun chunk => .own (fun x => { x with body := x.body ++ chunk }) fun _ => .done
  endOfMessage := some (.own id fun x => thenDo (headerChanges patterns (fun _ => 0) x.headers)
    (if patterns.isEmpty || decodes 0 0 0 x.body then thenDo (bodyChanges patterns x.body) .done else .raise))

end Verif.Samples
