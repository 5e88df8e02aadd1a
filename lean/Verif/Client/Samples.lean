import Verif.Client.Ruby
/-
The milters that come with the Ruby binding as samples: binding/ruby/sample/milter-replace.rb, milter-regexp.rb, milter-reject-empty-body.rb and milter-reject-nil-sender.rb, as classes of `Client/Ruby.lean`.

Left out: regular expressions.  `gsub` with a pattern is a function of a text, a match a predicate, and the conversion by NKF a function; none of them raises.
-/
namespace Verif.Samples
open Verif Verif.Client Verif.Ruby

/-! ### milter-replace.rb -/

/-- the instance variables, milter-replace.rb:57-60 -/
structure Kept where
  headers : List (Bytes × Bytes) := []
  body : Bytes := []
deriving DecidableEq, Repr

/-- a change of the message after the other; if one of them raises, so does the callback -/
def sequence {σ : Type} : List Modification → Prog σ
  | [] => .done
  | m :: ms => .act (.modify m) fun ok => if ok then sequence ms else .raise

/-- the inner loop, milter-replace.rb:40-46: the value by the first pattern that changes it -/
def firstOf : List (Bytes → Bytes) → Bytes → Option Bytes
  | [], _ => none
  | g :: gs, value => if value = g value then firstOf gs value else some (g value)

/-- the loop over the headers, milter-replace.rb:36-47; `indexes` is `header_indexes`, 0 for a name that is not there -/
def headerChanges (patterns : List (Bytes → Bytes)) : (Bytes → Nat) → List (Bytes × Bytes) → List Modification
  | _, [] => []
  | indexes, (name, value) :: rest =>
    let indexes := fun n => if n = name then indexes name + 1 else indexes n
    (match firstOf patterns value with
      | some v => [.changeHeader name (indexes name) (some v)]
      | none => []) ++ headerChanges patterns indexes rest

/-- the loop over the patterns for the body, milter-replace.rb:49-54 -/
def bodyChanges (patterns : List (Bytes → Bytes)) (body : Bytes) : List Modification :=
  patterns.flatMap fun g => if body = g body then [] else [.replaceBody (g body)]

/-- `MilterReplace`, milter-replace.rb:20-61 -/
def replace (patterns : List (Bytes → Bytes)) : Class Kept where
  start := {}
  reset := fun _ => {}
  header := some fun name value => .own (fun x => { x with headers := x.headers ++ [(name, value)] }) fun _ => .done
  body := some fun chunk => .own (fun x => { x with body := x.body ++ chunk }) fun _ => .done
  endOfMessage := some (.own id fun x => sequence (headerChanges patterns (fun _ => 0) x.headers ++ bodyChanges patterns x.body))

/-! ### milter-regexp.rb -/

/-- `/\ASubject\z/i`, milter-regexp.rb:30 -/
def isSubject (name : Bytes) : Bool := (name.map fun b => if 0x41 ≤ b ∧ b ≤ 0x5a then b + 0x20 else b) == ascii "subject"

/-- `MilterRegexp`, milter-regexp.rb:21-49: `hit` is `@regexp =~`, `decode` is `NKF.nkf("-w", …)`; the instance variable is `@body` -/
def regexp (hit : Bytes → Bool) (decode : Bytes → Bytes) : Class Bytes where
  start := []
  reset := id
  header := some fun name value => if isSubject name then (if hit (decode value) then .act (.reject {}) fun _ => .done else .done) else .done
  body := some fun chunk => if hit chunk then .act (.reject {}) fun _ => .own (· ++ chunk) fun _ => .done else .own (· ++ chunk) fun _ => .done
  endOfMessage := some (.own id fun b => if hit b then .act (.reject {}) fun _ => .done else .done)

/-! ### milter-reject-empty-body.rb -/

/-- `/\A\s*\z/m`, milter-reject-empty-body.rb:27 -/
def blank (chunk : Bytes) : Bool := chunk.all fun b => b == 0x20 || (0x09 ≤ b && b ≤ 0x0d)

/-- `MilterRejectEmptyBody`, milter-reject-empty-body.rb:20-37; the instance variable is `@have_body` -/
def rejectEmptyBody : Class Bool where
  start := false
  reset := id
  body := some fun chunk => if blank chunk then .done else .own (fun _ => true) fun _ => .done
  endOfMessage := some (.own id fun have_ => if have_ then .done else .act (.reject { reason := some (ascii "must have body") }) fun ok => if ok then .done else .raise)
  abort := some fun _ => .own (fun _ => false) fun _ => .done

/-! ### milter-reject-nil-sender.rb -/

/-- a byte of a word -/
def wordByte (b : UInt8) : Bool := (0x30 ≤ b && b ≤ 0x39) || (0x41 ≤ b && b ≤ 0x5a) || b == 0x5f || (0x61 ≤ b && b ≤ 0x7a)

/-- `/\bnil\b/`, milter-reject-nil-sender.rb:22, from some place on; `inWord`: the byte before is one of a word.  Simplification: for values in ASCII (others are words of Unicode, and raise if they are not UTF-8). -/
def nilFrom (inWord : Bool) : Bytes → Bool
  | [] => false
  | b :: rest => (!inWord && (b :: rest.take 2) == ascii "nil" && !((rest.drop 2).head?.any wordByte)) || nilFrom (wordByte b) rest

/-- `MilterRejectNilSender`, milter-reject-nil-sender.rb:20-26 -/
def rejectNilSender : Class Unit where
  start := ()
  reset := id
  header := some fun name value =>
    if name = ascii "Sender" ∧ nilFrom false value = true then .act (.reject { reason := some (ascii "broken Sender header") }) fun ok => if ok then .done else .raise else .done

end Verif.Samples
