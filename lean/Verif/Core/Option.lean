import Verif.Core.Types
/-
core/milter-option.c: combining and merging options.
-/
namespace Verif.Opt
open Verif

/-- `MILTER_STEP_NO_EVENT_MASK`, core/milter-option.h:62-80, 105-114 -/
def noEventMask : UInt32 :=
  0x1 ||| 0x2 ||| 0x4 ||| 0x8 ||| 0x10 ||| 0x20 ||| 0x40 ||| 0x100 ||| 0x200

/-- `MILTER_STEP_NO_REPLY_MASK`, core/milter-option.h:76, 86-100, 116-125 -/
def noReplyMask : UInt32 :=
  0x1000 ||| 0x2000 ||| 0x4000 ||| 0x8000 ||| 0x10000 ||| 0x80 ||| 0x20000 ||| 0x40000 ||| 0x80000

/-- `MILTER_STEP_NO_MASK`, core/milter-option.h:127-128 -/
def noMask : UInt32 := noEventMask ||| noReplyMask

/-- `MILTER_STEP_YES_MASK`, core/milter-option.h:130-133 -/
def yesMask : UInt32 := 0x400 ||| 0x800 ||| 0x100000

/-- `milter_option_combine`, core/milter-option.c:329-344: returned gboolean and the new
`dest`. -/
def combine (dest src : Opt) : Bool × Opt :=
  if dest.version < src.version then (false, dest)
  else (true, ⟨src.version, dest.action &&& src.action, dest.step &&& src.step⟩)

/-- `milter_step_flags_merge`, core/milter-option.c:364-377 -/
def mergeSteps (dest src : UInt32) : UInt32 :=
  ((dest &&& noMask) &&& (src &&& noMask)) ||| ((dest &&& yesMask) ||| (src &&& yesMask))

/-- `milter_option_merge`, core/milter-option.c:346-362 -/
def merge (dest src : Opt) : Bool × Opt :=
  if dest.version < src.version then (false, dest)
  else (true, ⟨dest.version, dest.action ||| src.action, mergeSteps dest.step src.step⟩)

/-- Options merged one after the other into a first one, failures ignored, as
`cb_negotiate_reply` does with the milters' answers and the option it started from
(manager/milter-manager-children.c:837-841). -/
def mergeAll (first : Opt) (rest : List Opt) : Opt :=
  rest.foldl (fun d s => (merge d s).2) first

end Verif.Opt
