/-!
milter-performance-check (`tool/milter-performance-check`): `--flood` with a period, in one of its threads; `--interval` and
`--period`.  A mail is any value; how long sending one takes is in the readings of the clock.
-/
namespace Verif.Tool.PerformanceFlood

/-- The loop of a thread of `send_mails_in_flood` (milter-performance-check:808-827): the mails that are left of this pass,
what each `Time.now` gives, up to now; the mails sent, and whether the loop has ended.  Without mails the clock is never read
and the loop never ends. -/
def flood {α : Type} (mails : List α) (endTime : Nat) : List α → List Nat → List α × Bool
  | _, [] => ([], false)
  | [], t :: ts => match mails with
    | [] => ([], false)
    | m :: rest =>
      if endTime < t then ([], true)
      else
        let r := flood mails endTime rest ts
        (m :: r.1, r.2)
  | m :: rest, t :: ts =>
    if endTime < t then ([], true)
    else
      let r := flood mails endTime rest ts
      (m :: r.1, r.2)

/-- What `send_mails_in_interval` does: starts the thread of a mail, or sleeps (milter-performance-check:762-773). -/
inductive Act (α : Type)
  | start (mail : α)
  | sleep
deriving DecidableEq, Repr

/-- The mails from the `i`th on (milter-performance-check:765-772). -/
def intervalFrom {α : Type} (positive : Bool) (last : Nat) : Nat → List α → List (Act α)
  | _, [] => []
  | i, m :: rest =>
    .start m :: ((if positive && i + 1 != last then [.sleep] else []) ++ intervalFrom positive last (i + 1) rest)

/-- `send_mails_in_interval` (milter-performance-check:762-773); `positive`: whether the interval is. -/
def interval {α : Type} (positive : Bool) (mails : List α) : List (Act α) := intervalFrom positive mails.length 0 mails

/-- `mails = [mails[0]] * @n_mails if mails.size <= 1` (milter-performance-check:630). -/
def repeated {α : Type} (mails : List α) (n : Nat) : List (Option α) := match mails with
  | [] => List.replicate n none
  | [m] => List.replicate n (some m)
  | _ => mails.map some

end Verif.Tool.PerformanceFlood
