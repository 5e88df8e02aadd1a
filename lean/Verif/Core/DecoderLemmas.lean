import Verif.Core.Decoder
import Verif.Spec.Framing
namespace Verif.Decoder
open Verif Verif.Spec
variable {Ev : Type}

/-- The handler's answer for packet `p` does not depend on what follows it. -/
def Local (h : Handler Ev) (p : Bytes) : Prop :=
  ∀ t : Bytes, h (p ++ t ++ [0]) p.length = h (p ++ [0]) p.length

theorem frames_short (s : Bytes) (hs : s.length < 4) : frames s = [] := by
  match s, hs with
  | [], _ | [_], _ | [_,_], _ | [_,_,_], _ => simp [frames]

theorem leftover_short (s : Bytes) (hs : s.length < 4) : leftover s = s := by
  match s, hs with
  | [], _ | [_], _ | [_,_], _ | [_,_,_], _ => simp [leftover]

theorem frames_cons (a b c e : UInt8) (rest : Bytes) :
    frames (a :: b :: c :: e :: rest) =
      if rd32 a b c e < intLimit ∧ rd32 a b c e ≤ rest.length then
        rest.take (rd32 a b c e) :: frames (rest.drop (rd32 a b c e)) else [] := by
  rw [frames]

theorem leftover_cons (a b c e : UInt8) (rest : Bytes) :
    leftover (a :: b :: c :: e :: rest) =
      if rd32 a b c e < intLimit ∧ rd32 a b c e ≤ rest.length then
        leftover (rest.drop (rd32 a b c e)) else a :: b :: c :: e :: rest := by
  rw [leftover]

theorem frames_wire (p r : Bytes) (hp : p.length < intLimit) :
    frames (wire p ++ r) = p :: frames r := by
  simp only [wire, be32, List.cons_append, List.nil_append, frames_cons,
    rd32_be32 p.length (by rw [intLimit_eq] at hp; omega), List.length_append, List.take_left, List.drop_left]
  rw [if_pos ⟨hp, by omega⟩]

theorem leftover_wire (p r : Bytes) (hp : p.length < intLimit) :
    leftover (wire p ++ r) = leftover r := by
  simp only [wire, be32, List.cons_append, List.nil_append, leftover_cons,
    rd32_be32 p.length (by rw [intLimit_eq] at hp; omega), List.length_append, List.drop_left]
  rw [if_pos ⟨hp, by omega⟩]

theorem frames_wires (ps : List Bytes) (r : Bytes) (hp : ∀ p ∈ ps, p.length < intLimit) :
    frames ((ps.map wire).flatten ++ r) = ps ++ frames r := by
  induction ps with
  | nil => simp
  | cons p ps ih =>
    simp only [List.map_cons, List.flatten_cons, List.append_assoc]
    rw [frames_wire p _ (hp p (by simp)), ih (fun q hq => hp q (by simp [hq]))]
    simp

theorem leftover_wires (ps : List Bytes) (r : Bytes) (hp : ∀ p ∈ ps, p.length < intLimit) :
    leftover ((ps.map wire).flatten ++ r) = leftover r := by
  induction ps with
  | nil => simp
  | cons p ps ih =>
    simp only [List.map_cons, List.flatten_cons, List.append_assoc]
    rw [leftover_wire p _ (hp p (by simp)), ih (fun q hq => hp q (by simp [hq]))]

/-- Packets that a decoder in the middle of a stream will see. -/
def dframes (st : St) (buf : Bytes) (clen : Nat) : List Bytes :=
  match st with
  | .start | .length => frames buf
  | .content => if clen < intLimit ∧ clen ≤ buf.length then
      buf.take clen :: frames (buf.drop clen) else []
  | _ => []

theorem handler_local (h : Handler Ev) (buf b : Bytes) (n : Nat) (hn : n ≤ buf.length)
    (hl : Local h (buf.take n)) :
    h (buf ++ b ++ [0]) n = h (buf ++ [0]) n := by
  have e1 := hl (buf.drop n)
  have e2 := hl (buf.drop n ++ b)
  rw [List.length_take, Nat.min_eq_left hn] at e1 e2
  rw [← List.append_assoc, List.take_append_drop] at e2
  rw [List.take_append_drop] at e1
  rw [e1, e2]

theorem dframes_content_append (buf b : Bytes) (clen : Nat)
    (hlen : clen < intLimit ∧ clen ≤ buf.length) :
    dframes .content (buf ++ b) clen = buf.take clen :: frames (buf.drop clen ++ b) := by
  have hle : clen ≤ (buf ++ b).length := by rw [List.length_append]; omega
  simp only [dframes]
  rw [if_pos ⟨hlen.1, hle⟩, List.take_append_of_le_length hlen.2,
    List.drop_append_of_le_length hlen.2]

theorem loop_content_append (h : Handler Ev) (buf b : Bytes) (clen : Nat)
    (hlen : clen < intLimit ∧ clen ≤ buf.length) (hl : Local h (buf.take clen)) :
    loop h .content (buf ++ b) clen =
      match h (buf ++ [0]) clen with
      | .ok ev =>
        let r := loop h .start (buf.drop clen ++ b) clen
        (r.1, ev :: r.2)
      | .fail => (⟨.error, buf ++ b, clen⟩, [])
      | .ub => (⟨.crashed, buf ++ b, clen⟩, []) := by
  have hle : clen ≤ (buf ++ b).length := by rw [List.length_append]; omega
  rw [loop, if_pos ⟨hlen.1, hle⟩, handler_local h buf b clen hlen.2 hl,
    List.drop_append_of_le_length hlen.2]
  rfl

/-- Running the loop again after more bytes were appended. -/
def again (h : Handler Ev) (r : Dec × List Ev) (b : Bytes) : Dec × List Ev :=
  let r2 := loop h r.1.st (r.1.buf ++ b) r.1.clen
  (r2.1, r.2 ++ r2.2)

theorem again_nil (h : Handler Ev) (d : Dec) (b : Bytes) :
    again h (d, []) b = loop h d.st (d.buf ++ b) d.clen := by
  simp [again]

theorem loop_append (h : Handler Ev) (st : St) (buf : Bytes) (clen : Nat) (b : Bytes)
    (hl : ∀ p ∈ dframes st (buf ++ b) clen, Local h p) :
    loop h st (buf ++ b) clen = again h (loop h st buf clen) b := by
  fun_induction loop h st buf clen with
  | case1 clen => simp [again_nil]
  | case2 clen x xs ih =>
    rw [List.cons_append, loop]
    exact ih (by simpa [dframes] using hl)
  | case3 clen a c e f rest ih =>
    simp only [List.cons_append]
    rw [loop]
    apply ih
    simpa only [dframes, List.cons_append, frames_cons] using hl
  | case4 clen buf hne => simp [again_nil]
  | case5 buf clen hlen ev hh r ih =>
    rw [dframes_content_append buf b clen hlen] at hl
    rw [loop_content_append h buf b clen hlen (hl _ (by simp)), hh]
    simp only
    rw [ih (fun p hp => hl p (by simp only [dframes] at hp; simp [hp]))]
    simp [again, r]
  | case6 buf clen hlen hh =>
    rw [dframes_content_append buf b clen hlen] at hl
    rw [loop_content_append h buf b clen hlen (hl _ (by simp)), hh, again_nil]
    simp only
    rw [loop]
  | case7 buf clen hlen hh =>
    rw [dframes_content_append buf b clen hlen] at hl
    rw [loop_content_append h buf b clen hlen (hl _ (by simp)), hh, again_nil]
    simp only
    rw [loop]
  | case8 buf clen hlen => simp [again_nil]
  | case9 buf clen => simp [again_nil]
  | case10 buf clen => simp [again_nil]

/-- A decoder on which the loop has nothing to do. -/
def Stable (h : Handler Ev) (d : Dec) : Prop := loop h d.st d.buf d.clen = (d, [])

theorem loop_stable (h : Handler Ev) (st : St) (buf : Bytes) (clen : Nat) :
    Stable h (loop h st buf clen).1 := by
  unfold Stable
  fun_induction loop h st buf clen with
  | case1 clen => rw [loop]
  | case2 clen x xs ih => exact ih
  | case3 clen a c e f rest ih => exact ih
  | case4 clen buf hne =>
    rw [loop]
    exact hne
  | case5 buf clen hlen ev hh r ih => exact ih
  | case6 buf clen hlen hh => rw [loop]
  | case7 buf clen hlen hh => rw [loop]
  | case8 buf clen hlen => rw [loop, if_neg hlen]
  | case9 buf clen => rw [loop]
  | case10 buf clen => rw [loop]

theorem stable_init (h : Handler Ev) : Stable h init := by
  unfold Stable init; simp only; rw [loop]

/-- Packets still to come from the frames of a longer stream, after the loop stopped. -/
theorem dframes_loop (h : Handler Ev) (st : St) (buf : Bytes) (clen : Nat) (b : Bytes) :
    ∀ p ∈ dframes (loop h st buf clen).1.st ((loop h st buf clen).1.buf ++ b)
        (loop h st buf clen).1.clen,
      p ∈ dframes st (buf ++ b) clen := by
  fun_induction loop h st buf clen with
  | case1 clen => simp
  | case2 clen x xs ih => simpa only [dframes] using ih
  | case3 clen a c e f rest ih =>
    intro p hp
    have := ih p hp
    simpa only [dframes, List.cons_append, frames_cons] using this
  | case4 clen buf hne => simp
  | case5 buf clen hlen ev hh r ih =>
    intro p hp
    have := ih p hp
    rw [dframes_content_append buf b clen hlen]
    simp only [dframes] at this
    simp [this]
  | case6 buf clen hlen hh => simp [dframes]
  | case7 buf clen hlen hh => simp [dframes]
  | case8 buf clen hlen => simp
  | case9 buf clen => simp
  | case10 buf clen => simp

theorem feedAll_eq_loop (h : Handler Ev) (d : Dec) (cs : List Bytes) (hd : Stable h d)
    (hl : ∀ p ∈ dframes d.st (d.buf ++ cs.flatten) d.clen, Local h p) :
    feedAll h d cs = loop h d.st (d.buf ++ cs.flatten) d.clen := by
  induction cs generalizing d with
  | nil => simp only [feedAll, List.flatten_nil, List.append_nil]; exact hd.symm
  | cons c cs ih =>
    simp only [feedAll, feed]
    by_cases hc : c = []
    · subst hc
      simp only [if_true, List.flatten_cons, List.nil_append]
      rw [ih d hd (by simpa using hl)]
    · simp only [hc, if_false]
      simp only [List.flatten_cons, ← List.append_assoc] at hl ⊢
      rw [loop_append h d.st (d.buf ++ c) d.clen cs.flatten hl]
      rw [ih _ (loop_stable h _ _ _)]
      · rfl
      · intro p hp
        exact hl p (dframes_loop h d.st (d.buf ++ c) d.clen cs.flatten p hp)

/-- State in which a decoder ends after consuming the whole packets of a stream. -/
def endState (e : Ending) (l : Bytes) : St :=
  match e with
  | .fine => if l = [] then .start else if l.length < 4 then .length else .content
  | .rejected => .error
  | .undefined => .crashed

theorem interpret_cons (f : Bytes → HRes Ev) (p : Bytes) (ps : List Bytes) :
    interpret f (p :: ps) = match f p with
      | .ok ev => (ev :: (interpret f ps).1, (interpret f ps).2)
      | .fail => ([], .rejected)
      | .ub => ([], .undefined) := rfl

theorem combine (x : HRes Ev) (R : Dec × List Ev) (I : List Ev × Ending) (L buf : Bytes)
    (m : Nat) (h1 : R.2 = I.1) (h2 : R.1.st = endState I.2 L) :
    (match x with
      | .ok ev => let r := R; (r.1, ev :: r.2)
      | .fail => ((⟨.error, buf, m⟩ : Dec), [])
      | .ub => (⟨.crashed, buf, m⟩, [])).2 =
    (match x with
      | .ok ev => (ev :: I.1, I.2)
      | .fail => (([] : List Ev), Ending.rejected)
      | .ub => ([], .undefined)).1 ∧
    (match x with
      | .ok ev => let r := R; (r.1, ev :: r.2)
      | .fail => ((⟨.error, buf, m⟩ : Dec), [])
      | .ub => (⟨.crashed, buf, m⟩, [])).1.st =
    endState (match x with
      | .ok ev => (ev :: I.1, I.2)
      | .fail => (([] : List Ev), Ending.rejected)
      | .ub => ([], .undefined)).2 L := by
  cases x with
  | ok ev => exact ⟨congrArg (ev :: ·) h1, h2⟩
  | fail => exact ⟨rfl, rfl⟩
  | ub => exact ⟨rfl, rfl⟩

theorem loop_spec (h : Handler Ev) (n : Nat) (s : Bytes) (cl : Nat) (hn : s.length ≤ n)
    (hl : ∀ p ∈ frames s, Local h p) :
    (loop h .start s cl).2 = (interpret (fun p => h (p ++ [0]) p.length) (frames s)).1 ∧
    (loop h .start s cl).1.st =
      endState (interpret (fun p => h (p ++ [0]) p.length) (frames s)).2 (leftover s) := by
  induction n generalizing s cl with
  | zero =>
    have : s = [] := by cases s <;> simp_all
    subst this
    rw [loop, frames_short [] (by simp), leftover_short [] (by simp)]
    simp [interpret, endState]
  | succ n ih =>
    match s, hn, hl with
    | [], hn, hl =>
      rw [loop, frames_short [] (by simp), leftover_short [] (by simp)]
      simp [interpret, endState]
    | [a], hn, hl =>
      rw [loop, loop, frames_short _ (by simp), leftover_short _ (by simp)]
      · simp [interpret, endState]
      · simp
    | [a, b], hn, hl =>
      rw [loop, loop, frames_short _ (by simp), leftover_short _ (by simp)]
      · simp [interpret, endState]
      · simp
    | [a, b, c], hn, hl =>
      rw [loop, loop, frames_short _ (by simp), leftover_short _ (by simp)]
      · simp [interpret, endState]
      · simp
    | a :: b :: c :: e :: rest, hn, hl =>
      rw [loop, loop, frames_cons, leftover_cons]
      rw [frames_cons] at hl
      generalize rd32 a b c e = m at hl ⊢
      by_cases hlen : m < intLimit ∧ m ≤ rest.length
      · rw [if_pos hlen] at hl ⊢
        rw [if_pos hlen]
        have hc := loop_content_append h (rest.take m) (rest.drop m) m
          (by rw [List.length_take, Nat.min_eq_left hlen.2]; exact ⟨hlen.1, Nat.le_refl _⟩)
          (by rw [List.take_take, Nat.min_self]; exact hl _ List.mem_cons_self)
        rw [List.take_append_drop] at hc
        have hd : (rest.take m).drop m = [] := by
          apply List.drop_eq_nil_of_le; rw [List.length_take]; exact Nat.min_le_left _ _
        rw [hd, List.nil_append] at hc
        have ih' := ih (rest.drop m) m
          (by rw [List.length_drop]; simp only [List.length_cons] at hn; omega)
          (fun p hp => hl p (List.mem_cons_of_mem _ hp))
        rw [hc, interpret_cons]
        have hmin : (rest.take m).length = m := by
          rw [List.length_take, Nat.min_eq_left hlen.2]
        rw [hmin]
        exact combine _ _ _ _ _ _ ih'.1 ih'.2
      · rw [if_neg hlen, if_neg hlen, loop, if_neg hlen]
        simp [interpret, endState]

/-- Feeding any cut of a stream whose packets are treated locally gives exactly the
packet-by-packet interpretation of the stream. -/
theorem feedAll_spec (h : Handler Ev) (cs : List Bytes)
    (hl : ∀ p ∈ frames cs.flatten, Local h p) :
    (feedAll h init cs).2 =
        (interpret (fun p => h (p ++ [0]) p.length) (frames cs.flatten)).1 ∧
    (feedAll h init cs).1.st =
      endState (interpret (fun p => h (p ++ [0]) p.length) (frames cs.flatten)).2
        (leftover cs.flatten) := by
  rw [feedAll_eq_loop h init cs (stable_init h) (by simpa [dframes, init] using hl)]
  simpa only [init, List.nil_append] using
    loop_spec h cs.flatten.length cs.flatten 0 (Nat.le_refl _) hl

theorem feedAll_error (h : Handler Ev) (d : Dec) (cs : List Bytes) (hd : d.st = .error) :
    (feedAll h d cs).2 = [] ∧ (feedAll h d cs).1.st = .error := by
  induction cs generalizing d with
  | nil => simp [feedAll, hd]
  | cons c cs ih =>
    simp only [feedAll, feed]
    by_cases hc : c = []
    · simp [hc, ih d hd]
    · simp only [hc, if_false, hd]
      rw [loop]
      have := ih ⟨.error, d.buf ++ c, d.clen⟩ rfl
      exact ⟨by simp [this.1], this.2⟩

end Verif.Decoder
