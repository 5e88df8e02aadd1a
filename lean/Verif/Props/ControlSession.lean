import Verif.Props.Control
import Verif.Spec.ControlSession
/-
C122: a control connection from the first byte of a request to the last byte of the replies; and
C42 for streams of replies.
-/
namespace Verif.Props.ControlSession
open Verif Verif.Control Verif.Decoder Verif.Enc Verif.Spec Verif.Spec.Control

/-! ## Streams that a decoder understands where they are -/

variable {Ev : Type}

/-- every packet is understood, whatever part of the rest of the stream is behind it -/
inductive Understood (h : Handler Ev) : List Bytes → List Ev → Prop where
  | nil : Understood h [] []
  | cons {p : Bytes} {ps : List Bytes} {e : Ev} {es : List Ev} : p.length < intLimit →
      (∀ x r, x ++ r = (ps.map wire).flatten → h (p ++ x ++ [0]) p.length = .ok e) →
      Understood h ps es → Understood h (p :: ps) (e :: es)

/-- the decoder is within the stream: `r` is still to come -/
inductive Within (r : Bytes) : Dec → List Bytes → Prop where
  | start {ps : List Bytes} {n : Nat} : r = (ps.map wire).flatten → Within r ⟨.start, [], n⟩ ps
  | length {ps : List Bytes} {b : Bytes} {n : Nat} : b.length < 4 → b ++ r = (ps.map wire).flatten →
      Within r ⟨.length, b, n⟩ ps
  | content {p : Bytes} {ps : List Bytes} {b : Bytes} : b.length < p.length →
      b ++ r = p ++ (ps.map wire).flatten → Within r ⟨.content, b, p.length⟩ (p :: ps)

theorem wire_cons4 {p : Bytes} {ps : List Bytes} {a b c d : UInt8} {rest r : Bytes} (hp : p.length < intLimit)
    (h : a :: b :: c :: d :: rest ++ r = ((p :: ps).map wire).flatten) :
    rd32 a b c d = p.length ∧ rest ++ r = p ++ (ps.map wire).flatten := by
  rw [List.map_cons, List.flatten_cons, wire] at h
  simp only [be32, List.cons_append, List.nil_append, List.cons.injEq] at h
  obtain ⟨h1, h2, h3, h4, h5⟩ := h
  refine ⟨?_, by simpa using h5⟩
  rw [h1, h2, h3, h4]
  exact rd32_be32 p.length (by rw [intLimit_eq] at hp; omega)

/-- what a run of the loop leaves -/
def Goes (h : Handler Ev) (es : List Ev) (r : Bytes) (res : Dec × List Ev) : Prop :=
  ∃ ps' es2, es = res.2 ++ es2 ∧ Understood h ps' es2 ∧ Within r res.1 ps'

theorem loop_stream (h : Handler Ev) (ps : List Bytes) : ∀ (es : List Ev) (buf r : Bytes), Understood h ps es →
    (∀ k, buf ++ r = (ps.map wire).flatten → Goes h es r (loop h .start buf k)) ∧
    (∀ k, buf ++ r = (ps.map wire).flatten → Goes h es r (loop h .length buf k)) ∧
    (∀ p ps0, ps = p :: ps0 → buf ++ r = p ++ (ps0.map wire).flatten → Goes h es r (loop h .content buf p.length)) := by
  induction ps with
  | nil =>
    intro es buf r hu
    cases hu
    have key : ∀ k, buf ++ r = (([] : List Bytes).map wire).flatten → Goes h [] r (loop h .length buf k) := by
      intro k hb
      obtain ⟨rfl, rfl⟩ := List.append_eq_nil_iff.mp hb
      unfold loop
      exact ⟨[], [], rfl, .nil, .length (by simp) rfl⟩
    refine ⟨fun k hb => ?_, key, fun p ps0 hps => by cases hps⟩
    obtain ⟨rfl, rfl⟩ := List.append_eq_nil_iff.mp hb
    unfold loop
    exact ⟨[], [], rfl, .nil, .start rfl⟩
  | cons p ps ih =>
    intro es buf r hu
    have third : ∀ buf : Bytes, buf ++ r = p ++ (ps.map wire).flatten → Goes h es r (loop h .content buf p.length) := by
      intro buf hb
      cases hu with
      | @cons _ _ e es0 hp hh hu' =>
        unfold loop
        by_cases hlen : p.length ≤ buf.length
        · rw [if_pos ⟨hp, hlen⟩]
          obtain ⟨x, hx⟩ : ∃ x, buf = p ++ x := by
            refine ⟨buf.drop p.length, ?_⟩
            have : buf.take p.length = p := by
              have := congrArg (List.take p.length) hb
              rwa [List.take_append_of_le_length hlen, List.take_left] at this
            conv => lhs; rw [← List.take_append_drop p.length buf, this]
          subst hx
          have hxr : x ++ r = (ps.map wire).flatten := by
            rw [List.append_assoc] at hb; exact List.append_cancel_left hb
          rw [hh x r hxr]
          dsimp only
          rw [List.drop_left]
          obtain ⟨ps', es2, e1, e2, e3⟩ := (ih es0 x r hu').1 p.length hxr
          exact ⟨ps', es2, congrArg (e :: ·) e1, e2, e3⟩
        · rw [if_neg (fun y => hlen y.2)]
          exact ⟨p :: ps, e :: es0, rfl, .cons hp hh hu', .content (by omega) hb⟩
    have hp : p.length < intLimit := by cases hu; assumption
    have second : ∀ k, buf ++ r = ((p :: ps).map wire).flatten → Goes h es r (loop h .length buf k) := by
      intro k hb
      match buf, hb with
      | a :: b :: c :: d :: rest, hb =>
        obtain ⟨h1, h2⟩ := wire_cons4 hp hb
        unfold loop
        dsimp only
        rw [h1]
        exact third rest h2
      | [], hb => unfold loop; exact ⟨p :: ps, es, rfl, hu, .length (by simp) hb⟩
      | [a], hb => unfold loop; exact ⟨p :: ps, es, rfl, hu, .length (by simp) hb⟩
      | [a, b], hb => unfold loop; exact ⟨p :: ps, es, rfl, hu, .length (by simp) hb⟩
      | [a, b, c], hb => unfold loop; exact ⟨p :: ps, es, rfl, hu, .length (by simp) hb⟩
    refine ⟨fun k hb => ?_, second, fun q ps0 hps hb => ?_⟩
    · cases buf with
      | nil => unfold loop; exact ⟨p :: ps, es, rfl, hu, .start hb⟩
      | cons a rest => unfold loop; exact second k hb
    · cases hps; exact third buf hb

theorem feed_stream {h : Handler Ev} {ps : List Bytes} {es : List Ev} {d : Dec} {c r : Bytes} (hu : Understood h ps es)
    (hw : Within (c ++ r) d ps) : Goes h es r (feed h d c) := by
  unfold feed
  split
  · rename_i hc
    subst hc
    exact ⟨ps, es, rfl, hu, hw⟩
  · cases hw with
    | start hr => exact (loop_stream h ps es _ r hu).1 _ hr
    | length hb hr => exact (loop_stream h ps es _ r hu).2.1 _ (by rw [List.append_assoc]; exact hr)
    | @content p ps' b hb hr =>
      exact (loop_stream h _ es _ r hu).2.2 p ps' rfl (by rw [List.append_assoc]; exact hr)

theorem within_end {d : Dec} {ps : List Bytes} {es : List Ev} {h : Handler Ev} (hu : Understood h ps es)
    (hw : Within [] d ps) : ps = [] ∧ es = [] ∧ d.buf = [] ∧ d.st ≠ .error ∧ d.st ≠ .content := by
  have nowire : ∀ {q : Bytes} {qs : List Bytes} {b : Bytes}, b.length < 4 → b ≠ ((q :: qs).map wire).flatten := by
    intro q qs b hb he
    have := congrArg List.length he
    rw [List.map_cons, List.flatten_cons, List.length_append, wire, List.length_append, length_be32] at this
    omega
  cases hw with
  | start hr =>
    cases ps with
    | nil => cases hu; exact ⟨rfl, rfl, rfl, by simp, by simp⟩
    | cons q qs => exact absurd hr (nowire (by simp))
  | length hb hr =>
    rw [List.append_nil] at hr
    cases ps with
    | nil => cases hu; exact ⟨rfl, rfl, hr, by simp, by simp⟩
    | cons q qs => exact absurd hr (nowire hb)
  | content hb hr =>
    rw [List.append_nil] at hr
    subst hr
    simp only [List.length_append] at hb
    omega

/-- a stream of packets a decoder understands is read, however it is cut -/
theorem feedAll_stream (h : Handler Ev) (cs : List Bytes) : ∀ {ps : List Bytes} {es : List Ev} {d : Dec} (r : Bytes),
    Understood h ps es → Within (cs.flatten ++ r) d ps → Goes h es r (feedAll h d cs) := by
  induction cs with
  | nil => intro ps es d r hu hw; exact ⟨ps, es, rfl, hu, hw⟩
  | cons c cs ih =>
    intro ps es d r hu hw
    rw [List.flatten_cons, List.append_assoc] at hw
    obtain ⟨ps1, es1, e1, u1, w1⟩ := feed_stream hu hw
    obtain ⟨ps2, es2, e2, u2, w2⟩ := ih r u1 w1
    refine ⟨ps2, es2, ?_, u2, w2⟩
    show es = ((feed h d c).2 ++ (feedAll h (feed h d c).1 cs).2) ++ es2
    rw [List.append_assoc, ← e2]
    exact e1

/-- the whole stream -/
theorem feedAll_whole {h : Handler Ev} {ps : List Bytes} {es : List Ev} (hu : Understood h ps es) {cs : List Bytes}
    (hcs : cs.flatten = (ps.map wire).flatten) :
    (feedAll h init cs).2 = es ∧ (feedAll h init cs).1.buf = [] ∧ (feedAll h init cs).1.st ≠ .error := by
  obtain ⟨ps', es', e1, u1, w1⟩ := feedAll_stream h cs [] hu (.start (by rw [List.append_nil]; exact hcs))
  obtain ⟨rfl, rfl, hb, hs, -⟩ := within_end u1 w1
  exact ⟨by rw [e1, List.append_nil]; rfl, hb, hs⟩

/-! ## Streams of replies -/

/-- what follows a packet of a stream of packets of less than 2^24 bytes -/
theorem follows_prefix {ps : List Bytes} (hp : ∀ p ∈ ps, p.length < 2 ^ 24) {x r : Bytes}
    (h : x ++ r = (ps.map wire).flatten) : Follows x := by
  cases x with
  | nil => exact .inl rfl
  | cons a x =>
    right
    cases ps with
    | nil => cases h
    | cons p ps =>
      rw [List.map_cons, List.flatten_cons, wire] at h
      simp only [be32, List.cons_append, List.cons.injEq] at h
      have : p.length / 2 ^ 24 = 0 := Nat.div_eq_of_lt (hp p (List.mem_cons_self ..))
      rw [this] at h
      simp [h.1]

theorem small {n : Nat} (h : n < 2 ^ 24) : n < intLimit := by
  rw [intLimit_eq]; omega

theorem replies_understood {rs : List Control.Reply} (ht : ∀ r ∈ rs, ReplyText r)
    (hl : ∀ r ∈ rs, (Control.encodeReply r).length < 2 ^ 24) : Understood decodeReply (rs.map Control.encodeReply) rs := by
  induction rs with
  | nil => exact .nil
  | cons r rs ih =>
    have hl' : ∀ p ∈ rs.map Control.encodeReply, p.length < 2 ^ 24 := by
      intro p hp
      obtain ⟨r', hr', rfl⟩ := List.mem_map.mp hp
      exact hl r' (List.mem_cons_of_mem _ hr')
    exact .cons (small (hl r (List.mem_cons_self ..)))
      (fun x y hx => C42_replies_partial r (ht r (List.mem_cons_self ..)) x (follows_prefix hl' hx))
      (ih (fun r' h => ht r' (List.mem_cons_of_mem _ h)) fun r' h => hl r' (List.mem_cons_of_mem _ h))

/-- **C42** (streams of replies; partial).  Any sequence of replies but status, whose texts have no
NUL, each shorter than 2^24 bytes, cut into chunks anyhow, is decoded to the same replies, without an
error and without bytes left over. -/
theorem C42_reply_stream_partial (rs : List Control.Reply) (ht : ∀ r ∈ rs, ReplyText r)
    (hl : ∀ r ∈ rs, (Control.encodeReply r).length < 2 ^ 24) (cs : List Bytes)
    (hcs : cs.flatten = (rs.map fun r => pack (Control.encodeReply r)).flatten) :
    (feedAll decodeReply init cs).2 = rs ∧ (feedAll decodeReply init cs).1.buf = [] ∧
      (feedAll decodeReply init cs).1.st ≠ .error := by
  refine feedAll_whole (replies_understood ht hl) ?_
  rw [hcs, List.map_map]
  congr 1
  exact List.map_congr_left fun r hr => pack_wire _ (small (hl r hr))

example : (∀ r ∈ [Control.Reply.success, .configuration (ascii "<configuration/>"), .error (ascii "no")], ReplyText r) ∧
    ∀ r ∈ [Control.Reply.success, .configuration (ascii "<configuration/>"), .error (ascii "no")], (Control.encodeReply r).length < 2 ^ 24 := by
  constructor
  · intro r hr
    simp only [List.mem_cons, List.not_mem_nil, or_false] at hr
    rcases hr with rfl | rfl | rfl
    · trivial
    · show IsCStr _; decide
    · show IsCStr _; decide
  · decide

/-! ## A connection -/

theorem request_any (c : Command) (hc : Sendable c) (x : Bytes) :
    decodeCommand (request c ++ x ++ [0]) (request c).length = .ok c := by
  cases c with
  | setConfiguration b => exact control_command_any (.setConfiguration b) _ hc rfl x
  | reload => exact control_command_any .reload _ trivial rfl x
  | getStatus => exact control_command_any .getStatus _ trivial rfl x
  | getConfiguration =>
    show decodeCommand (getConfigurationName ++ [0] ++ x ++ [0]) (getConfigurationName ++ [0]).length = _
    have e : getConfigurationName ++ [0] ++ x ++ [0] = getConfigurationName ++ [0] ++ (x ++ [0]) := by simp
    obtain ⟨h1, h2, h3⟩ := ControlLemmas.name_split getConfigurationName (x ++ [0]) (by decide) (by decide)
      (getConfigurationName ++ [0]).length (by simp)
    unfold decodeCommand
    rw [e, h1]
    simp only [HRes.bind_ok, h2, h3]
    rfl

theorem requests_understood {rs : List Command} (hs : ∀ c ∈ rs, Sendable c)
    (hl : ∀ c ∈ rs, (request c).length < intLimit) : Understood decodeCommand (rs.map request) rs := by
  induction rs with
  | nil => exact .nil
  | cons c rs ih =>
    exact .cons (hl c (List.mem_cons_self ..)) (fun x _ _ => request_any c (hs c (List.mem_cons_self ..)) x)
      (ih (fun c' h => hs c' (List.mem_cons_of_mem _ h)) fun c' h => hl c' (List.mem_cons_of_mem _ h))

open ControlSession Configuration

variable (w : World) (xml : FS → Conf → Bytes) (message : Bytes)

theorem play_append (a b : List Happening) : ∀ (s : System),
    play w xml message s (a ++ b) =
      ((play w xml message s a).1 ++ (play w xml message (play w xml message s a).2 b).1,
        (play w xml message (play w xml message s a).2 b).2) := by
  induction a with
  | nil => intro s; rfl
  | cons x a ih =>
    intro s
    cases x with
    | request c => simp only [List.cons_append, play]; rw [ih]
    | other e => simp only [List.cons_append, play]; rw [ih]

theorem serve_play (cmds : List Command) : ∀ (l : Line),
    (cmds.foldl (serve w xml message) l).sent =
      l.sent ++ ((play w xml message l.sys (cmds.map .request)).1.map fun r => pack (Control.encodeReply r)).flatten ∧
    (cmds.foldl (serve w xml message) l).sys = (play w xml message l.sys (cmds.map .request)).2 := by
  induction cmds with
  | nil => intro l; simp [play]
  | cons c cmds ih =>
    intro l
    obtain ⟨h1, h2⟩ := ih (serve w xml message l c)
    rw [List.foldl_cons, h1, h2]
    simp [serve, play]

theorem requests_map (cmds : List Command) : requests (cmds.map .request) = cmds := by
  induction cmds with
  | nil => rfl
  | cons c cmds ih => simpa [requests] using ih

theorem others_map (cmds : List Command) : others (cmds.map .request) = [] := by
  induction cmds with
  | nil => rfl
  | cons c cmds ih => simpa [others] using ih

/-- what was read, as chunks -/
def chunks (is : List Input) : List Bytes := is.filterMap fun i => match i with
  | .chunk b => some b
  | .other _ => none

theorem run_play (is : List Input) : ∀ (l : Line), ∃ h : List Happening,
    requests h = (feedAll decodeCommand l.dec (chunks is)).2 ∧ others h = besides is ∧
    (is.foldl (receive w xml message) l).sent =
      l.sent ++ ((play w xml message l.sys h).1.map fun r => pack (Control.encodeReply r)).flatten ∧
    (is.foldl (receive w xml message) l).sys = (play w xml message l.sys h).2 := by
  induction is with
  | nil => intro l; exact ⟨[], rfl, rfl, by simp [play], rfl⟩
  | cons i is ih =>
    intro l
    obtain ⟨h, h1, h2, h3, h4⟩ := ih (receive w xml message l i)
    cases i with
    | chunk b =>
      obtain ⟨g1, g2⟩ := serve_play w xml message (feed decodeCommand l.dec b).2 l
      have e1 : (receive w xml message l (.chunk b)).sent = ((feed decodeCommand l.dec b).2.foldl (serve w xml message) l).sent := rfl
      have e2 : (receive w xml message l (.chunk b)).sys = ((feed decodeCommand l.dec b).2.foldl (serve w xml message) l).sys := rfl
      rw [e1, e2, g1, g2] at h3
      rw [e2, g2] at h4
      refine ⟨(feed decodeCommand l.dec b).2.map .request ++ h, ?_, ?_, ?_, ?_⟩
      · have := requests_map (feed decodeCommand l.dec b).2
        unfold requests at this h1 ⊢
        rw [List.filterMap_append, this, h1]
        rfl
      · have := others_map (feed decodeCommand l.dec b).2
        unfold others at this h2 ⊢
        rw [List.filterMap_append, this, h2]
        rfl
      · rw [List.foldl_cons, h3, play_append, List.map_append, List.flatten_append, List.append_assoc]
      · rw [List.foldl_cons, h4, play_append]
    | other e =>
      refine ⟨.other e :: h, h1, ?_, h3, h4⟩
      show e :: others h = e :: besides is
      rw [h2]

/-- **C122** (requests).  Whatever else happens to the manager meanwhile, and however the requests
are cut into reads: things come out as if the requests, in the order in which they were sent, and
the other things, in the order in which they happened, came one after the other; and what is sent is
exactly one reply for each request, in that order. -/
theorem C122_served (s : System) (is : List Input) (rs : List Command) (hs : ∀ c ∈ rs, Sendable c)
    (hl : ∀ c ∈ rs, (request c).length < intLimit) (hr : readFrom is = (rs.map fun c => wire (request c)).flatten) :
    ∃ h : List Happening, requests h = rs ∧ others h = besides is ∧
      (ControlSession.run w xml message s is).sent =
        ((play w xml message s h).1.map fun r => pack (Control.encodeReply r)).flatten ∧
      (play w xml message s h).1.length = rs.length ∧
      (ControlSession.run w xml message s is).sys = (play w xml message s h).2 := by
  obtain ⟨h, h1, h2, h3, h4⟩ := run_play w xml message is { sys := s }
  have hf := feedAll_whole (requests_understood hs hl) (cs := chunks is) (by rw [List.map_map]; exact hr)
  rw [hf.1] at h1
  refine ⟨h, h1, h2, h3, ?_, h4⟩
  rw [← h1]
  clear h1 h2 h3 h4 hr hf hs hl
  induction h generalizing s with
  | nil => rfl
  | cons x h ih =>
    cases x with
    | request c => simpa [play, requests] using ih _
    | other e => simpa [play, requests] using ih _

/-- **C122** (partial).  And a peer that reads what comes back, cut into chunks anyhow, is given
exactly those replies in that order, without an error, if the texts in them are text, none is a
status and none has 2^24 bytes or more. -/
theorem C122_partial (s : System) (is : List Input) (rs : List Command) (hs : ∀ c ∈ rs, Sendable c)
    (hl : ∀ c ∈ rs, (request c).length < intLimit) (hr : readFrom is = (rs.map fun c => wire (request c)).flatten) :
    ∃ h : List Happening, requests h = rs ∧ others h = besides is ∧
      (ControlSession.run w xml message s is).sys = (play w xml message s h).2 ∧
      ((∀ r ∈ (play w xml message s h).1, ReplyText r ∧ (Control.encodeReply r).length < 2 ^ 24) →
        ∀ back : List Bytes, back.flatten = (ControlSession.run w xml message s is).sent →
          (feedAll decodeReply init back).2 = (play w xml message s h).1 ∧
          (feedAll decodeReply init back).1.buf = [] ∧ (feedAll decodeReply init back).1.st ≠ .error) := by
  obtain ⟨h, h1, h2, h3, -, h5⟩ := C122_served w xml message s is rs hs hl hr
  refine ⟨h, h1, h2, h5, fun ht back hb => ?_⟩
  exact C42_reply_stream_partial _ (fun r hr => (ht r hr).1) (fun r hr => (ht r hr).2) back (hb.trans h3)

/-! ## What is not understood -/

theorem feedAll_error (h : Handler Ev) (cs : List Bytes) : ∀ (d : Dec), d.st = .error →
    (feedAll h d cs).2 = [] := by
  induction cs with
  | nil => intro d _; rfl
  | cons c cs ih =>
    intro d hd
    have : (feed h d c).2 = [] ∧ (feed h d c).1.st = .error := by
      unfold feed
      split
      · exact ⟨rfl, hd⟩
      · rw [hd]; unfold loop; exact ⟨rfl, rfl⟩
    simp only [feedAll, this.1, ih _ this.2, List.append_nil]

/-- **C122** does not hold for a request the manager does not know: it is not answered, and nothing
that comes after it is, although the connection stays open.  (A misspelled "reload", then anything.) -/
theorem C122_unknown_violated (s : System) :
    ∃ bad : Bytes, ∀ later : List Input,
      (ControlSession.run w xml message s (.chunk (wire bad) :: later)).sent = [] := by
  refine ⟨ascii "relaod" ++ [0], fun later => ?_⟩
  obtain ⟨h, h1, -, h3, -⟩ := run_play w xml message (.chunk (wire (ascii "relaod" ++ [0])) :: later) { sys := s }
  have hbad : (feedAll decodeCommand init (chunks (.chunk (wire (ascii "relaod" ++ [0])) :: later))).2 = [] := by
    have e : (feed decodeCommand init (wire (ascii "relaod" ++ [0]))).2 = [] ∧
        (feed decodeCommand init (wire (ascii "relaod" ++ [0]))).1.st = .error := by decide +kernel
    simp only [chunks, List.filterMap_cons, feedAll, e.1, feedAll_error _ _ _ e.2, List.append_nil]
  replace h1 : requests h = [] := h1.trans hbad
  have h6 : ∀ t : System, (play w xml message t h).1 = [] := by
    clear h3
    induction h with
    | nil => intro t; rfl
    | cons x h ih =>
      intro t
      cases x with
      | request c => simp [requests] at h1
      | other e => exact ih h1 _
  exact h3.trans (by rw [h6]; rfl)

/-- Nor does it hold for get-status: the reply is sent, and the peer's decoder rejects it. -/
theorem C122_status_violated (s : System) :
    (feedAll decodeReply init [(ControlSession.run w xml message s [.chunk (wire (request .getStatus))]).sent]).2 = [] ∧
    (feedAll decodeReply init [(ControlSession.run w xml message s [.chunk (wire (request .getStatus))]).sent]).1.st = .error := by
  have : (ControlSession.run w xml message s [.chunk (wire (request .getStatus))]).sent = pack (Control.encodeReply (.status (ascii "FIXME"))) := by
    have hf : (feed decodeCommand init (wire (request .getStatus))).2 = [.getStatus] := by decide +kernel
    show ((feed decodeCommand init (wire (request .getStatus))).2.foldl (serve w xml message) { sys := s }).sent = _
    rw [hf]
    rfl
  rw [this]
  decide +kernel

/-- a new configuration, a reload and a question, in two reads -/
example : ∃ a b : Bytes, [a, b].flatten =
      ([Command.setConfiguration (ascii "x = 1"), .reload, .getConfiguration].map fun c => wire (request c)).flatten ∧
    a.length = 9 ∧ ∀ c ∈ [Command.setConfiguration (ascii "x = 1"), .reload, .getConfiguration], Sendable c := by
  refine ⟨_, _, by simp only [List.flatten_cons, List.flatten_nil, List.append_nil]; exact List.take_append_drop 9 _, by decide, ?_⟩
  intro c hc
  simp only [List.mem_cons, List.not_mem_nil, or_false] at hc
  rcases hc with rfl | rfl | rfl
  · show (0 : UInt8) ∉ _; decide
  · trivial
  · trivial

end Verif.Props.ControlSession
