import Verif.Manager.ControlCodec
import Verif.Core.CommandRoundTrip
import Verif.Props.Codec
/-
C42, C43: the control protocol and the launch protocol.
-/
namespace Verif.Props
open Verif Verif.Spec Verif.Decoder
open Verif.Enc (pack)
open Verif.Control hiding Reply

namespace ControlLemmas

theorem cstr_names : IsCStr setConfigurationName ∧ IsCStr reloadName ∧ IsCStr getStatusName ∧
    IsCStr successName ∧ IsCStr failureName ∧ IsCStr errorName ∧ IsCStr configurationName ∧
    IsCStr statusName ∧ IsCStr launchName := by decide

theorem payload_ok (c y : Bytes) (hc : IsCStr c) (hy : (0 : UInt8) ∈ y) : payload (c ++ y) c.length = .ok c := by
  obtain ⟨a, b, rfl, ha⟩ : ∃ a b, y = a ++ 0 :: b ∧ IsCStr a := by
    clear hc
    induction y with
    | nil => simp at hy
    | cons x y ih =>
      by_cases hx : x = 0
      · exact ⟨[], y, by simp [hx], by simp [IsCStr]⟩
      · have : (0 : UInt8) ∈ y := by
          rw [List.mem_cons] at hy
          exact hy.resolve_left (fun e => hx e.symm)
        obtain ⟨a, b, e, ha⟩ := ih this
        refine ⟨x :: a, b, by simp [e], ?_⟩
        simp only [IsCStr, List.mem_cons, not_or]
        exact ⟨fun e => hx e.symm, ha⟩
  have hca : IsCStr (c ++ a) := by
    simp only [IsCStr, List.mem_append, not_or]
    exact ⟨hc, ha⟩
  unfold payload
  rw [← List.append_assoc, cstr_append (c ++ a) b hca]
  simp

/-- a name, its NUL and the rest -/
theorem name_split (name rest : Bytes) (hn : IsCStr name) (h0 : name ≠ []) (len : Nat) (hl : name.length < len) :
    findNull1 (name ++ [0] ++ rest) len = .ok name.length ∧ cstr (name ++ [0] ++ rest) = .ok name ∧
    (name ++ [0] ++ rest).drop (name.length + 1) = rest := by
  have : name ++ [0] ++ rest = name ++ 0 :: rest := by simp
  rw [this]
  exact ⟨CmdDec.findNull1_cstr name rest len hn h0 hl, cstr_append name rest hn, CmdDec.drop_cstr name rest⟩

end ControlLemmas
open ControlLemmas

/-- the payload of a set-configuration command is text -/
def ControlOk : Command → Prop
  | .setConfiguration c => IsCStr c
  | _ => True

/-- a control command is read back whatever follows it in the receive buffer -/
theorem control_command_any (c : Command) (p : Bytes) (hok : ControlOk c) (he : encodeCommand c = some p) (x : Bytes) :
    decodeCommand (p ++ x ++ [0]) p.length = .ok c := by
  cases c with
  | getConfiguration => simp [encodeCommand] at he
  | setConfiguration c =>
    simp only [encodeCommand, Option.some.injEq] at he
    subst he
    have e : setConfigurationName ++ [0] ++ c ++ x ++ [0] = setConfigurationName ++ [0] ++ (c ++ (x ++ [0])) := by
      simp
    obtain ⟨h1, h2, h3⟩ := name_split setConfigurationName (c ++ (x ++ [0])) (by decide) (by decide)
      (setConfigurationName ++ [0] ++ c).length (by simp +arith)
    unfold decodeCommand
    rw [e, h1]
    simp only [HRes.bind_ok, h2, h3, if_true]
    have hl : (setConfigurationName ++ [0] ++ c).length - (setConfigurationName.length + 1) = c.length := by
      simp only [List.length_append, List.length_cons, List.length_nil]; omega
    rw [hl, payload_ok c (x ++ [0]) hok (by simp)]
    rfl
  | reload =>
    simp only [encodeCommand, Option.some.injEq] at he
    subst he
    have e : reloadName ++ [0] ++ x ++ [0] = reloadName ++ [0] ++ (x ++ [0]) := by simp
    obtain ⟨h1, h2, h3⟩ := name_split reloadName (x ++ [0]) (by decide) (by decide)
      (reloadName ++ [0]).length (by simp)
    unfold decodeCommand
    rw [e, h1]
    simp only [HRes.bind_ok, h2, h3]
    rfl
  | getStatus =>
    simp only [encodeCommand, Option.some.injEq] at he
    subst he
    have e : getStatusName ++ [0] ++ x ++ [0] = getStatusName ++ [0] ++ (x ++ [0]) := by simp
    obtain ⟨h1, h2, h3⟩ := name_split getStatusName (x ++ [0]) (by decide) (by decide)
      (getStatusName ++ [0]).length (by simp)
    unfold decodeCommand
    rw [e, h1]
    simp only [HRes.bind_ok, h2, h3]
    rfl

/-- **C42** (commands): any sequence of control commands the encoder can produce, with
configurations that are text, cut into chunks anyhow, is decoded to the same commands, without
an error and without bytes left over. -/
theorem C42_commands (cmds : List Command) (packets : List Bytes)
    (he : Pointwise (fun c p => encodeCommand c = some p) cmds packets) (hok : ∀ c ∈ cmds, ControlOk c)
    (hlen : ∀ p ∈ packets, p.length < intLimit)
    (cs : List Bytes) (hcs : cs.flatten = (packets.map pack).flatten) :
    (feedAll decodeCommand init cs).2 = cmds ∧
    someFeedFailed decodeCommand init cs = false ∧
    (endDecode (feedAll decodeCommand init cs).1).2 = true := by
  have hw : packets.map pack = packets.map wire :=
    List.map_congr_left (fun p hp => pack_wire p (hlen p hp))
  have hf : frames cs.flatten = packets := by
    have := frames_wires packets [] hlen
    rw [List.append_nil, frames_short [] (by decide), List.append_nil] at this
    rw [hcs, hw, this]
  have hlo : leftover cs.flatten = [] := by
    have := leftover_wires packets [] hlen
    rw [List.append_nil, leftover_short [] (by decide)] at this
    rw [hcs, hw, this]
  have key : ∀ p ∈ packets, ∃ c, ControlOk c ∧ encodeCommand c = some p := by
    clear hcs hw hf hlo hlen
    induction he with
    | nil => simp
    | cons h _ ih =>
      intro p hp
      rw [List.mem_cons] at hp
      rcases hp with rfl | hp
      · exact ⟨_, hok _ List.mem_cons_self, h⟩
      · exact ih (fun c hc => hok c (List.mem_cons_of_mem _ hc)) p hp
  have hind : ∀ p ∈ frames cs.flatten, Independent decodeCommand p := by
    rw [hf]
    intro p hp
    obtain ⟨c, h1, h2⟩ := key p hp
    intro x
    have := control_command_any c p h1 h2 []
    rw [List.append_nil] at this
    rw [control_command_any c p h1 h2, alone, this]
  have h1 := C01_framing decodeCommand cs hind
  have h2 := C06_end decodeCommand cs hind
  have h3 : interpret (alone decodeCommand) packets = (cmds, .fine) := by
    clear hcs hw hf hlo hlen hind h1 h2 key
    induction he with
    | nil => rfl
    | @cons c p cmds packets h _ ih =>
      have := control_command_any c p (hok c List.mem_cons_self) h []
      rw [List.append_nil] at this
      rw [interpret, alone, this, ih (fun c hc => hok c (List.mem_cons_of_mem _ hc))]
  rw [hf] at h1 h2
  rw [h3] at h1 h2
  refine ⟨h1.1, ?_, h2.2 ⟨rfl, hlo⟩⟩
  rw [← Bool.not_eq_true, h1.2]
  simp

/-- what may stand behind a packet in the receive buffer: nothing, or another packet of less
than 2^24 bytes (whose first length byte is 0) -/
def Follows (x : Bytes) : Prop := x = [] ∨ x.head? = some 0

/-- replies whose payload is text, except status -/
def ReplyText : Control.Reply → Prop
  | .success => True
  | .failure t => IsCStr t
  | .error t => IsCStr t
  | .configuration c => IsCStr c
  | .status _ => False

theorem cstr_follows (t x : Bytes) (ht : IsCStr t) (hx : Follows x) : cstr (t ++ (x ++ [0])) = .ok t := by
  rcases hx with rfl | hx
  · exact cstr_append t [] ht
  · cases x with
    | nil => simp at hx
    | cons a x =>
      simp at hx
      subst hx
      exact cstr_append t (x ++ [0]) ht

/-- **C42** (replies, except status): a reply is decoded to the same reply. -/
theorem C42_replies_partial (r : Control.Reply) (hok : ReplyText r) (x : Bytes) (hx : Follows x) :
    decodeReply (encodeReply r ++ x ++ [0]) (encodeReply r).length = .ok r := by
  have base : ∀ (name t : Bytes), IsCStr name → name ≠ [] →
      findNull1 (name ++ [0] ++ t ++ x ++ [0]) (name ++ [0] ++ t).length = .ok name.length ∧
      cstr (name ++ [0] ++ t ++ x ++ [0]) = .ok name ∧
      (name ++ [0] ++ t ++ x ++ [0]).drop (name.length + 1) = t ++ (x ++ [0]) ∧
      (name ++ [0] ++ t).length - (name.length + 1) = t.length := by
    intro name t hn h0
    have e : name ++ [0] ++ t ++ x ++ [0] = name ++ [0] ++ (t ++ (x ++ [0])) := by simp
    obtain ⟨h1, h2, h3⟩ := name_split name (t ++ (x ++ [0])) hn h0 (name ++ [0] ++ t).length (by simp +arith)
    rw [e]
    refine ⟨h1, h2, h3, ?_⟩
    simp only [List.length_append, List.length_cons, List.length_nil]; omega
  cases r with
  | success =>
    obtain ⟨h1, h2, h3, h4⟩ := base successName [] (by decide) (by decide)
    simp only [List.append_nil] at h1 h2 h3 h4
    simp only [encodeReply, decodeReply, decodeBaseReply, h1, h2, HRes.bind_ok, if_true]
    rfl
  | failure t =>
    obtain ⟨h1, h2, h3, h4⟩ := base failureName t (by decide) (by decide)
    simp only [encodeReply, decodeReply, decodeBaseReply, h1, h2, h3, HRes.bind_ok,
      cstr_follows t x hok hx, show ¬ failureName = successName by decide, if_false, if_true, HRes.pure_eq]
  | error t =>
    obtain ⟨h1, h2, h3, h4⟩ := base errorName t (by decide) (by decide)
    simp only [encodeReply, decodeReply, decodeBaseReply, h1, h2, h3, HRes.bind_ok,
      cstr_follows t x hok hx, show ¬ errorName = successName by decide,
      show ¬ errorName = failureName by decide, if_false, if_true, HRes.pure_eq]
  | configuration c =>
    obtain ⟨h1, h2, h3, h4⟩ := base configurationName c (by decide) (by decide)
    simp only [encodeReply, decodeReply, decodeBaseReply, h1, h2, h3, h4, HRes.bind_ok,
      payload_ok c (x ++ [0]) hok (by simp), show ¬ configurationName = successName by decide,
      show ¬ configurationName = failureName by decide, show ¬ configurationName = errorName by decide,
      if_false, if_true, HRes.pure_eq]
  | status s => exact absurd hok id

/-- **C42** is violated for status replies: whatever the status, the decoder rejects the
packet the encoder produces. -/
theorem C42_status_violated (s x : Bytes) :
    decodeReply (encodeReply (.status s) ++ x ++ [0]) (encodeReply (.status s)).length = .fail := by
  have e : statusName ++ [0] ++ s ++ x ++ [0] = statusName ++ [0] ++ (s ++ (x ++ [0])) := by simp
  obtain ⟨h1, h2, h3⟩ := name_split statusName (s ++ (x ++ [0])) (by decide) (by decide)
    (statusName ++ [0] ++ s).length (by simp +arith)
  simp only [encodeReply, decodeReply, decodeBaseReply, e, h1, h2, HRes.bind_ok,
    show ¬ statusName = successName by decide, show ¬ statusName = failureName by decide,
    show ¬ statusName = errorName by decide, show ¬ statusName = configurationName by decide, if_false]

/-- **C42** is violated for configurations with an inner NUL: the receiver reads past the
copy it gets. -/
theorem C42_nul_violated :
    decodeCommand (setConfigurationName ++ [0] ++ [0x61, 0, 0x62] ++ [0])
      (setConfigurationName ++ [0] ++ [0x61, 0, 0x62]).length = .ub := by
  decide

/-- **C42** is violated when a failure reply is followed by a packet of 2^24 bytes or more:
its length bytes are taken for message text. -/
theorem C42_failure_violated :
    decodeReply (encodeReply (.failure [0x61]) ++ [0x01, 0x00, 0x00, 0x00] ++ [0])
      (encodeReply (.failure [0x61])).length = .ok (.failure [0x61, 0x01]) := by
  decide

/-- a configuration and two more commands -/
example : Pointwise (fun c p => encodeCommand c = some p)
      [.setConfiguration (ascii "x = 1\n"), .reload, .getStatus]
      [setConfigurationName ++ [0] ++ ascii "x = 1\n", reloadName ++ [0], getStatusName ++ [0]] ∧
    ControlOk (.setConfiguration (ascii "x = 1\n")) := by
  refine ⟨.cons rfl (.cons rfl (.cons rfl .nil)), ?_⟩
  show IsCStr _
  decide

/-! launch -/

/-- **C43** for a non-empty command line and a user name that is absent or not empty. -/
theorem C43_partial (l : Launch) (hc : IsCStr l.commandLine) (h0 : l.commandLine ≠ [])
    (hu : ∀ u, l.userName = some u → IsCStr u ∧ u ≠ []) (x : Bytes) (hx : Follows x) :
    decodeLaunch (encodeLaunch l ++ x ++ [0]) (encodeLaunch l).length = .ok l := by
  obtain ⟨c, u⟩ := l
  simp only at hc h0 hu
  have e : launchName ++ [0] ++ c ++ [0] ++ u.getD [] ++ x ++ [0] =
      launchName ++ [0] ++ (c ++ [0] ++ (u.getD [] ++ (x ++ [0]))) := by simp
  obtain ⟨h1, h2, h3⟩ := name_split launchName (c ++ [0] ++ (u.getD [] ++ (x ++ [0]))) (by decide) (by decide)
    (launchName ++ [0] ++ c ++ [0] ++ u.getD []).length (by simp +arith)
  have hl : (launchName ++ [0] ++ c ++ [0] ++ u.getD []).length - (launchName.length + 1) =
      c.length + 1 + (u.getD []).length := by
    simp only [List.length_append, List.length_cons, List.length_nil]; omega
  obtain ⟨g1, g2, g3⟩ := name_split c (u.getD [] ++ (x ++ [0])) hc h0 (c.length + 1 + (u.getD []).length) (by omega)
  simp only [encodeLaunch, decodeLaunch, e, h1, h2, h3, hl, HRes.bind_ok, if_true, decodeLaunchContent, g1, g2, g3]
  cases u with
  | none => simp
  | some u =>
    obtain ⟨hu1, hu2⟩ := hu u rfl
    have : 0 < u.length := List.length_pos_iff.mpr hu2
    rw [if_pos (by simp; exact this)]
    simp only [Option.getD_some, cstr_follows u x hu1 hx, HRes.bind_ok, HRes.pure_eq]

/-- **C43** is violated for an empty command line (rejected) and an empty user name (read
back as none). -/
theorem C43_violated :
    decodeLaunch (encodeLaunch ⟨[], none⟩ ++ [0]) (encodeLaunch ⟨[], none⟩).length = .fail ∧
    decodeLaunch (encodeLaunch ⟨[0x61], some []⟩ ++ [0]) (encodeLaunch ⟨[0x61], some []⟩).length =
      .ok ⟨[0x61], none⟩ := by
  decide

example : decodeLaunch (encodeLaunch ⟨ascii "/bin/milter -d", some (ascii "nobody")⟩ ++ [0])
      (encodeLaunch ⟨ascii "/bin/milter -d", some (ascii "nobody")⟩).length =
    .ok ⟨ascii "/bin/milter -d", some (ascii "nobody")⟩ := by
  decide

end Verif.Props
