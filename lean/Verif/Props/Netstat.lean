import Verif.Manager.Netstat
import Verif.Spec.Netstat
/-
C96: the connection checker that asks netstat.
-/
namespace Verif.Props.Netstat
open Verif Verif.Netstat Verif.Spec.Netstat

/-- neither `:` nor `.` -/
def Free (p : Bytes) : Prop := ∀ c ∈ p, separator c = false

theorem separator_iff (c : UInt8) : separator c = true ↔ c = 0x3a ∨ c = 0x2e := by simp [separator]

theorem pieces_ne (t : Bytes) : pieces t ≠ [] := by
  cases t with
  | nil => simp [pieces]
  | cons c t =>
    rw [pieces]
    split
    · simp
    · split <;> simp

theorem pieces_free (t : Bytes) : ∀ p ∈ pieces t, Free p := by
  induction t with
  | nil => intro p hp; simp only [pieces, List.mem_singleton] at hp; rw [hp]; exact fun _ h => nomatch h
  | cons c t ih =>
    intro p hp
    rw [pieces] at hp
    split at hp
    · rcases List.mem_cons.mp hp with rfl | hp
      · exact fun _ h => nomatch h
      · exact ih p hp
    · rename_i hc
      split at hp
      · rename_i q qs e
        rcases List.mem_cons.mp hp with rfl | hp
        · intro d hd
          rcases List.mem_cons.mp hd with rfl | hd
          · simpa using hc
          · exact ih q (by rw [e]; exact List.mem_cons_self) d hd
        · exact ih p (by rw [e]; exact List.mem_cons_of_mem _ hp)
      · rename_i e; exact absurd e (pieces_ne t)

theorem written_pieces (t : Bytes) : Written (pieces t) t := by
  induction t with
  | nil => exact .last []
  | cons c t ih =>
    rw [pieces]
    split
    · rename_i hc
      exact .more [] (pieces t) c t ((separator_iff c).1 hc) ih
    · split
      · rename_i q qs e
        rw [e] at ih
        cases ih with
        | last p => exact .last _
        | more p ps d t hd h => exact .more (c :: q) qs d t hd h
      · rename_i e; exact absurd e (pieces_ne t)

theorem pieces_part (p : Bytes) (h : Free p) : pieces p = [p] := by
  induction p with
  | nil => rfl
  | cons c p ih =>
    rw [pieces, h c List.mem_cons_self, ih (fun d hd => h d (List.mem_cons_of_mem _ hd))]
    rfl

theorem pieces_append (p : Bytes) (h : Free p) (c : UInt8) (hc : separator c = true) (t : Bytes) : pieces (p ++ c :: t) = p :: pieces t := by
  induction p with
  | nil => rw [List.nil_append, pieces, hc]; rfl
  | cons d p ih =>
    rw [List.cons_append, pieces, h d List.mem_cons_self, ih (fun e he => h e (List.mem_cons_of_mem _ he))]
    rfl

theorem pieces_written (ps : List Bytes) (t : Bytes) (h : Written ps t) (hf : ∀ p ∈ ps, Free p) : pieces t = ps := by
  induction h with
  | last p => exact pieces_part p (hf p List.mem_cons_self)
  | more p ps c t hc _ ih =>
    rw [pieces_append p (hf p List.mem_cons_self) c ((separator_iff c).2 hc), ih fun q hq => hf q (List.mem_cons_of_mem _ hq)]

theorem dropEmpty_id (ps : List Bytes) (p : Bytes) (h : ps.getLast? = some p) (hp : p ≠ []) : dropEmpty ps = ps := by
  induction ps with
  | nil => rfl
  | cons q qs ih =>
    cases qs with
    | nil =>
      simp only [List.getLast?_singleton, Option.some.injEq] at h
      subst h
      simp [dropEmpty, hp]
    | cons r rs =>
      have := ih (by rw [List.getLast?_cons_cons] at h; exact h)
      rw [dropEmpty, this]

theorem written_join (sep c : UInt8) (hs : separator sep = true) (hc : separator c = true) (ps : List Bytes) (hne : ps ≠ []) (p : Bytes) :
    Written (ps ++ [p]) (join sep ps ++ c :: p) := by
  induction ps with
  | nil => exact absurd rfl hne
  | cons q qs ih =>
    cases qs with
    | nil => exact .more q [p] c p ((separator_iff c).1 hc) (.last p)
    | cons r rs =>
      have := ih (by simp)
      rw [join]
      · simp only [List.cons_append, List.append_assoc] at this ⊢
        exact .more q _ sep _ ((separator_iff sep).1 hs) this
      · simp

/-- the separator of addresses -/
def sepOf (v6 : Bool) : UInt8 := if v6 then 0x3a else 0x2e

theorem sepOf_sep (v6 : Bool) : separator (sepOf v6) = true := by cases v6 <;> rfl

/-- the address in netstat's output has a port -/
def EndsInPort (foreign : Bytes) : Prop := ∃ c, foreign.getLast? = some c ∧ separator c = false

theorem last_piece (t : Bytes) (h : EndsInPort t) : ∃ p, (pieces t).getLast? = some p ∧ p ≠ [] := by
  obtain ⟨c, hc, hs⟩ := h
  have hw := written_pieces t
  generalize pieces t = ps at hw
  revert hc
  induction hw with
  | last p => intro hc; exact ⟨p, rfl, fun h => by rw [h] at hc; cases hc⟩
  | more p ps d t hd hw ih =>
    intro hc
    have hne : ps ≠ [] := by cases hw <;> simp
    cases t with
    | nil =>
      rw [List.getLast?_append] at hc
      simp only [List.getLast?_singleton] at hc
      have hc : d = c := by simpa using hc
      subst hc
      rw [(separator_iff d).2 hd] at hs
      cases hs
    | cons e t =>
      have : (e :: t).getLast? = some c := by
        rw [List.getLast?_append, List.getLast?_cons_cons] at hc
        rw [List.getLast?_eq_some_getLast (by simp : e :: t ≠ [])] at hc ⊢
        simpa using hc
      obtain ⟨q, hq, hqe⟩ := ih this
      refine ⟨q, ?_, hqe⟩
      cases ps with
      | nil => exact absurd rfl hne
      | cons r rs => rw [List.getLast?_cons_cons]; exact hq

/-- the key under which a connection is kept is the address looked for exactly if it is written with the same parts -/
theorem tcpAddress_iff (v6 : Bool) (foreign : Bytes) (h : EndsInPort foreign) (addr : List Bytes) (hne : addr ≠ []) (hne' : addr ≠ [[]]) (port : Bytes)
    (hfree : ∀ p ∈ addr ++ [port], Free p) : tcpAddress v6 foreign = join (sepOf v6) addr ++ 0x3a :: port ↔ Written (addr ++ [port]) foreign := by
  obtain ⟨p, hp, hpe⟩ := last_piece foreign h
  have hsplit : split foreign = pieces foreign := dropEmpty_id _ p hp hpe
  have hcolon : separator 0x3a = true := rfl
  have hkey := written_join (sepOf v6) 0x3a (sepOf_sep v6) hcolon addr hne port
  have hpk : pieces (join (sepOf v6) addr ++ 0x3a :: port) = addr ++ [port] := pieces_written _ _ hkey hfree
  have haddr : tcpAddress v6 foreign = join (sepOf v6) (pieces foreign).dropLast ++ 0x3a :: p := by
    unfold tcpAddress
    rw [hsplit, hp]; rfl
  have hl : pieces foreign = (pieces foreign).dropLast ++ [p] := by
    rcases List.eq_nil_or_concat (pieces foreign) with e | ⟨l, q, e⟩
    · exact absurd e (pieces_ne _)
    · rw [List.concat_eq_append] at e
      rw [e, List.getLast?_concat, Option.some.injEq] at hp
      rw [e, List.dropLast_concat, hp]
  constructor
  · intro he
    by_cases hd : (pieces foreign).dropLast = []
    · rw [haddr, hd] at he
      have h1 : pieces (join (sepOf v6) [] ++ 0x3a :: p) = [[], p] := by
        have hpf : Free p := pieces_free foreign p (by rw [hl]; simp)
        show pieces (0x3a :: p) = _
        rw [pieces, hcolon, pieces_part p hpf]; rfl
      rw [he, hpk] at h1
      rcases addr with _ | ⟨x, _ | ⟨y, ys⟩⟩
      · exact absurd rfl hne
      · simp only [List.cons_append, List.nil_append, List.cons.injEq, and_true] at h1
        exact absurd (by rw [h1.1]) hne'
      · simp at h1
    · have hw : Written ((pieces foreign).dropLast ++ [p]) (tcpAddress v6 foreign) := by
        rw [haddr]
        exact written_join (sepOf v6) 0x3a (sepOf_sep v6) hcolon _ hd p
      have hpf := pieces_written _ _ hw (by rw [← hl]; exact pieces_free foreign)
      rw [he, hpk, ← hl] at hpf
      rw [hpf]
      exact written_pieces foreign
  · intro hw
    have hpf := pieces_written _ _ hw hfree
    have e1 : (pieces foreign).dropLast = addr := by rw [hpf, List.dropLast_concat]
    have e2 : p = port := by
      rw [hpf, List.getLast?_concat, Option.some.injEq] at hp
      exact hp.symm
    rw [haddr, e1, e2]

/-! ## The database -/

/-- the names of protocols: `tcp` and `tcp4`, or `tcp6` -/
def first (v6 : Bool) : Bytes := if v6 then ascii "tcp6" else ascii "tcp"
def second (v6 : Bool) : Bytes := if v6 then ascii "tcp6" else ascii "tcp4"

/-- the table of a protocol -/
def tableOf (v6 : Bool) (db : Database) : Table := if v6 then db.tcp6 else db.tcp4

/-- output as netstat gives it: lines of TCP connections are of protocol `tcp`, `tcp4` or `tcp6`, have at least five words, and the fifth ends in a port -/
def Usual (output : List (List Bytes)) : Prop :=
  ∀ line ∈ output, ∀ protocol words, line = protocol :: words → (ascii "tcp").isPrefixOf protocol = true →
    (protocol = ascii "tcp" ∨ protocol = ascii "tcp4" ∨ protocol = ascii "tcp6") ∧
    ∃ recvq sendq localAddress foreign state, words = recvq :: sendq :: localAddress :: foreign :: state ∧ EndsInPort foreign

theorem prefix_iff (p : Bytes) (h : p = ascii "tcp" ∨ p = ascii "tcp4" ∨ p = ascii "tcp6") : (ascii "tcp").isPrefixOf p = true := by
  rcases h with rfl | rfl | rfl <;> decide

/-- one line: the table has the state under the address if the line says so, and is as before otherwise -/
theorem parseLine_says (v6 : Bool) (addr : List Bytes) (hne : addr ≠ []) (hne' : addr ≠ [[]]) (port : Bytes) (hfree : ∀ p ∈ addr ++ [port], Free p)
    (db : Database) (line : List Bytes) (hu : Usual [line]) :
    ∃ db', parseLine db line = some db' ∧
      (∀ s, Says (first v6) (second v6) (addr ++ [port]) line s → tableOf v6 db' (join (sepOf v6) addr ++ 0x3a :: port) = some s) ∧
      ((∀ s, ¬ Says (first v6) (second v6) (addr ++ [port]) line s) →
        tableOf v6 db' (join (sepOf v6) addr ++ 0x3a :: port) = tableOf v6 db (join (sepOf v6) addr ++ 0x3a :: port)) := by
  cases line with
  | nil =>
    refine ⟨db, rfl, ?_, fun _ => rfl⟩
    rintro s ⟨_, _, _, _, _, _, h, _⟩; cases h
  | cons protocol words =>
    by_cases hp : (ascii "tcp").isPrefixOf protocol = true
    · obtain ⟨hproto, recvq, sendq, loc, foreign, state, rfl, hport⟩ := hu _ List.mem_cons_self protocol words rfl hp
      have hkey := tcpAddress_iff v6 foreign hport addr hne hne' port hfree
      have n1 : ¬ (ascii "tcp6" = ascii "tcp") := by decide
      have n2 : ¬ (ascii "tcp6" = ascii "tcp4") := by decide
      have hsays : ∀ s, Says (first v6) (second v6) (addr ++ [port]) (protocol :: recvq :: sendq :: loc :: foreign :: state) s ↔
          ((protocol = first v6 ∨ protocol = second v6) ∧ tcpAddress v6 foreign = join (sepOf v6) addr ++ 0x3a :: port ∧ s = state.head?) := by
        intro s
        constructor
        · rintro ⟨_, _, _, _, _, _, h, h1, h2, h3⟩
          simp only [List.cons.injEq] at h
          obtain ⟨rfl, rfl, rfl, rfl, rfl, rfl⟩ := h
          exact ⟨h1, hkey.2 h2, h3⟩
        · rintro ⟨h1, h2, h3⟩
          exact ⟨_, _, _, _, _, _, rfl, h1, hkey.1 h2, h3⟩
      simp only [parseLine, hp, if_true]
      by_cases h4 : protocol = ascii "tcp" ∨ protocol = ascii "tcp4"
      · rw [if_pos h4]
        refine ⟨_, rfl, ?_, ?_⟩
        · intro s hs
          obtain ⟨h1, h2, h3⟩ := (hsays s).1 hs
          cases v6 with
          | false => simp only [tableOf, Bool.false_eq_true, if_false]; rw [if_pos h2.symm, h3]
          | true =>
            simp only [first, second, if_true, or_self] at h1
            subst h1
            rcases h4 with h4 | h4
            · exact absurd h4 n1
            · exact absurd h4 n2
        · intro hn
          cases v6 with
          | true => rfl
          | false =>
            simp only [tableOf, Bool.false_eq_true, if_false]
            rw [if_neg]
            intro hk
            exact hn state.head? ((hsays _).2 ⟨by simpa [first, second] using h4, hk.symm, rfl⟩)
      · rw [if_neg h4]
        have h6 : protocol = ascii "tcp6" := by
          rcases hproto with h | h | h
          · exact absurd (.inl h) h4
          · exact absurd (.inr h) h4
          · exact h
        rw [if_pos h6]
        refine ⟨_, rfl, ?_, ?_⟩
        · intro s hs
          obtain ⟨h1, h2, h3⟩ := (hsays s).1 hs
          cases v6 with
          | true => simp only [tableOf, if_true]; rw [if_pos h2.symm, h3]
          | false => exact absurd (by simpa [first, second] using h1) h4
        · intro hn
          cases v6 with
          | false => rfl
          | true =>
            simp only [tableOf, if_true]
            rw [if_neg]
            intro hk
            exact hn state.head? ((hsays _).2 ⟨.inl (by simpa [first] using h6), hk.symm, rfl⟩)
    · refine ⟨db, by simp only [parseLine, hp, Bool.false_eq_true, if_false], ?_, fun _ => rfl⟩
      rintro s ⟨_, _, _, _, _, _, h, h1, _⟩
      simp only [List.cons.injEq] at h
      rw [← h.1] at h1
      refine absurd (prefix_iff protocol ?_) hp
      cases v6 with
      | false => simp only [first, second, Bool.false_eq_true, if_false] at h1; exact h1.elim .inl fun h => .inr (.inl h)
      | true => simp only [first, second, if_true, or_self] at h1; exact .inr (.inr h1)

theorem says_dec (tcp tcp4 : Bytes) (client line : List Bytes) : (∃ s, Says tcp tcp4 client line s) ∨ ∀ s, ¬ Says tcp tcp4 client line s := by
  rcases Classical.em (∃ s, Says tcp tcp4 client line s) with h | h
  · exact .inl h
  · exact .inr fun s hs => h ⟨s, hs⟩

theorem parse_says (v6 : Bool) (addr : List Bytes) (hne : addr ≠ []) (hne' : addr ≠ [[]]) (port : Bytes) (hfree : ∀ p ∈ addr ++ [port], Free p)
    (output : List (List Bytes)) (db : Database) (hu : Usual output) :
    ∃ db', parse db output = some db' ∧
      ∀ s, tableOf v6 db' (join (sepOf v6) addr ++ 0x3a :: port) = some s ↔
        LastSays (first v6) (second v6) (addr ++ [port]) output s ∨
        ((∀ l ∈ output, ∀ s, ¬ Says (first v6) (second v6) (addr ++ [port]) l s) ∧ tableOf v6 db (join (sepOf v6) addr ++ 0x3a :: port) = some s) := by
  induction output generalizing db with
  | nil =>
    refine ⟨db, rfl, fun s => ⟨fun h => .inr ⟨fun _ hl => (nomatch hl), h⟩, ?_⟩⟩
    rintro (⟨b, l, a, h, _⟩ | h)
    · cases b <;> cases h
    · exact h.2
  | cons line output ih =>
    obtain ⟨db1, e1, s1, s2⟩ := parseLine_says v6 addr hne hne' port hfree db line (fun l hl => by
      rcases List.mem_cons.mp hl with rfl | hl
      · exact hu _ List.mem_cons_self
      · cases hl)
    obtain ⟨db2, e2, h2⟩ := ih db1 (fun l hl => hu l (List.mem_cons_of_mem _ hl))
    refine ⟨db2, by rw [parse, e1]; exact e2, fun s => ?_⟩
    rw [h2]
    constructor
    · rintro (⟨b, l, a, rfl, h⟩ | ⟨hn, hs⟩)
      · exact .inl ⟨line :: b, l, a, rfl, h⟩
      · rcases says_dec (first v6) (second v6) (addr ++ [port]) line with ⟨t, ht⟩ | hno
        · rw [s1 t ht, Option.some.injEq] at hs
          subst hs
          exact .inl ⟨[], line, output, rfl, ht, hn⟩
        · rw [s2 hno] at hs
          refine .inr ⟨fun l hl => ?_, hs⟩
          rcases List.mem_cons.mp hl with rfl | hl
          · exact hno
          · exact hn l hl
    · rintro (⟨b, l, a, h, hl, ha⟩ | ⟨hn, hs⟩)
      · cases b with
        | nil =>
          simp only [List.nil_append, List.cons.injEq] at h
          obtain ⟨rfl, rfl⟩ := h
          exact .inr ⟨ha, s1 s hl⟩
        | cons x b =>
          simp only [List.cons_append, List.cons.injEq] at h
          obtain ⟨rfl, rfl⟩ := h
          exact .inl ⟨b, l, a, rfl, hl, ha⟩
      · refine .inr ⟨fun l hl => hn l (List.mem_cons_of_mem _ hl), ?_⟩
        rw [s2 (hn line List.mem_cons_self)]
        exact hs

/-- the client at an address given by its parts -/
def clientAt (v6 : Bool) (addr : List Bytes) (port : Bytes) : Client :=
  if v6 then .ipv6 (join 0x3a addr) port else .ipv4 (join 0x2e addr) port

theorem never_updated (c : Checker) (h : c.lastUpdate = none) (now : Nat) : c.needsUpdate now = true := by
  unfold Checker.needsUpdate
  split
  · rfl
  · rw [h]

/-- **C96**: with the netstat checker, a session is ended as the client's having gone away if and only if the MTA is local, netstat can be run, the client is at an IP address, and the last
line of netstat's output about a connection from the client's address and port has the state CLOSE_WAIT or none.  So for every output of netstat; the address of an IPv6 client is taken to
be written without dots. -/
theorem C96_disconnected_partial (v6 : Bool) (addr : List Bytes) (hne : addr ≠ []) (hne' : addr ≠ [[]]) (port : Bytes) (hfree : ∀ p ∈ addr ++ [port], Free p)
    (c : Checker) (hc : c.lastUpdate = none) (serverLocal : Bool) (now : Nat) (output : List (List Bytes)) (hu : Usual output) :
    check [(c.connected serverLocal (clientAt v6 addr port) now output).1] = false ↔
      serverLocal = true ∧ c.available = true ∧ ∃ s, LastSays (first v6) (second v6) (addr ++ [port]) output s ∧ (s = none ∨ s = some (ascii "CLOSE_WAIT")) := by
  obtain ⟨db, e, hdb⟩ := parse_says v6 addr hne hne' port hfree output {} hu
  have hdb : ∀ s, tableOf v6 db (join (sepOf v6) addr ++ 0x3a :: port) = some s ↔ LastSays (first v6) (second v6) (addr ++ [port]) output s := by
    intro s
    rw [hdb s]
    constructor
    · rintro (h | ⟨_, h⟩)
      · exact h
      · cases v6 <;> cases h
    · exact .inl
  have hcheck : ∀ r : Option Bool, check [r] = false ↔ r = some false := by
    intro r; cases r with
    | none => simp [check]
    | some b => cases b <;> simp [check]
  rw [hcheck]
  unfold Checker.connected
  cases serverLocal with
  | false => simp
  | true =>
    cases ha : c.available with
    | false => simp
    | true =>
      have hupd : c.update now output = (some { c with database := some db }, true) := by
        unfold Checker.update
        rw [never_updated c hc, if_pos rfl, e]
      simp only [Bool.not_true, Bool.false_eq_true, if_false, true_and]
      have hlook : ∀ t : Option (Option Bytes), (∀ s, t = some s ↔ LastSays (first v6) (second v6) (addr ++ [port]) output s) →
          ((match t with
            | none => (some true, ({ c with database := some db } : Checker), true)
            | some state => (some (!(state = none || state = some (ascii "CLOSE_WAIT"))), { c with database := some db }, true)).1 = some false ↔
          ∃ s, LastSays (first v6) (second v6) (addr ++ [port]) output s ∧ (s = none ∨ s = some (ascii "CLOSE_WAIT"))) := by
        intro t ht
        cases t with
        | none =>
          simp only [Option.some.injEq, Bool.true_eq_false, false_iff]
          rintro ⟨s, hs, _⟩
          cases (ht s).2 hs
        | some st =>
          have h1 := (ht st).1 rfl
          constructor
          · intro h
            refine ⟨st, h1, ?_⟩
            simpa [Decidable.or_iff_not_imp_left] using h
          · rintro ⟨s, hs, h⟩
            have := (ht s).2 hs
            simp only [Option.some.injEq] at this
            subst this
            simpa [Decidable.or_iff_not_imp_left] using h
      cases v6 with
      | false =>
        simp only [clientAt, Bool.false_eq_true, if_false, hupd]
        exact hlook (db.tcp4 (join 0x2e addr ++ 0x3a :: port)) hdb
      | true =>
        simp only [clientAt, if_true, hupd]
        exact hlook (db.tcp6 (join 0x3a addr ++ 0x3a :: port)) hdb

/-- netstat's output of a mail server -/
def output : List (List Bytes) :=
  [[ascii "Proto", ascii "Recv-Q", ascii "Send-Q", ascii "Local", ascii "Address", ascii "Foreign", ascii "Address", ascii "State"],
   [ascii "tcp", ascii "0", ascii "0", ascii "192.0.2.1:25", ascii "198.51.100.7:4711", ascii "CLOSE_WAIT"],
   [ascii "tcp", ascii "0", ascii "0", ascii "192.0.2.1:25", ascii "198.51.100.8:4712", ascii "ESTABLISHED"]]

def client7 : List Bytes := [ascii "198", ascii "51", ascii "100", ascii "7"]

example : check [((⟨true, none, none, 5⟩ : Checker).connected true (clientAt false client7 (ascii "4711")) 0 output).1] = false ∧
    check [((⟨true, none, none, 5⟩ : Checker).connected true (clientAt false client7 (ascii "4712")) 0 output).1] = true := by decide +kernel

/-- the hypotheses are met -/
example : (∀ p ∈ client7 ++ [ascii "4711"], Free p) ∧ Usual output := by
  constructor
  · intro p hp
    have : ∀ p ∈ client7 ++ [ascii "4711"], ∀ c ∈ p, separator c = false := by decide +kernel
    exact this p hp
  · intro line hl protocol words e hp
    rcases List.mem_cons.mp hl with h | hl
    · rw [e] at h
      injection h with h _
      rw [h] at hp
      exact absurd hp (by decide)
    · rcases List.mem_cons.mp hl with h | hl
      · rw [e] at h
        injection h with h h'
        exact ⟨.inl h, _, _, _, _, _, h', 0x31, by decide, by decide⟩
      · rcases List.mem_cons.mp hl with h | hl
        · rw [e] at h
          injection h with h h'
          exact ⟨.inl h, _, _, _, _, _, h', 0x32, by decide, by decide⟩
        · cases hl

/-- **C96** (several checkers): a session goes on if and only if no checker says that the client has gone; a checker that raises an exception does not -/
theorem C96_check (rs : List (Option Bool)) : check rs = false ↔ some false ∈ rs := by
  induction rs with
  | nil => simp [check]
  | cons r rs ih =>
    rw [check]
    cases r with
    | none => simpa using ih
    | some b => cases b <;> simp [ih]

/-- the checker keeps what it knows, and never when it learnt it -/
theorem connected_lastUpdate (c : Checker) (hc : c.lastUpdate = none) (serverLocal : Bool) (client : Client) (now : Nat) (output : List (List Bytes)) :
    (c.connected serverLocal client now output).2.1.lastUpdate = none := by
  have hu : ∀ c' ran, c.update now output = (some c', ran) → c'.lastUpdate = none := by
    intro c' ran h
    unfold Checker.update at h
    split at h
    · split at h
      · simp only [Prod.mk.injEq, Option.some.injEq] at h; rw [← h.1]; exact hc
      · simp at h
    · simp only [Prod.mk.injEq, Option.some.injEq] at h; rw [← h.1]; exact hc
  unfold Checker.connected
  split
  · exact hc
  · split
    · exact hc
    · split
      · exact hc
      · split
        · exact hc
        · rename_i c' ran h
          split <;> exact hu c' ran h
      · split
        · exact hc
        · rename_i c' ran h
          split <;> exact hu c' ran h

/-- a history of checks -/
structure Asked where
  serverLocal : Bool
  client : Client
  now : Nat
  output : List (List Bytes)

/-- a checker after checks, beginning with a new one -/
def afterChecks (c : Checker) : List Asked → Checker
  | [] => c
  | q :: qs => afterChecks (c.connected q.serverLocal q.client q.now q.output).2.1 qs

/-- **C96**, where the code departs from it: the output of netstat is never kept for the lifetime of the database: after any history of checks, at any time, each check of a client of a local
MTA runs netstat again -/
theorem C96_lifetime_violated (lifetime : Nat) (qs : List Asked) (address port : Bytes) (now : Nat) (out : List (List Bytes))
    (havail : (afterChecks ⟨true, none, none, lifetime⟩ qs).available = true) :
    ((afterChecks ⟨true, none, none, lifetime⟩ qs).connected true (.ipv4 address port) now out).2.2 = true := by
  have hl : ∀ qs (c : Checker), c.lastUpdate = none → (afterChecks c qs).lastUpdate = none := by
    intro qs
    induction qs with
    | nil => intro c h; exact h
    | cons q qs ih => intro c h; exact ih _ (connected_lastUpdate c h _ _ _ _)
  have h := hl qs ⟨true, none, none, lifetime⟩ rfl
  generalize afterChecks ⟨true, none, none, lifetime⟩ qs = c at h havail
  unfold Checker.connected
  rw [havail]
  simp only [Bool.not_true, Bool.false_eq_true, if_false, Checker.update, never_updated c h, if_true]
  cases parse {} out with
  | none => rfl
  | some db =>
    simp only
    split <;> rfl

theorem join_no_dot (ps : List Bytes) (h : ∀ p ∈ ps, Free p) : 0x2e ∉ join 0x3a ps := by
  induction ps with
  | nil => simp [join]
  | cons p ps ih =>
    have hp : 0x2e ∉ p := fun hm => by have := h p List.mem_cons_self _ hm; simp [separator] at this
    cases ps with
    | nil => exact hp
    | cons q qs =>
      rw [join]
      · intro hm
        rcases List.mem_append.mp hm with hm | hm
        · exact hp hm
        · rcases List.mem_cons.mp hm with hm | hm
          · exact absurd hm (by decide)
          · exact ih (fun r hr => h r (List.mem_cons_of_mem _ hr)) hm
      · simp

theorem dropEmpty_mem (ps : List Bytes) : ∀ p ∈ dropEmpty ps, p ∈ ps := by
  induction ps with
  | nil => intro p hp; exact hp
  | cons q qs ih =>
    intro p hp
    rw [dropEmpty] at hp
    split at hp
    · split at hp
      · cases hp
      · rcases List.mem_cons.mp hp with rfl | hp
        · exact List.mem_cons_self
        · cases hp
    · rcases List.mem_cons.mp hp with rfl | hp
      · exact List.mem_cons_self
      · exact List.mem_cons_of_mem _ (ih p hp)

/-- **C96**, where the code departs from it: a client at an IPv6 address written with dots, as IPv4-mapped addresses are (`::ffff:192.0.2.1`), is never found to have gone away, whatever netstat
says -/
theorem C96_mapped_violated (address port : Bytes) (h : 0x2e ∈ address) (c : Checker) (hc : c.lastUpdate = none) (now : Nat) (out : List (List Bytes)) :
    check [(c.connected true (.ipv6 address port) now out).1] = true := by
  have hnone : ∀ ls (db db' : Database), db.tcp6 (address ++ 0x3a :: port) = none → parse db ls = some db' → db'.tcp6 (address ++ 0x3a :: port) = none := by
    intro ls
    induction ls with
    | nil => intro db db' h1 h2; simp only [parse, Option.some.injEq] at h2; rw [← h2]; exact h1
    | cons l ls ih =>
      intro db db' h1 h2
      rw [parse] at h2
      cases hl : parseLine db l with
      | none => rw [hl] at h2; cases h2
      | some d =>
        rw [hl] at h2
        refine ih d db' ?_ h2
        cases l with
        | nil => simp only [parseLine, Option.some.injEq] at hl; rw [← hl]; exact h1
        | cons protocol words =>
          unfold parseLine at hl
          simp only at hl
          split at hl
          · split at hl
            · rename_i foreign state
              split at hl
              · simp only [Option.some.injEq] at hl; rw [← hl]; exact h1
              · split at hl
                · simp only [Option.some.injEq] at hl
                  rw [← hl]
                  simp only
                  rw [if_neg]
                  · exact h1
                  · intro he
                    have hfree : ∀ p ∈ split foreign, Free p := fun p hp => pieces_free foreign p (dropEmpty_mem _ p hp)
                    have hd : 0x2e ∉ join 0x3a (split foreign).dropLast := join_no_dot _ fun p hp => hfree p (List.dropLast_subset _ hp)
                    have hlast : 0x2e ∉ ((split foreign).getLast?).getD [] := by
                      cases hg : (split foreign).getLast? with
                      | none => simp
                      | some p =>
                        intro hm
                        have := hfree p (List.mem_of_getLast? hg) _ hm
                        simp [separator] at this
                    have hm : 0x2e ∈ tcpAddress true foreign := by
                      rw [← he]; exact List.mem_append_left _ h
                    unfold tcpAddress at hm
                    simp only [if_true] at hm
                    rcases List.mem_append.mp hm with hm | hm
                    · exact hd hm
                    · rcases List.mem_cons.mp hm with hm | hm
                      · exact absurd hm (by decide)
                      · exact hlast hm
                · cases hl
            · cases hl
          · simp only [Option.some.injEq] at hl; rw [← hl]; exact h1
  unfold Checker.connected
  simp only [Bool.not_true, Bool.false_eq_true, if_false]
  cases ha : c.available with
  | false => rfl
  | true =>
    simp only [Bool.not_true, Bool.false_eq_true, if_false, Checker.update, never_updated c hc, if_true]
    cases hp : parse {} out with
    | none => rfl
    | some db =>
      have := hnone out {} db rfl hp
      simp only [Option.bind_some, this]
      rfl

example : (0x2e : UInt8) ∈ ascii "::ffff:192.0.2.1" := by decide

end Verif.Props.Netstat
