import Verif.Spec.Testing
import Verif.Props.TestServerTalk
/-
The Ruby class that runs milter-test-server (C153).
-/
namespace Verif.Props.Testing
open Verif Verif.Testing Verif.TestServer Verif.Spec.Testing
open Verif.Spec.TestServer (result original)

/-! ### Lines -/

theorem lines_line (a : Bytes) (h : 0x0a ∉ a) (rest : Bytes) : lines (a ++ 0x0a :: rest) = (a ++ [0x0a]) :: lines rest := by
  induction a with
  | nil =>
    show lines (0x0a :: rest) = _
    rw [lines, if_pos rfl]
    rfl
  | cons b a ih =>
    show lines (b :: (a ++ 0x0a :: rest)) = _
    rw [lines, if_neg (fun e : b = 0x0a => h (by rw [e]; exact List.mem_cons_self)), ih (fun hm => h (List.mem_cons_of_mem _ hm))]
    rfl

theorem lines_flatten (s : Bytes) : (lines s).flatten = s := by
  induction s with
  | nil => rfl
  | cons b s ih =>
    rw [lines]
    split
    · rw [List.flatten_cons, ih]; rfl
    · cases hl : lines s with
      | nil =>
        rw [hl] at ih
        have : s = [] := ih.symm
        rw [this]; rfl
      | cons l ls =>
        rw [hl] at ih
        show (b :: l) ++ ls.flatten = _
        rw [← ih]; rfl

theorem lines_many (ls : List Bytes) (h : ∀ l ∈ ls, 0x0a ∉ l) (rest : Bytes) : lines ((ls.flatMap fun l => l ++ [0x0a]) ++ rest) = ls.map (· ++ [0x0a]) ++ lines rest := by
  induction ls with
  | nil => rfl
  | cons l ls ih =>
    rw [List.flatMap_cons, List.append_assoc, List.append_assoc]
    show lines (l ++ 0x0a :: (_ ++ rest)) = _
    rw [lines_line l (h l List.mem_cons_self), ih fun l' hl => h l' (List.mem_cons_of_mem _ hl)]
    rfl

theorem splitLines_free (text : Bytes) : ∀ l ∈ splitLines text, 0x0a ∉ l := by
  unfold splitLines
  split
  · exact fun _ h => nomatch h
  · rename_i hne
    clear hne
    induction text with
    | nil =>
      intro l hl
      rw [List.mem_singleton.mp hl]
      exact fun h => nomatch h
    | cons b text ih =>
      rw [List.foldr_cons]
      generalize text.foldr _ [[]] = ls at ih
      cases ls with
      | nil => exact fun _ h => nomatch h
      | cons l ls =>
        dsimp only
        split
        · intro l' hl'
          rcases List.mem_cons.mp hl' with rfl | hl'
          · exact fun h => nomatch h
          · exact ih l' hl'
        · rename_i hb
          intro l' hl'
          rcases List.mem_cons.mp hl' with rfl | hl'
          · intro h
            rcases List.mem_cons.mp h with h | h
            · exact hb h.symm
            · exact ih l List.mem_cons_self h
          · exact ih l' (List.mem_cons_of_mem _ hl')

theorem splitLines_one (text : Bytes) (hne : text ≠ []) (h : 0x0a ∉ text) : splitLines text = [text] := by
  unfold splitLines
  rw [if_neg hne]
  clear hne
  induction text with
  | nil => rfl
  | cons b text ih =>
    rw [List.foldr_cons, ih fun hm => h (List.mem_cons_of_mem _ hm)]
    exact if_neg fun e : b = 0x0a => h (by rw [e]; exact List.mem_cons_self)

theorem headerLines_free (name value : Bytes) (hn : 0x0a ∉ name) : ∀ l ∈ headerLines name value, 0x0a ∉ l := by
  unfold headerLines
  have hs := splitLines_free value
  split
  · intro l hl
    rw [List.mem_singleton.mp hl]
    simp [hn]
  · rename_i first rest he
    rw [he] at hs
    intro l hl
    rcases List.mem_cons.mp hl with rfl | hl
    · have := hs first List.mem_cons_self
      simp [hn, this]
    · exact hs l (List.mem_cons_of_mem _ hl)

/-! ### Words -/

theorem white_iff (b : UInt8) : white b = true ↔ b ∈ whites := by
  have key : ∀ c : Fin 256, white (UInt8.ofFin c) = true ↔ UInt8.ofFin c ∈ whites := by decide +kernel
  exact key b.toFin

theorem white_false {b : UInt8} (h : b ∉ whites) : white b = false := by
  cases hw : white b with
  | false => rfl
  | true => exact absurd ((white_iff b).mp hw) h

theorem space_false {b : UInt8} (h : b ∉ whites) : space b = false := by
  have key : ∀ c : Fin 256, UInt8.ofFin c ∉ whites → space (UInt8.ofFin c) = false := by decide +kernel
  exact key b.toFin h

theorem dropWhile_head (p : UInt8 → Bool) (s : Bytes) (h : ∀ c, s.head? = some c → p c = false) : s.dropWhile p = s := by
  cases s with
  | nil => rfl
  | cons c s => rw [List.dropWhile_cons_of_neg (by rw [h c rfl]; exact fun h => nomatch h)]

theorem strip_line (s : Bytes) (hh : ∀ c, s.head? = some c → c ∉ whites) (hl : ∀ c, s.getLast? = some c → c ∉ whites) (hne : s ≠ []) : strip (0x20 :: s ++ [0x0a]) = s := by
  unfold strip lstrip
  have e1 : (0x20 :: s ++ [0x0a]).dropWhile white = s ++ [0x0a] := by
    rw [List.cons_append, List.dropWhile_cons_of_pos (show white 0x20 = true from rfl)]
    refine dropWhile_head white _ fun c hc => white_false (hh c ?_)
    cases s with
    | nil => exact absurd rfl hne
    | cons a s => exact hc
  rw [e1, List.reverse_append]
  show (List.dropWhile white (0x0a :: s.reverse)).reverse = s
  rw [List.dropWhile_cons_of_pos (show white 0x0a = true from rfl)]
  rw [dropWhile_head white _ fun c hc => white_false (hl c (by rw [List.head?_reverse] at hc; exact hc)), List.reverse_reverse]

theorem chomp_line (s : Bytes) (h : s.getLast? ≠ some 0x0d) : chomp (s ++ [0x0a]) = s := by
  unfold chomp
  rw [List.reverse_append]
  show (if (0x0a : UInt8) = 0x0a then (if s.reverse.head? = some 0x0d then (s.reverse.drop 1).reverse else s.reverse.reverse) else _) = _
  rw [if_pos rfl, List.head?_reverse, if_neg h, List.reverse_reverse]

theorem atColon_name (n a : Bytes) (h : 0x3a ∉ n) : atColon (n ++ 0x3a :: a) = (some n, some a) := by
  unfold atColon
  rw [if_neg (by simp), if_pos (by simp)]
  have e1 : (n ++ 0x3a :: a).takeWhile (· ≠ 0x3a) = n := by
    induction n with
    | nil => rfl
    | cons b n ih =>
      rw [List.cons_append, List.takeWhile_cons_of_pos (by simpa using fun e : b = 0x3a => h (e ▸ List.mem_cons_self)), ih fun hm => h (List.mem_cons_of_mem _ hm)]
  have e2 : (n ++ 0x3a :: a).dropWhile (· ≠ 0x3a) = 0x3a :: a := by
    clear e1
    induction n with
    | nil => rfl
    | cons b n ih =>
      rw [List.cons_append, List.dropWhile_cons_of_pos (by simpa using fun e : b = 0x3a => h (e ▸ List.mem_cons_self)), ih fun hm => h (List.mem_cons_of_mem _ hm)]
  rw [e1, e2]
  rfl

/-! ### The envelope -/

/-- a line of the envelope without its end -/
def itemLine (label : Bytes) (x : Mark × Bytes) : Bytes := markByte x.1 :: 0x20 :: (label ++ 0x3a :: x.2)

theorem item_eq (label : Bytes) (xs : List (Mark × Bytes)) : xs.flatMap (envelopeItem label) = (xs.map (itemLine label)).flatMap fun l => l ++ [0x0a] := by
  induction xs with
  | nil => rfl
  | cons x xs ih =>
    rw [List.flatMap_cons, List.map_cons, List.flatMap_cons, ih]
    unfold envelopeItem itemLine
    simp

theorem item_free (label : Bytes) (hl : 0x0a ∉ label) (xs : List (Mark × Bytes)) (h : ∀ x ∈ xs, 0x0a ∉ x.2) : ∀ l ∈ xs.map (itemLine label), 0x0a ∉ l := by
  intro l hm
  obtain ⟨x, hx, rfl⟩ := List.mem_map.mp hm
  have := h x hx
  unfold itemLine
  rcases x with ⟨m, a⟩
  cases m <;> simp [markByte, hl] <;> exact this

theorem mark_prefix (m : Mark) (l : Bytes) : (ascii "Envelope:").isPrefixOf (markByte m :: l) = false ∧ (ascii "Header:").isPrefixOf (markByte m :: l) = false ∧
    (ascii "Body:").isPrefixOf (markByte m :: l) = false := by
  cases m <;> exact ⟨rfl, rfl, rfl⟩

theorem loop_cons (r : Result) (mode : Mode) (line : Bytes) (rest : List Bytes) : loop r mode (line :: rest) =
    if (ascii "Envelope:").isPrefixOf line then loop r .envelope rest
    else if (ascii "Header:").isPrefixOf line then loop r .headers rest
    else if (ascii "Body:").isPrefixOf line then { r with body := rest.flatten }
    else match mode with
      | .none_ => loop r .none_ rest
      | .envelope => loop (envelopeLine r line) .envelope rest
      | .headers => loop (headerLine r line) .headers rest := by
  cases mode <;> rfl

/-- lines with a mark stay in their part -/
theorem loop_marked (mode : Mode) (ls : List Bytes) (h : ∀ l ∈ ls, ∃ m t, l = markByte m :: t) (rest : List Bytes) : ∀ r : Result,
    loop r mode (ls.map (· ++ [0x0a]) ++ rest) = loop (match mode with
      | .none_ => r
      | .envelope => (ls.map (· ++ [0x0a])).foldl envelopeLine r
      | .headers => (ls.map (· ++ [0x0a])).foldl headerLine r) mode rest := by
  induction ls with
  | nil => intro r; cases mode <;> rfl
  | cons l ls ih =>
    intro r
    obtain ⟨m, t, rfl⟩ := h l List.mem_cons_self
    obtain ⟨h1, h2, h3⟩ := mark_prefix m (t ++ [0x0a])
    have h' : ∀ l ∈ ls, ∃ m t, l = markByte m :: t := fun l hl => h l (List.mem_cons_of_mem _ hl)
    show loop r mode ((markByte m :: (t ++ [0x0a])) :: (ls.map (· ++ [0x0a]) ++ rest)) = _
    rw [loop_cons, h1, h2, h3, if_neg (show ¬ (false = true) from fun h => nomatch h), if_neg (show ¬ (false = true) from fun h => nomatch h),
      if_neg (show ¬ (false = true) from fun h => nomatch h)]
    cases mode <;> exact ih h' _

theorem envelopeLine_item (label : Bytes) (hne : label ≠ []) (hw : ∀ c, label.head? = some c → c ∉ whites) (hc : 0x3a ∉ label) (m : Mark) (a : Bytes) (ha : m ≠ .minus → Address a) (r : Result) :
    envelopeLine r (itemLine label (m, a) ++ [0x0a]) = if m = .minus then r else
      if label = ascii "MAIL FROM" then { r with sender := some a } else if label = ascii "RCPT TO" then { r with recipients := r.recipients ++ [some a] } else r := by
  unfold envelopeLine itemLine
  by_cases hm : m = .minus
  · rw [if_pos hm, hm]
    exact if_pos rfl
  · rw [if_neg hm]
    have h1 : ¬ ((markByte m :: 0x20 :: (label ++ 0x3a :: a) ++ [0x0a]).head? = some 0x2d) := by
      show ¬ (some (markByte m) = some 0x2d)
      cases m <;> first | exact absurd rfl hm | decide
    rw [if_neg h1]
    have h2 : strip ((markByte m :: 0x20 :: (label ++ 0x3a :: a) ++ [0x0a]).drop 1) = label ++ 0x3a :: a := by
      show strip (0x20 :: (label ++ 0x3a :: a) ++ [0x0a]) = _
      refine strip_line _ ?_ ?_ (by simp)
      · cases label with
        | nil => exact absurd rfl hne
        | cons b label => exact hw
      · intro c hc
        rw [List.getLast?_append, List.getLast?_cons] at hc
        cases hl : a.getLast? with
        | none =>
          rw [hl] at hc
          cases hc
          decide
        | some d =>
          rw [hl] at hc
          cases hc
          exact (ha hm).2 _ hl
    rw [h2, atColon_name _ _ hc]
    simp only [Option.some.injEq]

theorem from_lines (o n : Bytes) (hn : Address n) (r : Result) :
    (((diffFrom o n).map (itemLine (ascii "MAIL FROM"))).map (· ++ [0x0a])).foldl envelopeLine r = { r with sender := some n } := by
  have key := envelopeLine_item (ascii "MAIL FROM") (by decide) (by decide) (by decide)
  unfold diffFrom
  split
  · rename_i e
    subst e
    simp only [List.map_cons, List.map_nil, List.foldl_cons, List.foldl_nil]
    rw [key .same o (fun _ => hn), if_neg (by decide), if_pos rfl]
  · simp only [List.map_cons, List.map_nil, List.foldl_cons, List.foldl_nil]
    rw [key .minus o (fun h => absurd rfl h), if_pos rfl, key .plus n (fun _ => hn), if_neg (by decide), if_pos rfl]

theorem recipients_lines (xs : List (Mark × Bytes)) (h : ∀ x ∈ xs, x.1 ≠ .minus → Address x.2) : ∀ r : Result,
    ((xs.map (itemLine (ascii "RCPT TO"))).map (· ++ [0x0a])).foldl envelopeLine r = { r with recipients := r.recipients ++ (result xs).map some } := by
  have key := envelopeLine_item (ascii "RCPT TO") (by decide) (by decide) (by decide)
  induction xs with
  | nil => intro r; show r = { r with recipients := r.recipients ++ [] }; rw [List.append_nil]
  | cons x xs ih =>
    intro r
    rcases x with ⟨m, a⟩
    rw [List.map_cons, List.map_cons, List.foldl_cons, key m a (h (m, a) List.mem_cons_self), ih fun x hx => h x (List.mem_cons_of_mem _ hx)]
    rw [TestServer.result_cons]
    by_cases hm : m = .minus
    · rw [if_pos hm, if_pos hm]; rfl
    · rw [if_neg hm, if_neg hm, if_neg (by decide), if_pos rfl]
      simp

/-! ### The headers -/

/-- the lines of some headers, without their ends -/
def markedLines (xs : List (Mark × Header)) : List Bytes := xs.flatMap fun x => (headerLines x.2.name (x.2.value.getD [])).map fun l => markByte x.1 :: 0x20 :: l

theorem headers_eq (xs : List (Mark × Header)) (h : ∀ x ∈ xs, x.2.value.isSome = true) : headers xs = some ((markedLines xs).flatMap fun l => l ++ [0x0a]) := by
  induction xs with
  | nil => rfl
  | cons x xs ih =>
    rcases x with ⟨m, ⟨n, v⟩⟩
    cases v with
    | none => exact absurd (h _ List.mem_cons_self) (fun h => nomatch h)
    | some v =>
      show ((header (m, ⟨n, some v⟩)).bind _) = _
      rw [ih fun y hy => h y (List.mem_cons_of_mem _ hy)]
      unfold header markedLines
      rw [List.flatMap_cons, List.flatMap_append]
      show some (_ ++ _) = some (_ ++ _)
      rw [List.flatMap_map]
      rfl

theorem marked_mark (xs : List (Mark × Header)) : ∀ l ∈ markedLines xs, ∃ m t, l = markByte m :: t := by
  intro l hl
  obtain ⟨x, _, hl⟩ := List.mem_flatMap.mp hl
  obtain ⟨t, _, rfl⟩ := List.mem_map.mp hl
  exact ⟨_, _, rfl⟩

theorem marked_free (xs : List (Mark × Header)) (h : ∀ x ∈ xs, 0x0a ∉ x.2.name) : ∀ l ∈ markedLines xs, 0x0a ∉ l := by
  intro l hl
  obtain ⟨x, hx, hl⟩ := List.mem_flatMap.mp hl
  obtain ⟨t, ht, rfl⟩ := List.mem_map.mp hl
  have := headerLines_free _ _ (h x hx) t ht
  rcases x with ⟨m, y⟩
  cases m <;> simpa [markByte] using this

theorem headers_keep (ls : List Bytes) : ∀ r : Result, (ls.foldl headerLine r) = { r with headers := (ls.foldl headerLine r).headers } := by
  induction ls with
  | nil => exact fun _ => rfl
  | cons l ls ih =>
    intro r
    rw [List.foldl_cons, ih (headerLine r l)]
    rfl

theorem headerLine_plain (n v : Bytes) (hn : Name n) (hv : Spec.Testing.Value v) (r : Result) :
    ((((headerLines n v).map fun l => markByte .same :: 0x20 :: l).map (· ++ [0x0a])).foldl headerLine r).headers = r.headers ++ [(some n, some v)] := by
  have hstart : ∀ t : Bytes, lstrip (0x20 :: 0x20 :: (n ++ 0x3a :: t)) = n ++ 0x3a :: t := by
    intro t
    unfold lstrip
    rw [List.dropWhile_cons_of_pos (show white 0x20 = true from rfl), List.dropWhile_cons_of_pos (show white 0x20 = true from rfl)]
    refine dropWhile_head white _ fun c hc => white_false ?_
    cases n with
    | nil => cases hc; decide
    | cons b n => exact hn.2.2 c hc
  unfold headerLines
  by_cases he : v = []
  · subst he
    show (headerLine r (0x20 :: 0x20 :: (n ++ [0x3a]) ++ [0x0a])).headers = _
    unfold headerLine
    rw [chomp_line _ (by
      show (0x20 :: 0x20 :: (n ++ [0x3a])).getLast? ≠ some 0x0d
      rw [show (0x20 :: 0x20 :: (n ++ [0x3a]) : Bytes) = (0x20 :: 0x20 :: n) ++ [0x3a] from rfl, List.getLast?_concat]
      decide), hstart, atColon_name _ _ hn.2.1]
    rfl
  · rw [splitLines_one v he hv.1.1]
    show (headerLine r (0x20 :: 0x20 :: (n ++ [0x3a, 0x20] ++ v) ++ [0x0a])).headers = _
    have e : (0x20 :: 0x20 :: (n ++ [0x3a, 0x20] ++ v) : Bytes) = 0x20 :: 0x20 :: (n ++ 0x3a :: (0x20 :: v)) := by simp
    rw [e]
    unfold headerLine
    have hlast : (0x20 :: 0x20 :: (n ++ 0x3a :: (0x20 :: v)) : Bytes).getLast? ≠ some 0x0d := by
      rw [show (0x20 :: 0x20 :: (n ++ 0x3a :: (0x20 :: v)) : Bytes) = (0x20 :: 0x20 :: n ++ [0x3a, 0x20]) ++ v by simp, List.getLast?_append]
      cases hl : v.getLast? with
      | none => exact absurd (List.getLast?_eq_none_iff.mp hl) he
      | some c =>
        have := hv.1.2
        rw [hl] at this
        exact this
    rw [chomp_line _ hlast, hstart, atColon_name _ _ hn.2.1]
    show r.headers ++ [(some n, some ((0x20 :: v).dropWhile space))] = _
    rw [List.dropWhile_cons_of_pos (show space 0x20 = true from rfl), dropWhile_head space v fun c hc => space_false (hv.2 c hc)]

theorem headers_plain (hs : List Header) (h : ∀ x ∈ hs, Name x.name ∧ ∃ v, x.value = some v ∧ Spec.Testing.Value v) : ∀ r : Result,
    (((markedLines (hs.map fun x => (.same, x))).map (· ++ [0x0a])).foldl headerLine r).headers = r.headers ++ hs.map fun x => (some x.name, x.value) := by
  induction hs with
  | nil => intro r; exact (List.append_nil _).symm
  | cons x hs ih =>
    intro r
    obtain ⟨hn, v, hv, hv'⟩ := h x List.mem_cons_self
    unfold markedLines
    rw [List.map_cons, List.flatMap_cons, List.map_append, List.foldl_append]
    have e := ih (fun y hy => h y (List.mem_cons_of_mem _ hy)) ((((headerLines x.name (x.value.getD [])).map fun l => markByte .same :: 0x20 :: l).map (· ++ [0x0a])).foldl headerLine r)
    refine Eq.trans e ?_
    rw [hv]
    dsimp only [Option.getD_some]
    rw [headerLine_plain x.name v hn hv' r, List.map_cons, hv, List.append_assoc]
    rfl

theorem diff_same (hs : List Header) : diffHeaders hs hs = hs.map fun x => (.same, x) := by
  induction hs with
  | nil => unfold diffHeaders; rfl
  | cons x hs ih => rw [diffHeaders, if_pos rfl, ih]; rfl

/-! ## C153: the class that runs the tool -/

theorem time_read (elapsed : Bytes) (hne : elapsed ≠ []) (h : ∀ c ∈ elapsed, c ∉ whites) (rest : Bytes) : firstWord (elapsed ++ 0x20 :: rest) = some elapsed := by
  unfold firstWord
  have e1 : (elapsed ++ 0x20 :: rest).dropWhile white = elapsed ++ 0x20 :: rest := by
    refine dropWhile_head white _ fun c hc => white_false (h c ?_)
    cases elapsed with
    | nil => exact absurd rfl hne
    | cons b l => cases hc; exact List.mem_cons_self
  have e2 : (elapsed ++ 0x20 :: rest).takeWhile (fun b => !white b) = elapsed := by
    clear e1 hne
    induction elapsed with
    | nil => rfl
    | cons b l ih =>
      rw [List.cons_append, List.takeWhile_cons_of_pos (by rw [white_false (h b List.mem_cons_self)]; rfl), ih fun c hc => h c (List.mem_cons_of_mem _ hc)]
  rw [e1, e2]
  cases elapsed with
  | nil => exact absurd rfl hne
  | cons b l => rfl

theorem mem_diff {α : Type} (xs : List (Mark × α)) (os rs : List α) (ho : original xs = os) (hr : result xs = rs) : ∀ x ∈ xs, (x.1 ≠ .plus → x.2 ∈ os) ∧ (x.1 ≠ .minus → x.2 ∈ rs) := by
  intro x hx
  refine ⟨?_, ?_⟩
  · intro h
    rw [← ho]
    exact List.mem_map.mpr ⟨x, List.mem_filter.mpr ⟨hx, by simpa using h⟩, rfl⟩
  · intro h
    rw [← hr]
    exact List.mem_map.mpr ⟨x, List.mem_filter.mpr ⟨hx, by simpa using h⟩, rfl⟩

theorem mem_either {α : Type} (xs : List (Mark × α)) (os rs : List α) (ho : original xs = os) (hr : result xs = rs) : ∀ x ∈ xs, x.2 ∈ os ∨ x.2 ∈ rs := by
  intro x hx
  have h := mem_diff xs os rs ho hr x hx
  by_cases hm : x.1 = .minus
  · exact .inl (h.1 (by rw [hm]; decide))
  · exact .inr (h.2 hm)

/-- the message as it is printed -/
def messageText (e : Ended) (hs : Bytes) : Bytes :=
  ascii "Envelope:------------------------------" ++ 0x0a :: ((diffFrom e.sender.1 e.sender.2).flatMap (envelopeItem (ascii "MAIL FROM")) ++
    ((diffRecipients e.recipients.1 e.recipients.2).flatMap (envelopeItem (ascii "RCPT TO")) ++
    (ascii "Header:--------------------------------" ++ 0x0a :: (hs ++ (ascii "Body:----------------------------------" ++ 0x0a :: ((shownBody e.body.1 e.body.2).takeWhile (· ≠ 0) ++ [0x0a]))))))

theorem message_read (e : Ended) (hse : 0x0a ∉ e.sender.1 ∧ Address e.sender.2) (hrc : (∀ a ∈ e.recipients.1, 0x0a ∉ a) ∧ ∀ a ∈ e.recipients.2, Address a)
    (hh : ∀ x, x ∈ e.headers.1 ∨ x ∈ e.headers.2 → 0x0a ∉ x.name ∧ x.value.isSome = true) (hb : 0 ∉ shownBody e.body.1 e.body.2) (r : Result) :
    loop r .none_ (lines (messageText e ((markedLines (diffHeaders e.headers.1 e.headers.2)).flatMap fun l => l ++ [0x0a]))) =
      { r with sender := some e.sender.2, recipients := r.recipients ++ e.recipients.2.map some, body := shownBody e.body.1 e.body.2 ++ [0x0a]
               headers := (((markedLines (diffHeaders e.headers.1 e.headers.2)).map (· ++ [0x0a])).foldl headerLine r).headers } := by
  have hc := TestServer.C118_printed
  have d1 := mem_diff _ _ _ (hc.2.1 e.recipients.1 e.recipients.2).1 (hc.2.1 e.recipients.1 e.recipients.2).2
  have d1' := mem_either _ _ _ (hc.2.1 e.recipients.1 e.recipients.2).1 (hc.2.1 e.recipients.1 e.recipients.2).2
  have d2 := mem_either _ _ _ (hc.2.2 e.sender.1 e.sender.2).1 (hc.2.2 e.sender.1 e.sender.2).2
  have d3 := mem_either _ _ _ (hc.1 e.headers.1 e.headers.2).1 (hc.1 e.headers.1 e.headers.2).2
  have hbody : (shownBody e.body.1 e.body.2).takeWhile (· ≠ 0) = shownBody e.body.1 e.body.2 := by
    generalize shownBody e.body.1 e.body.2 = b at hb
    induction b with
    | nil => rfl
    | cons x b ih => rw [List.takeWhile_cons_of_pos (by simpa using fun e : x = 0 => hb (by rw [e]; exact List.mem_cons_self)), ih fun h => hb (List.mem_cons_of_mem _ h)]
  unfold messageText
  rw [lines_line _ (by decide +kernel), item_eq, item_eq, lines_many _ (item_free _ (by decide +kernel) _ fun x hx => by
    rcases d2 x hx with h | h
    · rw [List.mem_singleton.mp h]; exact hse.1
    · rw [List.mem_singleton.mp h]; exact hse.2.1), lines_many _ (item_free _ (by decide +kernel) _ fun x hx => by
    rcases d1' x hx with h | h
    · exact hrc.1 _ h
    · exact (hrc.2 _ h).1), lines_line _ (by decide +kernel), lines_many _ (marked_free _ fun x hx => (hh _ (d3 x hx)).1), lines_line _ (by decide +kernel)]
  have hitem : ∀ (label : Bytes) (xs : List (Mark × Bytes)), ∀ l ∈ xs.map (itemLine label), ∃ m t, l = markByte m :: t := by
    intro label xs l hl
    obtain ⟨x, _, rfl⟩ := List.mem_map.mp hl
    exact ⟨_, _, rfl⟩
  rw [loop_cons, if_pos (by decide +kernel), loop_marked .envelope _ (hitem _ _)]
  dsimp only
  rw [from_lines _ _ hse.2, loop_marked .envelope _ (hitem _ _)]
  dsimp only
  rw [recipients_lines _ (fun x hx hm => hrc.2 _ ((d1 x hx).2 hm)), (hc.2.1 e.recipients.1 e.recipients.2).2]
  rw [loop_cons, if_neg (by decide +kernel), if_pos (by decide +kernel), loop_marked .headers _ (marked_mark _)]
  dsimp only
  rw [loop_cons, if_neg (by decide +kernel), if_neg (by decide +kernel), if_pos (by decide +kernel), lines_flatten, headers_keep, hbody]
  have hsame : ∀ (ls : List Bytes) (a b : Result), a.headers = b.headers → (ls.foldl headerLine a).headers = (ls.foldl headerLine b).headers := by
    intro ls
    induction ls with
    | nil => exact fun _ _ h => h
    | cons l ls ih =>
      intro a b h
      refine ih _ _ ?_
      show a.headers ++ _ = b.headers ++ _
      rw [h]
  dsimp only
  rw [hsame _ { r with sender := some e.sender.2, recipients := r.recipients ++ e.recipients.2.map some } r rfl]

/-- **C153**: `Milter::TestServer#run` returns what milter-test-server ends with: the status, with the reply if there is one; the time; the sender and the recipients the message ends up with, whatever they were before; the body
with a line feed more; and if no header was changed and none has more than a line, all headers, in their order.
Missing: headers that were added, changed or deleted (`C153_headers_violated`) or have several lines (`C153_lines_violated`), replies of several lines (`C153_reply_violated`), errors (`C153_error_violated`), the line feed. -/
theorem C153_partial (e : Ended) (hst : OneLine e.status) (hre : ∀ code ext message, e.reply = some (code, ext, message) → 0x0a ∉ code ∧ 0x0a ∉ ext ∧ 0x0a ∉ message)
    (hel : e.elapsed ≠ [] ∧ ∀ c ∈ e.elapsed, c ∉ whites) (hqu : ∀ reason, e.quarantine = some reason → 0x0a ∉ reason)
    (hse : 0x0a ∉ e.sender.1 ∧ Address e.sender.2) (hrc : (∀ a ∈ e.recipients.1, 0x0a ∉ a) ∧ ∀ a ∈ e.recipients.2, Address a)
    (hh : ∀ x, x ∈ e.headers.1 ∨ x ∈ e.headers.2 → 0x0a ∉ x.name ∧ x.value.isSome = true) (hb : 0 ∉ shownBody e.body.1 e.body.2) :
    ∃ output r, printed e = some output ∧ parse output = some r ∧
      r.status = some (e.status ++ match e.reply with
        | some (code, ext, message) => ascii " [" ++ code ++ ascii "]<" ++ ext ++ ascii ">(" ++ message ++ ascii ")"
        | none => []) ∧
      r.elapsed = some e.elapsed ∧ r.sender = some e.sender.2 ∧ r.recipients = e.recipients.2.map some ∧ r.body = shownBody e.body.1 e.body.2 ++ [0x0a] ∧
      (e.headers.1 = e.headers.2 → (∀ x ∈ e.headers.2, Name x.name ∧ ∃ v, x.value = some v ∧ Spec.Testing.Value v) → r.headers = e.headers.2.map fun x => (some x.name, x.value)) := by
  have d3 := mem_either _ _ _ (TestServer.C118_printed.1 e.headers.1 e.headers.2).1 (TestServer.C118_printed.1 e.headers.1 e.headers.2).2
  have hprint : headers (diffHeaders e.headers.1 e.headers.2) = some ((markedLines (diffHeaders e.headers.1 e.headers.2)).flatMap fun l => l ++ [0x0a]) :=
    headers_eq _ fun x hx => (hh _ (d3 x hx)).2
  have hline : 0x0a ∉ ascii "status: " ++ statusText e ∧ (ascii "status: " ++ statusText e).getLast? ≠ some 0x0d := by
    unfold statusText
    cases hr : e.reply with
    | none =>
      dsimp only
      rw [List.append_nil]
      refine ⟨fun h => ?_, fun h => ?_⟩
      · rcases List.mem_append.mp h with h | h
        · exact absurd h (by decide +kernel)
        · exact hst.1 h
      · rw [List.getLast?_append] at h
        cases hl : e.status.getLast? with
        | none => rw [hl] at h; exact absurd h (by decide +kernel)
        | some c => rw [hl] at h; exact hst.2 (hl.trans h)
    | some t =>
      rcases t with ⟨code, ext, message⟩
      obtain ⟨h1, h2, h3⟩ := hre code ext message hr
      dsimp only
      refine ⟨?_, ?_⟩
      · simp only [List.mem_append, not_or]
        exact ⟨by decide +kernel, hst.1, ⟨⟨⟨⟨⟨by decide +kernel, h1⟩, by decide +kernel⟩, h2⟩, by decide +kernel⟩, h3⟩, by decide +kernel⟩
      · rw [List.getLast?_append, List.getLast?_append, List.getLast?_append]
        have e : (ascii ")").getLast? = some 0x29 := by decide +kernel
        rw [e]
        exact fun h => nomatch h
  have htime : 0x0a ∉ ascii "elapsed-time: " ++ e.elapsed ++ ascii " seconds" := by
    intro h
    rcases List.mem_append.mp h with h | h
    · rcases List.mem_append.mp h with h | h
      · exact absurd h (by decide +kernel)
      · exact hel.2 _ h (by decide)
    · exact absurd h (by decide +kernel)
  let T := messageText e ((markedLines (diffHeaders e.headers.1 e.headers.2)).flatMap fun l => l ++ [0x0a])
  have hstatus : ∀ t : Bytes, afterColon (ascii "status: " ++ t) = some t := fun t => rfl
  have hsecond : (afterColon (ascii "elapsed-time: " ++ e.elapsed ++ ascii " seconds" ++ [0x0a])) = some (e.elapsed ++ 0x20 :: (ascii "seconds" ++ [0x0a])) := by
    rw [List.append_assoc, List.append_assoc]
    rfl
  have hread := message_read e hse hrc hh hb { status := some (statusText e), elapsed := some e.elapsed }
  -- what both cases come to
  have hparse : ∀ rest : List Bytes, parse ((ascii "status: " ++ statusText e) ++ 0x0a :: ((ascii "elapsed-time: " ++ e.elapsed ++ ascii " seconds") ++ 0x0a :: rest.flatten)) =
      some (loop { status := some (statusText e), elapsed := some e.elapsed } .none_ ((lines rest.flatten).drop 1)) := by
    intro rest
    unfold parse
    rw [lines_line _ hline.1, lines_line _ htime]
    dsimp only
    rw [hsecond, chomp_line _ hline.2, hstatus]
    show some (loop { status := some (statusText e), elapsed := firstWord (e.elapsed ++ 0x20 :: (ascii "seconds" ++ [0x0a])) } .none_ _) = _
    rw [time_read _ hel.1 hel.2]
  have hblank : ∀ r : Result, loop r .none_ ([0x0a] :: lines T) = loop r .none_ (lines T) := by
    intro r
    rw [loop_cons, if_neg (by decide +kernel), if_neg (by decide +kernel), if_neg (by decide +kernel)]
  have hout : ∃ output, printed e = some output ∧ parse output = some (loop { status := some (statusText e), elapsed := some e.elapsed } .none_ (lines T)) := by
    unfold printed
    rw [hprint]
    refine ⟨_, rfl, ?_⟩
    cases hq : e.quarantine with
    | none =>
      have := hparse [[0x0a], T]
      have e2 : (lines [[0x0a], T].flatten).drop 1 = lines T := by
        show (lines ([] ++ 0x0a :: (T ++ []))).drop 1 = _
        rw [lines_line [] (fun h => nomatch h), List.append_nil]
        rfl
      rw [e2] at this
      rw [← this]
      congr 1
      simp [T, messageText]
    | some reason =>
      have := hparse [ascii "Quarantine reason: <" ++ reason ++ ascii ">" ++ [0x0a], [0x0a], T]
      have e2 : (lines [ascii "Quarantine reason: <" ++ reason ++ ascii ">" ++ [0x0a], [0x0a], T].flatten).drop 1 = [0x0a] :: lines T := by
        have e3 : [ascii "Quarantine reason: <" ++ reason ++ ascii ">" ++ [0x0a], [0x0a], T].flatten =
          (ascii "Quarantine reason: <" ++ reason ++ ascii ">") ++ 0x0a :: ([] ++ 0x0a :: T) := by simp
        rw [e3, lines_line _ (by
          intro h
          rcases List.mem_append.mp h with h | h
          · rcases List.mem_append.mp h with h | h
            · exact absurd h (by decide +kernel)
            · exact hqu reason hq h
          · exact absurd h (by decide +kernel)), lines_line [] (fun h => nomatch h)]
        rfl
      rw [e2, hblank] at this
      rw [← this]
      congr 1
      simp [T, messageText]
  obtain ⟨output, ho, hp⟩ := hout
  refine ⟨output, _, ho, hp, ?_⟩
  rw [hread]
  refine ⟨rfl, rfl, rfl, rfl, rfl, ?_⟩
  intro hsame hplain
  show (((markedLines (diffHeaders e.headers.1 e.headers.2)).map (· ++ [0x0a])).foldl headerLine _).headers = _
  rw [hsame, diff_same, headers_plain _ hplain]
  rfl

/-- a message with a new sender and one recipient more -/
def ended : Ended where
  status := ascii "pass"
  elapsed := ascii "0.01"
  quarantine := some (ascii "odd")
  sender := (ascii "<a@b>", ascii "<c@d>")
  recipients := ([ascii "<e@f>"], [ascii "<e@f>", ascii "<g@h>"])
  headers := ([⟨ascii "Subject", some (ascii "x: y")⟩], [⟨ascii "Subject", some (ascii "x: y")⟩])
  body := (ascii "one\ntwo\n", [])

/-- the hypotheses of C153, and what is returned -/
example : OneLine ended.status ∧ (ended.elapsed ≠ [] ∧ ∀ c ∈ ended.elapsed, c ∉ whites) ∧ Address ended.sender.2 ∧ (∀ a ∈ ended.recipients.2, Address a) ∧
    (∀ x ∈ ended.headers.2, Name x.name ∧ ∃ v, x.value = some v ∧ Spec.Testing.Value v) ∧
    (printed ended).bind parse = some { status := some (ascii "pass"), elapsed := some (ascii "0.01"), sender := some (ascii "<c@d>"), recipients := [some (ascii "<e@f>"), some (ascii "<g@h>")]
                                        headers := [(some (ascii "Subject"), some (ascii "x: y"))], body := ascii "one\ntwo\n\n" } := by
  have ha : ∀ a : Bytes, 0x0a ∉ a → (∃ b, a = b ++ [0x3e]) → Address a := by
    rintro _ h1 ⟨b, rfl⟩
    refine ⟨h1, fun c hc => ?_⟩
    rw [List.getLast?_concat] at hc
    cases hc
    decide
  refine ⟨by unfold OneLine; decide +kernel, by decide +kernel, ha _ (by decide +kernel) ⟨ascii "<c@d", by decide +kernel⟩, ?_, ?_, by decide +kernel⟩
  · intro a h
    rcases List.mem_cons.mp h with rfl | h
    · exact ha _ (by decide +kernel) ⟨ascii "<e@f", by decide +kernel⟩
    · rw [List.mem_singleton.mp h]
      exact ha _ (by decide +kernel) ⟨ascii "<g@h", by decide +kernel⟩
  · intro x h
    rw [List.mem_singleton.mp h]
    refine ⟨⟨by decide +kernel, by decide +kernel, ?_⟩, _, rfl, ⟨by decide +kernel, by decide +kernel⟩, ?_⟩
    · intro c hc
      have hc : some (0x53 : UInt8) = some c := hc
      cases hc
      decide
    · intro c hc
      have hc : some (0x78 : UInt8) = some c := hc
      cases hc
      decide

/-- **C153 is violated**: the marks of headers are not looked at, so a header that was deleted is still there, and one that was added has a name it never had. -/
theorem C153_headers_violated :
    ((printed { ended with headers := ([⟨ascii "A", some (ascii "1")⟩], [⟨ascii "B", some (ascii "2")⟩]) }).bind parse).map (·.headers) =
      some [(some (ascii "+ B"), some (ascii "2")), (some (ascii "- A"), some (ascii "1"))] := by
  decide +kernel

/-- **C153 is violated**: each further line of a value is a header of its own. -/
theorem C153_lines_violated :
    ((printed { ended with headers := ([⟨ascii "A", some (ascii "1\n 2: 3")⟩], [⟨ascii "A", some (ascii "1\n 2: 3")⟩]) }).bind parse).map (·.headers) =
      some [(some (ascii "A"), some (ascii "1")), (some (ascii "2"), some (ascii "3"))] := by
  decide +kernel

/-- **C153 is violated**: a reply of several lines raises, -/
theorem C153_reply_violated :
    (printed { ended with status := ascii "reject", reply := some (ascii "550", ascii "5.7.1", ascii "no\nreally") }).isSome = true ∧
    ((printed { ended with status := ascii "reject", reply := some (ascii "550", ascii "5.7.1", ascii "no\nreally") }).bind parse) = none := by
  decide +kernel

/-- and so does an error, which is one line (milter-test-server.c:2293-2296), whatever it is. -/
theorem C153_error_violated (message : Bytes) (h : 0x0a ∉ message) : parse (message ++ [0x0a]) = none := by
  unfold parse
  rw [lines_line message h []]
  rfl

/-- **C153 is violated**: of a body with a NUL only what comes before is there. -/
theorem C153_body_violated : ((printed { ended with body := ([0x61, 0x00, 0x62], []) }).bind parse).map (·.body) = some [0x61, 0x0a] := by
  decide +kernel

end Verif.Props.Testing
