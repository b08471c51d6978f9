import Verif.Model.Encoded
import Verif.Props.Import
/-!
# C97: encodings of text files and positions in them
-/

namespace Tablite

/-! ## positions -/

theorem readLine8_rest : ∀ (bytes cur : List Char), ∃ pre, bytes = pre ++ (readLine8 cur bytes).2 ∧ (bytes ≠ [] → pre ≠ []) := by
  intro bytes
  induction bytes with
  | nil => intro cur; exact ⟨[], rfl, fun h => absurd rfl h⟩
  | cons c rest ih =>
    intro cur
    rw [readLine8]
    split
    · exact ⟨[c], rfl, by simp⟩
    · obtain ⟨pre, h1, -⟩ := ih (cur ++ [c])
      exact ⟨c :: pre, by rw [List.cons_append, ← h1], by simp⟩

theorem readUnits_rest (be : Bool) : ∀ (n : Nat) (bytes : List Char) (cur : List Nat) (r : Option (List Nat) × List Char), bytes.length ≤ n → readUnits be cur bytes = .ok r →
    ∃ pre, bytes = pre ++ r.2 ∧ (bytes ≠ [] → pre ≠ []) := by
  intro n
  induction n with
  | zero =>
    intro bytes cur r hn h
    have : bytes = [] := List.length_eq_zero_iff.1 (by omega)
    subst this
    rw [readUnits, Except.ok.injEq] at h
    exact ⟨[], by rw [← h]; rfl, fun h => absurd rfl h⟩
  | succ n ih =>
    intro bytes cur r hn h
    match bytes, hn, h with
    | [], _, h =>
      rw [readUnits, Except.ok.injEq] at h
      exact ⟨[], by rw [← h]; rfl, fun h => absurd rfl h⟩
    | [_], _, h => exact absurd h (by rw [readUnits]; simp)
    | a :: b :: rest, hn, h =>
      rw [readUnits] at h
      split at h
      · rw [Except.ok.injEq] at h
        exact ⟨[a, b], by rw [← h]; rfl, by simp⟩
      · obtain ⟨pre, h1, -⟩ := ih rest _ r (by simp only [List.length_cons] at hn; omega) h
        exact ⟨a :: b :: pre, by rw [List.cons_append, List.cons_append, ← h1], by simp⟩

theorem encReadLine_rest (k : EncFile) (bytes : List Char) (hb : bytes ≠ []) (r : Option (List Char) × List Char) (h : encReadLine k bytes = .ok r) :
    ∃ pre, pre ≠ [] ∧ bytes = pre ++ r.2 := by
  cases k with
  | utf8 =>
    obtain ⟨pre, h1, h2⟩ := readLine8_rest bytes []
    rw [encReadLine, Except.ok.injEq] at h
    exact ⟨pre, h2 hb, by rw [← h]; exact h1⟩
  | conv f =>
    obtain ⟨pre, h1, h2⟩ := readLine8_rest bytes []
    rw [encReadLine, Except.ok.injEq] at h
    exact ⟨pre, h2 hb, by rw [← h]; exact h1⟩
  | utf16 be =>
    rw [encReadLine] at h
    obtain ⟨x, hx, h2⟩ := bind_ok h
    rw [Except.ok.injEq] at h2
    obtain ⟨pre, h3, h4⟩ := readUnits_rest be _ bytes [] x (Nat.le_refl _) hx
    exact ⟨pre, h4 hb, by rw [← h2]; exact h3⟩

/-- the bound on the number of lines does not matter -/
theorem linesFrom_enough (k : EncFile) : ∀ (n m : Nat) (bytes : List Char), bytes.length ≤ n → bytes.length ≤ m → linesFrom k n bytes = linesFrom k m bytes := by
  intro n
  induction n with
  | zero =>
    intro m bytes hn _
    have : bytes = [] := List.length_eq_zero_iff.1 (by omega)
    subst this
    cases m <;> rfl
  | succ n ih =>
    intro m bytes hn hm
    cases bytes with
    | nil => cases m <;> rfl
    | cons b bs =>
      cases m with
      | zero => simp at hm
      | succ m =>
        rw [linesFrom, linesFrom]
        cases hr : encReadLine k (b :: bs) with
        | error e => rfl
        | ok r =>
          obtain ⟨pre, hp, he⟩ := encReadLine_rest k _ (by simp) r hr
          have hlen : r.2.length < (b :: bs).length := by
            rw [he, List.length_append]
            have := List.length_pos_iff.2 hp
            omega
          dsimp only [bind, Except.bind]
          cases r.1 with
          | none => rfl
          | some l =>
            dsimp only
            rw [ih m r.2 (by omega) (by omega)]

/-- after each line the rest of the file is read as the remaining lines -/
theorem linesFrom_rest (k : EncFile) : ∀ (n : Nat) (bytes : List Char) (ls : List (List Char × List Char)), bytes.length ≤ n → linesFrom k n bytes = .ok ls →
    ∀ (i : Nat) (l : List Char × List Char), ls[i]? = some l → (∃ pre, bytes = pre ++ l.2) ∧ linesFrom k l.2.length l.2 = .ok (ls.drop (i + 1)) := by
  intro n
  induction n with
  | zero =>
    intro bytes ls _ h i l hl
    rw [linesFrom, Except.ok.injEq] at h
    rw [← h] at hl
    simp at hl
  | succ n ih =>
    intro bytes ls hn h i l hl
    cases bytes with
    | nil =>
      rw [linesFrom, Except.ok.injEq] at h
      rw [← h] at hl
      simp at hl
    | cons b bs =>
      rw [linesFrom] at h
      obtain ⟨r, hr, h⟩ := bind_ok h
      obtain ⟨pre, hp, he⟩ := encReadLine_rest k _ (by simp) r hr
      have hlen : r.2.length < (b :: bs).length := by
        rw [he, List.length_append]
        have := List.length_pos_iff.2 hp
        omega
      cases ho : r.1 with
      | none => rw [ho] at h; exact absurd h (by simp)
      | some line =>
        rw [ho] at h
        obtain ⟨more, hmore, h⟩ := bind_ok h
        rw [Except.ok.injEq] at h
        subst h
        cases i with
        | zero =>
          rw [List.getElem?_cons_zero, Option.some.injEq] at hl
          subst hl
          refine ⟨⟨pre, he⟩, ?_⟩
          rw [List.drop_succ_cons, List.drop_zero, ← hmore]
          exact linesFrom_enough k r.2.length n r.2 (Nat.le_refl _) (by omega)
        | succ i =>
          rw [List.getElem?_cons_succ] at hl
          obtain ⟨⟨pre', h1⟩, h2⟩ := ih r.2 more (by omega) hmore i l hl
          refine ⟨⟨pre ++ pre', ?_⟩, ?_⟩
          · rw [he, h1]
            simp
          · rw [h2, List.drop_succ_cons]

/-- spec: the position in the file before the `i`-th line -/
def linePos (file : List Char) (pos : Nat) (ls : List (List Char × List Char)) (i : Nat) : Nat :=
  match i with
  | 0 => pos
  | i + 1 => ((ls[i]?).map fun l => file.length - l.2.length).getD 0

/-- reading from the position before a line gives this line and all that follow -/
theorem fileLines_at (k : EncFile) (file : List Char) (pos : Nat) (ls : List (List Char × List Char)) (h : fileLines k file pos = .ok ls) (i : Nat) (hi : i ≤ ls.length) :
    fileLines k file (linePos file pos ls i) = .ok (ls.drop i) := by
  cases i with
  | zero => rw [List.drop_zero]; exact h
  | succ i =>
    have hl := List.getElem?_eq_getElem (l := ls) (i := i) (by omega)
    obtain ⟨⟨pre, h1⟩, h2⟩ := linesFrom_rest k _ (file.drop pos) ls (Nat.le_refl _) h i _ hl
    have hd : file.drop (file.length - ls[i].2.length) = ls[i].2 := by
      have he : file = (file.take pos ++ pre) ++ ls[i].2 := by rw [List.append_assoc, ← h1, List.take_append_drop]
      generalize ls[i].2 = x at he
      rw [he, List.length_append, Nat.add_sub_cancel, List.drop_left]
    rw [linePos, hl, Option.map_some, Option.getD_some, fileLines, hd, h2]

theorem recordBytes_eq (d : Dialect) (file : List Char) (pos : Nat) (ls : List (List Char × List Char)) : ∀ (rest : List (List Char × List Char)) (n : Nat) (s : CsvSt), ls.drop n = rest →
    recordBytes d file.length s rest = (recordOffsets d s n (rest.map (·.1))).map (List.map (linePos file pos ls)) := by
  intro rest
  induction rest with
  | nil => intro n s _; rfl
  | cons l rest ih =>
    intro n s hn
    have hl : ls[n]? = some l := by
      have : (ls.drop n)[0]? = some l := by rw [hn]; rfl
      rwa [List.getElem?_drop] at this
    have hr : ls.drop (n + 1) = rest := by rw [← List.drop_drop, hn]; rfl
    rw [recordBytes, List.map_cons, recordOffsets]
    cases feedLine d s l.1 with
    | error e => rfl
    | ok s' =>
      dsimp only [bind, Except.bind]
      split
      · rw [ih (n + 1) _ hr]
        cases recordOffsets d { s' with fields := [] } (n + 1) (rest.map (·.1)) with
        | error e => rfl
        | ok more =>
          simp only [Except.map, List.map_cons, linePos, hl, Option.map_some, Option.getD_some]
      · exact ih (n + 1) _ hr

theorem recordOffsets_bound (d : Dialect) : ∀ (lines : List (List Char)) (n : Nat) (s : CsvSt) (offs : List Nat), recordOffsets d s n lines = .ok offs → ∀ x ∈ offs, x ≤ n + lines.length := by
  intro lines
  induction lines with
  | nil =>
    intro n s offs h x hx
    rw [recordOffsets, Except.ok.injEq] at h
    rw [← h] at hx
    simp at hx
  | cons line rest ih =>
    intro n s offs h x hx
    rw [recordOffsets] at h
    obtain ⟨s', _, h⟩ := bind_ok h
    split at h
    · obtain ⟨more, hm, h⟩ := bind_ok h
      rw [Except.ok.injEq] at h
      rw [← h, List.mem_cons] at hx
      rcases hx with rfl | hx
      · rw [List.length_cons]; omega
      · have := ih _ _ _ hm x hx
        rw [List.length_cons]; omega
    · have := ih _ _ _ h x hx
      rw [List.length_cons]; omega

theorem findNewlines_bound (d : Dialect) (lines : List (List Char)) (offs : List Nat) (h : findNewlines d lines = .ok offs) : ∀ x ∈ offs, x ≤ lines.length := by
  intro x hx
  unfold findNewlines at h
  split at h
  · rw [Except.ok.injEq] at h
    rw [← h, List.mem_range] at hx
    omega
  · obtain ⟨more, hm, h⟩ := bind_ok h
    rw [Except.ok.injEq] at h
    rw [← h, List.mem_cons] at hx
    rcases hx with rfl | hx
    · omega
    · have := recordOffsets_bound d lines 0 _ _ hm x hx
      omega

theorem findNewlineBytes_eq (d : Dialect) (k : EncFile) (file : List Char) (pos : Nat) (ls : List (List Char × List Char)) (h : fileLines k file pos = .ok ls) :
    findNewlineBytes d k file pos = (findNewlines d (ls.map (·.1))).map (List.map (linePos file pos ls)) := by
  unfold findNewlineBytes findNewlines
  rw [h]
  dsimp only [bind, Except.bind]
  split
  · simp only [Except.map, List.length_map]
    congr 1
    rw [List.range_succ_eq_map, List.map_cons, List.map_map]
    congr 1
    apply List.ext_getElem
    · simp
    · intro i h1 h2
      have hi : i < ls.length := by simpa using h1
      simp [linePos, hi]
  · rw [recordBytes_eq d file pos ls ls 0 {} List.drop_zero]
    cases recordOffsets d {} 0 (ls.map (·.1)) with
    | error e => rfl
    | ok more => rfl

theorem recordsAt_eq (d : Dialect) (k : EncFile) (file : List Char) (pos : Nat) (ls : List (List Char × List Char)) (h : fileLines k file pos = .ok ls) (i : Nat) (hi : i ≤ ls.length) :
    recordsAt d k file (linePos file pos ls i) = parseLines d {} ((ls.map (·.1)).drop i) := by
  unfold recordsAt
  rw [fileLines_at k file pos ls h i hi]
  dsimp only [bind, Except.bind]
  rw [List.map_drop]

/-- **C97** (positions).  The import works with positions in bytes: the places after line ends that the reader reports while it looks for records, to which later tasks jump.
For every encoding this gives what the import of the list of lines gives: a task that starts at the position of a record reads exactly the lines from there on. -/
theorem C97_positions (mk : List Char → Nat → List Char) (num : Nat → List Char) (d : Dialect) (o : ImportOpts) (ps : Nat) (e : EncKind) (file : List Char) (k : EncFile) (pos : Nat)
    (ho : openFile e file = .ok (k, pos)) (ls : List (List Char × List Char)) (h : fileLines k file pos = .ok ls) :
    importFile mk num d o ps e file = importText mk num d o ps (ls.map (·.1)) := by
  unfold importFile importText
  rw [ho]
  dsimp only [bind, Except.bind]
  rw [findNewlineBytes_eq d k file pos ls h]
  cases hf : findNewlines d (ls.map (·.1)) with
  | error e => rfl
  | ok offs =>
    have hb : ∀ x ∈ offs, x ≤ ls.length := by
      have := findNewlines_bound d _ offs hf
      rwa [List.length_map] at this
    have hget : ∀ i, i < offs.length → (offs.map (linePos file pos ls)).getD i 0 = linePos file pos ls (offs.getD i 0) ∧ offs.getD i 0 ≤ ls.length := by
      intro i hi
      have e1 : offs.getD i 0 = offs[i] := by rw [List.getD_eq_getElem?_getD, List.getElem?_eq_getElem hi, Option.getD_some]
      refine ⟨?_, ?_⟩
      · rw [List.getD_eq_getElem?_getD, List.getElem?_map, List.getElem?_eq_getElem hi, Option.map_some, Option.getD_some, e1]
      · rw [e1]
        exact hb _ (List.getElem_mem hi)
    simp only [Except.map, List.length_map]
    by_cases hc : 0 < offs.length - 1 ∧ o.headerRow < offs.length - 1
    · rw [if_pos hc, if_pos hc]
      have hcol : readColumnsAt d k file ((offs.map (linePos file pos ls)).getD o.headerRow 0) = readColumns d (ls.map (·.1)) (offs.getD o.headerRow 0) := by
        obtain ⟨e1, e2⟩ := hget o.headerRow (by omega)
        unfold readColumnsAt readColumns
        rw [e1, recordsAt_eq d k file pos ls h _ e2]
      rw [hcol]
      cases readColumns d (ls.map (·.1)) (offs.getD o.headerRow 0) with
      | error e => rfl
      | ok first =>
        dsimp only
        by_cases hall : ((o.columns.getD (fieldNames mk num o.headers first)).all fun c => decide (c ∈ fieldNames mk num o.headers first)) = true
        · rw [if_pos hall, if_pos hall]
          have htasks : ∀ fields : List Nat,
              ((planTasks ps (lastRow o.limit (offs.length - 1) (o.start + ((if o.headers then 1 else 0) + o.headerRow))) (o.start + ((if o.headers then 1 else 0) + o.headerRow))).map
                fun t => ((offs.map (linePos file pos ls)).getD t.1 0, t.2)).mapM (fun t => textReaderTaskAt d k file o.skip fields t.1 t.2) =
              ((planTasks ps (lastRow o.limit (offs.length - 1) (o.start + ((if o.headers then 1 else 0) + o.headerRow))) (o.start + ((if o.headers then 1 else 0) + o.headerRow))).map
                fun t => (offs.getD t.1 0, t.2)).mapM (fun t => textReaderTask d (ls.map (·.1)) o.skip fields t.1 t.2) := by
            intro fields
            have hpl := plan_bounds ps (lastRow o.limit (offs.length - 1) (o.start + ((if o.headers then 1 else 0) + o.headerRow))) _ (o.start + ((if o.headers then 1 else 0) + o.headerRow)) (Nat.le_refl _)
            have hmax : lastRow o.limit (offs.length - 1) (o.start + ((if o.headers then 1 else 0) + o.headerRow)) ≤ offs.length - 1 := by
              unfold lastRow
              cases o.limit with
              | none => exact Nat.le_refl _
              | some l => exact Nat.min_le_left _ _
            generalize planTasks ps _ _ = tasks at hpl ⊢
            induction tasks with
            | nil => rfl
            | cons t tasks ih =>
              rw [List.map_cons, List.map_cons, List.mapM_cons, List.mapM_cons, ih fun x hx => hpl x (List.mem_cons_of_mem _ hx)]
              obtain ⟨e1, e2⟩ := hget t.1 (by have := hpl t List.mem_cons_self; omega)
              have : textReaderTaskAt d k file o.skip fields ((offs.map (linePos file pos ls)).getD t.1 0) t.2 = textReaderTask d (ls.map (·.1)) o.skip fields (offs.getD t.1 0) t.2 := by
                unfold textReaderTaskAt textReaderTask
                rw [e1, recordsAt_eq d k file pos ls h _ e2]
              rw [this]
          rw [htasks]
        · rw [if_neg hall, if_neg hall]
    · rw [if_neg hc, if_neg hc]

/-! ## texts -/

theorem byte_toNat (n : Nat) (h : n < 0xD800) : (byte n).toNat = n := by
  unfold byte Char.ofNat
  rw [dif_pos (show n.isValidChar from Or.inl h)]
  rfl

theorem byte_inj (a b : Nat) (ha : a < 0xD800) (hb : b < 0xD800) (h : byte a = byte b) : a = b := by
  have := congrArg Char.toNat h
  rwa [byte_toNat a ha, byte_toNat b hb] at this

theorem byte_char (c : Char) : byte c.toNat = c := by
  unfold byte
  exact Char.ofNat_toNat c

theorem char_le (c : Char) : c.toNat < 0x110000 := by
  have := c.valid
  rcases this with h | h
  · have : c.toNat < 0xD800 := h
    omega
  · exact h.2

theorem char_valid (c : Char) : c.toNat < 0xD800 ∨ 0xDFFF < c.toNat := by
  rcases c.valid with h | h
  · exact Or.inl h
  · exact Or.inr h.1

/-- characters of ASCII are one byte, in all others every byte is 128 or more -/
theorem utf8Of_ascii (c : Char) (h : c.toNat < 0x80) : utf8Of c.toNat = [c] := by
  unfold utf8Of
  rw [if_pos h, byte_char]

theorem utf8Of_high (n : Nat) (hn : n < 0x110000) (h : 0x80 ≤ n) : ∀ b ∈ utf8Of n, 0x80 ≤ b.toNat := by
  intro b hb
  unfold utf8Of at hb
  rw [if_neg (by omega)] at hb
  split at hb
  · simp only [List.mem_cons, List.not_mem_nil, or_false] at hb
    rcases hb with rfl | rfl <;> rw [byte_toNat _ (by omega)] <;> omega
  · split at hb
    · simp only [List.mem_cons, List.not_mem_nil, or_false] at hb
      rcases hb with rfl | rfl | rfl <;> rw [byte_toNat _ (by omega)] <;> omega
    · simp only [List.mem_cons, List.not_mem_nil, or_false] at hb
      rcases hb with rfl | rfl | rfl | rfl <;> rw [byte_toNat _ (by omega)] <;> omega

theorem utf8Of_ne_nil (n : Nat) : utf8Of n ≠ [] := by
  unfold utf8Of
  split
  · simp
  · split
    · simp
    · split <;> simp

/-- an ASCII character occurs among the bytes exactly where it is a character -/
theorem mem_utf8_ascii (a : Char) (ha : a.toNat < 0x80) (t : List Char) : a ∈ utf8 t ↔ a ∈ t := by
  unfold utf8
  rw [List.mem_flatMap]
  constructor
  · rintro ⟨c, hc, h⟩
    by_cases hl : c.toNat < 0x80
    · rw [utf8Of_ascii c hl, List.mem_singleton] at h
      rw [h]
      exact hc
    · have := utf8Of_high c.toNat (char_le c) (by omega) a h
      omega
  · intro h
    exact ⟨a, h, by rw [utf8Of_ascii a ha]; exact List.mem_singleton.2 rfl⟩

theorem utf8_append (a b : List Char) : utf8 (a ++ b) = utf8 a ++ utf8 b := List.flatMap_append

theorem utf8_nil_iff (t : List Char) : utf8 t = [] ↔ t = [] := by
  cases t with
  | nil => exact ⟨fun _ => rfl, fun _ => rfl⟩
  | cons c t =>
    constructor
    · intro h
      have : utf8Of c.toNat ++ utf8 t = [] := h
      exact absurd (List.append_eq_nil_iff.1 this).1 (utf8Of_ne_nil _)
    · intro h; exact absurd h (by simp)

theorem utf8_single (c : Char) (h : c.toNat < 0x80) : utf8 [c] = [c] := by
  have : utf8 [c] = utf8Of c.toNat ++ [] := rfl
  rw [this, utf8Of_ascii c h, List.append_nil]

/-- an ASCII character is the last byte exactly if it is the last character -/
theorem utf8_getLast (a : Char) (ha : a.toNat < 0x80) (t : List Char) : (utf8 t).getLast? = some a ↔ t.getLast? = some a := by
  rcases List.eq_nil_or_concat t with rfl | ⟨u, c, rfl⟩
  · exact Iff.rfl
  · rw [List.concat_eq_append, utf8_append, List.getLast?_append, List.getLast?_concat]
    have e : utf8 [c] = utf8Of c.toNat := List.append_nil _
    rw [e]
    by_cases hl : c.toNat < 0x80
    · rw [utf8Of_ascii c hl]
      rfl
    · constructor
      · intro h
        exfalso
        rw [List.getLast?_eq_some_getLast (utf8Of_ne_nil _)] at h
        rw [Option.some_or, Option.some.injEq] at h
        have := utf8Of_high c.toNat (char_le c) (by omega) a (h ▸ List.getLast_mem _)
        omega
      · intro h
        rw [Option.some.injEq] at h
        rw [h] at hl
        exact absurd ha hl

theorem utf8_dropCr (t : List Char) : dropCr (utf8 t) = utf8 (dropCr t) := by
  unfold dropCr
  by_cases h : t.getLast? = some '\r'
  · rw [if_pos ((utf8_getLast '\r' (by decide) t).2 h), if_pos h]
    rcases List.eq_nil_or_concat t with rfl | ⟨u, c, rfl⟩
    · rfl
    · rw [List.concat_eq_append] at h ⊢
      rw [List.getLast?_concat, Option.some.injEq] at h
      rw [h, utf8_append, utf8_single '\r' (by decide), List.dropLast_concat, List.dropLast_concat]
  · rw [if_neg (fun h' => h ((utf8_getLast '\r' (by decide) t).1 h')), if_neg h]

/-! ## lines -/

theorem readLine8_line (a : List Char) (ha : '\n' ∉ a) : ∀ (cur rest : List Char), readLine8 cur (a ++ '\n' :: rest) = (some (dropCr (cur ++ a)), rest) := by
  induction a with
  | nil =>
    intro cur rest
    rw [List.nil_append, readLine8, if_pos rfl, List.append_nil]
  | cons c a ih =>
    intro cur rest
    rw [List.mem_cons, not_or] at ha
    rw [List.cons_append, readLine8, if_neg (fun h => ha.1 h.symm), ih ha.2, List.append_assoc, List.singleton_append]

theorem readLine8_last (a : List Char) (ha : '\n' ∉ a) : ∀ cur : List Char, readLine8 cur a = (if cur ++ a = [] then none else some (cur ++ a), []) := by
  induction a with
  | nil => intro cur; rw [readLine8, List.append_nil]
  | cons c a ih =>
    intro cur
    rw [List.mem_cons, not_or] at ha
    rw [readLine8, if_neg (fun h => ha.1 h.symm), ih ha.2, List.append_assoc, List.singleton_append]

/-- spec: a text cut at line ends; `out` is what becomes of a line that has a line end, `last` of the rest after the last one -/
def cutLines (out last : List Char → List Char) : List Char → List Char → List (List Char)
  | cur, [] => if cur = [] then [] else [last cur]
  | cur, c :: rest => if c = '\n' then out cur :: cutLines out last [] rest else cutLines out last (cur ++ [c]) rest

/-- spec: the lines of a text, with carriage returns -/
def rawLines (text : List Char) : List (List Char) := cutLines id id [] text

/-- a reader reads lines of an encoding -/
structure ReadsLines (k : EncFile) (enc : Char → List Char) (out last : List Char → List Char) (ok : Char → Prop) : Prop where
  nonempty : ∀ c, enc c ≠ []
  line : ∀ l rest, '\n' ∉ l → (∀ c ∈ l, ok c) → encReadLine k (l.flatMap enc ++ enc '\n' ++ rest) = .ok (some (out l), rest)
  final : ∀ l, l ≠ [] → '\n' ∉ l → (∀ c ∈ l, ok c) → encReadLine k (l.flatMap enc) = .ok (some (last l), [])

theorem linesFrom_ne (k : EncFile) (n : Nat) (bytes : List Char) (hb : bytes ≠ []) (l rest : List Char) (h : encReadLine k bytes = .ok (some l, rest)) (hn : bytes.length ≤ n) :
    linesFrom k n bytes = (linesFrom k rest.length rest).map ((l, rest) :: ·) := by
  obtain ⟨b, bs, rfl⟩ := List.exists_cons_of_ne_nil hb
  cases n with
  | zero => simp at hn
  | succ n =>
    obtain ⟨pre, hp, he⟩ := encReadLine_rest k _ hb _ h
    have hlen : rest.length < (b :: bs).length := by
      rw [he, List.length_append]
      have := List.length_pos_iff.2 hp
      simp only
      omega
    rw [linesFrom, h]
    dsimp only [bind, Except.bind]
    rw [linesFrom_enough k n rest.length rest (by omega) (Nat.le_refl _)]
    cases linesFrom k rest.length rest <;> rfl

/-- the lines read are the lines of the text -/
theorem readsLines_all (k : EncFile) (enc : Char → List Char) (out last : List Char → List Char) (ok : Char → Prop) (h : ReadsLines k enc out last ok) (text : List Char) :
    ∀ cur : List Char, '\n' ∉ cur → (∀ c ∈ cur, ok c) → (∀ c ∈ text, ok c) →
      ∃ ls, linesFrom k ((cur ++ text).flatMap enc).length ((cur ++ text).flatMap enc) = .ok ls ∧ ls.map (·.1) = cutLines out last cur text := by
  induction text with
  | nil =>
    intro cur hc hok _
    rw [List.append_nil, cutLines]
    by_cases he : cur = []
    · rw [if_pos he, he]
      exact ⟨[], rfl, rfl⟩
    · rw [if_neg he]
      have hne : cur.flatMap enc ≠ [] := by
        obtain ⟨c, t, rfl⟩ := List.exists_cons_of_ne_nil he
        rw [List.flatMap_cons]
        intro h0
        exact h.nonempty c (List.append_eq_nil_iff.1 h0).1
      rw [linesFrom_ne k _ _ hne _ _ (h.final cur he hc hok) (Nat.le_refl _)]
      exact ⟨[(last cur, [])], rfl, rfl⟩
  | cons c text ih =>
    intro cur hc hok htext
    rw [cutLines]
    by_cases hn : c = '\n'
    · subst hn
      rw [if_pos rfl]
      have e : (cur ++ '\n' :: text).flatMap enc = cur.flatMap enc ++ enc '\n' ++ text.flatMap enc := by
        rw [List.flatMap_append, List.flatMap_cons, List.append_assoc]
      have hne : (cur ++ '\n' :: text).flatMap enc ≠ [] := by
        rw [e]
        intro h0
        have := (List.append_eq_nil_iff.1 (List.append_eq_nil_iff.1 h0).1).2
        exact h.nonempty _ this
      obtain ⟨ls, h1, h2⟩ := ih [] List.not_mem_nil (fun c hc => absurd hc List.not_mem_nil) fun x hx => htext x (List.mem_cons_of_mem _ hx)
      rw [List.nil_append] at h1
      refine ⟨(out cur, text.flatMap enc) :: ls, ?_, ?_⟩
      · have hl := h.line cur (text.flatMap enc) hc hok
        rw [← e] at hl
        rw [linesFrom_ne k _ _ hne _ _ hl (Nat.le_refl _), h1]
        rfl
      · rw [List.map_cons, h2]
    · rw [if_neg hn]
      have e : cur ++ c :: text = (cur ++ [c]) ++ text := by simp
      rw [e]
      apply ih
      · rw [List.mem_append, List.mem_singleton, not_or]
        exact ⟨hc, fun h => hn h.symm⟩
      · intro x hx
        rw [List.mem_append, List.mem_singleton] at hx
        rcases hx with hx | rfl
        · exact hok x hx
        · exact htext x List.mem_cons_self
      · exact fun x hx => htext x (List.mem_cons_of_mem _ hx)

theorem readLines_cut (g : List Char → List Char) (text : List Char) : ∀ cur, cutLines (fun l => g (dropCr l)) g cur text = (readLines cur text).map g := by
  induction text with
  | nil => intro cur; rw [cutLines, readLines]; split <;> rfl
  | cons c t ih =>
    intro cur
    rw [cutLines, readLines]
    split
    · rw [ih, List.map_cons]
    · exact ih _

theorem rawLines_cut (g : List Char → List Char) (text : List Char) : ∀ cur, cutLines g g cur text = (cutLines id id cur text).map g := by
  induction text with
  | nil => intro cur; rw [cutLines, cutLines]; split <;> rfl
  | cons c t ih =>
    intro cur
    rw [cutLines, cutLines]
    split
    · rw [ih, List.map_cons]; rfl
    · exact ih _

/-- without carriage returns both ways to cut a text agree -/
theorem rawLines_noCr (text : List Char) : ∀ cur, '\r' ∉ cur → '\r' ∉ text → cutLines id id cur text = readLines cur text := by
  induction text with
  | nil => intro cur _ _; rw [cutLines, readLines]; rfl
  | cons c t ih =>
    intro cur hc ht
    rw [List.mem_cons, not_or] at ht
    rw [cutLines, readLines]
    split
    · rw [ih [] List.not_mem_nil ht.2]
      have : dropCr cur = cur := by
        unfold dropCr
        rw [if_neg]
        intro h
        exact hc (List.mem_of_getLast? h)
      rw [this]
      rfl
    · apply ih _ _ ht.2
      rw [List.mem_append, List.mem_singleton, not_or]
      exact ⟨hc, ht.1⟩

theorem reads_utf8 : ReadsLines .utf8 (fun c => utf8Of c.toNat) (fun l => utf8 (dropCr l)) utf8 fun _ => True where
  nonempty := fun c => utf8Of_ne_nil _
  line := by
    intro l rest hl _
    have hnl : utf8Of ('\n' : Char).toNat = ['\n'] := utf8Of_ascii _ (by decide)
    have hm : '\n' ∉ utf8 l := fun h => hl ((mem_utf8_ascii _ (by decide) l).1 h)
    have := readLine8_line (utf8 l) hm [] rest
    rw [List.nil_append, utf8_dropCr] at this
    rw [hnl, encReadLine, List.append_assoc, List.singleton_append]
    exact congrArg _ this
  final := by
    intro l hne hl _
    have hm : '\n' ∉ utf8 l := fun h => hl ((mem_utf8_ascii _ (by decide) l).1 h)
    have := readLine8_last (utf8 l) hm []
    rw [List.nil_append, if_neg (fun h => hne ((utf8_nil_iff l).1 h))] at this
    rw [encReadLine]
    exact congrArg _ this

/-- spec: the numbers of a character in UTF-16 -/
def utf16Of (n : Nat) : List Nat := if n < 0x10000 then [n] else [0xD800 + (n - 0x10000) / 1024, 0xDC00 + (n - 0x10000) % 1024]

/-- spec: the two bytes of a number; `be`: the higher one first -/
def bytes16 (be : Bool) (u : Nat) : List Char := if be then [byte (u / 256), byte (u % 256)] else [byte (u % 256), byte (u / 256)]

/-- spec: a character in UTF-16 -/
def enc16 (be : Bool) (c : Char) : List Char := (utf16Of c.toNat).flatMap (bytes16 be)

theorem unit16_bytes (be : Bool) (u : Nat) (hu : u < 0x10000) (cur : List Nat) (rest : List Char) :
    readUnits be cur (bytes16 be u ++ rest) = if u = 10 then .ok (some cur, rest) else readUnits be (cur ++ [u]) rest := by
  have hu' : ∃ a b, bytes16 be u = [a, b] ∧ unit16 be a b = u := by
    unfold bytes16
    cases be with
    | false =>
      refine ⟨byte (u % 256), byte (u / 256), rfl, ?_⟩
      unfold unit16
      rw [byte_toNat _ (by omega), byte_toNat _ (by omega)]
      simp only [Bool.false_eq_true, if_false]
      omega
    | true =>
      refine ⟨byte (u / 256), byte (u % 256), rfl, ?_⟩
      unfold unit16
      rw [byte_toNat _ (by omega), byte_toNat _ (by omega)]
      simp only [if_true]
      omega
  obtain ⟨a, b, e, hab⟩ := hu'
  rw [e, List.cons_append, List.cons_append, List.nil_append, readUnits, hab]

theorem utf16Of_bound (c : Char) : ∀ u ∈ utf16Of c.toNat, u < 0x10000 ∧ (u = 10 → c = '\n') := by
  intro u hu
  have hc := char_le c
  unfold utf16Of at hu
  split at hu
  · rw [List.mem_singleton] at hu
    refine ⟨by omega, ?_⟩
    intro h
    rw [← byte_char c, ← hu, h]
    decide
  · simp only [List.mem_cons, List.not_mem_nil, or_false] at hu
    rcases hu with hu | hu <;> exact ⟨by omega, fun h => by omega⟩

theorem readUnits_units (be : Bool) (us : List Nat) (hus : ∀ u ∈ us, u < 0x10000 ∧ u ≠ 10) : ∀ (cur : List Nat) (rest : List Char),
    readUnits be cur (us.flatMap (bytes16 be) ++ rest) = readUnits be (cur ++ us) rest := by
  induction us with
  | nil => intro cur rest; rw [List.flatMap_nil, List.nil_append, List.append_nil]
  | cons u us ih =>
    intro cur rest
    obtain ⟨h1, h2⟩ := hus u List.mem_cons_self
    rw [List.flatMap_cons, List.append_assoc, unit16_bytes be u h1, if_neg h2, ih (fun x hx => hus x (List.mem_cons_of_mem _ hx)), List.append_assoc, List.singleton_append]

theorem enc16_flatMap (be : Bool) (l : List Char) : l.flatMap (enc16 be) = (l.flatMap fun c => utf16Of c.toNat).flatMap (bytes16 be) := by
  rw [List.flatMap_assoc]
  rfl

theorem units_ok (l : List Char) (hl : '\n' ∉ l) : ∀ u ∈ l.flatMap (fun c => utf16Of c.toNat), u < 0x10000 ∧ u ≠ 10 := by
  intro u hu
  obtain ⟨c, hc, h⟩ := List.mem_flatMap.1 hu
  obtain ⟨h1, h2⟩ := utf16Of_bound c u h
  refine ⟨h1, ?_⟩
  intro h3
  exact hl (h2 h3 ▸ hc)

/-- the numbers of a text without NUL are turned into the text -/
theorem wideText_units (l : List Char) (hl : ∀ c ∈ l, c.toNat ≠ 0) : wideText (l.flatMap fun c => utf16Of c.toNat) = utf8 l := by
  have step1 : ∀ (u : Nat) (r : List Nat), u ≠ 0 → (u < 0xD800 ∨ 0xDFFF < u) → wideText (u :: r) = utf8Of u ++ wideText r := by
    intro u r h0 h1
    cases r with
    | nil =>
      have e : wideText [] = [] := by rw [wideText]
      rw [e, wideText, if_neg h0, if_neg (by omega), List.append_nil]
    | cons v r =>
      rw [wideText, if_neg h0, if_neg (by omega), if_neg (by omega)]
  induction l with
  | nil => rfl
  | cons c l ih =>
    have e : utf8 (c :: l) = utf8Of c.toNat ++ utf8 l := rfl
    rw [List.flatMap_cons, e, ← ih fun x hx => hl x (List.mem_cons_of_mem _ hx)]
    have h0 := hl c List.mem_cons_self
    have hv := char_valid c
    have hc := char_le c
    unfold utf16Of
    split
    · rw [List.singleton_append, step1 _ _ h0 hv]
    · rw [List.cons_append, List.cons_append, List.nil_append, wideText, if_neg (by omega), if_pos (by omega), if_pos (by omega)]
      congr 2
      omega

theorem reads_utf16 (be : Bool) : ReadsLines (.utf16 be) (enc16 be) utf8 utf8 fun c => c.toNat ≠ 0 where
  nonempty := by
    intro c h
    have h2 : ∀ u, bytes16 be u ≠ [] := by intro u; unfold bytes16; cases be <;> simp
    unfold enc16 utf16Of at h
    split at h
    · rw [List.flatMap_cons] at h
      exact h2 _ (List.append_eq_nil_iff.1 h).1
    · rw [List.flatMap_cons] at h
      exact h2 _ (List.append_eq_nil_iff.1 h).1
  line := by
    intro l rest hl hok
    have hnl : enc16 be '\n' = bytes16 be 10 := List.append_nil _
    rw [encReadLine, enc16_flatMap, hnl, List.append_assoc, readUnits_units be _ (units_ok l hl), unit16_bytes be 10 (by decide), if_pos rfl, List.nil_append]
    dsimp only [bind, Except.bind]
    rw [Option.map_some, wideText_units l hok]
  final := by
    intro l hne hl hok
    have := readUnits_units be _ (units_ok l hl) [] []
    rw [List.append_nil, List.nil_append] at this
    rw [encReadLine, enc16_flatMap, this, readUnits]
    have hn : (l.flatMap fun c => utf16Of c.toNat) ≠ [] := by
      obtain ⟨c, t, rfl⟩ := List.exists_cons_of_ne_nil hne
      rw [List.flatMap_cons]
      intro h0
      have := (List.append_eq_nil_iff.1 h0).1
      unfold utf16Of at this
      split at this <;> simp at this
    rw [if_neg hn]
    dsimp only [bind, Except.bind]
    rw [Option.map_some, wideText_units l hok]

/-- spec: a code page with one byte for each character, in which line ends are as in ASCII -/
structure CodePage (cp : Char → Char) : Prop where
  lf : ∀ b, cp b = '\n' ↔ b = '\n'
  cr : ∀ b, cp b = '\r' ↔ b = '\r'

/-- a converter for a code page -/
def pageConv (cp : Char → Char) (line : List Char) : List Char := utf8 (line.map cp)

theorem dropCr_map (cp : Char → Char) (h : CodePage cp) (l : List Char) : (dropCr l).map cp = dropCr (l.map cp) := by
  unfold dropCr
  rw [List.getLast?_map]
  by_cases hl : l.getLast? = some '\r'
  · rw [if_pos hl, hl, Option.map_some, (h.cr '\r').2 rfl, if_pos rfl, List.map_dropLast]
  · rw [if_neg hl, if_neg]
    intro h2
    cases hx : l.getLast? with
    | none => rw [hx] at h2; exact absurd h2 (by simp)
    | some b =>
      rw [hx, Option.map_some, Option.some.injEq] at h2
      rw [hx] at hl
      exact hl (by rw [(h.cr b).1 h2])

theorem flatMap_self (l : List Char) : l.flatMap (fun b => [b]) = l := by
  induction l with
  | nil => rfl
  | cons a l ih => rw [List.flatMap_cons, ih]; rfl

theorem reads_page (cp : Char → Char) : ReadsLines (.conv (pageConv cp)) (fun b => [b]) (fun l => pageConv cp (dropCr l)) (pageConv cp) fun _ => True where
  nonempty := fun _ => by simp
  line := by
    intro l rest hl _
    rw [flatMap_self, List.append_assoc, List.singleton_append, encReadLine, readLine8_line l hl]
    rfl
  final := by
    intro l hne hl _
    rw [flatMap_self, encReadLine, readLine8_last l hl, List.nil_append, if_neg hne]
    rfl

/-! ## the theorems -/

/-- spec: the byte order mark of UTF-8 -/
def bom8 : List Char := [byte 0xEF, byte 0xBB, byte 0xBF]

/-- spec: a text in UTF-16 with a byte order mark -/
def file16 (be : Bool) (text : List Char) : List Char := bytes16 be 0xFEFF ++ text.flatMap (enc16 be)

theorem utf8_bom (text : List Char) (h : text.head? ≠ some (Char.ofNat 0xFEFF)) : (utf8 text).take 3 ≠ bom8 := by
  cases text with
  | nil => decide
  | cons c t =>
    have e : utf8 (c :: t) = utf8Of c.toNat ++ utf8 t := rfl
    have hc := char_le c
    have hne : c.toNat ≠ 0xFEFF := by
      intro h2
      apply h
      rw [List.head?_cons, ← byte_char c, h2]
      rfl
    rw [e]
    unfold utf8Of bom8
    intro hb
    split at hb
    · rw [List.cons_append, List.take_succ_cons, List.cons.injEq] at hb
      have := byte_inj _ _ (by omega) (by decide) hb.1
      omega
    · split at hb
      · rw [List.cons_append, List.take_succ_cons, List.cons.injEq] at hb
        have := byte_inj _ _ (by omega) (by decide) hb.1
        omega
      · split at hb
        · simp only [List.cons_append, List.take_succ_cons, List.cons.injEq, List.nil_append, List.take_zero, and_true] at hb
          have h1 := byte_inj _ _ (by omega) (by decide) hb.1
          have h2 := byte_inj _ _ (by omega) (by decide) hb.2.1
          have h3 := byte_inj _ _ (by omega) (by decide) hb.2.2
          omega
        · rw [List.cons_append, List.take_succ_cons, List.cons.injEq] at hb
          have := byte_inj _ _ (by omega) (by decide) hb.1
          omega

section
variable (mk : List Char → Nat → List Char) (num : Nat → List Char) (d : Dialect) (o : ImportOpts) (ps : Nat)

theorem import_utf8_at (file : List Char) (pos : Nat) (text : List Char) (ho : openUtf8 file = (.utf8, pos)) (hd : file.drop pos = utf8 text) :
    importFile mk num d o ps .utf8 file = importText mk num d o ps ((readLines [] text).map utf8) := by
  obtain ⟨ls, h1, h2⟩ := readsLines_all _ _ _ _ _ reads_utf8 text [] List.not_mem_nil (fun c hc => absurd hc List.not_mem_nil) fun _ _ => trivial
  rw [readLines_cut utf8 text []] at h2
  rw [← h2]
  apply C97_positions mk num d o ps .utf8 file .utf8 pos (congrArg _ ho)
  unfold fileLines
  rw [hd]
  exact h1

/-- **C97** (UTF-8).  A text in UTF-8 is imported as its lines; a text that begins with U+FEFF has to be written with a byte order mark. -/
theorem C97_utf8 (text : List Char) (h : text.head? ≠ some (Char.ofNat 0xFEFF)) :
    importFile mk num d o ps .utf8 (utf8 text) = importText mk num d o ps ((readLines [] text).map utf8) := by
  apply import_utf8_at mk num d o ps (utf8 text) 0 text _ (List.drop_zero)
  unfold openUtf8
  exact if_neg (utf8_bom text h)

/-- **C97** (UTF-8 with byte order mark).  A byte order mark is not part of the text. -/
theorem C97_utf8_bom (text : List Char) : importFile mk num d o ps .utf8 (bom8 ++ utf8 text) = importText mk num d o ps ((readLines [] text).map utf8) := by
  apply import_utf8_at mk num d o ps (bom8 ++ utf8 text) 3 text
  · unfold openUtf8
    exact if_pos rfl
  · rfl

/-- **C97** (UTF-16).  A text in UTF-16 with a byte order mark, in either order of bytes, is imported as its lines, with the carriage returns, if it contains no NUL. -/
theorem C97_utf16 (be : Bool) (text : List Char) (h0 : ∀ c ∈ text, c.toNat ≠ 0) :
    importFile mk num d o ps .utf16 (file16 be text) = importText mk num d o ps ((rawLines text).map utf8) := by
  obtain ⟨ls, h1, h2⟩ := readsLines_all _ _ _ _ _ (reads_utf16 be) text [] List.not_mem_nil (fun c hc => absurd hc List.not_mem_nil) h0
  rw [rawLines_cut utf8 text []] at h2
  have hlen : (file16 be text).length % 2 = 0 := by
    unfold file16
    rw [enc16_flatMap, ← List.flatMap_cons]
    generalize 0xFEFF :: _ = us
    induction us with
    | nil => rfl
    | cons u us ih =>
      rw [List.flatMap_cons, List.length_append]
      have : (bytes16 be u).length = 2 := by unfold bytes16; cases be <;> rfl
      omega
  have ho : openFile .utf16 (file16 be text) = .ok (.utf16 be, 2) := by
    unfold openFile openUtf16
    dsimp only
    rw [if_neg (by omega)]
    cases be with
    | false =>
      have e : file16 false text = byte 0xFF :: byte 0xFE :: text.flatMap (enc16 false) := rfl
      rw [e]
      exact if_pos (by decide)
    | true =>
      have e : file16 true text = byte 0xFE :: byte 0xFF :: text.flatMap (enc16 true) := rfl
      rw [e]
      dsimp only
      rw [if_neg (by decide), if_pos (by decide)]
  have := C97_positions mk num d o ps .utf16 (file16 be text) (.utf16 be) 2 ho ls (by
    unfold fileLines
    have : (file16 be text).drop 2 = text.flatMap (enc16 be) := by unfold file16 bytes16; cases be <;> rfl
    rw [this]
    exact h1)
  rw [this, h2]
  rfl

/-- **C97** (code pages).  A file in a code page is imported as the lines of the text it stands for. -/
theorem C97_page (cp : Char → Char) (hcp : CodePage cp) (file : List Char) :
    importFile mk num d o ps (.conv (pageConv cp)) file = importText mk num d o ps ((readLines [] (file.map cp)).map utf8) := by
  have e := flatMap_self file
  obtain ⟨ls, h1, h2⟩ := readsLines_all _ _ _ _ _ (reads_page cp) file [] List.not_mem_nil (fun c hc => absurd hc List.not_mem_nil) fun _ _ => trivial
  rw [List.nil_append, e] at h1
  rw [readLines_cut (pageConv cp) file []] at h2
  have hm : ∀ (t cur : List Char), (readLines cur t).map (pageConv cp) = (readLines (cur.map cp) (t.map cp)).map utf8 := by
    intro t
    induction t with
    | nil =>
      intro cur
      rw [readLines, List.map_nil, readLines]
      cases cur <;> rfl
    | cons c t ih =>
      intro cur
      rw [readLines, List.map_cons, readLines]
      by_cases hc : c = '\n'
      · rw [if_pos hc, if_pos ((hcp.lf c).2 hc), List.map_cons, List.map_cons, ih, pageConv, dropCr_map cp hcp]
        rfl
      · rw [if_neg hc, if_neg (fun h => hc ((hcp.lf c).1 h)), ih, List.map_append]
        rfl
  rw [C97_positions mk num d o ps (.conv (pageConv cp)) file _ 0 rfl ls (by unfold fileLines; rw [List.drop_zero]; exact h1), h2, hm file []]
  rfl

/-- **C97** (missing mark).  A file in UTF-16 with an odd number of bytes, or that does not begin with a byte order mark, is refused. -/
theorem C97_utf16_refused (file : List Char) (hb : ∀ c ∈ file, c.toNat < 256) (h : file.length % 2 = 1 ∨ ∀ be, file.take 2 ≠ bytes16 be 0xFEFF) :
    importFile mk num d o ps .utf16 file = .error .other := by
  have ho : openUtf16 file = .error .other := by
    unfold openUtf16
    by_cases hl : file.length % 2 = 1
    · rw [if_pos (by omega)]
    · have h2 := h.resolve_left hl
      rw [if_neg (by omega)]
      match file, h2, hb with
      | [], _, _ => rfl
      | [_], _, _ => rfl
      | a :: b :: r, h2, hb =>
        have h3 := hb a List.mem_cons_self
        have h4 := hb b (List.mem_cons_of_mem _ List.mem_cons_self)
        have ha : ∀ x y : Nat, x < 256 → y < 256 → unit16 false a b = x + 256 * y → a = byte x ∧ b = byte y := by
          intro x y hx hy hu
          unfold unit16 at hu
          simp only [Bool.false_eq_true, if_false] at hu
          have h1 : a.toNat = x := by omega
          have h2 : b.toNat = y := by omega
          exact ⟨by rw [← byte_char a, h1], by rw [← byte_char b, h2]⟩
        dsimp only
        rw [if_neg, if_neg]
        · intro hu
          obtain ⟨rfl, rfl⟩ := ha 0xFE 0xFF (by decide) (by decide) hu
          exact h2 true rfl
        · intro hu
          obtain ⟨rfl, rfl⟩ := ha 0xFF 0xFE (by decide) (by decide) hu
          exact h2 false rfl
  unfold importFile openFile
  rw [ho]
  rfl

end

/-- the claim in full: the encoding of a text without NUL and leading mark does not matter for its import -/
def C97_statement : Prop :=
  ∀ (mk : List Char → Nat → List Char) (num : Nat → List Char) (d : Dialect) (o : ImportOpts) (ps : Nat) (be : Bool) (text : List Char), (∀ c ∈ text, c.toNat ≠ 0) →
    text.head? ≠ some (Char.ofNat 0xFEFF) → importFile mk num d o ps .utf16 (file16 be text) = importFile mk num d o ps .utf8 (utf8 text)

/-- **C97** (the claim in full is false): a line end CR LF within quotes is imported as `\n` from UTF-8, and as CR and `\n` from UTF-16. -/
theorem C97_fails : ¬ C97_statement := by
  intro h
  have := h (fun n _ => n) (fun _ => []) {} {} 10 false "a\n\"x\r\ny\"\n".toList (by decide +kernel) (by decide +kernel)
  rw [C97_utf16 _ _ _ _ _ _ _ (by decide +kernel), C97_utf8 _ _ _ _ _ _ (by decide +kernel)] at this
  exact absurd this (by decide +kernel)

/-- **C97** (same import in every encoding, what holds): a text without NUL and without CR is imported alike from UTF-8 with or without byte order mark, and from UTF-16 in both orders of
bytes; missing are texts with CR. -/
theorem C97_partial (mk : List Char → Nat → List Char) (num : Nat → List Char) (d : Dialect) (o : ImportOpts) (ps : Nat) (be : Bool) (text : List Char) (h0 : ∀ c ∈ text, c.toNat ≠ 0)
    (hcr : '\r' ∉ text) (hb : text.head? ≠ some (Char.ofNat 0xFEFF)) :
    importFile mk num d o ps .utf16 (file16 be text) = importFile mk num d o ps .utf8 (utf8 text) ∧
    importFile mk num d o ps .utf8 (bom8 ++ utf8 text) = importFile mk num d o ps .utf8 (utf8 text) := by
  rw [C97_utf16 mk num d o ps be text h0, C97_utf8 mk num d o ps text hb, C97_utf8_bom]
  unfold rawLines
  rw [rawLines_noCr text [] List.not_mem_nil hcr]
  exact ⟨rfl, rfl⟩

/-- **C97** (names of encodings): `UTF-8` and `UTF-16` are accepted in any case, the code pages only as they are written in the configuration. -/
theorem C97_names (conv : List Char → List Char → List Char) :
    pyEncoding conv none = .ok .utf8 ∧ pyEncoding conv (some "Utf-8".toList) = .ok .utf8 ∧ pyEncoding conv (some "UTF-16".toList) = .ok .utf16 ∧
    pyEncoding conv (some "ISO-8859-1".toList) = .ok (.conv (conv "ISO-8859-1".toList)) ∧ pyEncoding conv (some "iso-8859-1".toList) = .error .other := by
  refine ⟨rfl, ?_, ?_, ?_, ?_⟩
  all_goals
    unfold pyEncoding
    dsimp only
  · rw [if_pos (by decide +kernel)]
  · rw [if_neg (by decide +kernel), if_pos (by decide +kernel)]
  · rw [if_neg (by decide +kernel), if_neg (by decide +kernel), if_pos (by decide +kernel)]
  · rw [if_neg (by decide +kernel), if_neg (by decide +kernel), if_neg (by decide +kernel)]

/-! ## cases that meet the hypotheses -/

/-- a text with characters of one to four bytes -/
def exText : List Char := ['a', ',', Char.ofNat 0xE9, '\n', Char.ofNat 0x20AC, ',', Char.ofNat 0x1F600, '\n']

example : (∀ c ∈ exText, c.toNat ≠ 0) ∧ '\r' ∉ exText ∧ exText.head? ≠ some (Char.ofNat 0xFEFF) := by decide +kernel

example : (utf8 exText).map Char.toNat = [97, 44, 195, 169, 10, 226, 130, 172, 44, 240, 159, 152, 128, 10] := by decide +kernel

example : (file16 true exText).map Char.toNat = [254, 255, 0, 97, 0, 44, 0, 233, 0, 10, 32, 172, 0, 44, 216, 61, 222, 0, 0, 10] := by decide +kernel

/-- Latin-1 is a code page -/
example : CodePage id := ⟨fun _ => Iff.rfl, fun _ => Iff.rfl⟩

example : importFile (fun n _ => n) (fun _ => []) {} {} 10 .utf16 (file16 true exText) =
    .ok [(['a'], [[utf8 [Char.ofNat 0x20AC]]]), (utf8 [Char.ofNat 0xE9], [[utf8 [Char.ofNat 0x1F600]]])] := by
  rw [C97_utf16 _ _ _ _ _ _ _ (by decide +kernel)]
  decide +kernel

end Tablite
