import Verif.Props.Export
/-!
# C75: what every text comes back as
-/
namespace Tablite

/-- spec: every backslash is dropped and the character behind it is taken as it is -/
def unescape : List Char → List Char
  | [] => []
  | [c] => if c = '\\' then [] else [c]
  | c :: e :: r => if c = '\\' then e :: unescape r else c :: unescape (e :: r)

/-- spec: no backslash that escapes, rather than being escaped, is the last character or stands before a quote -/
def tame : List Char → Bool
  | [] => true
  | [c] => decide (c ≠ '\\')
  | c :: e :: r => if c = '\\' then decide (e ≠ '"') && tame r else tame (e :: r)

/-- spec: what a text comes back as: backslashes are dropped, line feeds and tabs become a backslash and a letter -/
def backText (f : List Char) : List Char :=
  (unescape f).flatMap fun c => if c = '\n' then ['\\', 'n'] else if c = '\t' then ['\\', 't'] else [c]

theorem unescape_esc (e : Char) (r : List Char) : unescape ('\\' :: e :: r) = e :: unescape r := by rw [unescape, if_pos rfl]

theorem unescape_other (c : Char) (r : List Char) (h : c ≠ '\\') : unescape (c :: r) = c :: unescape r := by
  cases r with
  | nil => simp [unescape, h]
  | cons e r => rw [unescape, if_neg h]

theorem tame_other (c : Char) (r : List Char) (h : c ≠ '\\') (ht : tame (c :: r) = true) : tame r = true := by
  cases r with
  | nil => rfl
  | cons e r => rwa [tame, if_neg h] at ht

theorem tame_esc (e : Char) (r : List Char) (ht : tame ('\\' :: e :: r) = true) : e ≠ '"' ∧ tame r = true := by
  rw [tame, if_pos rfl, Bool.and_eq_true, decide_eq_true_eq] at ht
  exact ht

/-- induction over a text that is tame -/
theorem tame_ind {P : List Char → Prop} (h0 : P []) (h1 : ∀ c r, c ≠ '\\' → P r → P (c :: r)) (h2 : ∀ e r, e ≠ '"' → P r → P ('\\' :: e :: r)) :
    ∀ (n : Nat) (f : List Char), f.length ≤ n → tame f = true → P f := by
  intro n
  induction n with
  | zero => intro f hf _; rw [List.length_eq_zero_iff.1 (Nat.le_zero.1 hf)]; exact h0
  | succ n ih =>
    intro f hf ht
    cases f with
    | nil => exact h0
    | cons c r =>
      simp only [List.length_cons] at hf
      by_cases hc : c = '\\'
      · subst hc
        cases r with
        | nil => exact absurd ht (by decide)
        | cons e r =>
          obtain ⟨he, ht⟩ := tame_esc e r ht
          simp only [List.length_cons] at hf
          exact h2 e r he (ih r (by omega) ht)
      · exact h1 c r hc (ih r (by omega) (tame_other c r hc ht))

/-- the dialect that fits an export -/
abbrev fitDialect (delim : Char) : Dialect := readDialect (some delim) (some '"') false

theorem fit_ok (delim : Char) (hdl : delim ≠ '"' ∧ delim ≠ '\\' ∧ isCrnl delim = false) : (fitDialect delim).Ok := by
  obtain ⟨h1, h2, h3⟩ := hdl
  constructor <;> simp_all [readDialect, isCrnl, Ne.symm]

/-- the characters of a text in quotes -/
theorem quoted_run (delim : Char) (f : List Char) (ht : tame f = true) : ∀ (acc : List Char) (fs : List (List Char)) (rest : List Char),
    acc.length + f.length ≤ fieldLimit →
    runText (fitDialect delim) ⟨.inQuotedField, acc, fs, false⟩ (f.flatMap (fun c => if c = '"' then [c, c] else [c]) ++ '"' :: rest) =
      runText (fitDialect delim) ⟨.quoteInQuotedField, acc ++ unescape f, fs, false⟩ rest := by
  refine tame_ind (P := fun f => ∀ (acc : List Char) (fs : List (List Char)) (rest : List Char),
    acc.length + f.length ≤ fieldLimit →
    runText (fitDialect delim) ⟨.inQuotedField, acc, fs, false⟩ (f.flatMap (fun c => if c = '"' then [c, c] else [c]) ++ '"' :: rest) =
      runText (fitDialect delim) ⟨.quoteInQuotedField, acc ++ unescape f, fs, false⟩ rest) ?_ ?_ ?_ f.length f (Nat.le_refl _) ht
  · intro acc fs rest _
    simp only [List.flatMap_nil, List.nil_append]
    rw [runText_step _ _ ⟨.quoteInQuotedField, acc, fs, false⟩ _ _ (by decide) (by simp [processChar, procQuoted, readDialect])]
    simp [unescape]
  · intro c r hc ih acc fs rest hlen
    simp only [List.length_cons] at hlen
    have hl : acc.length < fieldLimit := by omega
    rw [unescape_other c r hc, List.flatMap_cons]
    have hfin := ih (acc ++ [c]) fs rest (by simp only [List.length_append, List.length_cons, List.length_nil]; omega)
    rw [List.append_assoc] at hfin
    by_cases hq : c = '"'
    · subst hq
      rw [if_pos rfl]
      simp only [List.cons_append, List.nil_append]
      rw [runText_step _ _ ⟨.quoteInQuotedField, acc, fs, false⟩ _ _ (by decide) (by simp [processChar, procQuoted, readDialect]),
        runText_step _ _ ⟨.inQuotedField, acc ++ ['"'], fs, false⟩ _ _ (by decide)
          (by simp [processChar, procQuoteQuoted, readDialect, addChar_ok _ _ _ _ _ hl, bind, Except.bind])]
      exact hfin
    · rw [if_neg hq]
      simp only [List.cons_append, List.nil_append]
      have e1 : processChar (fitDialect delim) ⟨.inQuotedField, acc, fs, false⟩ (some c) = .ok ⟨.inQuotedField, acc ++ [c], fs, false⟩ := by
        simp [processChar, procQuoted, readDialect, hc, hq, addChar_ok _ _ _ _ _ hl]
      by_cases hn : c = '\n'
      · subst hn
        rw [runText_newline _ _ _ _ e1 rfl]
        exact hfin
      · rw [runText_step _ _ _ _ _ hn e1]
        exact hfin
  · intro e r he ih acc fs rest hlen
    simp only [List.length_cons] at hlen
    have hl : acc.length < fieldLimit := by omega
    rw [unescape_esc, List.flatMap_cons, List.flatMap_cons, if_neg (by decide), if_neg he]
    have hfin := ih (acc ++ [e]) fs rest (by simp only [List.length_append, List.length_cons, List.length_nil]; omega)
    rw [List.append_assoc] at hfin
    simp only [List.cons_append, List.nil_append]
    rw [runText_step _ _ ⟨.escapeInQuotedField, acc, fs, false⟩ _ _ (by decide) (by simp [processChar, procQuoted, readDialect])]
    have e1 : processChar (fitDialect delim) ⟨.escapeInQuotedField, acc, fs, false⟩ (some e) = .ok ⟨.inQuotedField, acc ++ [e], fs, false⟩ := by
      simp [processChar, procEscapeQuoted, addChar_ok _ _ _ _ _ hl, bind, Except.bind]
    by_cases hn : e = '\n'
    · subst hn
      rw [runText_newline _ _ _ _ e1 rfl]
      exact hfin
    · rw [runText_step _ _ _ _ _ hn e1]
      exact hfin

/-- the characters of a text without quotes, behind the first -/
theorem bare_run (delim : Char) (f : List Char) (ht : tame f = true) (hf : ∀ c ∈ f, isCrnl c = false ∧ c ≠ delim) : ∀ (acc : List Char) (fs : List (List Char)) (rest : List Char),
    acc.length + f.length ≤ fieldLimit →
    runText (fitDialect delim) ⟨.inField, acc, fs, false⟩ (f ++ rest) = runText (fitDialect delim) ⟨.inField, acc ++ unescape f, fs, false⟩ rest := by
  refine tame_ind (P := fun f => (∀ c ∈ f, isCrnl c = false ∧ c ≠ delim) → ∀ (acc : List Char) (fs : List (List Char)) (rest : List Char),
    acc.length + f.length ≤ fieldLimit →
    runText (fitDialect delim) ⟨.inField, acc, fs, false⟩ (f ++ rest) = runText (fitDialect delim) ⟨.inField, acc ++ unescape f, fs, false⟩ rest)
    ?_ ?_ ?_ f.length f (Nat.le_refl _) ht hf
  · intro _ acc fs rest _
    simp [unescape]
  · intro c r hc ih hf acc fs rest hlen
    obtain ⟨h1, h2⟩ := hf c (by simp)
    have hn : c ≠ '\n' := by intro e; simp [e, isCrnl] at h1
    simp only [List.length_cons] at hlen
    have hl : acc.length < fieldLimit := by omega
    rw [unescape_other c r hc, List.cons_append, runText_step _ _ ⟨.inField, acc ++ [c], fs, false⟩ _ _ hn
        (by simp [processChar, procInField, readDialect, h1, h2, hc, addChar_ok _ _ _ _ _ hl]),
      ih (fun c hc => hf c (by simp [hc])) (acc ++ [c]) fs rest (by simp only [List.length_append, List.length_cons, List.length_nil]; omega)]
    simp
  · intro e r he ih hf acc fs rest hlen
    obtain ⟨h1, h2⟩ := hf e (by simp)
    have hn : e ≠ '\n' := by intro e; simp [e, isCrnl] at h1
    simp only [List.length_cons] at hlen
    have hl : acc.length < fieldLimit := by omega
    rw [unescape_esc, List.cons_append, List.cons_append, runText_step _ _ ⟨.escapedChar, acc, fs, false⟩ _ _ (by decide)
        (by simp [processChar, procInField, readDialect, isCrnl]),
      runText_step _ _ ⟨.inField, acc ++ [e], fs, false⟩ _ _ hn
        (by simp [processChar, procEscaped, addNewline, h1, addChar_ok _ _ _ _ _ hl, bind, Except.bind]),
      ih (fun c hc => hf c (by simp [hc])) (acc ++ [e]) fs rest (by simp only [List.length_append, List.length_cons, List.length_nil]; omega)]
    simp

/-- a text as it stands in a file -/
def fileField (delim : Char) (r : List (List Char)) (f : List Char) : List Char := if needsQuotes delim f || decide (r = [[]]) then pyQuoted f else f

theorem file_field_run (delim : Char) (hdl : delim ≠ '"' ∧ delim ≠ '\\' ∧ isCrnl delim = false) (r : List (List Char)) (f : List Char) (ht : tame f = true)
    (hlen : f.length ≤ fieldLimit) (st : CsvState) (hst : st = .startRecord ∨ st = .startField) (fs : List (List Char)) :
    ∃ st', FieldDone (fitDialect delim) st' (unescape f) fs ∧
      ∀ rest, runText (fitDialect delim) ⟨st, [], fs, false⟩ (fileField delim r f ++ rest) = runText (fitDialect delim) ⟨st', unescape f, fs, false⟩ rest := by
  have hd := fit_ok delim hdl
  unfold fileField
  by_cases hq : (needsQuotes delim f || decide (r = [[]])) = true
  · rw [if_pos hq]
    refine ⟨.quoteInQuotedField, done_quoted _ hd _ fs, fun rest => ?_⟩
    simp only [pyQuoted, List.cons_append, List.append_assoc, List.nil_append]
    rw [runText_step _ _ ⟨.inQuotedField, [], fs, false⟩ _ _ (by decide)
        (by rcases hst with rfl | rfl <;> simp [processChar, procStart, readDialect, isCrnl]),
      quoted_run delim f ht [] fs rest (by simpa using hlen)]
    simp
  · rw [if_neg hq]
    have hnq : needsQuotes delim f = false := by
      by_contra h
      exact hq (by simp [Bool.not_eq_false _ ▸ h])
    have hf : ∀ c ∈ f, (isCrnl c = false ∧ c ≠ delim) ∧ c ≠ '"' := by
      intro c hc
      rw [needsQuotes, List.any_eq_false] at hnq
      have := hnq c hc
      simp only [Bool.or_eq_true, not_or, beq_iff_eq] at this
      exact ⟨⟨by simp [isCrnl, this.1.2, this.2], this.1.1.1⟩, this.1.1.2⟩
    cases f with
    | nil => exact ⟨st, done_start _ hd st hst fs, fun rest => rfl⟩
    | cons c f =>
      refine ⟨.inField, done_inField _ hd _ fs, fun rest => ?_⟩
      simp only [List.length_cons] at hlen
      obtain ⟨⟨h1, h2⟩, h3⟩ := hf c (by simp)
      have hn : c ≠ '\n' := by intro e; simp [e, isCrnl] at h1
      by_cases hc : c = '\\'
      · subst hc
        cases f with
        | nil => exact absurd ht (by decide)
        | cons e f =>
          obtain ⟨-, ht⟩ := tame_esc e f ht
          obtain ⟨⟨h1, h2⟩, h3⟩ := hf e (by simp)
          have hn : e ≠ '\n' := by intro e; simp [e, isCrnl] at h1
          simp only [List.length_cons] at hlen
          rw [unescape_esc, List.cons_append, List.cons_append, runText_step _ _ ⟨.escapedChar, [], fs, false⟩ _ _ (by decide)
              (by rcases hst with rfl | rfl <;> simp [processChar, procStart, readDialect, isCrnl]),
            runText_step _ _ ⟨.inField, [e], fs, false⟩ _ _ hn
              (by simp [processChar, procEscaped, addNewline, h1, addChar_ok _ _ _ _ _ (show ([] : List Char).length < fieldLimit by decide), bind, Except.bind]),
            bare_run delim f ht (fun c hc => (hf c (by simp [hc])).1) [e] fs rest (by simp only [List.length_cons, List.length_nil]; omega)]
          simp
      · rw [unescape_other c f hc, List.cons_append, runText_step _ _ ⟨.inField, [c], fs, false⟩ _ _ hn
            (by rcases hst with rfl | rfl <;>
                  simp [processChar, procStart, readDialect, h1, h2, h3, hc, addChar_ok _ _ _ _ _ (show ([] : List Char).length < fieldLimit by decide), bind, Except.bind]),
          bare_run delim f (tame_other c f hc ht) (fun c hc => (hf c (by simp [hc])).1) [c] fs rest (by simp only [List.length_cons, List.length_nil]; omega)]
        simp

/-- a row as it stands in a file, without its line end -/
def fileRow (delim : Char) (q : List (List Char)) : List (List Char) → List Char
  | [] => []
  | [f] => fileField delim q f
  | f :: g :: r => fileField delim q f ++ delim :: fileRow delim q (g :: r)

theorem fileRow_join (delim : Char) (q : List (List Char)) (h : q ≠ [[]]) (r : List (List Char)) : fileRow delim q r = pyJoin delim r := by
  have hf : ∀ f, fileField delim q f = pyField delim f := by
    intro f; unfold fileField pyField; simp [h]
  induction r with
  | nil => rfl
  | cons f r ih =>
    cases r with
    | nil => simp only [fileRow, pyJoin, hf]
    | cons g r => simp only [fileRow, pyJoin, hf]; rw [ih]

theorem pyWriteRow_file (delim : Char) (r : List (List Char)) : pyWriteRow delim r = fileRow delim r r ++ ['\r', '\n'] := by
  unfold pyWriteRow
  by_cases h : r = [[]]
  · subst h; simp [fileRow, fileField, pyQuoted]
  · rw [if_neg h, fileRow_join delim r h]

theorem file_row_run (delim : Char) (hdl : delim ≠ '"' ∧ delim ≠ '\\' ∧ isCrnl delim = false) (q : List (List Char)) : ∀ (r : List (List Char)), r ≠ [] →
    (∀ f ∈ r, tame f = true ∧ f.length ≤ fieldLimit) →
    ∀ (st : CsvState), st = .startRecord ∨ st = .startField → ∀ (fs : List (List Char)) (rest : List Char) (recs : List (List (List Char))),
    runText (fitDialect delim) {} rest = .ok recs →
    runText (fitDialect delim) ⟨st, [], fs, false⟩ (fileRow delim q r ++ '\n' :: rest) = .ok ((fs ++ r.map backText) :: recs) := by
  have hsave : ∀ f, savedField (fitDialect delim) (unescape f) = backText f := by
    intro f; simp [savedField, readDialect, escapeBlanks, backText]
  intro r
  induction r with
  | nil => intro h; exact absurd rfl h
  | cons f r ih =>
    intro _ hok st hst fs rest recs hr
    obtain ⟨st', hdone, hrun⟩ := file_field_run delim hdl q f (hok f (by simp)).1 (hok f (by simp)).2 st hst fs
    have hnl := hdone.nl
    have hdm := hdone.delim
    rw [hsave] at hnl hdm
    cases r with
    | nil =>
      simp only [fileRow]
      rw [hrun]
      simp only [runText, hnl, bind, Except.bind, if_true]
      simp only [processChar, procEat, if_true]
      rw [show (⟨.startRecord, [], [], false⟩ : CsvSt) = {} from rfl, hr]
      rfl
    | cons g r =>
      simp only [fileRow, List.append_assoc, List.cons_append]
      have hn : delim ≠ '\n' := by intro e; have := hdl.2.2; simp [e, isCrnl] at this
      rw [hrun, runText_step _ _ _ _ _ hn hdm,
        ih (by simp) (fun f hf => hok f (by simp only [List.mem_cons] at hf ⊢; exact Or.inr hf)) .startField (Or.inr rfl) _ rest recs hr]
      simp

theorem file_rows_run (delim : Char) (hdl : delim ≠ '"' ∧ delim ≠ '\\' ∧ isCrnl delim = false) (rows : List (List (List Char)))
    (h : ∀ r ∈ rows, r ≠ [] ∧ ∀ f ∈ r, tame f = true ∧ f.length ≤ fieldLimit) :
    runText (fitDialect delim) {} (rows.flatMap fun r => fileRow delim r r ++ ['\n']) = .ok (rows.map fun r => r.map backText) := by
  induction rows with
  | nil => rfl
  | cons r rows ih =>
    have h1 := ih fun r hr => h r (by simp [hr])
    obtain ⟨hne, hok⟩ := h r (by simp)
    have := file_row_run delim hdl r r hne hok .startRecord (Or.inl rfl) [] _ _ h1
    simpa using this

/-- a row that ends in CR LF has the same lines as one that ends in LF -/
theorem readLines_row (a rest : List Char) : ∀ cur : List Char, '\r' ∉ cur → '\r' ∉ a →
    readLines cur (a ++ '\r' :: '\n' :: rest) = readLines cur (a ++ '\n' :: rest) := by
  have hno : ∀ cur : List Char, '\r' ∉ cur → dropCr cur = cur := by
    intro cur hc
    unfold dropCr
    rw [if_neg]
    intro h
    exact hc (List.mem_of_getLast? h)
  induction a with
  | nil =>
    intro cur hc _
    simp only [List.nil_append, readLines, if_true]
    rw [if_neg (by decide), hno cur hc]
    congr 1
    unfold dropCr
    simp
  | cons c a ih =>
    intro cur hc ha
    simp only [List.mem_cons, not_or] at ha
    simp only [List.cons_append, readLines]
    by_cases hn : c = '\n'
    · rw [if_pos hn, if_pos hn, ih [] (by simp) ha.2]
    · rw [if_neg hn, if_neg hn, ih (cur ++ [c]) (by simp [hc, ha.1]) ha.2]

theorem fileRow_noCr (delim : Char) (hdl : isCrnl delim = false) (q : List (List Char)) : ∀ r : List (List Char), (∀ f ∈ r, '\r' ∉ f) → '\r' ∉ fileRow delim q r := by
  have hd : '\r' ≠ delim := by rintro rfl; simp [isCrnl] at hdl
  have hf : ∀ f : List Char, '\r' ∉ f → '\r' ∉ fileField delim q f := by
    intro f hf
    unfold fileField
    split
    · unfold pyQuoted
      simp only [List.cons_append, List.mem_cons, List.mem_append, List.mem_flatMap, List.not_mem_nil, or_false, not_or]
      refine ⟨by decide, ?_, by decide⟩
      rintro ⟨c, hc, h⟩
      have : '\r' = c := by
        split at h
        · simpa using h
        · simpa using h
      exact hf (this ▸ hc)
    · exact hf
  intro r
  induction r with
  | nil => intro _; simp [fileRow]
  | cons f r ih =>
    intro h
    cases r with
    | nil => exact hf f (h f (by simp))
    | cons g r =>
      simp only [fileRow, List.mem_append, List.mem_cons, not_or]
      exact ⟨hf f (h f (by simp)), hd, ih fun f hf => h f (List.mem_cons_of_mem _ hf)⟩

theorem readLines_end (a : List Char) : ∀ cur : List Char, ∃ ls, ∀ rest, readLines cur (a ++ '\n' :: rest) = ls ++ readLines [] rest := by
  induction a with
  | nil => intro cur; exact ⟨[dropCr cur], fun rest => by simp [readLines]⟩
  | cons c a ih =>
    intro cur
    by_cases hn : c = '\n'
    · obtain ⟨ls, h⟩ := ih []
      exact ⟨dropCr cur :: ls, fun rest => by simp [readLines, hn, h]⟩
    · obtain ⟨ls, h⟩ := ih (cur ++ [c])
      exact ⟨ls, fun rest => by simp [readLines, hn, h]⟩

theorem readLines_rows (delim : Char) (hdl : isCrnl delim = false) (rows : List (List (List Char))) (h : ∀ r ∈ rows, ∀ f ∈ r, '\r' ∉ f) :
    readLines [] (rows.flatMap fun r => pyWriteRow delim r) = readLines [] (rows.flatMap fun r => fileRow delim r r ++ ['\n']) := by
  induction rows with
  | nil => rfl
  | cons r rows ih =>
    rw [List.flatMap_cons, List.flatMap_cons, pyWriteRow_file, List.append_assoc, List.append_assoc]
    simp only [List.cons_append, List.nil_append]
    rw [readLines_row _ _ [] (by simp) (fileRow_noCr delim hdl r r (h r (by simp)))]
    obtain ⟨ls, e⟩ := readLines_end (fileRow delim r r) []
    rw [e, e, ih fun r hr => h r (by simp [hr])]

/-- what is read from a file that was written -/
theorem parse_back (delim : Char) (hdl : delim ≠ '"' ∧ delim ≠ '\\' ∧ isCrnl delim = false) (rows : List (List (List Char)))
    (h : ∀ r ∈ rows, r ≠ [] ∧ ∀ f ∈ r, tame f = true ∧ f.length ≤ fieldLimit ∧ '\r' ∉ f) :
    parseLines (fitDialect delim) {} (readLines [] (rows.flatMap fun r => pyWriteRow delim r)) = .ok (rows.map fun r => r.map backText) := by
  rw [readLines_rows delim hdl.2.2 rows fun r hr f hf => ((h r hr).2 f hf).2.2]
  refine parseLines_run _ _ [] {} {} _ (by simp) ?_ rfl (fun _ => rfl) ?_
    (file_rows_run delim hdl rows fun r hr => ⟨(h r hr).1, fun f hf => ⟨((h r hr).2 f hf).1, ((h r hr).2 f hf).2.1⟩⟩)
  · rintro c hc rfl
    obtain ⟨r, hr, hc⟩ := List.mem_flatMap.1 hc
    rcases List.mem_append.1 hc with hc | hc
    · exact fileRow_noCr delim hdl.2.2 r r (fun f hf => ((h r hr).2 f hf).2.2) hc
    · simp at hc
  · intro hne
    rcases List.eq_nil_or_concat rows with rfl | ⟨l, r, rfl⟩
    · exact absurd rfl hne
    · simp only [List.concat_eq_append, List.flatMap_append, List.flatMap_cons, List.flatMap_nil, List.append_nil, ← List.append_assoc]
      simp

theorem backText_esc (e : Char) (r : List Char) (h1 : e ≠ '\n') (h2 : e ≠ '\t') : backText ('\\' :: e :: r) = e :: backText r := by
  simp [backText, unescape_esc, h1, h2]

theorem backText_blank (e x : Char) (r : List Char) (he : e = '\n' ∧ x = 'n' ∨ e = '\t' ∧ x = 't') : backText ('\\' :: e :: r) = '\\' :: x :: backText r := by
  rcases he with ⟨rfl, rfl⟩ | ⟨rfl, rfl⟩ <;> simp [backText, unescape_esc]

theorem backText_other (c : Char) (r : List Char) (h : c ≠ '\\') (h1 : c ≠ '\n') (h2 : c ≠ '\t') : backText (c :: r) = c :: backText r := by
  simp [backText, unescape_other c r h, h1, h2]

theorem backText_nl (c x : Char) (r : List Char) (hc : c = '\n' ∧ x = 'n' ∨ c = '\t' ∧ x = 't') : backText (c :: r) = '\\' :: x :: backText r := by
  rcases hc with ⟨rfl, rfl⟩ | ⟨rfl, rfl⟩
  · simp [backText, unescape_other '\n' r (by decide)]
  · simp [backText, unescape_other '\t' r (by decide)]

theorem blank_cases (c : Char) : (∃ x, (c = '\n' ∧ x = 'n' ∨ c = '\t' ∧ x = 't')) ∨ c ≠ '\n' ∧ c ≠ '\t' := by
  by_cases h1 : c = '\n'
  · exact .inl ⟨_, .inl ⟨h1, rfl⟩⟩
  · by_cases h2 : c = '\t'
    · exact .inl ⟨_, .inr ⟨h2, rfl⟩⟩
    · exact .inr ⟨h1, h2⟩

/-- no text comes back with more backslashes at its start -/
theorem backText_more (f : List Char) (ht : tame f = true) : ∀ k, backText f ≠ List.replicate (k + 1) '\\' ++ f := by
  refine tame_ind (P := fun f => ∀ k, backText f ≠ List.replicate (k + 1) '\\' ++ f) ?_ ?_ ?_ f.length f (Nat.le_refl _) ht
  · intro k h
    simp [backText, unescape] at h
  · intro c r hc ih k h
    rcases blank_cases c with ⟨x, hx⟩ | ⟨h1, h2⟩
    · rw [backText_nl c x r hx] at h
      cases k with
      | zero =>
        simp only [List.replicate, List.cons_append, List.nil_append, List.cons.injEq] at h
        rcases hx with ⟨rfl, rfl⟩ | ⟨rfl, rfl⟩ <;> exact absurd h.2.1 (by decide)
      | succ k =>
        simp only [List.replicate_succ, List.cons_append, List.cons.injEq] at h
        rcases hx with ⟨rfl, rfl⟩ | ⟨rfl, rfl⟩ <;> exact absurd h.2.1 (by decide)
    · rw [backText_other c r hc h1 h2] at h
      simp only [List.replicate_succ, List.cons_append, List.cons.injEq] at h
      exact hc h.1
  · intro e r _ ih k h
    rcases blank_cases e with ⟨x, hx⟩ | ⟨h1, h2⟩
    · rw [backText_blank e x r hx] at h
      cases k with
      | zero =>
        simp only [List.replicate, List.cons_append, List.nil_append, List.cons.injEq] at h
        rcases hx with ⟨rfl, rfl⟩ | ⟨rfl, rfl⟩ <;> exact absurd h.2.1 (by decide)
      | succ k =>
        simp only [List.replicate_succ, List.cons_append, List.cons.injEq] at h
        rcases hx with ⟨rfl, rfl⟩ | ⟨rfl, rfl⟩ <;> exact absurd h.2.1 (by decide)
    · rw [backText_esc e r h1 h2, List.replicate_succ, List.cons_append, List.cons.injEq] at h
      obtain ⟨rfl, h⟩ := h
      refine ih (k + 1) (h.trans ?_)
      have := List.replicate_append_replicate (n := k) (m := 2) (a := '\\')
      rw [show k + 1 + 1 = k + 2 from rfl, ← this]
      simp

/-- a text comes back as it was exactly if it has no line feed, tab or backslash -/
theorem backText_fixed (f : List Char) (ht : tame f = true) : backText f = f ↔ ∀ c ∈ f, c ≠ '\n' ∧ c ≠ '\t' ∧ c ≠ '\\' := by
  refine tame_ind (P := fun f => tame f = true → (backText f = f ↔ ∀ c ∈ f, c ≠ '\n' ∧ c ≠ '\t' ∧ c ≠ '\\')) ?_ ?_ ?_ f.length f (Nat.le_refl _) ht ht
  · simp [backText, unescape]
  · intro c r hc ih htc
    rcases blank_cases c with ⟨x, hx⟩ | ⟨h1, h2⟩
    · rw [backText_nl c x r hx]
      constructor
      · intro h
        exact absurd (List.cons.inj h).1.symm hc
      · intro h
        have := h c (by simp)
        rcases hx with ⟨rfl, -⟩ | ⟨rfl, -⟩
        · exact absurd rfl this.1
        · exact absurd rfl this.2.1
    · rw [backText_other c r hc h1 h2, List.cons.injEq]
      simp only [List.mem_cons, forall_eq_or_imp]
      rw [ih (tame_other c r hc htc)]
      exact ⟨fun h => ⟨⟨h1, h2, hc⟩, h.2⟩, fun h => ⟨trivial, h.2⟩⟩
  · intro e r he ih hte
    constructor
    · intro h
      exfalso
      rcases blank_cases e with ⟨x, hx⟩ | ⟨h1, h2⟩
      · rw [backText_blank e x r hx] at h
        have := (List.cons.inj (List.cons.inj h).2).1
        rcases hx with ⟨rfl, rfl⟩ | ⟨rfl, rfl⟩ <;> exact absurd this (by decide)
      · rw [backText_esc e r h1 h2] at h
        have h' := (List.cons.inj h).1
        subst h'
        have h3 := (List.cons.inj h).2
        have htr : tame r = true := (tame_esc _ r hte).2
        exact backText_more r htr 0 (by simpa using h3)
    · intro h
      exact absurd rfl (h '\\' (by simp)).2.2

variable {α : Type}

/-- **C75**, what every text comes back as: an exported table with plain names, imported with its delimiter and quotes and without stripping, has the same
names; of every text the backslashes are dropped, and line feeds and tabs become a backslash and a letter.  Missing: texts with CR, texts in which a backslash
is the last character or stands before a quote, and texts that are too long -/
theorem C75_effect (mk : List Char → Nat → List Char) (num : Nat → List Char) (txt : α → List Char) (nul : α) (delim : Char)
    (hdl : delim ≠ '"' ∧ delim ≠ '\\' ∧ isCrnl delim = false)
    (ps : Nat) (hps : 0 < ps) (t : Tbl (List Char) α) (hne : t ≠ []) (hn : (t.map (·.1)).Nodup) (hnames : ∀ c ∈ t, Plain c.1)
    (hvals : ∀ c ∈ t, ∀ i < tblLen t, let f := txt ((colIter c.2).getD i nul); tame f = true ∧ f.length ≤ 131072 ∧ '\r' ∉ f) :
    ∃ text, textWriter txt nul delim t = .ok text ∧
      ComesBack (fun v => backText (txt v)) nul t (fromFile mk num (some delim) (some '"') false ps text) := by
  let rows := (List.range (tblLen t)).map fun i => t.map fun c => (colIter c.2).getD i nul
  let all : List (List (List Char)) := t.map (·.1) :: rows.map fun r => r.map txt
  have hplain : ∀ f : List Char, (∀ c ∈ f, c ≠ '\\') → tame f = true := by
    intro f
    induction f with
    | nil => intro _; rfl
    | cons c r ih =>
      intro h
      have hc := h c (by simp)
      cases r with
      | nil => simp [tame, hc]
      | cons e r => rw [tame, if_neg hc]; exact ih fun c hc => h c (List.mem_cons_of_mem _ hc)
  have hpt : ∀ f, Plain f → tame f = true ∧ f.length ≤ fieldLimit ∧ '\r' ∉ f := by
    intro f hf
    refine ⟨hplain f fun c hc => (hf.2 c hc).2.2, hf.1, fun hc => ?_⟩
    have := (hf.2 _ hc).1
    simp [isCrnl] at this
  have hall : ∀ r ∈ all, r ≠ [] ∧ ∀ f ∈ r, tame f = true ∧ f.length ≤ fieldLimit ∧ '\r' ∉ f := by
    intro r hr
    rcases List.mem_cons.1 hr with rfl | hr
    · refine ⟨by simpa using hne, ?_⟩
      intro f hf
      obtain ⟨c, hc, rfl⟩ := List.mem_map.1 hf
      exact hpt _ (hnames c hc)
    · obtain ⟨r', hr', rfl⟩ := List.mem_map.1 hr
      obtain ⟨i, hi, rfl⟩ := List.mem_map.1 hr'
      refine ⟨by simpa using hne, ?_⟩
      intro f hf
      obtain ⟨v, hv, rfl⟩ := List.mem_map.1 hf
      obtain ⟨c, hc, rfl⟩ := List.mem_map.1 hv
      exact hvals c hc i (List.mem_range.1 hi)
  have htext : textWriter txt nul delim t = .ok (all.flatMap fun r => pyWriteRow delim r) := by
    rw [textWriter, C15_rows nul t]
    simp [bind, Except.bind, all, rows, List.flatMap_map]
  have hparse := parse_back delim hdl all hall
  have hbn : ∀ f, Plain f → backText f = f := by
    intro f hf
    rw [backText_fixed f (hpt f hf).1]
    intro c hc
    obtain ⟨h1, h2, h3⟩ := hf.2 c hc
    refine ⟨?_, h2, h3⟩
    rintro rfl
    simp [isCrnl] at h1
  have hb : all.map (fun r => r.map backText) = t.map (·.1) :: rows.map fun r => r.map fun v => backText (txt v) := by
    simp only [all, List.map_cons, List.map_map]
    congr 1
    · apply List.map_congr_left
      intro c hc
      exact hbn _ (hnames c hc)
    · apply List.map_congr_left
      intro r _
      simp
  rw [hb] at hparse
  have hstrip : (t.map (·.1)).map stripEscape = t.map (·.1) := by
    refine (List.map_congr_left (g := id) ?_).trans (List.map_id _)
    intro f hf
    obtain ⟨c, hc, rfl⟩ := List.mem_map.1 hf
    exact stripEscape_plain _ (hnames c hc).2
  let back : List (List (List Char)) := t.map (·.1) :: rows.map fun r => r.map fun v => backText (txt v)
  have hfirst : (back.getD 0 []).map stripEscape = t.map (·.1) := hstrip
  have hfn : fieldNames mk num true (t.map (·.1)) = t.map (·.1) := by
    rw [fieldNames, if_pos rfl, uniqueNames_nodup mk _ hn]
  obtain ⟨table, h1, h2, h3, h4⟩ := C38_import mk num (fitDialect delim) {} ps hps _ back hparse (by simp [back]) (by intro c hc; exact hc)
  simp only [hfirst, hfn, Option.getD_none] at h2 h3 h4
  rw [uniqueNames_nodup mk _ hn] at h2
  refine ⟨_, htext, table, h1, h2, ?_⟩
  intro k col c hk hc
  have hkl : k < t.length := (List.getElem?_eq_some_iff.1 hc).1
  obtain ⟨h5, -⟩ := h4 k (by simpa using hkl) col hk
  rw [h5]
  have hidx : (t.map (·.1)).idxOf ((t.map (·.1)).getD k []) = k := by
    have hk' : k < (t.map (·.1)).length := by simpa using hkl
    rw [List.getD_eq_getElem?_getD, List.getElem?_eq_getElem hk', Option.getD_some]
    exact hn.idxOf_getElem k hk'
  rw [hidx]
  have hreq : requestedRows {} back = rows.map fun r => r.map fun v => backText (txt v) := by
    simp [requestedRows, back, checkSkip]
  rw [hreq]
  simp only [rows, List.map_map]
  apply List.map_congr_left
  intro i _
  simp [List.getD_eq_getElem?_getD, hc]

/-- **C75**, exactly which tables come back: of the tables of `C75_effect`, those in which no text has a line feed, a tab or a backslash -/
theorem C75_exact (mk : List Char → Nat → List Char) (num : Nat → List Char) (txt : α → List Char) (nul : α) (delim : Char)
    (hdl : delim ≠ '"' ∧ delim ≠ '\\' ∧ isCrnl delim = false)
    (ps : Nat) (hps : 0 < ps) (t : Tbl (List Char) α) (hne : t ≠ []) (hn : (t.map (·.1)).Nodup) (hnames : ∀ c ∈ t, Plain c.1)
    (hvals : ∀ c ∈ t, ∀ i < tblLen t, let f := txt ((colIter c.2).getD i nul); tame f = true ∧ f.length ≤ 131072 ∧ '\r' ∉ f) :
    ∃ text, textWriter txt nul delim t = .ok text ∧
      (ComesBack txt nul t (fromFile mk num (some delim) (some '"') false ps text) ↔
        ∀ c ∈ t, ∀ i < tblLen t, ∀ x ∈ txt ((colIter c.2).getD i nul), x ≠ '\n' ∧ x ≠ '\t' ∧ x ≠ '\\') := by
  obtain ⟨text, htext, table, e, hnm, hcols⟩ := C75_effect mk num txt nul delim hdl ps hps t hne hn hnames hvals
  refine ⟨text, htext, ?_⟩
  constructor
  · rintro ⟨table', e', -, hcols'⟩ c hc i hi
    rw [e] at e'
    cases e'
    obtain ⟨k, hk, hkc⟩ := List.getElem_of_mem hc
    have hkt : k < table.length := by
      have := congrArg List.length hnm
      simp only [List.length_map] at this
      omega
    have hc' : t[k]? = some c := by rw [List.getElem?_eq_getElem hk, hkc]
    have h1 := hcols k _ c (List.getElem?_eq_getElem hkt) hc'
    have h2 := hcols' k _ c (List.getElem?_eq_getElem hkt) hc'
    rw [h1] at h2
    have h3 := List.map_inj_left.1 h2 i (List.mem_range.2 hi)
    exact (backText_fixed _ (hvals c hc i hi).1).1 h3
  · intro H
    refine ⟨table, e, hnm, ?_⟩
    intro k col c hk hc
    rw [hcols k col c hk hc]
    apply List.map_congr_left
    intro i hi
    have hcm := List.mem_of_getElem? hc
    exact (backText_fixed _ (hvals c hcm i (List.mem_range.1 hi)).1).2 (H c hcm i (List.mem_range.1 hi))

/-- a table that meets the assumptions and does not come back: a backslash, a line feed, a quote -/
example : (∀ c ∈ ([(['x'], [[['a', '\\', 'b'], ['a', '\n', '"']]])] : Tbl (List Char) (List Char)), ∀ i < 2,
    let f := (colIter c.2).getD i []; tame f = true ∧ f.length ≤ 131072 ∧ '\r' ∉ f) ∧
    backText ['a', '\\', 'b'] = ['a', 'b'] ∧ backText ['a', '\n', '"'] = ['a', '\\', 'n', '"'] := by
  decide +kernel

/-- **C75** the assumption is needed: a backslash at the end of a text takes the delimiter into the text, and the last column is lost -/
theorem C75_tame_fails : exportImport ',' (some ',') (some '"') false [(['x'], [[['a', '\\']]]), (['y'], [[['b']]])] =
    .ok [(['x'], [['a', ',', 'b']]), (['y'], [[]])] := by decide +kernel

end Tablite
