import Verif.Model.Csv
/-!
# C37: CSV parsing inverts CSV quoting
-/

namespace Tablite

/-! ## the writer (specification) -/

/-- a field in quotes: quote characters doubled, escape characters escaped -/
def quoteField (d : Dialect) (f : List Char) : List Char :=
  d.quotechar :: f.flatMap (fun c => if c = d.quotechar then [c, c] else if c = d.escapechar then [c, c] else [c]) ++ [d.quotechar]

/-- a field to be written with (`true`) or without quotes -/
def writeField (d : Dialect) (f : Bool × List Char) : List Char := if f.1 then quoteField d f.2 else f.2

/-- a line -/
def writeRow (d : Dialect) : List (Bool × List Char) → List Char
  | [] => []
  | [f] => writeField d f
  | f :: g :: r => writeField d f ++ d.delimiter :: writeRow d (g :: r)

/-- a file -/
def writeRows (d : Dialect) (rows : List (List (Bool × List Char))) : List Char := rows.flatMap fun r => writeRow d r ++ ['\n']

/-- the characters of the dialect can be told apart -/
structure Dialect.Ok (d : Dialect) : Prop where
  doublequote : d.doublequote = true
  quoteEsc : d.quotechar ≠ d.escapechar
  quoteDelim : d.quotechar ≠ d.delimiter
  quoteNl : isCrnl d.quotechar = false
  delimNl : isCrnl d.delimiter = false
  escapeNl : isCrnl d.escapechar = false
  delimEsc : d.delimiter ≠ d.escapechar
  delimSpace : d.delimiter = ' ' → d.skipinitialspace = false

/-- a field that can be written without quotes -/
structure PlainOk (d : Dialect) (f : List Char) : Prop where
  chars : ∀ c ∈ f, isCrnl c = false ∧ c ≠ d.escapechar ∧ c ≠ d.delimiter
  head : ∀ c, f.head? = some c → c ≠ d.quotechar ∧ (c = ' ' → d.skipinitialspace = false)
  numeric : d.quoting = .nonnumeric → f = []

/-- a field that can be written -/
def FieldOk (d : Dialect) (f : Bool × List Char) : Prop := f.2.length ≤ fieldLimit ∧ (f.1 = false → PlainOk d f.2) ∧ (f.1 = true → d.quoting ≠ .none)

/-! ## characters instead of lines -/

/-- the parser on a text: a newline is followed by the end-of-line signal -/
def runText (d : Dialect) : CsvSt → List Char → Except Err (List (List (List Char)))
  | _, [] => .ok []
  | s, c :: rest => do
    let s ← processChar d s (some c)
    if c = '\n' then do
      let s ← processChar d s none
      if s.state = .startRecord then do
        let more ← runText d { s with fields := [] } rest
        .ok (s.fields :: more)
      else runText d s rest
    else runText d s rest

theorem parseLines_run (d : Dialect) (text : List Char) : ∀ (cur : List Char) (s0 s : CsvSt) (recs : List (List (List Char))),
    (∀ c ∈ cur, c ≠ '\r') → (∀ c ∈ text, c ≠ '\r') → cur.foldlM (fun s c => processChar d s (some c)) s0 = .ok s → (text = [] → cur = []) → (∀ h : text ≠ [], text.getLast h = '\n') →
    runText d s text = .ok recs → parseLines d s0 (readLines cur text) = .ok recs := by
  induction text with
  | nil =>
    intro cur s0 s recs _ _ _ hc _ hr
    rw [hc rfl]
    simpa [readLines, parseLines, runText] using hr
  | cons c rest ih =>
    intro cur s0 s recs hcr htr hf _ hl hr
    have htr' : ∀ c ∈ rest, c ≠ '\r' := fun c hc => htr c (by simp [hc])
    have hdrop : dropCr cur = cur := by
      unfold dropCr
      rw [if_neg]
      intro e
      exact hcr _ (List.mem_of_getLast? e) rfl
    have hrest : ∀ h : rest ≠ [], rest.getLast h = '\n' := by
      intro h
      have := hl (by simp)
      rwa [List.getLast_cons h] at this
    simp only [runText] at hr
    by_cases hc : c = '\n'
    · subst hc
      simp only [readLines, if_true, parseLines, hdrop]
      rw [List.foldlM_append, hf]
      simp only [List.foldlM_cons, List.foldlM_nil, bind, Except.bind, pure, Except.pure, if_true] at hr ⊢
      cases h1 : processChar d s (some '\n') with
      | error e => rw [h1] at hr; simp at hr
      | ok s1 =>
        rw [h1] at hr
        dsimp only at hr ⊢
        cases h2 : processChar d s1 none with
        | error e => rw [h2] at hr; simp at hr
        | ok s2 =>
          rw [h2] at hr
          dsimp only at hr ⊢
          by_cases h3 : s2.state = .startRecord
          · rw [if_pos h3] at hr ⊢
            cases h4 : runText d { s2 with fields := [] } rest with
            | error e => rw [h4] at hr; simp at hr
            | ok more =>
              rw [h4] at hr
              rw [ih [] { s2 with fields := [] } { s2 with fields := [] } more (by simp) htr' rfl (fun _ => rfl) hrest h4]
              exact hr
          · rw [if_neg h3] at hr ⊢
            exact ih [] s2 s2 recs (by simp) htr' rfl (fun _ => rfl) hrest hr
    · simp only [readLines, if_neg hc] at hr ⊢
      simp only [bind, Except.bind] at hr
      cases h1 : processChar d s (some c) with
      | error e => rw [h1] at hr; simp at hr
      | ok s1 =>
        rw [h1] at hr
        refine ih (cur ++ [c]) s0 s1 recs ?_ htr' ?_ ?_ hrest hr
        · intro x hx
          rcases List.mem_append.1 hx with hx | hx
          · exact hcr x hx
          · rw [List.mem_singleton.1 hx]
            exact htr c (by simp)
        · rw [List.foldlM_append, hf]
          simp only [List.foldlM_cons, List.foldlM_nil, bind, Except.bind, pure, Except.pure, h1]
        · intro he
          subst he
          exact absurd (hl (by simp)) (by simpa using hc)

/-! ## reading one field -/

theorem runText_step (d : Dialect) (s s' : CsvSt) (c : Char) (rest : List Char) (hc : c ≠ '\n') (h : processChar d s (some c) = .ok s') :
    runText d s (c :: rest) = runText d s' rest := by
  simp only [runText, h, if_neg hc, bind, Except.bind]

/-- a newline inside quotes -/
theorem runText_newline (d : Dialect) (s s' : CsvSt) (rest : List Char) (h : processChar d s (some '\n') = .ok s') (hs : s'.state = .inQuotedField) :
    runText d s ('\n' :: rest) = runText d s' rest := by
  simp only [runText, h, if_true, bind, Except.bind]
  have : processChar d s' none = .ok s' := by simp [processChar, hs, procQuoted]
  rw [this]
  dsimp only
  rw [if_neg (by rw [hs]; decide)]

theorem addChar_ok (st : CsvState) (acc : List Char) (fs : List (List Char)) (b : Bool) (c : Char) (h : acc.length < fieldLimit) :
    addChar ⟨st, acc, fs, b⟩ c = .ok ⟨st, acc ++ [c], fs, b⟩ := by
  unfold addChar; dsimp only; rw [if_neg (by omega)]

theorem quoted_body (d : Dialect) (hd : d.Ok) (hqn : d.quoting ≠ .none) (f : List Char) : ∀ (acc : List Char) (fs : List (List Char)) (rest : List Char),
    acc.length + f.length ≤ fieldLimit →
    runText d ⟨.inQuotedField, acc, fs, false⟩
        (f.flatMap (fun c => if c = d.quotechar then [c, c] else if c = d.escapechar then [c, c] else [c]) ++ d.quotechar :: rest) =
      runText d ⟨.quoteInQuotedField, acc ++ f, fs, false⟩ rest := by
  have hq : d.quotechar ≠ '\n' := by intro e; have := hd.quoteNl; simp [e, isCrnl] at this
  have hqt : (d.quoting != .none) = true := by simpa using hqn
  induction f with
  | nil =>
    intro acc fs rest _
    simp only [List.flatMap_nil, List.nil_append, List.append_nil]
    apply runText_step d _ _ _ _ hq
    simp only [processChar, procQuoted, beq_iff_eq, hd.quoteEsc, if_false, beq_self_eq_true, hqt, Bool.true_and, if_true, hd.doublequote]
  | cons c f ih =>
    intro acc fs rest hlen
    have hl : acc.length < fieldLimit := by simp only [List.length_cons] at hlen; omega
    have hlen' : (acc ++ [c]).length + f.length ≤ fieldLimit := by simp only [List.length_append, List.length_cons, List.length_nil] at hlen ⊢; omega
    have hfin : ∀ r, runText d ⟨.inQuotedField, acc ++ [c], fs, false⟩ (f.flatMap (fun c => if c = d.quotechar then [c, c] else if c = d.escapechar then [c, c] else [c]) ++ d.quotechar :: r) =
        runText d ⟨.quoteInQuotedField, acc ++ c :: f, fs, false⟩ r := by
      intro r
      rw [ih (acc ++ [c]) fs r hlen']
      simp
    rw [List.flatMap_cons]
    by_cases h1 : c = d.quotechar
    · subst h1
      simp only [if_true, List.cons_append, List.nil_append]
      rw [runText_step d _ ⟨.quoteInQuotedField, acc, fs, false⟩ _ _ hq
          (by simp only [processChar, procQuoted, beq_iff_eq, hd.quoteEsc, if_false, beq_self_eq_true, hqt, Bool.true_and, if_true, hd.doublequote]),
        runText_step d _ ⟨.inQuotedField, acc ++ [d.quotechar], fs, false⟩ _ _ hq
          (by simp only [processChar, procQuoteQuoted, Option.getD_some, beq_self_eq_true, hqt, Bool.true_and, if_true, addChar_ok _ _ _ _ _ hl, bind, Except.bind])]
      exact hfin rest
    · simp only [if_neg h1]
      by_cases h2 : c = d.escapechar
      · rw [if_pos h2]
        simp only [List.cons_append, List.nil_append]
        have e1 : processChar d ⟨.inQuotedField, acc, fs, false⟩ (some c) = .ok ⟨.escapeInQuotedField, acc, fs, false⟩ := by
          simp only [processChar, procQuoted, beq_iff_eq, h2, if_true]
        have e2 : processChar d ⟨.escapeInQuotedField, acc, fs, false⟩ (some c) = .ok ⟨.inQuotedField, acc ++ [c], fs, false⟩ := by
          simp only [processChar, procEscapeQuoted, Option.getD_some, addChar_ok _ _ _ _ _ hl, bind, Except.bind]
        have hn : c ≠ '\n' := by intro e; have := hd.escapeNl; simp [← h2, e, isCrnl] at this
        rw [runText_step d _ _ _ _ hn e1, runText_step d _ _ _ _ hn e2]
        exact hfin rest
      · simp only [if_neg h2, List.cons_append, List.nil_append]
        have e1 : processChar d ⟨.inQuotedField, acc, fs, false⟩ (some c) = .ok ⟨.inQuotedField, acc ++ [c], fs, false⟩ := by
          simp [processChar, procQuoted, h1, h2, addChar_ok _ _ _ _ _ hl]
        by_cases hn : c = '\n'
        · subst hn
          rw [runText_newline d _ _ _ e1 rfl]
          exact hfin rest
        · rw [runText_step d _ _ _ _ hn e1]
          exact hfin rest

/-- what is left to do after the characters of a field have been collected in state `st` -/
structure FieldDone (d : Dialect) (st : CsvState) (acc : List Char) (fs : List (List Char)) : Prop where
  delim : processChar d ⟨st, acc, fs, false⟩ (some d.delimiter) = .ok ⟨.startField, [], fs ++ [savedField d acc], false⟩
  nl : processChar d ⟨st, acc, fs, false⟩ (some '\n') = .ok ⟨.eatCrnl, [], fs ++ [savedField d acc], false⟩

theorem done_start (d : Dialect) (hd : d.Ok) (st : CsvState) (hst : st = .startRecord ∨ st = .startField) (fs : List (List Char)) :
    FieldDone d st [] fs := by
  have hdn := hd.delimNl
  have hqd : d.delimiter ≠ d.quotechar := fun e => hd.quoteDelim e.symm
  have hsp : (d.delimiter == ' ' && d.skipinitialspace) = false := by
    by_cases h : d.delimiter = ' '
    · simp [hd.delimSpace h]
    · simp [h]
  constructor
  · rcases hst with rfl | rfl <;>
      simp [processChar, procStart, hdn, hqd, hd.delimEsc, hsp, saveField, bind, Except.bind]
  · rcases hst with rfl | rfl <;> simp [processChar, procStart, isCrnl, saveField, bind, Except.bind]

theorem done_inField (d : Dialect) (hd : d.Ok) (acc : List Char) (fs : List (List Char)) : FieldDone d .inField acc fs := by
  have hdn := hd.delimNl
  constructor
  · simp [processChar, procInField, hdn, hd.delimEsc, saveField, bind, Except.bind]
  · simp [processChar, procInField, isCrnl, saveField, bind, Except.bind]

theorem done_quoted (d : Dialect) (hd : d.Ok) (acc : List Char) (fs : List (List Char)) : FieldDone d .quoteInQuotedField acc fs := by
  have hdn := hd.delimNl
  have hqd : d.delimiter ≠ d.quotechar := fun e => hd.quoteDelim e.symm
  have hqn : '\n' ≠ d.quotechar := by intro e; have := hd.quoteNl; simp [← e, isCrnl] at this
  have hdn' : '\n' ≠ d.delimiter := by intro e; have := hd.delimNl; simp [← e, isCrnl] at this
  constructor
  · simp [processChar, procQuoteQuoted, hqd, saveField, bind, Except.bind]
  · simp [processChar, procQuoteQuoted, hqn, hdn', isCrnl, saveField, bind, Except.bind]

theorem plain_body (d : Dialect) (f : List Char) (hf : ∀ c ∈ f, isCrnl c = false ∧ c ≠ d.escapechar ∧ c ≠ d.delimiter) :
    ∀ (acc : List Char) (fs : List (List Char)) (rest : List Char), acc.length + f.length ≤ fieldLimit →
    runText d ⟨.inField, acc, fs, false⟩ (f ++ rest) = runText d ⟨.inField, acc ++ f, fs, false⟩ rest := by
  induction f with
  | nil => intro acc fs rest _; simp
  | cons c f ih =>
    intro acc fs rest hlen
    obtain ⟨h1, h2, h3⟩ := hf c (by simp)
    have hl : acc.length < fieldLimit := by simp only [List.length_cons] at hlen; omega
    have hn : c ≠ '\n' := by intro e; simp [e, isCrnl] at h1
    rw [List.cons_append, runText_step d _ ⟨.inField, acc ++ [c], fs, false⟩ _ _ hn
        (by simp [processChar, procInField, h1, h2, h3, addChar_ok _ _ _ _ _ hl]),
      ih (fun c hc => hf c (by simp [hc])) (acc ++ [c]) fs rest (by simp only [List.length_append, List.length_cons, List.length_nil] at hlen ⊢; omega)]
    simp

/-- the characters of a written field are collected -/
theorem field_body (d : Dialect) (hd : d.Ok) (f : Bool × List Char) (hf : FieldOk d f) (st : CsvState) (hst : st = .startRecord ∨ st = .startField)
    (fs : List (List Char)) : ∃ st', FieldDone d st' f.2 fs ∧
      ∀ rest, runText d ⟨st, [], fs, false⟩ (writeField d f ++ rest) = runText d ⟨st', f.2, fs, false⟩ rest := by
  obtain ⟨q, f⟩ := f
  obtain ⟨hlen, hp, hqn⟩ := hf
  dsimp only at hlen hp hqn ⊢
  cases q with
  | true =>
    replace hqn := hqn rfl
    refine ⟨.quoteInQuotedField, done_quoted d hd f fs, fun rest => ?_⟩
    have hq : d.quotechar ≠ '\n' := by intro e; have := hd.quoteNl; simp [e, isCrnl] at this
    have hqt : (d.quoting != .none) = true := by simpa using hqn
    simp only [writeField, if_true, quoteField, List.cons_append, List.append_assoc, List.nil_append]
    rw [runText_step d _ ⟨.inQuotedField, [], fs, false⟩ _ _ hq
        (by rcases hst with rfl | rfl <;> simp [processChar, procStart, hd.quoteNl, hqn]),
      quoted_body d hd hqn f [] fs rest (by simpa using hlen)]
    simp
  | false =>
    have hp := hp rfl
    cases f with
    | nil => exact ⟨st, done_start d hd st hst fs, fun rest => by simp [writeField]⟩
    | cons c f =>
      refine ⟨.inField, done_inField d hd (c :: f) fs, fun rest => ?_⟩
      obtain ⟨h1, h2, h3⟩ := hp.chars c (by simp)
      obtain ⟨h4, h5⟩ := hp.head c rfl
      have h6 : (c == ' ' && d.skipinitialspace) = false := by
        by_cases h : c = ' '
        · simp [h5 h]
        · simp [h]
      have h7 : (d.quoting == .nonnumeric) = false := by
        by_cases h : d.quoting = .nonnumeric
        · exact absurd (hp.numeric h) (by simp)
        · simpa using h
      have hn : c ≠ '\n' := by intro e; simp [e, isCrnl] at h1
      simp only [writeField, Bool.false_eq_true, if_false, List.cons_append]
      rw [runText_step d _ ⟨.inField, [c], fs, false⟩ _ _ hn
          (by rcases hst with rfl | rfl <;>
                simp [processChar, procStart, h1, h2, h3, h4, h6, h7, addChar_ok _ _ _ _ _ (show ([] : List Char).length < fieldLimit by decide), bind, Except.bind]),
        plain_body d f (fun c hc => hp.chars c (by simp [hc])) [c] fs rest (by simp only [List.length_cons, List.length_nil] at hlen ⊢; omega)]
      simp

/-! ## rows and files -/

/-- the records a file is read as: each field as saved -/
def readBack (d : Dialect) (rows : List (List (Bool × List Char))) : List (List (List Char)) :=
  rows.map fun r => r.map fun f => savedField d f.2

theorem row_run (d : Dialect) (hd : d.Ok) : ∀ (r : List (Bool × List Char)), r ≠ [] → (∀ f ∈ r, FieldOk d f) →
    ∀ (st : CsvState), st = .startRecord ∨ st = .startField → ∀ (fs : List (List Char)) (rest : List Char) (recs : List (List (List Char))),
    runText d {} rest = .ok recs →
    runText d ⟨st, [], fs, false⟩ (writeRow d r ++ '\n' :: rest) = .ok ((fs ++ r.map fun f => savedField d f.2) :: recs) := by
  intro r
  induction r with
  | nil => intro h; exact absurd rfl h
  | cons f r ih =>
    intro _ hok st hst fs rest recs hr
    obtain ⟨st', hdone, hrun⟩ := field_body d hd f (hok f (by simp)) st hst fs
    cases r with
    | nil =>
      simp only [writeRow]
      rw [hrun]
      simp only [runText, hdone.nl, bind, Except.bind, if_true]
      simp only [processChar, procEat, if_true]
      rw [show (⟨.startRecord, [], [], false⟩ : CsvSt) = {} from rfl, hr]
      rfl
    | cons g r =>
      simp only [writeRow, List.append_assoc, List.cons_append]
      have hn : d.delimiter ≠ '\n' := by intro e; have := hd.delimNl; simp [e, isCrnl] at this
      rw [hrun, runText_step d _ _ _ _ hn hdone.delim,
        ih (by simp) (fun f hf => hok f (by simp only [List.mem_cons] at hf ⊢; exact Or.inr hf)) .startField (Or.inr rfl) _ rest recs hr]
      simp

theorem rows_run (d : Dialect) (hd : d.Ok) (rows : List (List (Bool × List Char))) (h : ∀ r ∈ rows, r ≠ [] ∧ ∀ f ∈ r, FieldOk d f) :
    runText d {} (writeRows d rows) = .ok (readBack d rows) := by
  induction rows with
  | nil => rfl
  | cons r rows ih =>
    have h1 := ih fun r hr => h r (by simp [hr])
    obtain ⟨hne, hok⟩ := h r (by simp)
    have h2 : writeRows d (r :: rows) = writeRow d r ++ '\n' :: writeRows d rows := by simp [writeRows]
    rw [h2]
    have := row_run d hd r hne hok .startRecord (Or.inl rfl) [] _ _ h1
    simpa [readBack] using this

theorem writeRow_noCr (d : Dialect) (hd : d.Ok) (r : List (Bool × List Char)) (h : ∀ f ∈ r, ∀ c ∈ f.2, c ≠ '\r') : ∀ c ∈ writeRow d r, c ≠ '\r' := by
  have hq : d.quotechar ≠ '\r' := by intro e; have := hd.quoteNl; simp [e, isCrnl] at this
  have hdl : d.delimiter ≠ '\r' := by intro e; have := hd.delimNl; simp [e, isCrnl] at this
  have hw : ∀ f : Bool × List Char, (∀ c ∈ f.2, c ≠ '\r') → ∀ c ∈ writeField d f, c ≠ '\r' := by
    intro f hf c hc
    unfold writeField at hc
    by_cases hb : f.1 = true
    · rw [if_pos hb] at hc
      simp only [quoteField, List.cons_append, List.mem_cons, List.mem_append, List.mem_flatMap, List.not_mem_nil, or_false] at hc
      rcases hc with rfl | ⟨x, hx, hc⟩ | rfl
      · exact hq
      · have : c = x := by
          by_cases h1 : x = d.quotechar
          · rw [if_pos h1] at hc; simpa using hc
          · rw [if_neg h1] at hc
            by_cases h2 : x = d.escapechar
            · rw [if_pos h2] at hc; simpa using hc
            · rw [if_neg h2] at hc; simpa using hc
        rw [this]
        exact hf x hx
      · exact hq
    · rw [if_neg hb] at hc
      exact hf c hc
  induction r with
  | nil => simp [writeRow]
  | cons f r ih =>
    cases r with
    | nil => exact hw f (h f (by simp))
    | cons g r =>
      intro c hc
      simp only [writeRow, List.mem_append, List.mem_cons] at hc
      rcases hc with hc | rfl | hc
      · exact hw f (h f (by simp)) c hc
      · exact hdl
      · exact ih (fun f hf => h f (List.mem_cons_of_mem _ hf)) c hc

/-- **C37** (what the parser does).  A file whose fields are written with quotes around them (quote characters doubled, escape characters escaped; any
characters but CR, also delimiters and newlines), or without quotes where that is possible, is read as the same records with the same fields, each as saved by
`parseSaveField`: trailing blanks removed on request, and newlines and tabs replaced by `\n` and `\t` in two characters. -/
theorem C37_parse (d : Dialect) (hd : d.Ok) (rows : List (List (Bool × List Char))) (h : ∀ r ∈ rows, r ≠ [] ∧ ∀ f ∈ r, FieldOk d f)
    (hcr : ∀ r ∈ rows, ∀ f ∈ r, '\r' ∉ f.2) : parseCSV d (writeRows d rows) = .ok (rows.map fun r => r.map fun f => savedField d f.2) := by
  refine parseLines_run d (writeRows d rows) [] {} {} _ (by simp) ?_ rfl (fun _ => rfl) ?_ (rows_run d hd rows h)
  · intro c hc
    obtain ⟨r, hr, hc⟩ := List.mem_flatMap.1 hc
    rcases List.mem_append.1 hc with hc | hc
    · exact writeRow_noCr d hd r (fun f hf c hc e => hcr r hr f hf (e ▸ hc)) c hc
    · rw [List.mem_singleton.1 hc]
      decide
  intro hne
  rcases List.eq_nil_or_concat rows with rfl | ⟨l, r, rfl⟩
  · exact absurd rfl hne
  · simp [writeRows]

/-- a saved field is the field itself if there is nothing to strip and nothing to replace -/
theorem savedField_id (d : Dialect) (f : List Char) (hs : d.skiptrailingspace = true → ∀ h : f ≠ [], nimSpace (f.getLast h) = false)
    (hb : ∀ c ∈ f, c ≠ '\n' ∧ c ≠ '\t') : savedField d f = f := by
  have h1 : (if d.skiptrailingspace = true then stripTrailing f else f) = f := by
    by_cases h : d.skiptrailingspace = true
    · rw [if_pos h]
      unfold stripTrailing
      rcases List.eq_nil_or_concat f with rfl | ⟨l, c, rfl⟩
      · rfl
      · have := hs h (by simp)
        have h2 : nimSpace c = false := by simpa using this
        simp [h2]
    · rw [if_neg h]
  have h2 : ∀ g : List Char, (∀ c ∈ g, c ≠ '\n' ∧ c ≠ '\t') → escapeBlanks g = g := by
    intro g hg
    induction g with
    | nil => rfl
    | cons c g ih =>
      obtain ⟨h3, h4⟩ := hg c (by simp)
      have := ih fun c hc => hg c (by simp [hc])
      simp only [escapeBlanks] at this ⊢
      simp [h3, h4, this]
  unfold savedField
  dsimp only
  rw [h1, h2 f hb, ite_self]

/-- **C37** (full statement).  For every table of fields over characters other than line breaks and tabs, writing all fields in quotes and parsing
gives the table back. -/
def C37_statement : Prop := ∀ (d : Dialect), d.Ok → d.quoting ≠ .none → ∀ rows : List (List (List Char)), (∀ r ∈ rows, r ≠ []) →
  (∀ r ∈ rows, ∀ f ∈ r, ∀ c ∈ f, isCrnl c = false ∧ c ≠ '\t') →
  parseCSV d (writeRows d (rows.map fun r => r.map fun f => (true, f))) = .ok rows

/-- **C37** (partial): fields of at most 131072 characters, which do not end in white space if the dialect strips it -/
theorem C37_partial (d : Dialect) (hd : d.Ok) (hqn : d.quoting ≠ .none) (rows : List (List (List Char))) (hne : ∀ r ∈ rows, r ≠ [])
    (hlen : ∀ r ∈ rows, ∀ f ∈ r, f.length ≤ 131072)
    (hs : d.skiptrailingspace = true → ∀ r ∈ rows, ∀ f ∈ r, ∀ h : f ≠ [], nimSpace (f.getLast h) = false)
    (hc : ∀ r ∈ rows, ∀ f ∈ r, ∀ c ∈ f, isCrnl c = false ∧ c ≠ '\t') :
    parseCSV d (writeRows d (rows.map fun r => r.map fun f => (true, f))) = .ok rows := by
  rw [C37_parse d hd]
  · congr 1
    rw [List.map_map]
    refine (List.map_congr_left (g := id) ?_).trans (List.map_id rows)
    intro r hr
    simp only [Function.comp_apply, List.map_map, id]
    refine (List.map_congr_left (g := id) ?_).trans (List.map_id r)
    intro f hf
    simp only [Function.comp_apply, id]
    apply savedField_id d f (fun h => hs h r hr f hf)
    intro c hcf
    obtain ⟨h1, h2⟩ := hc r hr f hf c hcf
    exact ⟨fun e => by simp [e, isCrnl] at h1, h2⟩
  · intro r hr
    obtain ⟨r', hr', rfl⟩ := List.mem_map.1 hr
    refine ⟨by simpa using hne r' hr', fun f hf => ?_⟩
    obtain ⟨f', hf', rfl⟩ := List.mem_map.1 hf
    exact ⟨hlen r' hr' f' hf', (fun h => by cases h), fun _ => hqn⟩
  · intro r hr f hf
    obtain ⟨r', hr', rfl⟩ := List.mem_map.1 hr
    obtain ⟨f', hf', rfl⟩ := List.mem_map.1 hf
    intro hm
    have := (hc r' hr' f' hf' _ hm).1
    simp [isCrnl] at this

/-- the dialect of a file with comma, double quote and backslash -/
theorem ok_default : Dialect.Ok {} := by constructor <;> simp [isCrnl]

example : parseCSV {} (writeRows {} ([["a,\"b".toList, "c".toList], [[], "d\\".toList]].map fun r => r.map fun f => (true, f))) =
    .ok [["a,\"b".toList, "c".toList], [[], "d\\".toList]] :=
  C37_partial {} ok_default (by decide) _ (by decide) (by decide +kernel) (by decide) (by decide +kernel)

/-- a text with Windows line ends -/
def crlf (text : List Char) : List Char := text.flatMap fun c => if c = '\n' then ['\r', '\n'] else [c]

theorem readLines_crlf (text : List Char) : ∀ cur : List Char, '\r' ∉ cur → '\r' ∉ text → readLines cur (crlf text) = readLines cur text := by
  induction text with
  | nil => intro cur _ _; rfl
  | cons c rest ih =>
    intro cur hcur ht
    simp only [List.mem_cons, not_or] at ht
    have hc : crlf (c :: rest) = (if c = '\n' then ['\r', '\n'] else [c]) ++ crlf rest := by simp [crlf]
    rw [hc]
    by_cases h : c = '\n'
    · subst h
      have h1 : dropCr (cur ++ ['\r']) = cur := by simp [dropCr]
      have h2 : dropCr cur = cur := by
        unfold dropCr
        rw [if_neg]
        intro e
        exact hcur (List.mem_of_getLast? e)
      simp only [if_true, List.cons_append, List.nil_append, readLines, h1, h2, if_neg (show ¬ ('\r' = '\n') by decide)]
      rw [ih [] (by simp) ht.2]
    · simp only [if_neg h, List.cons_append, List.nil_append, readLines]
      exact ih _ (by simp [hcur, Ne.symm ht.1, ht.1]) ht.2

/-- **C37** a file with Windows line ends is read like the same file with Unix line ends -/
theorem C37_crlf (d : Dialect) (text : List Char) (h : '\r' ∉ text) : parseCSV d (crlf text) = parseCSV d text := by
  unfold parseCSV
  rw [readLines_crlf text [] (by simp) h]

example : parseCSV {} "a,b\r\nc,d\r\n".toList = .ok [["a".toList, "b".toList], ["c".toList, "d".toList]] := by decide +kernel

/-- With the setting the importer uses by default (`strip_leading_and_tailing_whitespace`), white space inside the quotes is lost. -/
theorem C37_strip_fails : ¬ C37_statement := by
  intro h
  have h1 := h { skiptrailingspace := true, skipinitialspace := true } (by constructor <;> simp [isCrnl]) (by decide) [["a ".toList]] (by decide) (by decide)
  revert h1
  decide +kernel

end Tablite
