import Verif.Model.Export
import Verif.Props.Csv
import Verif.Props.Import
import Verif.Props.Table
/-!
# C75: export to a text file and import again
-/

namespace Tablite

section
variable {α : Type}

/-- a text that survives in a file: no line end, tab or backslash, and not too long -/
def Plain (f : List Char) : Prop := f.length ≤ 131072 ∧ ∀ c ∈ f, isCrnl c = false ∧ c ≠ '\t' ∧ c ≠ '\\'

/-- with quotes or without -/
def asField (delim : Char) (r : List (List Char)) (f : List Char) : Bool × List Char := (needsQuotes delim f || decide (r = [[]]), f)

theorem pyQuoted_eq (d : Dialect) (hq : d.quotechar = '"') (he : d.escapechar = '\\') (f : List Char) (hf : '\\' ∉ f) : pyQuoted f = quoteField d f := by
  rw [pyQuoted, quoteField, hq, he]
  congr 2
  apply List.flatMap_congr
  intro c hc
  have : c ≠ '\\' := fun e => hf (e ▸ hc)
  simp [this]

theorem pyJoin_eq (d : Dialect) (hq : d.quotechar = '"') (he : d.escapechar = '\\') (r : List (List Char)) (hr : ∀ f ∈ r, '\\' ∉ f) :
    pyJoin d.delimiter r = writeRow d (r.map fun f => (needsQuotes d.delimiter f, f)) := by
  have h1 : ∀ f ∈ r, pyField d.delimiter f = writeField d (needsQuotes d.delimiter f, f) := by
    intro f hf
    rw [pyField, writeField, pyQuoted_eq d hq he f (hr f hf)]
  clear hr
  induction r with
  | nil => rfl
  | cons f t ih =>
    cases t with
    | nil => exact h1 f (by simp)
    | cons g t =>
      rw [pyJoin, h1 f (by simp), ih fun f hf => h1 f (by simp [hf])]
      rfl

theorem pyWriteRow_eq (d : Dialect) (hq : d.quotechar = '"') (he : d.escapechar = '\\') (r : List (List Char)) (hr : ∀ f ∈ r, '\\' ∉ f) :
    pyWriteRow d.delimiter r = writeRow d (r.map (asField d.delimiter r)) ++ ['\r', '\n'] := by
  rw [pyWriteRow]
  congr 1
  by_cases h : r = [[]]
  · subst h
    simp [asField, writeRow, writeField, quoteField, hq]
  · rw [if_neg h, pyJoin_eq d hq he r hr]
    congr 1
    apply List.map_congr_left
    intro f _
    simp [asField, h]

theorem crlf_id (l : List Char) (h : '\n' ∉ l) : crlf l = l := by
  rw [crlf]
  refine (List.flatMap_congr (g := fun c => [c]) ?_).trans (by simp)
  intro c hc
  rw [if_neg]
  rintro rfl
  exact h hc

theorem writeRow_chars (d : Dialect) (P : Char → Prop) (hq : P d.quotechar) (hd : P d.delimiter) (r : List (Bool × List Char))
    (h : ∀ f ∈ r, ∀ c ∈ f.2, P c) : ∀ c ∈ writeRow d r, P c := by
  have hf : ∀ f ∈ r, ∀ c ∈ writeField d f, P c := by
    intro f hf c hc
    rw [writeField] at hc
    split at hc
    · rw [quoteField] at hc
      simp only [List.cons_append, List.mem_cons, List.mem_append, List.mem_flatMap, List.not_mem_nil, or_false] at hc
      rcases hc with rfl | ⟨a, ha, hc⟩ | rfl
      · exact hq
      · have : c = a := by
          split at hc
          · simpa using hc
          · split at hc <;> simpa using hc
        rw [this]; exact h f hf a ha
      · exact hq
    · exact h f hf c hc
  clear h
  induction r with
  | nil => intro c hc; simp [writeRow] at hc
  | cons f t ih =>
    cases t with
    | nil => exact hf f (by simp)
    | cons g t =>
      intro c hc
      rw [writeRow] at hc
      rcases List.mem_append.1 hc with hc | hc
      · exact hf f (by simp) c hc
      · rcases List.mem_cons.1 hc with rfl | hc
        · exact hd
        · exact ih (fun f hf' => hf f (by simp [hf'])) c hc

/-- what `csv.writer` writes, in terms of the writer of C37 -/
theorem pyWrite_eq (d : Dialect) (hd : d.Ok) (hq : d.quotechar = '"') (he : d.escapechar = '\\') (rows : List (List (List Char)))
    (h : ∀ r ∈ rows, ∀ f ∈ r, Plain f) :
    (rows.flatMap fun r => pyWriteRow d.delimiter r) = crlf (writeRows d (rows.map fun r => r.map (asField d.delimiter r))) := by
  have e : ∀ a b : List Char, crlf (a ++ b) = crlf a ++ crlf b := fun a b => by simp [crlf]
  induction rows with
  | nil => rfl
  | cons r t ih =>
    have hr := h r (by simp)
    have hnb : ∀ f ∈ r, '\\' ∉ f := fun f hf hc => ((hr f hf).2 _ hc).2.2 rfl
    have hnl : '\n' ∉ writeRow d (r.map (asField d.delimiter r)) := by
      intro hc
      have := writeRow_chars d (fun c => c ≠ '\n') (by rintro e; have := hd.quoteNl; rw [e] at this; simp [isCrnl] at this)
        (by rintro e; have := hd.delimNl; rw [e] at this; simp [isCrnl] at this) (r.map (asField d.delimiter r)) (by
          intro f hf c hc
          obtain ⟨g, hg, rfl⟩ := List.mem_map.1 hf
          rintro rfl
          have := ((hr g hg).2 _ hc).1
          simp [isCrnl] at this) _ hc
      exact this rfl
    have ew : ∀ a l, writeRows d (a :: l) = writeRow d a ++ ['\n'] ++ writeRows d l := fun a l => by simp [writeRows]
    rw [List.flatMap_cons, ih fun r hr => h r (by simp [hr]), List.map_cons, ew, e, e, crlf_id _ hnl, pyWriteRow_eq d hq he r hnb]
    rfl

theorem stripEscape_plain (f : List Char) (hf : ∀ c ∈ f, isCrnl c = false ∧ c ≠ '\t' ∧ c ≠ '\\') : stripEscape f = f := by
  have hc : ∀ c ∈ f, ¬ (c = '\t' ∨ c = '\n' ∨ c = '\r') ∧ c ≠ '\\' := by
    intro c hc
    obtain ⟨h1, h2, h3⟩ := hf c hc
    refine ⟨?_, h3⟩
    rintro (h | h | h)
    · exact h2 h
    · subst h; simp [isCrnl] at h1
    · subst h; simp [isCrnl] at h1
  clear hf
  induction f with
  | nil => rfl
  | cons a t ih =>
    cases t with
    | nil => rw [stripEscape, if_neg (hc a (by simp)).1]
    | cons b t =>
      rw [stripEscape, if_neg (fun h => (hc a (by simp)).2 h.1), if_neg (hc a (by simp)).1, ih fun c h => hc c (by simp [h])]

theorem uniqueNames_nodup (mk : List Char → Nat → List Char) (l : List (List Char)) (h : l.Nodup) : uniqueNames mk l = l := by
  have key : ∀ (l acc : List (List Char)), (acc ++ l).Nodup → l.foldl (fun fs n => fs ++ [uniqueName mk n fs]) acc = acc ++ l := by
    intro l
    induction l with
    | nil => intro acc _; simp
    | cons a t ih =>
      intro acc hn
      have ha : a ∉ acc := by
        intro hm
        rw [List.nodup_append] at hn
        exact hn.2.2 _ hm a (by simp) rfl
      have : uniqueName mk a acc = a := by rw [uniqueName, if_neg ha]
      rw [List.foldl_cons, this, ih _ (by simpa using hn)]
      simp
  exact key l [] (by simpa using h)

/-- a text that a dialect keeps: no blanks that it strips, no quotes if it does not know them -/
def Kept (d : Dialect) (f : List Char) : Prop :=
  Plain f ∧ (d.skipinitialspace = true → f.head? ≠ some ' ') ∧ (d.skiptrailingspace = true → ∀ h : f ≠ [], nimSpace (f.getLast h) = false) ∧
  (d.quoting = .none → ∀ c ∈ f, c ≠ d.delimiter ∧ c ≠ '"')

/-- writing with the delimiter of the dialect, and reading -/
theorem parse_written (d : Dialect) (hd : d.Ok) (hq : d.quotechar = '"') (he : d.escapechar = '\\') (hnum : d.quoting ≠ .nonnumeric) (all : List (List (List Char)))
    (hkept : ∀ r ∈ all, r ≠ [] ∧ ∀ f ∈ r, Kept d f) (hone : d.quoting = .none → ∀ r ∈ all, r ≠ [[]]) :
    parseLines d {} (readLines [] (all.flatMap fun r => pyWriteRow d.delimiter r)) = .ok all := by
  rw [pyWrite_eq d hd hq he all (fun r hr f hf => ((hkept r hr).2 f hf).1)]
  have hcr : ∀ r ∈ all.map (fun r => r.map (asField d.delimiter r)), ∀ f ∈ r, '\r' ∉ f.2 := by
    intro r hr f hf hc
    obtain ⟨r', hr', rfl⟩ := List.mem_map.1 hr
    obtain ⟨g, hg, rfl⟩ := List.mem_map.1 hf
    have := (((hkept r' hr').2 g hg).1.2 _ hc).1
    simp [isCrnl] at this
  have e2 := C37_parse d hd (all.map fun r => r.map (asField d.delimiter r)) (by
    intro r hr
    obtain ⟨r', hr', rfl⟩ := List.mem_map.1 hr
    refine ⟨by simpa using (hkept r' hr').1, ?_⟩
    intro f hf
    obtain ⟨g, hg, rfl⟩ := List.mem_map.1 hf
    obtain ⟨⟨h1, h2⟩, h3, h4, h5⟩ := (hkept r' hr').2 g hg
    refine ⟨h1, fun hfalse => ?_, fun htrue hqn => ?_⟩
    · have hnq : needsQuotes d.delimiter g = false := by
        simp only [asField, Bool.or_eq_false_iff] at hfalse
        exact hfalse.1
      rw [needsQuotes, List.any_eq_false] at hnq
      constructor
      · intro c hc
        have := hnq c hc
        simp only [Bool.or_eq_true, not_or, beq_iff_eq] at this
        exact ⟨(h2 c hc).1, by rw [he]; exact (h2 c hc).2.2, this.1.1.1⟩
      · intro c hc
        have := hnq c (List.mem_of_mem_head? hc)
        simp only [Bool.or_eq_true, not_or, beq_iff_eq] at this
        refine ⟨by rw [hq]; exact this.1.1.2, fun e => ?_⟩
        subst e
        by_contra hsk
        exact h3 (by simpa using hsk) hc
      · exact fun h => absurd h hnum
    · simp only [asField, Bool.or_eq_true, decide_eq_true_eq] at htrue
      rcases htrue with h | h
      · rw [needsQuotes, List.any_eq_true] at h
        obtain ⟨c, hc, h⟩ := h
        have h6 := h5 hqn c hc
        have h7 := (h2 c hc).1
        simp only [Bool.or_eq_true, beq_iff_eq] at h
        rcases h with ((h | h) | h) | h
        · exact h6.1 h
        · exact h6.2 h
        · subst h; simp [isCrnl] at h7
        · subst h; simp [isCrnl] at h7
      · exact hone hqn r' hr' h) hcr
  have e3 := C37_crlf d (writeRows d (all.map fun r => r.map (asField d.delimiter r))) (by
    intro hc
    obtain ⟨r, hr, hc⟩ := List.mem_flatMap.1 hc
    rcases List.mem_append.1 hc with hc | hc
    · refine writeRow_chars d (fun c => c ≠ '\r') ?_ ?_ r ?_ _ hc rfl
      · rintro e; have := hd.quoteNl; rw [e] at this; simp [isCrnl] at this
      · rintro e; have := hd.delimNl; rw [e] at this; simp [isCrnl] at this
      · rintro f hf c hc rfl
        exact hcr r hr f hf hc
    · simp at hc)
  show parseCSV d (crlf _) = _
  rw [e3, e2]
  congr 1
  rw [List.map_map]
  refine (List.map_congr_left (g := id) ?_).trans (List.map_id _)
  intro r hr
  simp only [Function.comp, List.map_map, id]
  refine (List.map_congr_left (g := id) ?_).trans (List.map_id _)
  intro f hf
  obtain ⟨⟨-, h2⟩, -, h4, -⟩ := (hkept r hr).2 f hf
  refine savedField_id d f h4 fun c hc => ⟨?_, (h2 c hc).2.1⟩
  rintro rfl
  have := (h2 _ hc).1
  simp [isCrnl] at this

/-- the table that comes back -/
def ComesBack (txt : α → List Char) (nul : α) (t : Tbl (List Char) α) (r : Except Err (List (List Char × List (List (List Char))))) : Prop :=
  ∃ table, r = .ok table ∧ table.map (·.1) = t.map (·.1) ∧
    ∀ (k : Nat) col c, table[k]? = some col → t[k]? = some c → col.2.flatten = (List.range (tblLen t)).map fun i => txt ((colIter c.2).getD i nul)

/-- the records of an exported table -/
theorem records_written (txt : α → List Char) (nul : α) (d : Dialect) (hd : d.Ok) (hq : d.quotechar = '"')
    (he : d.escapechar = '\\') (hnum : d.quoting ≠ .nonnumeric) (t : Tbl (List Char) α) (hne : t ≠ []) (hn : (t.map (·.1)).Nodup)
    (hnames : ∀ c ∈ t, Kept d c.1) (hvals : ∀ c ∈ t, ∀ v ∈ colIter c.2, Kept d (txt v)) (hnul : Kept d (txt nul))
    (hone : d.quoting = .none → 2 ≤ t.length ∨ ∀ c ∈ t, c.1 ≠ [] ∧ ∀ v ∈ colIter c.2, txt v ≠ []) :
    ∃ text, textWriter txt nul d.delimiter t = .ok text ∧ parseLines d {} (readLines [] text) = .ok (t.map (·.1) ::
      ((List.range (tblLen t)).map fun i => t.map fun c => (colIter c.2).getD i nul).map fun r => r.map txt) ∧ (t.map (·.1)).map stripEscape = t.map (·.1) := by
  let rows := (List.range (tblLen t)).map fun i => t.map fun c => (colIter c.2).getD i nul
  let all : List (List (List Char)) := t.map (·.1) :: rows.map fun r => r.map txt
  have hkept : ∀ r ∈ all, r ≠ [] ∧ ∀ f ∈ r, Kept d f := by
    intro r hr
    rcases List.mem_cons.1 hr with rfl | hr
    · refine ⟨by simpa using hne, ?_⟩
      intro f hf
      obtain ⟨c, hc, rfl⟩ := List.mem_map.1 hf
      exact hnames c hc
    · obtain ⟨r', hr', rfl⟩ := List.mem_map.1 hr
      obtain ⟨i, hi, rfl⟩ := List.mem_map.1 hr'
      refine ⟨by simpa using hne, ?_⟩
      intro f hf
      obtain ⟨v, hv, rfl⟩ := List.mem_map.1 hf
      obtain ⟨c, hc, rfl⟩ := List.mem_map.1 hv
      rw [List.getD_eq_getElem?_getD]
      cases hg : (colIter c.2)[i]? with
      | none => exact hnul
      | some v => exact hvals c hc v (List.mem_of_getElem? hg)
  have hone' : d.quoting = .none → ∀ r ∈ all, r ≠ [[]] := by
    rintro hqn r hr rfl
    have hlen : t.length = 1 ∧ (∀ c ∈ t, c.1 = []) ∨ t.length = 1 ∧ ∃ i < tblLen t, ∀ c ∈ t, txt ((colIter c.2).getD i nul) = [] := by
      rcases List.mem_cons.1 hr with e | hr
      · left
        refine ⟨by simpa using congrArg List.length e.symm, ?_⟩
        intro c hc
        have : c.1 ∈ [([] : List Char)] := by rw [e]; exact List.mem_map.2 ⟨c, hc, rfl⟩
        simpa using this
      · obtain ⟨r', hr', e⟩ := List.mem_map.1 hr
        obtain ⟨i, hi, rfl⟩ := List.mem_map.1 hr'
        right
        refine ⟨by simpa using congrArg List.length e, i, List.mem_range.1 hi, ?_⟩
        intro c hc
        have : txt ((colIter c.2).getD i nul) ∈ [([] : List Char)] := by
          rw [← e]; exact List.mem_map.2 ⟨_, List.mem_map.2 ⟨c, hc, rfl⟩, rfl⟩
        simpa using this
    obtain ⟨c, hc⟩ := List.exists_mem_of_ne_nil t hne
    rcases hone hqn with h | h
    · rcases hlen with ⟨h1, -⟩ | ⟨h1, -⟩ <;> omega
    · rcases hlen with ⟨-, h1⟩ | ⟨h1, i, hi, h2⟩
      · exact (h c hc).1 (h1 c hc)
      · have htl : t = [c] := by
          obtain ⟨a, rfl⟩ := List.length_eq_one_iff.1 h1
          simp at hc
          rw [hc]
        have hil : i < (colIter c.2).length := by
          obtain ⟨c', hc', e⟩ := (C15_len t).2 hne
          rw [htl] at hc'
          rw [List.mem_singleton.1 hc'] at e
          omega
        have h3 := h2 c hc
        rw [List.getD_eq_getElem?_getD, List.getElem?_eq_getElem hil, Option.getD_some] at h3
        exact (h c hc).2 _ (List.getElem_mem hil) h3
  have htext : textWriter txt nul d.delimiter t = .ok (all.flatMap fun r => pyWriteRow d.delimiter r) := by
    rw [textWriter, C15_rows nul t]
    simp [bind, Except.bind, all, rows, List.flatMap_map]
  have hparse := parse_written d hd hq he hnum all hkept hone'
  refine ⟨_, htext, hparse, ?_⟩
  refine (List.map_congr_left (g := id) ?_).trans (List.map_id _)
  intro f hf
  exact stripEscape_plain f ((hkept _ (by simp [all])).2 f hf).1.2

theorem import_written (mk : List Char → Nat → List Char) (num : Nat → List Char) (txt : α → List Char) (nul : α) (d : Dialect) (hd : d.Ok) (hq : d.quotechar = '"')
    (he : d.escapechar = '\\') (hnum : d.quoting ≠ .nonnumeric) (ps : Nat) (hps : 0 < ps) (t : Tbl (List Char) α) (hne : t ≠ []) (hn : (t.map (·.1)).Nodup)
    (hnames : ∀ c ∈ t, Kept d c.1) (hvals : ∀ c ∈ t, ∀ v ∈ colIter c.2, Kept d (txt v)) (hnul : Kept d (txt nul))
    (hone : d.quoting = .none → 2 ≤ t.length ∨ ∀ c ∈ t, c.1 ≠ [] ∧ ∀ v ∈ colIter c.2, txt v ≠ []) :
    ∃ text, textWriter txt nul d.delimiter t = .ok text ∧ ComesBack txt nul t (importText mk num d {} ps (readLines [] text)) := by
  let rows := (List.range (tblLen t)).map fun i => t.map fun c => (colIter c.2).getD i nul
  let all : List (List (List Char)) := t.map (·.1) :: rows.map fun r => r.map txt
  obtain ⟨text, htext, hparse, hstrip⟩ := records_written txt nul d hd hq he hnum t hne hn hnames hvals hnul hone
  have hfirst : (all.getD 0 []).map stripEscape = t.map (·.1) := hstrip
  have hfn : fieldNames mk num true (t.map (·.1)) = t.map (·.1) := by
    rw [fieldNames, if_pos rfl, uniqueNames_nodup mk _ hn]
  obtain ⟨table, h1, h2, h3, h4⟩ := C38_import mk num d {} ps hps _ all hparse (by simp [all]) (by intro c hc; exact hc)
  simp only [hfirst, hfn, Option.getD_none] at h2 h3 h4
  rw [uniqueNames_nodup mk _ hn] at h2
  refine ⟨text, htext, table, h1, h2, ?_⟩
  intro k col c hk hc
  have hkl : k < t.length := (List.getElem?_eq_some_iff.1 hc).1
  obtain ⟨h5, -⟩ := h4 k (by simpa using hkl) col hk
  rw [h5]
  have hidx : (t.map (·.1)).idxOf ((t.map (·.1)).getD k []) = k := by
    have hk' : k < (t.map (·.1)).length := by simpa using hkl
    rw [List.getD_eq_getElem?_getD, List.getElem?_eq_getElem hk', Option.getD_some]
    exact hn.idxOf_getElem k hk'
  rw [hidx]
  have hreq : requestedRows {} all = rows.map fun r => r.map txt := by
    simp [requestedRows, all, checkSkip]
  rw [hreq]
  simp only [rows, List.map_map]
  apply List.map_congr_left
  intro i _
  simp [List.getD_eq_getElem?_getD, hc]

/-- C75: an exported table, imported with its delimiter, with quotes and without stripping, has the same columns with the texts of the values in the
same order; None and missing values come back as `txt nul`, the empty text. Missing: texts with line ends, tabs or backslashes, or too long ones -/
theorem C75_roundtrip_partial (mk : List Char → Nat → List Char) (num : Nat → List Char) (txt : α → List Char) (nul : α) (delim : Char)
    (hdl : delim ≠ '"' ∧ delim ≠ '\\' ∧ isCrnl delim = false)
    (ps : Nat) (hps : 0 < ps) (t : Tbl (List Char) α) (hne : t ≠ []) (hn : (t.map (·.1)).Nodup) (hnames : ∀ c ∈ t, Plain c.1)
    (hvals : ∀ c ∈ t, ∀ v ∈ colIter c.2, Plain (txt v)) (hnul : Plain (txt nul)) :
    ∃ text, textWriter txt nul delim t = .ok text ∧ ComesBack txt nul t (fromFile mk num (some delim) (some '"') false ps text) := by
  obtain ⟨h1, h2, h3⟩ := hdl
  have hd : (readDialect (some delim) (some '"') false).Ok := by
    constructor <;> simp [readDialect, isCrnl, h2, Ne.symm h1]
    · simpa [isCrnl] using h3
  have hk : ∀ f, Plain f → Kept (readDialect (some delim) (some '"') false) f := fun f hf => ⟨hf, by simp [readDialect]⟩
  exact import_written mk num txt nul (readDialect (some delim) (some '"') false) hd rfl rfl (by simp [readDialect]) ps hps t hne hn (fun c hc => hk _ (hnames c hc))
    (fun c hc v hv => hk _ (hvals c hc v hv)) (hk _ hnul) (by intro h; simp [readDialect] at h)

/-- C75: `Table.from_file(path, guess_datatypes=False)` of an export to `.csv` gives the texts of the values back, if there is no text with a comma, a
quote, a line end, a tab or a backslash, with a blank at its start or white space at its end, and no empty text in a table of one column -/
theorem C75_default_partial (mk : List Char → Nat → List Char) (num : Nat → List Char) (txt : α → List Char) (nul : α)
    (ps : Nat) (hps : 0 < ps) (t : Tbl (List Char) α) (hne : t ≠ []) (hn : (t.map (·.1)).Nodup) (hnames : ∀ c ∈ t, Kept (readDialect none none true) c.1)
    (hvals : ∀ c ∈ t, ∀ v ∈ colIter c.2, Kept (readDialect none none true) (txt v)) (hnul : txt nul = [])
    (hone : 2 ≤ t.length ∨ ∀ c ∈ t, c.1 ≠ [] ∧ ∀ v ∈ colIter c.2, txt v ≠ []) :
    ∃ text, textWriter txt nul ',' t = .ok text ∧ ComesBack txt nul t (fromFile mk num none none true ps text) := by
  have hd : (readDialect none none true).Ok := by constructor <;> simp [readDialect, isCrnl]
  exact import_written mk num txt nul (readDialect none none true) hd rfl rfl (by decide) ps hps t hne hn hnames
    hvals (by rw [hnul]; simp [Kept, Plain]) (fun _ => hone)

/-- C75: so an export to `.csv` comes back with the default settings -/
theorem C75_csv_partial (mk : List Char → Nat → List Char) (num : Nat → List Char) (txt : α → List Char) (nul : α)
    (ps : Nat) (hps : 0 < ps) (t : Tbl (List Char) α) (hne : t ≠ []) (hn : (t.map (·.1)).Nodup) (hnames : ∀ c ∈ t, Kept (readDialect none none true) c.1)
    (hvals : ∀ c ∈ t, ∀ v ∈ colIter c.2, Kept (readDialect none none true) (txt v)) (hnul : txt nul = [])
    (hone : 2 ≤ t.length ∨ ∀ c ∈ t, c.1 ≠ [] ∧ ∀ v ∈ colIter c.2, txt v ≠ []) :
    ∃ delim text, suffixDelimiter ".csv" = some delim ∧ textWriter txt nul delim t = .ok text ∧
      ComesBack txt nul t (fromFile mk num none none true ps text) := by
  obtain ⟨text, h1, h2⟩ := C75_default_partial mk num txt nul ps hps t hne hn hnames hvals hnul hone
  exact ⟨',', text, rfl, h1, h2⟩

/-- C75: so an export to `.csv`, `.tsv` or `.txt` comes back when the delimiter of the suffix and the text qualifier are given -/
theorem C75_given_partial (mk : List Char → Nat → List Char) (num : Nat → List Char) (txt : α → List Char) (nul : α) (suffix : String) (delim : Char)
    (hs : (suffix, delim) ∈ [(".csv", ','), (".tsv", '\t'), (".txt", '|')])
    (ps : Nat) (hps : 0 < ps) (t : Tbl (List Char) α) (hne : t ≠ []) (hn : (t.map (·.1)).Nodup) (hnames : ∀ c ∈ t, Plain c.1)
    (hvals : ∀ c ∈ t, ∀ v ∈ colIter c.2, Plain (txt v)) (hnul : Plain (txt nul)) :
    suffixDelimiter suffix = some delim ∧
    ∃ text, textWriter txt nul delim t = .ok text ∧ ComesBack txt nul t (fromFile mk num (some delim) (some '"') false ps text) := by
  simp only [List.mem_cons, List.not_mem_nil, or_false, Prod.mk.injEq] at hs
  rcases hs with ⟨rfl, rfl⟩ | ⟨rfl, rfl⟩ | ⟨rfl, rfl⟩
  all_goals exact ⟨by decide, C75_roundtrip_partial mk num txt nul _ (by decide) ps hps t hne hn hnames hvals hnul⟩

/-- the columns of an import as names and texts -/
def texts (r : Except Err (List (List Char × List (List (List Char))))) : Except Err (List (List Char × List (List Char))) :=
  r.map fun t => t.map fun c => (c.1, c.2.flatten)

/-- the table as names and texts -/
def tableTexts (t : Tbl (List Char) (List Char)) : List (List Char × List (List Char)) := t.map fun c => (c.1, colIter c.2)

/-- an export imported again -/
def exportImport (delim : Char) (delimiter textQualifier : Option Char) (strip : Bool) (t : Tbl (List Char) (List Char)) :
    Except Err (List (List Char × List (List Char))) :=
  (textWriter id [] delim t).bind fun text => texts (fromFile (fun n i => n ++ Nat.toDigits 10 i) (Nat.toDigits 10) delimiter textQualifier strip 10 text)

/-- the whole claim, for the settings that fit the export: a table of texts with different names and columns of the same length comes back -/
def C75_statement : Prop := ∀ (delim : Char) (t : Tbl (List Char) (List Char)) (n : Nat), delim ∈ [',', '\t', '|'] → t ≠ [] → (t.map (·.1)).Nodup →
  (∀ c ∈ t, (colIter c.2).length = n) → exportImport delim (some delim) (some '"') false t = .ok (tableTexts t)

/-- the whole claim, for the settings of `Table.from_file(path)` with `guess_datatypes=False` -/
def C75_default_statement : Prop := ∀ (suffix : String) (delim : Char) (t : Tbl (List Char) (List Char)) (n : Nat), suffixDelimiter suffix = some delim → t ≠ [] →
  (t.map (·.1)).Nodup → (∀ c ∈ t, (colIter c.2).length = n) → (∀ c ∈ t, Plain c.1 ∧ ∀ f ∈ colIter c.2, Plain f) →
  exportImport delim none none true t = .ok (tableTexts t)

/-- C75: a backslash is taken for an escape character: the text `a\b` comes back as `ab` -/
theorem C75_fails : ¬ C75_statement := by
  intro h
  have := h ',' [(['x'], [[['a', '\\', 'b']]])] 1 (by decide) (by decide) (by decide) (by decide)
  revert this
  decide +kernel

/-- C75: a line end inside a text comes back as a backslash and an n -/
theorem C75_newline_fails : exportImport ',' (some ',') (some '"') false [(['x'], [[['a', '\n', 'b']]])] = .ok [(['x'], [['a', '\\', 'n', 'b']])] := by
  decide +kernel

/-- C75: `Table.from_file(path)` of an export to `.tsv` takes the comma for the delimiter: two columns come back as one -/
theorem C75_suffix_fails : exportImport '\t' none none true [(['x'], [[['1']]]), (['y'], [[['2']]])] = .ok [(['x', 'y'], [['1', '\t', '2']])] := by
  decide +kernel

/-- C75: without a text qualifier the quotes that the export writes become part of the values, and values with a comma are cut -/
theorem C75_quotes_fails : exportImport ',' none none true [(['x'], [[['a', ',', 'b']]]), (['y'], [[['2']]])] =
    .ok [(['x'], [['"', 'a']]), (['y'], [['b', '"']])] := by
  decide +kernel

theorem C75_default_fails : ¬ C75_default_statement := by
  intro h
  have := h ".tsv" '\t' [(['x'], [[['1']]]), (['y'], [[['2']]])] 1 (by decide) (by decide) (by decide) (by decide) (by
    intro c hc
    simp only [List.mem_cons, List.not_mem_nil, or_false] at hc
    rcases hc with rfl | rfl <;> simp [Plain, colIter, isCrnl])
  rw [C75_suffix_fails] at this
  revert this
  decide +kernel

/-- a table with quotes, commas, empty and missing values that comes back -/
example : exportImport ',' (some ',') (some '"') false [(['x'], [[['a', '"', ','], []], [['c']]]), (['y', ' '], [[[' '], ['2'], ['3']]])] =
    .ok [(['x'], [['a', '"', ','], [], ['c']]), (['y', ' '], [[' '], ['2'], ['3']])] := by
  decide +kernel

/-- C75: with a single column an empty text is written as two quotes, which come back as a text of two quotes -/
theorem C75_empty_fails : exportImport ',' none none true [(['x'], [[['a'], []]])] = .ok [(['x'], [['a'], ['"', '"']])] := by
  decide +kernel

/-- a table that comes back with the default settings -/
example : exportImport ',' none none true [(['x'], [[['a', ' ', 'b'], []]]), (['y'], [[['2'], ['3']]])] =
    .ok [(['x'], [['a', ' ', 'b'], []]), (['y'], [['2'], ['3']])] := by
  decide +kernel

end

end Tablite
