import Verif.Model.Preview
import Verif.Props.Import
import Verif.Props.Export
import Verif.Props.TableOps
/-!
# C95: the preview of a text file
-/

namespace Tablite

/-! ## finding the separator -/

/-- spec: `c` is the separator of a text if it is one of the five candidates, occurs, and no other candidate occurs more often; of those that occur equally often the
greatest character counts -/
def IsSeparator (text : List Char) (c : Char) : Prop :=
  c ∈ [',', '\t', ';', ':', '|'] ∧ 0 < text.count c ∧ ∀ x ∈ [',', '\t', ';', ':', '|'], text.count x < text.count c ∨ (text.count x = text.count c ∧ x ≤ c)

theorem sepOrder_trans (a b c : Nat × Char) (h1 : sepOrder a b = true) (h2 : sepOrder b c = true) : sepOrder a c = true := by
  simp only [sepOrder, Bool.or_eq_true, Bool.and_eq_true, decide_eq_true_eq] at *
  rcases h1 with h1 | ⟨h1, h1'⟩ <;> rcases h2 with h2 | ⟨h2, h2'⟩
  · left; omega
  · left; omega
  · left; omega
  · right; exact ⟨by omega, Char.le_trans h2' h1'⟩

theorem sepOrder_total (a b : Nat × Char) : (sepOrder a b || sepOrder b a) = true := by
  simp only [sepOrder, Bool.or_eq_true, Bool.and_eq_true, decide_eq_true_eq]
  rcases Nat.lt_trichotomy a.1 b.1 with h | h | h
  · right; left; exact h
  · rcases Char.le_total a.2 b.2 with h' | h'
    · right; right; exact ⟨h.symm, h'⟩
    · left; right; exact ⟨h, h'⟩
  · left; left; exact h

theorem isSeparator_unique (text : List Char) (a b : Char) (ha : IsSeparator text a) (hb : IsSeparator text b) : a = b := by
  rcases ha.2.2 b hb.1 with h1 | ⟨h1, h1'⟩ <;> rcases hb.2.2 a ha.1 with h2 | ⟨h2, h2'⟩
  · omega
  · omega
  · omega
  · exact Char.le_antisymm h2' h1'

/-- the head of the sorted candidates is the separator -/
theorem sorted_head (text : List Char) (seps : List Char) (hs : seps = sepChars.filter fun c => decide (c ∈ text)) (hne : seps ≠ []) :
    ∃ c, ((seps.map fun i => (text.count i, i)).mergeSort sepOrder).head?.map (·.2) = some c ∧ IsSeparator text c := by
  generalize hl : (seps.map fun i => (text.count i, i)).mergeSort sepOrder = l
  have hperm : l.Perm (seps.map fun i => (text.count i, i)) := hl ▸ List.mergeSort_perm _ _
  have hsorted : l.Pairwise (fun a b => sepOrder a b = true) := by
    rw [← hl]
    exact List.pairwise_mergeSort (fun a b c => sepOrder_trans a b c) (fun a b => sepOrder_total a b) _
  cases l with
  | nil =>
    have := hperm.length_eq
    simp only [List.length_nil, List.length_map] at this
    exact absurd (List.length_eq_zero_iff.1 this.symm) hne
  | cons p rest =>
    refine ⟨p.2, rfl, ?_⟩
    have hp : p ∈ seps.map fun i => (text.count i, i) := hperm.subset List.mem_cons_self
    obtain ⟨i, hi, rfl⟩ := List.mem_map.1 hp
    rw [hs, List.mem_filter] at hi
    have hin : i ∈ text := by simpa using hi.2
    have hpos : 0 < text.count i := List.count_pos_iff.2 hin
    refine ⟨hi.1, hpos, ?_⟩
    intro x hx
    by_cases hxt : x ∈ text
    · have hxs : (text.count x, x) ∈ (text.count i, i) :: rest := by
        apply hperm.symm.subset
        refine List.mem_map.2 ⟨x, ?_, rfl⟩
        rw [hs, List.mem_filter]
        exact ⟨hx, by simpa using hxt⟩
      rcases List.mem_cons.1 hxs with h | h
      · have := congrArg Prod.snd h
        simp only at this
        subst this
        right; exact ⟨rfl, Char.le_refl _⟩
      · have := (List.pairwise_cons.1 hsorted).1 _ h
        simp only [sepOrder, Bool.or_eq_true, Bool.and_eq_true, decide_eq_true_eq] at this
        rcases this with h | ⟨h, h'⟩
        · left; exact h
        · right; exact ⟨h.symm, h'⟩
    · left
      rw [List.count_eq_zero_of_not_mem hxt]
      exact hpos

/-- **C95** (separator).  If one of `,` tab `;` `:` `|` occurs in the sample, then the separator found is the one that occurs most often, and of several that occur
equally often the greatest character. -/
theorem C95_separator (text : List Char) (h : ∃ x ∈ [',', '\t', ';', ':', '|'], x ∈ text) :
    ∃ c, detectSeparator text = .ok (some c) ∧ IsSeparator text c ∧ ∀ c', IsSeparator text c' → c' = c := by
  obtain ⟨x, hx, hxt⟩ := h
  have hmem : x ∈ sepChars.filter fun c => decide (c ∈ text) := List.mem_filter.2 ⟨hx, by simpa using hxt⟩
  have hne : sepChars.filter (fun c => decide (c ∈ text)) ≠ [] := List.ne_nil_of_mem hmem
  obtain ⟨c, hc, hsep⟩ := sorted_head text _ rfl hne
  refine ⟨c, ?_, hsep, fun c' h => isSeparator_unique text c' c h hsep⟩
  unfold detectSeparator
  rw [if_neg (List.ne_nil_of_mem hxt)]
  generalize hl : (sepChars.filter fun c => decide (c ∈ text)) = l at *
  match l, hne with
  | [a], _ => 
    simp only [List.map_cons, List.map_nil, List.mergeSort_singleton, List.head?_cons, Option.map_some, Option.some.injEq] at hc
    simp only [hc]
  | a :: b :: r, _ => simp only [hc]

/-- **C95** (no separator).  Without any of them the separator is a blank if there is one, else the end of line; a text of one line without blanks has none: `ValueError`;
and the empty text gives `None`. -/
theorem C95_no_separator (text : List Char) (h : ∀ x ∈ [',', '\t', ';', ':', '|'], x ∉ text) :
    detectSeparator text = (if text = [] then .ok none else if ' ' ∈ text then .ok (some ' ') else if '\n' ∈ text then .ok (some '\n') else .error .value) := by
  unfold detectSeparator
  by_cases ht : text = []
  · rw [if_pos ht, if_pos ht]
  · rw [if_neg ht, if_neg ht]
    have : (sepChars.filter fun c => decide (c ∈ text)) = [] := by
      rw [List.filter_eq_nil_iff]
      intro a ha
      simpa using h a ha
    rw [this]

/-- the claim for separators in full: a file made of fields separated by `c` is recognised as such -/
def C95_separator_statement : Prop :=
  ∀ (c : Char) (rows : List (List (List Char))), c ∈ sepChars → (∀ r ∈ rows, 2 ≤ r.length ∧ ∀ f ∈ r, c ∉ f) → rows ≠ [] →
    detectSeparator (joinLines (rows.map fun r => (List.intersperse [c] r).flatten)) = .ok (some c)

/-- **C95** (separator, the claim in full is false): in a file with times the colons win, even when both occur equally often. -/
theorem C95_separator_fails : ¬ C95_separator_statement := by
  intro h
  have h1 := h ',' [["10:00:00".toList, "a".toList, "b".toList]] (by decide) (by decide +kernel) (by decide)
  obtain ⟨c, h2, _, h3⟩ := C95_separator _ ⟨',', by decide, (by decide +kernel : ',' ∈ joinLines ([["10:00:00".toList, "a".toList, "b".toList]].map
    fun r => (List.intersperse [','] r).flatten))⟩
  rw [h2] at h1
  cases h1
  exact absurd (h3 ':' (by unfold IsSeparator; decide +kernel)) (by decide)

/-- **C95** (separator, what holds): when `c` occurs more often than any other candidate, it is found. -/
theorem C95_separator_partial (c : Char) (text : List Char) (hc : c ∈ [',', '\t', ';', ':', '|']) (ht : c ∈ text)
    (h : ∀ x ∈ [',', '\t', ';', ':', '|'], x ≠ c → text.count x < text.count c) : detectSeparator text = .ok (some c) := by
  obtain ⟨c', h1, _, h3⟩ := C95_separator text ⟨c, hc, ht⟩
  have : IsSeparator text c := by
    refine ⟨hc, List.count_pos_iff.2 ht, ?_⟩
    intro x hx
    by_cases hxc : x = c
    · subst hxc; right; exact ⟨rfl, Char.le_refl _⟩
    · left; exact h x hx hxc
  rw [h1, h3 c this]

example : detectSeparator "a;b;c\n1,5;2,5;3".toList = .ok (some ';') :=
  C95_separator_partial ';' _ (by decide) (by decide +kernel) (by decide +kernel)

/-! ## the rows of the preview -/

/-- the loop over the records of a file that begins with the records `recs` -/
theorem headersLoop_prefix (d : Dialect) (count : Nat) (junk : List (List Char)) : ∀ (lines : List (List Char)) (s : CsvSt) (recs : List (List (List Char))) (skip total : Nat),
    parseLines d s lines = .ok recs → skip + max 1 (count - total) ≤ recs.length →
    headersLoop d count skip total s (lines ++ junk) = .ok (((recs.drop skip).take (max 1 (count - total))).map fun r => r.map stripEscape) := by
  intro lines
  induction lines with
  | nil =>
    intro s recs skip total h hlen
    cases h
    simp only [List.length_nil] at hlen
    omega
  | cons line rest ih =>
    intro s recs skip total h hlen
    rw [parseLines_cons] at h
    obtain ⟨s', hs', h⟩ := bind_ok h
    simp only [List.cons_append, headersLoop]
    rw [hs']
    dsimp only [bind, Except.bind]
    by_cases hst : s'.state = .startRecord
    · rw [if_pos hst] at h ⊢
      obtain ⟨more, hmore, h⟩ := bind_ok h
      cases h
      by_cases hk : 0 < skip
      · rw [if_pos hk, ih _ more (skip - 1) total hmore (by simp only [List.length_cons] at hlen; omega)]
        obtain ⟨k, rfl⟩ : ∃ k, skip = k + 1 := ⟨skip - 1, by omega⟩
        simp
      · rw [if_neg hk]
        obtain rfl : skip = 0 := by omega
        by_cases ht : total + 1 ≥ count
        · rw [if_pos ht]
          have : max 1 (count - total) = 1 := by omega
          rw [this]
          simp
        · rw [if_neg ht]
          have hm : max 1 (count - total) = max 1 (count - (total + 1)) + 1 := by omega
          rw [ih _ more 0 (total + 1) hmore (by simp only [List.length_cons] at hlen; omega), hm]
          simp
    · rw [if_neg hst] at h ⊢
      exact ih s' recs skip total h hlen

/-- the loop over the records of a whole file -/
theorem headersLoop_all (d : Dialect) (count : Nat) : ∀ (lines : List (List Char)) (s : CsvSt) (recs : List (List (List Char))) (skip total : Nat),
    parseLines d s lines = .ok recs →
    headersLoop d count skip total s lines = .ok (((recs.drop skip).take (max 1 (count - total))).map fun r => r.map stripEscape) := by
  intro lines
  induction lines with
  | nil =>
    intro s recs skip total h
    cases h
    simp [headersLoop]
  | cons line rest ih =>
    intro s recs skip total h
    rw [parseLines_cons] at h
    obtain ⟨s', hs', h⟩ := bind_ok h
    simp only [headersLoop]
    rw [hs']
    dsimp only [bind, Except.bind]
    by_cases hst : s'.state = .startRecord
    · rw [if_pos hst] at h ⊢
      obtain ⟨more, hmore, h⟩ := bind_ok h
      cases h
      by_cases hk : 0 < skip
      · rw [if_pos hk, ih _ more (skip - 1) total hmore]
        obtain ⟨k, rfl⟩ : ∃ k, skip = k + 1 := ⟨skip - 1, by omega⟩
        simp
      · rw [if_neg hk]
        obtain rfl : skip = 0 := by omega
        by_cases ht : total + 1 ≥ count
        · rw [if_pos ht]
          have : max 1 (count - total) = 1 := by omega
          rw [this]
          simp
        · rw [if_neg ht]
          have hm : max 1 (count - total) = max 1 (count - (total + 1)) + 1 := by omega
          rw [ih _ more 0 (total + 1) hmore, hm]
          simp
    · rw [if_neg hst] at h ⊢
      exact ih s' recs skip total h

/-- **C95** (rows).  The preview of a file with records `recs` is the record at `header_row_index` and those that follow, `linecount` in all (but at least one), as many
as there are, with line ends and tabs removed from every field. -/
theorem C95_rows (d : Dialect) (headerRow linecount : Nat) (lines : List (List Char)) (recs : List (List (List Char))) (h : parseLines d {} lines = .ok recs) :
    nimHeaders d headerRow linecount lines = .ok (((recs.drop headerRow).take (max 1 linecount)).map fun r => r.map stripEscape) := by
  have := headersLoop_all d linecount lines {} recs headerRow 0 h
  rwa [Nat.sub_zero] at this

/-- **C95** (prefix).  What comes after the rows shown does not matter: the rest of the file may even be impossible to read. -/
theorem C95_prefix (d : Dialect) (headerRow linecount : Nat) (lines junk : List (List Char)) (recs : List (List (List Char))) (h : parseLines d {} lines = .ok recs)
    (hlen : headerRow + max 1 linecount ≤ recs.length) :
    nimHeaders d headerRow linecount (lines ++ junk) = .ok (((recs.drop headerRow).take (max 1 linecount)).map fun r => r.map stripEscape) := by
  have := headersLoop_prefix d linecount junk lines {} recs headerRow 0 h (by simpa using hlen)
  rwa [Nat.sub_zero] at this

/-- the third line has a field that is too long for the parser, but only two rows are shown -/
example : nimHeaders {} 0 2 (["a,b".toList, "1,\"x\"".toList] ++ [List.replicate (fieldLimit + 1) 'x']) = .ok [["a".toList, "b".toList], ["1".toList, "x".toList]] := by
  rw [C95_prefix {} 0 2 ["a,b".toList, "1,\"x\"".toList] _ [["a".toList, "b".toList], ["1".toList, "x".toList]] (by decide +kernel) (by decide)]
  decide +kernel

/-! ## preview and import -/

/-- generated names are distinct -/
theorem uniqueNames_distinct (mk : List Char → Nat → List Char) (hinj : ∀ n a b, mk n a = mk n b → a = b) (l : List (List Char)) : (uniqueNames mk l).Nodup := by
  have : ∀ (l acc : List (List Char)), acc.Nodup → (l.foldl (fun fs n => fs ++ [uniqueName mk n fs]) acc).Nodup := by
    intro l
    induction l with
    | nil => intro acc h; exact h
    | cons a t ih =>
      intro acc h
      rw [List.foldl_cons]
      apply ih
      rw [List.nodup_append]
      refine ⟨h, by simp, ?_⟩
      intro x hx y hy
      rw [List.mem_singleton] at hy
      subst hy
      intro he
      exact (C47_unique_name mk a acc (hinj a)).1 (he ▸ hx)
  exact this l [] List.nodup_nil

theorem uniqueNames_length (mk : List Char → Nat → List Char) (l : List (List Char)) : (uniqueNames mk l).length = l.length := by
  have : ∀ (l acc : List (List Char)), (l.foldl (fun fs n => fs ++ [uniqueName mk n fs]) acc).length = acc.length + l.length := by
    intro l
    induction l with
    | nil => intro acc; rfl
    | cons a t ih => intro acc; rw [List.foldl_cons, ih]; simp; omega
  simpa [uniqueNames] using this l []

theorem drop_take_zero (recs : List (List (List Char))) (headerRow n : Nat) (h : headerRow < recs.length) :
    (((recs.drop headerRow).take (max 1 n)).map fun r => r.map stripEscape)[0]? = some ((recs.getD headerRow []).map stripEscape) := by
  rw [List.drop_eq_getElem_cons h]
  have : max 1 n = (max 1 n - 1) + 1 := by omega
  rw [this, List.take_succ_cons]
  simp [h]

/-- **C95** (names).  The names of the columns of an import are those in the first row of the preview with the same dialect and header row, numbered where repeated;
if they are distinct, they are that row. -/
theorem C95_names (mk : List Char → Nat → List Char) (hinj : ∀ n a b, mk n a = mk n b → a = b) (num : Nat → List Char) (d : Dialect) (headerRow linecount ps : Nat)
    (hps : 0 < ps) (lines : List (List Char)) (recs : List (List (List Char))) (hparse : parseLines d {} lines = .ok recs) (hhdr : headerRow < recs.length) :
    ∃ table rows first, importText mk num d { headerRow := headerRow } ps lines = .ok table ∧ nimHeaders d headerRow linecount lines = .ok rows ∧
      rows[0]? = some first ∧ table.map (·.1) = uniqueNames mk first ∧ (first.Nodup → table.map (·.1) = first) := by
  obtain ⟨table, h1, h2, _, _⟩ := C38_import mk num d { headerRow := headerRow } ps hps lines recs hparse hhdr (fun c hc => hc)
  have h2' : table.map (·.1) = uniqueNames mk ((recs.getD headerRow []).map stripEscape) := by
    rw [h2]
    exact uniqueNames_nodup mk _ (uniqueNames_distinct mk hinj _)
  refine ⟨table, _, (recs.getD headerRow []).map stripEscape, h1, C95_rows d headerRow linecount lines recs hparse, drop_take_zero recs headerRow linecount hhdr, h2', ?_⟩
  intro hn
  rw [h2', uniqueNames_nodup mk _ hn]

/-- **C95** (cells).  Every cell of the preview below the header is what the import of the file holds there, with line ends and tabs removed: the row after the header
row is row 0 of the table.  A field that is missing in the file is missing in the preview, and empty in the table. -/
theorem C95_cells (mk : List Char → Nat → List Char) (hinj : ∀ n a b, mk n a = mk n b → a = b) (num : Nat → List Char) (d : Dialect) (headerRow linecount ps : Nat)
    (hps : 0 < ps) (lines : List (List Char)) (recs : List (List (List Char))) (hparse : parseLines d {} lines = .ok recs) (hhdr : headerRow < recs.length) :
    ∃ table rows, importText mk num d { headerRow := headerRow } ps lines = .ok table ∧ nimHeaders d headerRow linecount lines = .ok rows ∧
      rows.length = min (max 1 linecount) (recs.length - headerRow) ∧
      ∀ i k row col, rows[i + 1]? = some row → table[k]? = some col →
        ∃ v, col.2.flatten[i]? = some v ∧ row.getD k [] = stripEscape v ∧ (row.length ≤ k → v = []) := by
  obtain ⟨table, h1, _, hlen, h4⟩ := C38_import mk num d { headerRow := headerRow } ps hps lines recs hparse hhdr (fun c hc => hc)
  refine ⟨table, _, h1, C95_rows d headerRow linecount lines recs hparse, by simp, ?_⟩
  intro i k row col hrow hcol
  have hk : k < table.length := by
    by_contra hc
    rw [List.getElem?_eq_none (by omega)] at hcol
    cases hcol
  have hk' : k < (fieldNames mk num true ((recs.getD headerRow []).map stripEscape)).length := by
    rw [hlen] at hk
    exact hk
  have hnd : (fieldNames mk num true ((recs.getD headerRow []).map stripEscape)).Nodup := by
    rw [fieldNames, if_pos rfl]
    exact uniqueNames_distinct mk hinj _
  have hcells := (h4 k hk' col hcol).1
  have hidx : (fieldNames mk num true ((recs.getD headerRow []).map stripEscape)).idxOf
      ((fieldNames mk num true ((recs.getD headerRow []).map stripEscape)).getD k []) = k := by
    rw [List.getD, List.getElem?_eq_getElem hk', Option.getD_some]
    exact hnd.idxOf_getElem k hk'
  have hreq : requestedRows { headerRow := headerRow } recs = recs.drop (headerRow + 1) := by
    unfold requestedRows
    dsimp only
    rw [if_pos rfl, List.filter_eq_self.2 (by intro a _; rfl), Nat.add_zero, Nat.add_comm]
  have hcells' : col.2.flatten = (recs.drop (headerRow + 1)).map fun r => r.getD k [] := by
    rw [← hreq]
    refine hcells.trans ?_
    apply List.map_congr_left
    intro r _
    exact congrArg (fun j => r.getD j []) hidx
  rw [List.getElem?_map, Option.map_eq_some_iff] at hrow
  obtain ⟨rec, hrec, rfl⟩ := hrow
  have hrec' : recs[headerRow + (i + 1)]? = some rec := by
    rw [List.getElem?_take] at hrec
    split at hrec
    · rwa [List.getElem?_drop] at hrec
    · cases hrec
  refine ⟨rec.getD k [], ?_, ?_, ?_⟩
  · rw [hcells', List.getElem?_map, List.getElem?_drop]
    have : headerRow + 1 + i = headerRow + (i + 1) := by omega
    rw [this, hrec']
    rfl
  · rw [List.getD, List.getElem?_map, List.getD]
    cases rec[k]? with
    | none => rfl
    | some f => rfl
  · intro hl
    rw [List.length_map] at hl
    rw [List.getD, List.getElem?_eq_none hl, Option.getD_none]

/-- the claim in full: the preview shows the cells that the import stores -/
def C95_statement : Prop :=
  ∀ (mk : List Char → Nat → List Char) (num : Nat → List Char) (d : Dialect) (headerRow linecount ps : Nat) (lines : List (List Char))
    (recs : List (List (List Char))) (table : List (List Char × List (List (List Char)))) (rows : List (List (List Char))), 0 < ps → parseLines d {} lines = .ok recs →
    importText mk num d { headerRow := headerRow } ps lines = .ok table → nimHeaders d headerRow linecount lines = .ok rows →
    ∀ (i k : Nat) (row : List (List Char)) (col : List Char × List (List (List Char))) (f : List Char), rows[i + 1]? = some row → row[k]? = some f → table[k]? = some col → col.2.flatten[i]? = some f

/-- **C95** (the claim in full is false): a line end within quotes is imported as a backslash and `n`, but is not shown in the preview. -/
theorem C95_fails : ¬ C95_statement := by
  intro h
  have := h (fun n i => n ++ '_' :: (toString i).toList) (fun i => (toString i).toList) {} 0 2 10 ["a".toList, "\"x".toList, "y\"".toList]
    [["a".toList], ["x\\ny".toList]] [("a".toList, [["x\\ny".toList]])] [["a".toList], ["xy".toList]] (by decide) (by decide +kernel) (by decide +kernel) (by decide +kernel)
    0 0 ["xy".toList] ("a".toList, [["x\\ny".toList]]) "xy".toList rfl rfl rfl
  exact absurd this (by decide +kernel)

/-- spec: a text in which nothing is removed: it has no tab or line end, and no backslash before `t`, `n` or `r` -/
def PlainField (f : List Char) : Prop :=
  (∀ c ∈ ['\t', '\n', '\r'], c ∉ f) ∧ ∀ a b e, f = a ++ '\\' :: e :: b → e ≠ 't' ∧ e ≠ 'n' ∧ e ≠ 'r'

theorem stripEscape_id : ∀ f : List Char, PlainField f → stripEscape f = f
  | [], _ => rfl
  | [c], h => by
    have h1 := h.1 '\t' (by decide)
    have h2 := h.1 '\n' (by decide)
    have h3 := h.1 '\r' (by decide)
    simp only [List.mem_singleton] at h1 h2 h3
    rw [stripEscape, if_neg (by rintro (h | h | h) <;> [exact h1 h.symm; exact h2 h.symm; exact h3 h.symm])]
  | c :: e :: r, h => by
    have h1 := h.1 '\t' (by decide)
    have h2 := h.1 '\n' (by decide)
    have h3 := h.1 '\r' (by decide)
    simp only [List.mem_cons, not_or] at h1 h2 h3
    rw [stripEscape, if_neg, if_neg (by rintro (h | h | h) <;> [exact h1.1 h.symm; exact h2.1 h.symm; exact h3.1 h.symm]), stripEscape_id (e :: r)]
    · constructor
      · intro x hx
        have := h.1 x hx
        rw [List.mem_cons, not_or] at this
        exact this.2
      · intro a b x hab
        exact h.2 (c :: a) b x (by rw [hab]; rfl)
    · rintro ⟨rfl, he⟩
      obtain ⟨g1, g2, g3⟩ := h.2 [] r e rfl
      rcases he with he | he | he
      · exact g1 he
      · exact g2 he
      · exact g3 he

theorem getD_nil_or_mem (r : List (List Char)) (k : Nat) : r.getD k [] = [] ∨ r.getD k [] ∈ r := by
  rw [List.getD]
  cases h : r[k]? with
  | none => left; rfl
  | some f => right; exact List.mem_of_getElem? h

/-- **C95** (what holds): cells without tabs, line ends and their escapes are shown as they are imported. -/
theorem C95_partial (mk : List Char → Nat → List Char) (hinj : ∀ n a b, mk n a = mk n b → a = b) (num : Nat → List Char) (d : Dialect) (headerRow linecount ps : Nat)
    (hps : 0 < ps) (lines : List (List Char)) (recs : List (List (List Char))) (hparse : parseLines d {} lines = .ok recs) (hhdr : headerRow < recs.length)
    (hplain : ∀ r ∈ recs.drop (headerRow + 1), ∀ f ∈ r, PlainField f) :
    ∃ table rows, importText mk num d { headerRow := headerRow } ps lines = .ok table ∧ nimHeaders d headerRow linecount lines = .ok rows ∧
      rows.length = min (max 1 linecount) (recs.length - headerRow) ∧
      ∀ i k row col, rows[i + 1]? = some row → table[k]? = some col → col.2.flatten[i]? = some (row.getD k []) := by
  obtain ⟨table, rows, h1, h2, h3, h4⟩ := C95_cells mk hinj num d headerRow linecount ps hps lines recs hparse hhdr
  refine ⟨table, rows, h1, h2, h3, ?_⟩
  intro i k row col hrow hcol
  obtain ⟨v, hv, hr, hm⟩ := h4 i k row col hrow hcol
  rw [hv, hr]
  congr 1
  by_cases hl : row.length ≤ k
  · rw [hm hl]; rfl
  · obtain ⟨table', h1', _, hlen, h4'⟩ := C38_import mk num d { headerRow := headerRow } ps hps lines recs hparse hhdr (fun c hc => hc)
    rw [h1] at h1'
    cases h1'
    have hk : k < table.length := by
      by_contra hc
      rw [List.getElem?_eq_none (by omega)] at hcol
      cases hcol
    have hk' : k < (fieldNames mk num true ((recs.getD headerRow []).map stripEscape)).length := by
      rw [hlen] at hk
      exact hk
    have hcells := (h4' k hk' col hcol).1
    rw [hcells, List.getElem?_map, Option.map_eq_some_iff] at hv
    obtain ⟨r, hr, hv⟩ := hv
    have hreq : requestedRows { headerRow := headerRow } recs = recs.drop (headerRow + 1) := by
      unfold requestedRows
      dsimp only
      rw [if_pos rfl, List.filter_eq_self.2 (by intro a _; rfl), Nat.add_zero, Nat.add_comm]
    rw [hreq] at hr
    have hmem := List.mem_of_getElem? hr
    rw [stripEscape_id]
    rw [← hv]
    rcases getD_nil_or_mem r _ with hf | hf
    · rw [hf]
      refine ⟨by simp, ?_⟩
      intro a b e hab
      have := congrArg List.length hab
      simp at this
    · exact hplain r hmem _ hf

/-- a file with a header, a missing field and a record over two lines -/
example : ∃ table rows, importText (fun n i => n ++ '_' :: (Nat.repr i).toList) (fun i => (Nat.repr i).toList) {} {} 1
      ["a,a".toList, "1,2".toList, "3".toList, "4,5".toList] = .ok table ∧
    nimHeaders {} 0 3 ["a,a".toList, "1,2".toList, "3".toList, "4,5".toList] = .ok rows ∧ rows.length = 3 ∧
    ∀ i k row col, rows[i + 1]? = some row → table[k]? = some col → col.2.flatten[i]? = some (row.getD k []) := by
  obtain ⟨table, rows, h1, h2, h3, h4⟩ := C95_partial (fun n i => n ++ '_' :: (Nat.repr i).toList) (by
      intro n a b h
      have := List.append_cancel_left h
      exact Nat.repr_inj.1 (String.toList_injective (List.cons.inj this).2)) (fun i => (Nat.repr i).toList) {} 0 3 1 (by decide)
    ["a,a".toList, "1,2".toList, "3".toList, "4,5".toList] [["a".toList, "a".toList], ["1".toList, "2".toList], ["3".toList], ["4".toList, "5".toList]]
    (by decide +kernel) (by decide) (by
      have key : ∀ r ∈ [["1".toList, "2".toList], ["3".toList], ["4".toList, "5".toList]], ∀ f ∈ r, (∀ c ∈ ['\t', '\n', '\r'], c ∉ f) ∧ '\\' ∉ f := by decide +kernel
      intro r hr f hf
      refine ⟨(key r hr f hf).1, ?_⟩
      intro a b e hab
      exact absurd (by rw [hab]; simp) (key r hr f hf).2)
  exact ⟨table, rows, h1, h2, h3, h4⟩

/-! ## the whole preview -/

/-- **C95** (file).  The preview of a text file reports the delimiter it was given or found, and shows the records of the file for that delimiter. -/
theorem C95_file (suffix : TextSuffix) (text : List Char) (delimiter : Option Char) (headerRow : Nat) (qualifier : Option Char) (linecount : Nat) (c : Char)
    (hc : delimiter = some c ∨ (delimiter = none ∧ detectSeparator (joinLines (sampleLines text headerRow linecount)) = .ok (some c)))
    (recs : List (List (List Char))) (h : parseCSV (textDialect c qualifier true) text = .ok recs) :
    textHeaders suffix text delimiter headerRow qualifier linecount =
      .ok { delimiter := some c, rows := ((recs.drop headerRow).take (max 1 linecount)).map fun r => r.map stripEscape, isEmpty := false } := by
  have hd : (delimiter <|> sampleDelimiter (sampleLines text headerRow linecount)) = some c := by
    rcases hc with rfl | ⟨rfl, hs⟩
    · rfl
    · unfold sampleDelimiter
      rw [hs]
      rfl
  unfold textHeaders
  dsimp only
  rw [hd]
  dsimp only
  rw [C95_rows _ headerRow linecount _ recs h]

theorem joinLines_newline (a b : List Char) (rest : List (List Char)) : '\n' ∈ joinLines (a :: b :: rest) := by
  rw [joinLines]
  · exact List.mem_append_right _ List.mem_cons_self
  · simp

theorem sampleDelimiter_none (lines : List (List Char)) (h : sampleDelimiter lines = none) : lines.length ≤ 1 := by
  match lines with
  | [] => simp
  | [_] => simp
  | a :: b :: rest =>
    exfalso
    have hnl := joinLines_newline a b rest
    unfold sampleDelimiter at h
    by_cases hsep : ∃ x ∈ [',', '\t', ';', ':', '|'], x ∈ joinLines (a :: b :: rest)
    · obtain ⟨c, hc, _⟩ := C95_separator _ hsep
      rw [hc] at h
      cases h
    · push Not at hsep
      rw [C95_no_separator _ hsep, if_neg (List.ne_nil_of_mem hnl)] at h
      by_cases hb : ' ' ∈ joinLines (a :: b :: rest)
      · rw [if_pos hb] at h; cases h
      · rw [if_neg hb, if_pos hnl] at h; cases h

/-- **C95** (empty).  A preview is marked as empty only if no delimiter was given, and the file has at most one line at or after the header row among those looked at;
that line is shown as it is. -/
theorem C95_empty (suffix : TextSuffix) (text : List Char) (delimiter : Option Char) (headerRow : Nat) (qualifier : Option Char) (linecount : Nat) (p : Preview)
    (h : textHeaders suffix text delimiter headerRow qualifier linecount = .ok p) (he : p.isEmpty = true) :
    delimiter = none ∧ p.rows = [sampleLines text headerRow linecount] ∧ (sampleLines text headerRow linecount).length ≤ 1 ∧ p.delimiter = suffix.delimiter := by
  unfold textHeaders at h
  dsimp only at h
  cases delimiter with
  | some c =>
    exfalso
    change (match nimHeaders (textDialect c qualifier true) headerRow linecount (readLines [] text) with
      | .ok rows => Except.ok ({ delimiter := some c, rows := rows, isEmpty := false } : Preview)
      | .error _ => .error Err.value) = .ok p at h
    cases hn : nimHeaders (textDialect c qualifier true) headerRow linecount (readLines [] text) with
    | ok rows => rw [hn] at h; cases h; cases he
    | error e => rw [hn] at h; cases h
  | none =>
    change (match sampleDelimiter (sampleLines text headerRow linecount) with
      | none => Except.ok ({ delimiter := suffix.delimiter, rows := [sampleLines text headerRow linecount], isEmpty := true } : Preview)
      | some c =>
        match nimHeaders (textDialect c qualifier true) headerRow linecount (readLines [] text) with
        | .ok rows => .ok { delimiter := some c, rows := rows, isEmpty := false }
        | .error _ => .error Err.value) = .ok p at h
    cases hs : sampleDelimiter (sampleLines text headerRow linecount) with
    | none =>
      rw [hs] at h
      cases h
      exact ⟨rfl, rfl, sampleDelimiter_none _ hs, rfl⟩
    | some c =>
      exfalso
      rw [hs] at h
      dsimp only at h
      cases hn : nimHeaders (textDialect c qualifier true) headerRow linecount (readLines [] text) with
      | ok rows => rw [hn] at h; cases h; cases he
      | error e => rw [hn] at h; cases h

/-- the claim for `is_empty` in full: a file marked as empty has no line after the header -/
def C95_empty_statement : Prop :=
  ∀ (suffix : TextSuffix) (text : List Char) (headerRow linecount : Nat) (qualifier : Option Char) (p : Preview),
    textHeaders suffix text none headerRow qualifier linecount = .ok p → p.isEmpty = true → (pyTextLines [] text).length ≤ headerRow + 1

/-- **C95** (empty, the claim in full is false): with `linecount` 0 a column of words is marked as empty, whatever follows the first line. -/
theorem C95_empty_fails : ¬ C95_empty_statement := by
  intro h
  have := h .csv "a\nb\nc\n".toList 0 0 none { delimiter := some ',', rows := [["a".toList]], isEmpty := true } (by decide +kernel) rfl
  exact absurd this (by decide +kernel)

/-- **C95** (empty, what holds): the claim is true for every other `linecount`. -/
theorem C95_empty_partial (suffix : TextSuffix) (text : List Char) (headerRow linecount : Nat) (hl : 0 < linecount) (qualifier : Option Char) (p : Preview)
    (h : textHeaders suffix text none headerRow qualifier linecount = .ok p) (he : p.isEmpty = true) : (pyTextLines [] text).length ≤ headerRow + 1 := by
  obtain ⟨_, _, h3, _⟩ := C95_empty suffix text none headerRow qualifier linecount p h he
  unfold sampleLines at h3
  rw [List.length_take, List.length_drop] at h3
  omega

example : textHeaders .tsv "skipped\nword".toList none 1 none 10 = .ok { delimiter := some '\t', rows := [["word".toList]], isEmpty := true } := by decide +kernel

/-- the claim for the delimiter of an import, as documented: without a delimiter the suffix of the file decides -/
def C95_default_statement : Prop := ∀ suffix, importDelimiter suffix none = documentedDelimiter suffix

/-- **C95** (default delimiter, the claim is false): every text file is read with commas. -/
theorem C95_default_fails : ¬ C95_default_statement := by
  intro h
  exact absurd (h .tsv) (by decide)

/-- the claim for preview and import without a delimiter: both split the first line alike -/
def C95_same_statement : Prop :=
  ∀ (suffix : TextSuffix) (text : List Char) (qualifier : Option Char) (p : Preview) (table : List (List Char × List (List (List Char)))),
    textHeaders suffix text none 0 qualifier 10 = .ok p → importText (fun n i => n ++ '_' :: (Nat.repr i).toList) (fun i => (Nat.repr i).toList)
      (textDialect (importDelimiter suffix none) qualifier true) {} 10 (readLines [] text) = .ok table → ∀ first, p.rows[0]? = some first → first.length = table.length

/-- **C95** (preview and import without a delimiter differ): the preview finds the tab in a `.tsv` file, the import does not. -/
theorem C95_same_fails : ¬ C95_same_statement := by
  intro h
  have hp : textHeaders .tsv "a\tb\n1\t2\n".toList none 0 none 10 =
      .ok { delimiter := some '\t', rows := [["a".toList, "b".toList], ["1".toList, "2".toList]], isEmpty := false } := by
    rw [C95_file .tsv _ none 0 none 10 '\t' (Or.inr ⟨rfl, C95_separator_partial '\t' _ (by decide) (by decide +kernel) (by decide +kernel)⟩)
      [["a".toList, "b".toList], ["1".toList, "2".toList]] (by decide +kernel)]
    decide +kernel
  have := h .tsv "a\tb\n1\t2\n".toList none _ [("ab".toList, [["1\t2".toList]])] hp (by decide +kernel) _ rfl
  exact absurd this (by decide +kernel)

/-- **C95** (`get_delimiter`).  For files that are looked at in full, or with `linecount` 11, `get_delimiter` finds the delimiter that the preview reports. -/
theorem C95_get_delimiter (suffix : TextSuffix) (text : List Char) (qualifier : Option Char) (linecount : Nat)
    (hl : linecount = 11 ∨ ((pyTextLines [] text).length ≤ 12 ∧ (pyTextLines [] text).length ≤ linecount + 1)) (p : Preview)
    (h : textHeaders suffix text none 0 qualifier linecount = .ok p) (he : p.isEmpty = false) : ∃ c, p.delimiter = some c ∧ getDelimiter text = .ok c := by
  have hs : sampleLines text 0 linecount = (pyTextLines [] text).take 12 := by
    unfold sampleLines
    rw [List.drop_zero]
    rcases hl with rfl | ⟨h1, h2⟩
    · rfl
    · rw [List.take_of_length_le h1, List.take_of_length_le h2]
  unfold textHeaders at h
  dsimp only at h
  change (match sampleDelimiter (sampleLines text 0 linecount) with
      | none => Except.ok ({ delimiter := suffix.delimiter, rows := [sampleLines text 0 linecount], isEmpty := true } : Preview)
      | some c =>
        match nimHeaders (textDialect c qualifier true) 0 linecount (readLines [] text) with
        | .ok rows => .ok { delimiter := some c, rows := rows, isEmpty := false }
        | .error _ => .error Err.value) = .ok p at h
  cases hd : sampleDelimiter (sampleLines text 0 linecount) with
  | none => rw [hd] at h; cases h; cases he
  | some c =>
    refine ⟨c, ?_, ?_⟩
    · rw [hd] at h
      dsimp only at h
      cases hn : nimHeaders (textDialect c qualifier true) 0 linecount (readLines [] text) with
      | ok rows => rw [hn] at h; cases h; rfl
      | error e => rw [hn] at h; cases h
    · rw [hs] at hd
      unfold sampleDelimiter at hd
      unfold getDelimiter
      cases hx : detectSeparator (joinLines ((pyTextLines [] text).take 12)) with
      | error e => rw [hx] at hd; cases hd
      | ok r => rw [hx] at hd; dsimp only at hd; rw [hd]; rfl

example : ∃ p, textHeaders .txt "word\nother\n".toList none 0 none 10 = .ok p ∧ p.isEmpty = false ∧ p.delimiter = some '\n' ∧ p.rows = [["word".toList], ["other".toList]] :=
  ⟨{ delimiter := some '\n', rows := [["word".toList], ["other".toList]], isEmpty := false }, by decide +kernel, rfl, rfl, rfl⟩

/-! ## lines -/

/-- spec: every CR is followed by LF -/
def CrBeforeLf (t : List Char) : Prop := ∀ a b, t = a ++ '\r' :: b → ∃ b', b = '\n' :: b'

theorem crBeforeLf_tail (c : Char) (t : List Char) (h : CrBeforeLf (c :: t)) : CrBeforeLf t := by
  intro a b hab
  exact h (c :: a) b (by rw [hab]; rfl)

theorem dropCr_plain (l : List Char) (h : '\r' ∉ l) : dropCr l = l := by
  unfold dropCr
  rw [if_neg]
  intro hl
  exact h (List.mem_of_getLast? hl)

theorem lines_same : ∀ (n : Nat) (t cur : List Char), t.length ≤ n → '\r' ∉ cur → CrBeforeLf t → pyTextLines cur t = readLines cur t := by
  intro n
  induction n with
  | zero =>
    intro t cur hn _ _
    obtain rfl := List.length_eq_zero_iff.1 (Nat.le_zero.1 hn)
    simp [pyTextLines, readLines]
  | succ n ih =>
    intro t cur hn hcur ht
    match t with
    | [] => simp [pyTextLines, readLines]
    | c :: rest =>
      by_cases hcr : c = '\r'
      · subst hcr
        obtain ⟨rest', rfl⟩ := ht [] rest rfl
        rw [pyTextLines, readLines, if_neg (by decide), readLines, if_pos rfl]
        have : dropCr (cur ++ ['\r']) = cur := by
          unfold dropCr
          rw [if_pos (by simp), List.dropLast_concat]
        rw [this, ih rest' [] (by simp only [List.length_cons] at hn; omega) (by simp) (crBeforeLf_tail _ _ (crBeforeLf_tail _ _ ht))]
      · rw [pyTextLines, readLines]
        · by_cases hlf : c = '\n'
          · rw [if_pos (Or.inl hlf), if_pos hlf, dropCr_plain cur hcur, ih rest [] (by simp only [List.length_cons] at hn; omega) (by simp) (crBeforeLf_tail _ _ ht)]
          · rw [if_neg (by rintro (h | h) <;> [exact hlf h; exact hcr h]), if_neg hlf,
              ih rest (cur ++ [c]) (by simp only [List.length_cons] at hn; omega) ?_ (crBeforeLf_tail _ _ ht)]
            intro hm
            rcases List.mem_append.1 hm with hm | hm
            · exact hcur hm
            · rw [List.mem_singleton] at hm; exact hcr hm.symm
        · intro _ h
          exact absurd h hcr

/-- the claim for lines in full: the sample in which the delimiter is sought has the lines of the file that the import reads -/
def C95_lines_statement : Prop := ∀ text, pyTextLines [] text = readLines [] text

/-- **C95** (lines, the claim in full is false): a CR alone ends a line in the sample, but not in the import. -/
theorem C95_lines_fails : ¬ C95_lines_statement := by
  intro h
  exact absurd (h "a\rb".toList) (by decide +kernel)

/-- **C95** (lines, what holds): files whose lines end with LF or CR LF have the same lines in both. -/
theorem C95_lines_partial (text : List Char) (h : CrBeforeLf text) : pyTextLines [] text = readLines [] text := lines_same _ text [] (Nat.le_refl _) (by simp) h

example : pyTextLines [] "a\r\nb\n\nc".toList = ["a".toList, "b".toList, [], "c".toList] := by decide +kernel

end Tablite
