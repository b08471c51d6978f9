import Verif.Props.ApiArgs
import Verif.Props.Reindex
/-!
# C124 Which files `get_headers` previews; C62 `sortation.reindex`
-/

namespace Tablite

/-- **C124** in full: every format that `from_file` imports has a preview, if it can be read. -/
def C124_statement : Prop :=
  ∀ (f : PreviewOf Unit) (suffix : String) (d : Option String) (h l : Nat), openedBy suffix ≠ none →
    (∀ d h l, ∃ x, f.text d h l = .ok x) → (∀ d h l, ∃ x, f.excel d h l = .ok x) → (∀ d h l, ∃ x, f.ods d h l = .ok x) →
    ∃ x, getHeadersAny f (.path true suffix) (.ok d) h l = .ok x

/-- C124 fails: `.html` is imported and has no preview -/
theorem C124_fails : ¬ C124_statement := by
  intro h
  obtain ⟨x, hx⟩ := h ⟨fun _ _ _ => .ok (), fun _ _ _ => .ok (), fun _ _ _ => .ok ()⟩ "html" none 0 10 (by decide) (fun _ _ _ => ⟨_, rfl⟩)
    (fun _ _ _ => ⟨_, rfl⟩) (fun _ _ _ => ⟨_, rfl⟩)
  have e : getHeadersAny ⟨fun _ _ _ => .ok (), fun _ _ _ => .ok (), fun _ _ _ => .ok ()⟩ (.path true "html") (.ok none) 0 10 = (.error .type : Except Err Unit) := by
    decide
  rw [e] at hx
  cases hx

/-- the reader a preview is made with -/
def previewedBy (suffix : String) : Option FileReader :=
  if suffix ∈ ["csv", "tsv", "txt"] then some .text else if suffix ∈ ["xlsx", "xlsm"] then some .excel else if suffix = "ods" then some .ods else none

/-- what `header_readers` says for a suffix, after the suffixes openpyxl does not open -/
theorem headerReaders_lookup (suffix : String) :
    (previewedBy suffix = some .text ∧ headerReaders.lookup suffix = some .text) ∨
    (previewedBy suffix = some .excel ∧ headerReaders.lookup suffix = some .excel ∧ suffix ∈ openpyxlOpens) ∨
    (previewedBy suffix = some .ods ∧ headerReaders.lookup suffix = some .ods) ∨
    (previewedBy suffix = none ∧ (headerReaders.lookup suffix = none ∨ (headerReaders.lookup suffix = some .excel ∧ suffix ∉ openpyxlOpens))) := by
  by_cases h : suffix ∈ headerReaders.map (·.1)
  · have : ∀ s ∈ headerReaders.map (·.1), (previewedBy s = some .text ∧ headerReaders.lookup s = some .text) ∨
        (previewedBy s = some .excel ∧ headerReaders.lookup s = some .excel ∧ s ∈ openpyxlOpens) ∨
        (previewedBy s = some .ods ∧ headerReaders.lookup s = some .ods) ∨
        (previewedBy s = none ∧ (headerReaders.lookup s = none ∨ (headerReaders.lookup s = some .excel ∧ s ∉ openpyxlOpens))) := by decide
    exact this suffix h
  · have h1 : headerReaders.lookup suffix = none := by
      rw [List.lookup_eq_none_iff]
      intro p hp
      rw [bne_iff_ne]
      intro e
      exact h (List.mem_map.2 ⟨p, hp, e.symm⟩)
    have h2 : previewedBy suffix = none := by
      unfold previewedBy
      rw [if_neg (fun hm => h (by revert hm; simp only [headerReaders, List.map_cons, List.mem_cons]; tauto)),
        if_neg (fun hm => h (by revert hm; simp only [headerReaders, List.map_cons, List.mem_cons]; tauto)),
        if_neg (fun hm => h (by simp [headerReaders, hm]))]
    exact Or.inr (Or.inr (Or.inr ⟨h2, Or.inl h1⟩))

/-- **C124** (exactly what is previewed): a preview results exactly if the file exists, the delimiter is None or a text, the suffix is one of the six
`csv`, `tsv`, `txt`, `xlsx`, `xlsm`, `ods`, in lower case, and the reader of the suffix reads the file; it gets delimiter, header row and line count as given. -/
theorem C124_exact {X : Type} (f : PreviewOf X) (p : PathArg) (d : Except Unit (Option String)) (h l : Nat) (x : X) :
    getHeadersAny f p d h l = .ok x ↔ ∃ suffix dl, p = .path true suffix ∧ d = .ok dl ∧
      (previewedBy suffix = some .text ∧ f.text dl h l = .ok x ∨ previewedBy suffix = some .excel ∧ f.excel dl h l = .ok x ∨
       previewedBy suffix = some .ods ∧ f.ods dl h l = .ok x) := by
  cases p with
  | other => simp [getHeadersAny]
  | path e suffix =>
    cases e with
    | false => simp [getHeadersAny]
    | true =>
      cases d with
      | error => simp [getHeadersAny]
      | ok dl =>
        rcases headerReaders_lookup suffix with ⟨h1, h2⟩ | ⟨h1, h2, h3⟩ | ⟨h1, h2⟩ | ⟨h1, h2 | ⟨h2, h3⟩⟩
        · simp [getHeadersAny, h1, h2]
        · simp [getHeadersAny, h1, h2, h3]
        · simp [getHeadersAny, h1, h2]
        · simp [getHeadersAny, h1, h2]
        · simp [getHeadersAny, h1, h2, h3]

/-- C124: what is previewed is imported by the same kind of reader; of the formats imported `html` and `hdf5` have no preview, and no others -/
theorem C124_formats_exact (suffix : String) :
    (∀ r, previewedBy suffix = some r → openedBy suffix = some r) ∧
    (openedBy suffix ≠ none ∧ previewedBy suffix = none ↔ suffix = "html" ∨ suffix = "hdf5") := by
  by_cases h : suffix ∈ supportedFormats
  · have : ∀ s ∈ supportedFormats, (∀ r ∈ [FileReader.text, .html, .hdf5, .excel, .ods], previewedBy s = some r → openedBy s = some r) ∧
        (openedBy s ≠ none ∧ previewedBy s = none ↔ s = "html" ∨ s = "hdf5") := by decide
    exact ⟨fun r => (this suffix h).1 r (by cases r <;> simp), (this suffix h).2⟩
  · have ho : openedBy suffix = none := by
      unfold openedBy
      simp only [supportedFormats, fileReaders, List.map_cons, List.map_nil, List.mem_cons, List.not_mem_nil, or_false, not_or] at h
      simp [h]
    have hp : previewedBy suffix = none := by
      unfold previewedBy
      simp only [supportedFormats, fileReaders, List.map_cons, List.map_nil, List.mem_cons, List.not_mem_nil, or_false, not_or] at h
      simp [h]
    refine ⟨fun r hr => (by rw [hp] at hr; cases hr), fun hx => absurd ho hx.1, ?_⟩
    rintro (rfl | rfl) <;> exact absurd (by decide) h

/-- C124: the errors: a path that is neither a text nor a path, a delimiter of another type and a suffix without a reader raise TypeError, in any combination
with an existing file -/
theorem C124_errors {X : Type} (f : PreviewOf X) (p : PathArg) (d : Except Unit (Option String)) (h l : Nat) :
    (p = .other → getHeadersAny f p d h l = .error .type) ∧
    (∀ s, p = .path false s → getHeadersAny f p d h l = .error .other) ∧
    (∀ s, p = .path true s → d = .error () → getHeadersAny f p d h l = .error .type) ∧
    (∀ s, p = .path true s → s ∉ headerReaders.map (·.1) → getHeadersAny f p d h l = .error .type) := by
  refine ⟨?_, ?_, ?_, ?_⟩
  · rintro rfl; rfl
  · rintro s rfl; rfl
  · rintro s rfl rfl; rfl
  · rintro s rfl hs
    cases d with
    | error => rfl
    | ok dl =>
      have h1 : headerReaders.lookup s = none := by
        rw [List.lookup_eq_none_iff]
        intro p hp
        rw [bne_iff_ne]
        intro e
        exact hs (List.mem_map.2 ⟨p, hp, e.symm⟩)
      simp [getHeadersAny, h1]

/-! ## C62 `sortation.reindex` -/

variable {ν α : Type} [DecidableEq ν]

theorem foldl_max_iff (r : List Int) (i n : Int) : n ≤ r.foldl max i ↔ ∃ x ∈ i :: r, n ≤ x := by
  induction r generalizing i with
  | nil => simp
  | cons a r ih =>
    rw [List.foldl_cons, ih]
    simp only [List.mem_cons, exists_eq_or_imp, or_and_right, exists_or, exists_eq_left]
    rw [show n ≤ max i a ↔ n ≤ i ∨ n ≤ a by omega, or_assoc]

theorem foldl_min_iff (r : List Int) (i n : Int) : r.foldl min i < n ↔ ∃ x ∈ i :: r, x < n := by
  induction r generalizing i with
  | nil => simp
  | cons a r ih =>
    rw [List.foldl_cons, ih]
    simp only [List.mem_cons, exists_eq_or_imp, or_and_right, exists_or, exists_eq_left]
    rw [show min i a < n ↔ i < n ∨ a < n by omega, or_assoc]

/-- C62 (`sortation.reindex`), exactly: an empty index raises ValueError, an index with a number outside of `-len(T)` to `len(T) - 1` raises IndexError, and
all others give what `Table.reindex` gives. -/
theorem C62_checked_exact (ps : Nat) (nul : α) (t : Tbl ν α) (index : List Int) :
    sortReindex ps nul t index =
      if index = [] then .error .value
      else if ∃ i ∈ index, i < -(tblLen t : Int) ∨ (tblLen t : Int) ≤ i then .error .index
      else tblReindex ps nul t index := by
  cases index with
  | nil => rfl
  | cons i r =>
    rw [if_neg (by simp), sortReindex]
    by_cases h1 : r.foldl max i ≥ (tblLen t : Int)
    · rw [if_pos h1, if_pos]
      obtain ⟨x, hx, hl⟩ := (foldl_max_iff r i _).1 h1
      exact ⟨x, hx, Or.inr hl⟩
    · rw [if_neg h1]
      by_cases h2 : r.foldl min i < -(tblLen t : Int)
      · rw [if_pos h2, if_pos]
        obtain ⟨x, hx, hl⟩ := (foldl_min_iff r i _).1 h2
        exact ⟨x, hx, Or.inl hl⟩
      · rw [if_neg h2, if_neg]
        rintro ⟨x, hx, hl | hl⟩
        · exact h2 ((foldl_min_iff r i _).2 ⟨x, hx, hl⟩)
        · exact h1 ((foldl_max_iff r i _).2 ⟨x, hx, hl⟩)

/-- C62 (`sortation.reindex`) in full: every selection of rows, also the empty one, gives these rows -/
def C62_checked_statement : Prop :=
  ∀ (ps : Nat), 0 < ps → ∀ (t : Tbl String Int) (n : Nat) (index : List Int), t ≠ [] → Rect t n → (∀ i ∈ index, 0 ≤ i ∧ i < n) →
    ∃ t', sortReindex ps 0 t index = .ok t' ∧ tview t' = t.map fun c => (c.1, index.map (pick 0 (colIter c.2)))

/-- fails: the empty selection raises ValueError -/
theorem C62_checked_fails : ¬ C62_checked_statement := by
  intro h
  obtain ⟨t', h1, _⟩ := h 2 (by omega) [("a", [[5]])] 1 [] (by simp) (by unfold Rect; decide) (by simp)
  cases h1

/-- C62 (`sortation.reindex`, partial): every non-empty selection of rows gives these rows, every page size and layout -/
theorem C62_checked_partial (ps : Nat) (hps : 0 < ps) (nul : α) (t : Tbl ν α) (n : Nat) (ht : t ≠ []) (hr : Rect t n) (index : List Int) (hne : index ≠ [])
    (hi : ∀ i ∈ index, 0 ≤ i ∧ i < n) :
    ∃ t', sortReindex ps nul t index = .ok t' ∧ tview t' = t.map fun c => (c.1, index.map (pick nul (colIter c.2))) := by
  rw [C62_checked_exact, if_neg hne, if_neg]
  · refine C62_reindex_partial ps hps nul t index (fun c hc i hm => Or.inr ?_) (fun hm => ?_)
    · rw [hr c hc]; exact hi i hm
    · have := (hi _ hm).1; omega
  · rw [tblLen_rect t n hr ht]
    rintro ⟨i, hm, h⟩
    have := hi i hm
    omega

example : (sortReindex 2 0 [("a", [[5, 6], [7]])] [2, 0]).map tview = .ok [("a", [7, 5])] := by decide
example : sortReindex 2 0 [("a", [[5, 6], [7]])] [3] = .error .index := by decide

end Tablite
