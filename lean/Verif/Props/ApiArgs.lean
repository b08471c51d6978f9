import Verif.Model.ApiArgs
import Verif.Props.Table
/-!
# C118, C119: arguments of entry points
-/

namespace Tablite

variable {ν α : Type} [DecidableEq ν]

/-- **C118** in full: wherever names of columns are asked for, the name of one column stands for the list with this name – as `targets` and `sources` of
`imputation` and as `columns` of `replace`. -/
def C118_statement : Prop :=
  ∀ (cols : List String) (n : String), n ∈ cols →
    imputeTargets cols (.one n) = imputeTargets cols (.many [n]) ∧ imputeSources cols (.one n) = imputeSources cols (.many [n]) ∧
    ∀ t : Tbl String Int, t.map (·.1) = cols → replaceNames t (.one n) = replaceNames t (.many [n])

/-- C118 fails: a column name as `targets` of `imputation` raises TypeError, as the condition that wraps it into a list has a `not` too many -/
theorem C118_fails : ¬ C118_statement := by
  intro h
  have := (h ["a"] "a" (by decide)).1
  revert this
  decide

theorem checkNames_ok (cols ns : List ν) (h : ∀ n ∈ ns, n ∈ cols) : checkNames cols ns = .ok ns := by
  unfold checkNames
  rw [if_pos (by simpa using h)]

/-- **C118** (what a text as `targets` does): it raises, whatever it is – TypeError exactly if it is a column, ValueError otherwise; a list is accepted exactly
if it consists of columns. So a single name is accepted in a list only. -/
theorem C118_exact (cols : List ν) (n : ν) :
    (imputeTargets cols (.one n) = .error .type ↔ n ∈ cols) ∧ (imputeTargets cols (.one n) = .error .value ↔ n ∉ cols) ∧
    (∀ r, imputeTargets cols (.one n) ≠ .ok r) ∧ ∀ ns r, imputeTargets cols (.many ns) = .ok r ↔ (r = ns ∧ ∀ m ∈ ns, m ∈ cols) := by
  refine ⟨?_, ?_, ?_, ?_⟩
  · by_cases h : n ∈ cols <;> simp [imputeTargets, checkNames, h]
  · by_cases h : n ∈ cols <;> simp [imputeTargets, checkNames, h]
  · intro r
    by_cases h : n ∈ cols <;> simp [imputeTargets, checkNames, h]
  · intro ns r
    show (if ns.all fun n => decide (n ∈ cols) then Except.ok ns else Except.error Err.value) = .ok r ↔ _
    by_cases h : ∀ m ∈ ns, m ∈ cols
    · rw [if_pos (by simpa using h)]
      constructor
      · intro e; injection e with e; exact ⟨e.symm, h⟩
      · rintro ⟨rfl, _⟩; rfl
    · rw [if_neg (by simpa using h)]
      constructor
      · intro e; cases e
      · rintro ⟨_, e⟩; exact absurd e h

/-- **C118**, what holds: as `sources` of `imputation` and as `columns` of `replace` the name of a column stands for the list with this name, and if they are
left out – for `sources` also if the list is empty – all columns are taken; all other texts raise. Missing: `targets`. -/
theorem C118_partial (cols : List ν) (n : ν) :
    (n ∈ cols → imputeSources cols (.one n) = .ok [n] ∧ imputeSources cols (.many [n]) = .ok [n]) ∧ (n ∉ cols → ∃ e, imputeSources cols (.one n) = .error e) ∧
    imputeSources cols .none = .ok cols ∧ imputeSources cols (.many []) = .ok cols ∧
    ∀ t : Tbl ν α, t.map (·.1) = cols →
      (n ∈ cols → replaceNames t (.one n) = .ok [n] ∧ replaceNames t (.many [n]) = .ok [n]) ∧ (n ∉ cols → ∃ e, replaceNames t (.one n) = .error e) ∧
      replaceNames t .all = .ok cols := by
  refine ⟨?_, ?_, rfl, ?_, ?_⟩
  · intro h
    constructor
    · exact checkNames_ok cols [n] (by simpa using h)
    · show checkNames cols [n] = _
      exact checkNames_ok cols [n] (by simpa using h)
  · intro h
    exact ⟨.value, by simp [imputeSources, checkNames, h]⟩
  · exact checkNames_ok cols cols fun _ h => h
  · rintro t rfl
    refine ⟨?_, ?_, rfl⟩
    · intro h
      constructor
      · exact if_pos h
      · exact if_pos (by simpa using h)
    · intro h
      exact ⟨.type, if_neg h⟩

example : imputeTargets ["a", "b"] (.one "a") = .error .type ∧ imputeSources ["a", "b"] (.one "a") = .ok ["a"] ∧
    imputeTargets ["a", "b"] (.many ["b", "a"]) = .ok ["b", "a"] ∧ imputeTargets ["a", "b"] (.one "c") = .error .value := by decide

/-- **C118** (sort_index) in full: `Table.sort_index(sort_mode, **criteria)` gives an index for some mode and criteria given as keywords, as its documentation
says. -/
def C118_sort_index_statement : Prop :=
  ∃ (rk : Bool → List Int → Except Err (Int → Option Nat)) (t : Tbl String Int) (mode : String) (kwargs : List String) (r : List Nat),
    tableSortIndex rk t (.mode mode) kwargs = .ok r

/-- C118 (sort_index) fails: with a mode `Table.sort_index` raises TypeError always, as it hands the mode on as the criteria -/
theorem C118_sort_index_fails : ¬ C118_sort_index_statement := by
  rintro ⟨rk, t, mode, kwargs, r, h⟩
  unfold tableSortIndex at h
  split at h <;> cases h

/-- **C118** (sort_index, what it does): it gives the index of `sort` exactly when no keyword is given and the mapping is given in place of the mode; all else
raises TypeError, whatever the table. -/
theorem C118_sort_index_exact (rk : Bool → List α → Except Err (α → Option Nat)) (t : Tbl ν α) (arg : SortArg ν) (kwargs : List String) (r : List Nat) :
    tableSortIndex rk t arg kwargs = .ok r ↔ kwargs = [] ∧ ∃ m, arg = .mapping m ∧ sortIndex rk t m = .ok r := by
  unfold tableSortIndex
  by_cases hk : kwargs = []
  · subst hk
    cases arg with
    | mode m => simp
    | mapping m => simp
  · simp [hk]

/-! ## C119: files -/

/-- the formats `from_file` names as supported, import_utils.py:650 -/
def supportedFormats : List String := fileReaders.map (·.1)

/-- the settings that ask for the whole file -/
def ImportArgs.whole : ImportArgs := ⟨none, true, 0, 2 ^ 63 - 1⟩

/-- valid settings -/
def ImportArgs.Valid (a : ImportArgs) : Prop := 0 ≤ a.start ∧ a.start ≤ 2 ^ 63 - 1 ∧ 0 < a.limit ∧ a.limit ≤ 2 ^ 63 - 1

/-- **C119** (formats) in full: a file whose suffix is one of the formats that `from_file` names as supported is imported, if it can be read. -/
def C119_statement : Prop :=
  ∀ (f : FileOf (List Int)) (suffix : String) (a : ImportArgs), suffix ∈ supportedFormats → a.Valid →
    (∀ b, ∃ x, f.text b = .ok x) → (∀ b, ∃ x, f.excel b = .ok x) → (∀ b, ∃ x, f.ods b = .ok x) → (∃ x, f.html = .ok x) → (∃ x, f.hdf5 = .ok x) →
    ∃ x, importAny f true suffix a = .ok x

/-- C119 fails: `.json` (and five other formats) goes to the Excel reader, which refuses it -/
theorem C119_fails : ¬ C119_statement := by
  intro h
  obtain ⟨x, hx⟩ := h ⟨fun _ => .ok [], fun _ => .ok [], fun _ => .ok [], .ok [], .ok []⟩ "json" ImportArgs.whole (by decide) (by
      unfold ImportArgs.Valid ImportArgs.whole; decide)
    (fun _ => ⟨_, rfl⟩) (fun _ => ⟨_, rfl⟩) (fun _ => ⟨_, rfl⟩) ⟨_, rfl⟩ ⟨_, rfl⟩
  have : importAny (⟨fun _ => .ok [], fun _ => .ok [], fun _ => .ok [], .ok [], .ok []⟩ : FileOf (List Int)) true "json" ImportArgs.whole = .error .other := by
    decide
  rw [this] at hx
  cases hx

theorem lookup_isSome_iff {β : Type} (k : String) : ∀ l : List (String × β), (l.lookup k).isSome ↔ k ∈ l.map (·.1)
  | [] => by simp
  | (a, b) :: l => by
    by_cases h : k = a
    · subst h; simp
    · have hb : (k == a) = false := by simpa using h
      rw [List.lookup_cons, hb]
      simp only [List.map_cons, List.mem_cons, h, false_or]
      exact lookup_isSome_iff k l

/-- the reader that gets a file with this suffix and can open it -/
def openedBy (suffix : String) : Option FileReader :=
  if suffix ∈ ["csv", "tsv", "txt"] then some .text
  else if suffix ∈ ["xlsx", "xlsm"] then some .excel
  else if suffix = "ods" then some .ods
  else if suffix = "html" then some .html
  else if suffix = "hdf5" then some .hdf5
  else none

/-- **C119** (exactly what is imported): a table results exactly if the file exists, the settings are valid, the suffix is one of the eight that have a reader
which opens it – `csv`, `tsv`, `txt`, `xlsx`, `xlsm`, `ods`, `html`, `hdf5`, in lower case – and this reader reads the file: it gets the settings, except
for HTML and HDF5. -/
theorem C119_exact {X : Type} (f : FileOf X) (e : Bool) (suffix : String) (a : ImportArgs) (x : X) :
    importAny f e suffix a = .ok x ↔ e = true ∧ a.Valid ∧
      (openedBy suffix = some .text ∧ f.text a = .ok x ∨ openedBy suffix = some .excel ∧ f.excel a = .ok x ∨ openedBy suffix = some .ods ∧ f.ods a = .ok x ∨
       openedBy suffix = some .html ∧ f.html = .ok x ∨ openedBy suffix = some .hdf5 ∧ f.hdf5 = .ok x) := by
  unfold importAny
  cases e with
  | false => simp
  | true =>
    simp only [Bool.not_true, Bool.false_eq_true, if_false, true_and]
    by_cases hs : 0 ≤ a.start ∧ a.start ≤ maxSize
    · by_cases hl : 0 < a.limit ∧ a.limit ≤ maxSize
      · rw [if_neg (not_not.mpr hs), if_neg (not_not.mpr hl)]
        have hv : a.Valid := ⟨hs.1, hs.2, hl.1, hl.2⟩
        simp only [hv, true_and]
        by_cases hmem : suffix ∈ supportedFormats
        · have hcases : ∀ s ∈ supportedFormats, s = "fods" ∨ s = "json" ∨ s = "html" ∨ s = "hdf5" ∨ s = "simple" ∨ s = "rst" ∨ s = "mediawiki" ∨
              s = "xlsx" ∨ s = "xls" ∨ s = "xlsm" ∨ s = "csv" ∨ s = "tsv" ∨ s = "txt" ∨ s = "ods" := by decide
          rcases hcases suffix hmem with rfl | rfl | rfl | rfl | rfl | rfl | rfl | rfl | rfl | rfl | rfl | rfl | rfl | rfl <;>
            simp [fileReaders, openedBy, openpyxlOpens, List.lookup]
        · have hn : fileReaders.lookup suffix = none := by
            rw [← Option.not_isSome_iff_eq_none, lookup_isSome_iff]
            exact hmem
          rw [hn]
          have hr : openedBy suffix = none := by
            have hh : ∀ s ∈ ["csv", "tsv", "txt", "xlsx", "xlsm", "ods", "html", "hdf5"], suffix ≠ s := by
              rintro s hs rfl
              exact hmem ((by decide : ∀ s ∈ ["csv", "tsv", "txt", "xlsx", "xlsm", "ods", "html", "hdf5"], s ∈ supportedFormats) _ hs)
            simp only [List.mem_cons, List.not_mem_nil, or_false, forall_eq_or_imp, forall_eq] at hh
            simp [openedBy, hh]
          rw [hr]
          simp
      · rw [if_neg (not_not.mpr hs), if_pos hl]
        have hv : ¬ a.Valid := fun h => hl ⟨h.2.2.1, h.2.2.2⟩
        simp [hv]
    · rw [if_pos hs]
      have hv : ¬ a.Valid := fun h => hs ⟨h.1, h.2.1⟩
      simp [hv]

/-- the six formats named as supported that are never imported -/
theorem C119_formats_exact (suffix : String) (h : suffix ∈ supportedFormats) :
    (∀ (f : FileOf Unit) (e : Bool) (a : ImportArgs) (x : Unit), importAny f e suffix a ≠ .ok x) ↔
      suffix ∈ ["fods", "json", "simple", "rst", "mediawiki", "xls"] := by
  have hcases : ∀ s ∈ supportedFormats, (openedBy s = none ↔ s ∈ ["fods", "json", "simple", "rst", "mediawiki", "xls"]) := by decide
  rw [← hcases suffix h]
  constructor
  · intro hall
    by_contra hr
    have hv : ImportArgs.whole.Valid := by unfold ImportArgs.Valid ImportArgs.whole; decide
    apply hall ⟨fun _ => .ok (), fun _ => .ok (), fun _ => .ok (), .ok (), .ok ()⟩ true ImportArgs.whole ()
    rw [C119_exact]
    refine ⟨rfl, hv, ?_⟩
    cases hb : openedBy suffix with
    | none => exact absurd hb hr
    | some r => cases r <;> simp
  · intro hr f e a x hx
    rw [C119_exact, hr] at hx
    simp at hx

/-- rows `start`, ..., `start + limit - 1` of a list -/
def rowsFrom (start limit : Int) (l : List Int) : List Int := (l.drop start.toNat).take limit.toNat

/-- **C119** (settings) in full: whatever the format, if the reader honours `start` and `limit` when it gets them, `from_file(path, start, limit)` gives
`limit` rows from row `start` of what `from_file(path)` gives. -/
def C119_settings_statement : Prop :=
  ∀ (f : FileOf (List Int)) (suffix : String) (a : ImportArgs) (all : List Int), a.Valid →
    (∀ b, f.text b = .ok (rowsFrom b.start b.limit all)) → (∀ b, f.excel b = .ok (rowsFrom b.start b.limit all)) →
    (∀ b, f.ods b = .ok (rowsFrom b.start b.limit all)) → f.html = .ok all → f.hdf5 = .ok all → openedBy suffix ≠ none →
    importAny f true suffix a = .ok (rowsFrom a.start a.limit all)

/-- C119 (settings) fails: `from_file('x.html', start=1)` imports all rows -/
theorem C119_settings_fails : ¬ C119_settings_statement := by
  intro h
  have := h ⟨fun b => .ok (rowsFrom b.start b.limit [7, 8]), fun b => .ok (rowsFrom b.start b.limit [7, 8]), fun b => .ok (rowsFrom b.start b.limit [7, 8]),
    .ok [7, 8], .ok [7, 8]⟩ "html" ⟨none, true, 1, 1⟩ [7, 8] (by unfold ImportArgs.Valid; decide) (fun _ => rfl) (fun _ => rfl) (fun _ => rfl) rfl rfl
    (by decide)
  revert this
  decide

/-- **C119**, what holds: for text files, Excel and ODS files the settings are honoured; for HTML and HDF5 files valid settings make no difference at all, and
invalid ones raise ValueError whatever the format. Missing: settings for HTML and HDF5 (ignored without an exception). -/
theorem C119_settings_partial {X : Type} (f : FileOf X) (suffix : String) (a : ImportArgs) :
    (a.Valid → (openedBy suffix = some .text → importAny f true suffix a = f.text a) ∧ (openedBy suffix = some .excel → importAny f true suffix a = f.excel a) ∧
      (openedBy suffix = some .ods → importAny f true suffix a = f.ods a) ∧
      (openedBy suffix = some .html ∨ openedBy suffix = some .hdf5 → ∀ b : ImportArgs, b.Valid → importAny f true suffix a = importAny f true suffix b)) ∧
    (¬ a.Valid → importAny f true suffix a = .error .value) := by
  have key : ∀ b : ImportArgs, b.Valid → ∀ r, openedBy suffix = some r → importAny f true suffix b =
      match r with | .text => f.text b | .html => f.html | .hdf5 => f.hdf5 | .excel => f.excel b | .ods => f.ods b := by
    intro b hb r hr
    have hmem : suffix = "csv" ∨ suffix = "tsv" ∨ suffix = "txt" ∨ suffix = "xlsx" ∨ suffix = "xlsm" ∨ suffix = "ods" ∨ suffix = "html" ∨ suffix = "hdf5" := by
      by_contra hn
      simp only [not_or] at hn
      simp [openedBy, hn] at hr
    have h1 : 0 ≤ b.start ∧ b.start ≤ maxSize := ⟨hb.1, hb.2.1⟩
    have h2 : 0 < b.limit ∧ b.limit ≤ maxSize := hb.2.2
    rcases hmem with rfl | rfl | rfl | rfl | rfl | rfl | rfl | rfl <;> simp [openedBy] at hr <;> subst hr <;>
      simp [importAny, h1, h2, fileReaders, openpyxlOpens, List.lookup]
  constructor
  · intro ha
    refine ⟨fun h => key a ha _ h, fun h => key a ha _ h, fun h => key a ha _ h, ?_⟩
    rintro (h | h) b hb <;> rw [key a ha _ h, key b hb _ h]
  · intro ha
    unfold importAny
    by_cases hs : 0 ≤ a.start ∧ a.start ≤ maxSize
    · have hl : ¬ (0 < a.limit ∧ a.limit ≤ maxSize) := fun hl => ha ⟨hs.1, hs.2, hl.1, hl.2⟩
      simp [hs, hl]
    · simp [hs]

example : ImportArgs.Valid ⟨some ["a"], true, 3, 10⟩ ∧ openedBy "csv" = some .text ∧ openedBy "CSV" = none ∧ openedBy "json" = none := by
  unfold ImportArgs.Valid; decide

end Tablite
