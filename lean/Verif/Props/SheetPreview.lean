import Verif.Model.SheetPreview
import Verif.Props.Sheet
import Verif.Props.Reshape
import Verif.Props.Refcount
import Verif.Props.TableObjExact
/-!
# C121: previews of spreadsheets show what the import imports
-/

namespace Tablite

variable {O : Type}

/-- what a cell holds for the preview: texts without tabs and line ends -/
def xCellAt (row : List (XCell O)) (j : Nat) : PV O := stripEsc ((row.map XCell.shown).getD j .none)

/-- values that have a form in JSON -/
def Jsonable : PV O → Prop
  | .bytes _ => False
  | .other _ => False
  | _ => True

/-- the form in JSON of a value that has one -/
def jsonOf (R : Runtime O) (v : PV O) : JV := ((toJson R v).toOption).getD .null

theorem toJson_ok (R : Runtime O) (v : PV O) (h : Jsonable v) : toJson R v = .ok (jsonOf R v) := by
  cases v <;> first | rfl | exact absurd h (by simp [Jsonable])

theorem jsonable_strip (v : PV O) (h : Jsonable v) : Jsonable (stripEsc v) := by
  cases v <;> exact h

theorem blank_iff (v : PV O) : (!(v.type == .none)) = false ↔ v = .none := by
  cases v <;> simp [PV.type]

/-- `w` is the width of the part of the rows that is not empty -/
def UsedWidth (rows : List (List (XCell O))) (w : Nat) : Prop :=
  (∀ r ∈ rows, ∀ j, w ≤ j → xCellAt r j = .none) ∧ (0 < w → ∃ r ∈ rows, xCellAt r (w - 1) ≠ .none)

theorem xCellAt_map (row : List (XCell O)) (j : Nat) : (row.map fun c => stripEsc c.shown).getD j .none = xCellAt row j := by
  unfold xCellAt
  rw [List.getD_eq_getElem?_getD, List.getD_eq_getElem?_getD, List.getElem?_map, List.getElem?_map]
  cases row[j]? <;> rfl

theorem padEnd_ge (maxCol pad : Nat) (row : List (XCell O)) : pad ≤ padEnd maxCol pad (row.map fun c => stripEsc c.shown) := by
  unfold padEnd
  split <;> omega

theorem padEnd_right (maxCol pad : Nat) (row : List (XCell O)) (hl : row.length = maxCol) (j : Nat)
    (hj : padEnd maxCol pad (row.map fun c => stripEsc c.shown) ≤ j) : xCellAt row j = .none := by
  rw [← xCellAt_map]
  generalize hr : (row.map fun c => stripEsc c.shown) = l at *
  have hll : l.length = maxCol := by rw [← hr]; simpa using hl
  by_cases hlt : j < l.length
  · rw [List.getD_eq_getElem?_getD, List.getElem?_eq_getElem hlt, Option.getD_some]
    have hrev : l[j] = l.reverse[l.length - 1 - j]'(by simp; omega) := by
      rw [List.getElem_reverse]
      congr 1
      omega
    rw [hrev]
    apply (blank_iff _).1
    unfold padEnd at hj
    split at hj
    · rename_i k hk
      rw [List.findIdx?_eq_some_iff_getElem] at hk
      obtain ⟨h1, _, h3⟩ := hk
      have := h3 (l.length - 1 - j) (by simp at h1; omega)
      simpa using this
    · rename_i hk
      rw [List.findIdx?_eq_none_iff] at hk
      exact hk _ (List.getElem_mem _)
  · rw [List.getD_eq_getElem?_getD, List.getElem?_eq_none (by omega)]
    rfl

theorem padEnd_wit (maxCol pad : Nat) (row : List (XCell O)) (hl : row.length = maxCol) :
    padEnd maxCol pad (row.map fun c => stripEsc c.shown) = pad ∨
      xCellAt row (padEnd maxCol pad (row.map fun c => stripEsc c.shown) - 1) ≠ .none := by
  generalize hr : (row.map fun c => stripEsc c.shown) = l
  have hll : l.length = maxCol := by rw [← hr]; simpa using hl
  unfold padEnd
  split
  · rename_i k hk
    rw [List.findIdx?_eq_some_iff_getElem] at hk
    obtain ⟨h1, h2, _⟩ := hk
    rw [List.length_reverse] at h1
    by_cases hp : max pad (maxCol - k) = pad
    · exact Or.inl hp
    · right
      rw [show max pad (maxCol - k) - 1 = l.length - 1 - k by omega, ← xCellAt_map, hr]
      rw [List.getElem_reverse] at h2
      rw [List.getD_eq_getElem?_getD, List.getElem?_eq_getElem (by omega), Option.getD_some]
      intro h0
      rw [(blank_iff _).2 h0] at h2
      cases h2
  · exact Or.inl rfl

theorem jsonRow_ok (R : Runtime O) (row : List (XCell O)) (h : ∀ c ∈ row, Jsonable c.shown) :
    (row.map fun c => stripEsc c.shown).mapM (toJson R) = .ok (row.map fun c => jsonOf R (stripEsc c.shown)) := by
  rw [mapM_ok _ _ (jsonOf R)]
  · rw [List.map_map]; rfl
  · intro v hv
    obtain ⟨c, hc, rfl⟩ := List.mem_map.1 hv
    exact toJson_ok R _ (jsonable_strip _ (h c hc))

theorem xPreviewLoop_ok (R : Runtime O) (maxCol : Nat) : ∀ (rows : List (List (XCell O))) (A : List (Option (List JV))) (k pad : Nat),
    (∀ r ∈ rows, r.length = maxCol) → (∀ r ∈ rows, ∀ c ∈ r, Jsonable c.shown) → rows.length ≤ k →
    ∃ w, xPreviewLoop R maxCol A.length (A ++ List.replicate k none, pad) rows =
        .ok (A ++ (rows.map fun r => some (r.map fun c => jsonOf R (stripEsc c.shown))) ++ List.replicate (k - rows.length) none, w) ∧
      pad ≤ w ∧ (∀ r ∈ rows, ∀ j, w ≤ j → xCellAt r j = .none) ∧ (w = pad ∨ ∃ r ∈ rows, xCellAt r (w - 1) ≠ .none)
  | [], A, k, pad, _, _, _ => ⟨pad, by simp [xPreviewLoop], Nat.le_refl _, by simp, Or.inl rfl⟩
  | r :: rows, A, k, pad, hl, hj, hk => by
    have hk' : rows.length + 1 ≤ k := hk
    obtain ⟨k', rfl⟩ : ∃ k', k = k' + 1 := ⟨k - 1, by omega⟩
    obtain ⟨w, h1, h2, h3, h4⟩ := xPreviewLoop_ok R maxCol rows (A ++ [some (r.map fun c => jsonOf R (stripEsc c.shown))]) k'
      (padEnd maxCol pad (r.map fun c => stripEsc c.shown)) (fun r hr => hl r (by simp [hr])) (fun r hr => hj r (by simp [hr])) (by omega)
    refine ⟨w, ?_, Nat.le_trans (padEnd_ge ..) h2, ?_, ?_⟩
    · rw [xPreviewLoop, jsonRow_ok R r (hj r (by simp))]
      dsimp only [Except.bind]
      rw [if_pos (by simp)]
      rw [show List.set (A ++ List.replicate (k' + 1) none) A.length (some (r.map fun c : XCell O => jsonOf R (stripEsc c.shown))) =
        (A ++ [some (r.map fun c => jsonOf R (stripEsc c.shown))]) ++ List.replicate k' none by
          rw [List.replicate_succ, List.set_append_right _ _ (Nat.le_refl _), Nat.sub_self, List.set_cons_zero, List.append_assoc]; rfl]
      rw [show A.length + 1 = (A ++ [some (r.map fun c => jsonOf R (stripEsc c.shown))]).length by simp, h1]
      simp
    · intro r' hr'
      rcases List.mem_cons.1 hr' with rfl | hr'
      · intro j hj'
        exact padEnd_right maxCol pad r' (hl r' (by simp)) j (by omega)
      · exact h3 r' hr'
    · rcases h4 with h4 | ⟨r', hr', h4⟩
      · rcases padEnd_wit maxCol pad r (hl r (by simp)) with h5 | h5
        · left; omega
        · right; exact ⟨r, by simp, by rw [h4]; exact h5⟩
      · right; exact ⟨r', by simp [hr'], h4⟩

/-- the rows a preview is to show: the header row and `linecount` rows below it -/
def previewRows {α : Type} (headerRow linecount : Nat) (sheet : List α) : List α := (sheet.drop headerRow).take (linecount + 1)

/-- **C121, Excel, what is shown**: the header row and the `linecount` rows below it, as JSON, without the empty columns at the right of all of them; then one `None` for
each row that is missing at the end of the sheet but stands before the header row -/
theorem C121_effect (R : Runtime O) (headerRow linecount maxCol : Nat) (sheet : List (List (XCell O))) (hl : ∀ r ∈ sheet, r.length = maxCol)
    (hj : ∀ r ∈ previewRows headerRow linecount sheet, ∀ c ∈ r, Jsonable c.shown) :
    ∃ w, UsedWidth (previewRows headerRow linecount sheet) w ∧
      excelPreview R headerRow linecount maxCol sheet =
        .ok ((previewRows headerRow linecount sheet).map (fun r => some ((r.map fun c => jsonOf R (stripEsc c.shown)).take w)) ++
          List.replicate (min sheet.length (linecount + 1) - (previewRows headerRow linecount sheet).length) none) := by
  have hrows : (rowsUpTo sheet (headerRow + min sheet.length (linecount + 1))).drop headerRow = previewRows headerRow linecount sheet := by
    unfold rowsUpTo previewRows
    split
    · rename_i h0
      have : sheet = [] := List.eq_nil_of_length_eq_zero (by omega)
      subst this
      simp
    · rw [List.drop_take, Nat.add_sub_cancel_left]
      rcases Nat.le_total sheet.length (linecount + 1) with h | h
      · rw [Nat.min_eq_left h, List.take_of_length_le (by simp), List.take_of_length_le (by simp; omega)]
      · rw [Nat.min_eq_right h]
  have hlen : (previewRows headerRow linecount sheet).length = min (linecount + 1) (sheet.length - headerRow) := by simp [previewRows]
  obtain ⟨w, h1, _, h3, h4⟩ := xPreviewLoop_ok R maxCol (previewRows headerRow linecount sheet) [] (min sheet.length (linecount + 1)) 0
    (fun r hr => hl r (List.mem_of_mem_drop (List.mem_of_mem_take hr))) hj (by omega)
  refine ⟨w, ⟨h3, fun hw => h4.resolve_left (by omega)⟩, ?_⟩
  unfold excelPreview
  dsimp only
  rw [hrows]
  simp only [List.nil_append, List.length_nil] at h1
  rw [h1]
  dsimp only [Except.bind]
  rw [List.map_append, List.map_map, List.map_replicate]
  rfl

/-- C121: an Excel preview holds the rows of the sheet and nothing else -/
def C121_statement : Prop :=
  ∀ (O : Type) (R : Runtime O) (headerRow linecount maxCol : Nat) (sheet : List (List (XCell O))), (∀ r ∈ sheet, r.length = maxCol) →
    (∀ r ∈ previewRows headerRow linecount sheet, ∀ c ∈ r, Jsonable c.shown) → ∀ p, excelPreview R headerRow linecount maxCol sheet = .ok p → ∀ x ∈ p, x ≠ none

/-- **C121, exactly**: an Excel preview holds no `None` in place of a row if and only if it starts at the first row, or the sheet has enough rows below the header row -/
theorem C121_exact (R : Runtime O) (headerRow linecount maxCol : Nat) (sheet : List (List (XCell O))) (hl : ∀ r ∈ sheet, r.length = maxCol)
    (hj : ∀ r ∈ previewRows headerRow linecount sheet, ∀ c ∈ r, Jsonable c.shown) (p : List (Option (List JV)))
    (hp : excelPreview R headerRow linecount maxCol sheet = .ok p) :
    (∀ x ∈ p, x ≠ none) ↔ headerRow = 0 ∨ sheet = [] ∨ headerRow + linecount + 1 ≤ sheet.length := by
  obtain ⟨w, _, h2⟩ := C121_effect R headerRow linecount maxCol sheet hl hj
  rw [hp] at h2
  cases h2
  have hlen : (previewRows headerRow linecount sheet).length = min (linecount + 1) (sheet.length - headerRow) := by simp [previewRows]
  have h0 : sheet = [] ↔ sheet.length = 0 := List.length_eq_zero_iff.symm
  rw [h0]
  constructor
  · intro h
    have : min sheet.length (linecount + 1) - (previewRows headerRow linecount sheet).length = 0 := by
      rcases Nat.eq_zero_or_pos (min sheet.length (linecount + 1) - (previewRows headerRow linecount sheet).length) with h' | h'
      · exact h'
      · exact absurd rfl (h none (List.mem_append_right _ (List.mem_replicate.2 ⟨by omega, rfl⟩)))
    omega
  · intro h x hx
    rcases List.mem_append.1 hx with hx | hx
    · obtain ⟨r, _, rfl⟩ := List.mem_map.1 hx
      simp
    · rw [List.mem_replicate] at hx
      exfalso
      omega

/-- three rows of one cell, the header in the second -/
def shortSheet : List (List (XCell Unit)) := [[⟨none, .str (txt "title")⟩], [⟨none, .str (txt "a")⟩], [⟨none, .int 1⟩]]

theorem C121_fails : ¬ C121_statement := by
  intro h
  exact h Unit exactRuntime 1 10 1 shortSheet (by decide) (by unfold previewRows shortSheet; intro r hr c hc; simp at hr; rcases hr with rfl | rfl <;> (simp at hc; subst hc; trivial))
    [some [.str (txt "a")], some [.int 1], none] (by decide +kernel) none (by simp) rfl

/-! ## the same values as the import -/

/-- the sheet as the import sees it (`data_only=True`): formulas are replaced by the values stored for them -/
def importedSheet (sheet : List (List (XCell O))) : List (List (PV O)) := sheet.map fun r => r.map XCell.value

/-- C121: the cells below the header that a preview shows are those of the import: for the sheet without formulas, every cell of the imported table is shown at its place,
as JSON, or is empty and at the right of all that is shown -/
theorem C121_import (str_ : PV O → PyText) (X : XlsRuntime O) (hX : XlsRuntimeOk X) (ps : Nat) (hps : 0 < ps) (R : Runtime O) (headerRow linecount maxCol : Nat)
    (sheet : List (List (XCell O))) (hl : ∀ r ∈ sheet, r.length = maxCol) (hlong : headerRow < sheet.length) (hbig : sheet.length < 9223372036854775807)
    (hf : ∀ r ∈ sheet, ∀ c ∈ r, c.formula = none) (hc : ∀ r ∈ sheet, ∀ j, j < maxCol → XlsCell X (stripEsc ((r.map XCell.value).getD j .none)))
    (hj : ∀ r ∈ previewRows headerRow linecount sheet, ∀ c ∈ r, Jsonable c.shown) :
    ∃ t p w, excelRead str_ X ps { headerRow := headerRow } (importedSheet sheet) = .ok t ∧ excelPreview R headerRow linecount maxCol sheet = .ok p ∧ t.length = maxCol ∧
      ∀ i, i < linecount → headerRow + 1 + i < sheet.length → ∀ j, j < maxCol → ∃ c, t[j]? = some c ∧
        ∃ row, p[i + 1]? = some (some row) ∧ row.length = min w maxCol ∧
          ∃ v, (colIter c.2)[i]? = some v ∧ (j < w → row[j]? = some (jsonOf R v)) ∧ (w ≤ j → v = .none) := by
  obtain ⟨w, hw, hp⟩ := C121_effect R headerRow linecount maxCol sheet hl hj
  have hsh : ∀ r ∈ sheet, r.map XCell.shown = r.map XCell.value := by
    intro r hr
    apply List.map_congr_left
    intro c hcr
    unfold XCell.shown
    rw [hf r hr c hcr]
  have hlh : headerRow < (importedSheet sheet).length := by simpa [importedSheet] using hlong
  have hhead : (importedSheet sheet)[headerRow]? = some ((sheet[headerRow]'hlong).map XCell.value) := by
    unfold importedSheet
    rw [List.getElem?_map, List.getElem?_eq_getElem hlong]
    rfl
  have hlen : ∀ r ∈ importedSheet sheet, r.length = ((sheet[headerRow]'hlong).map XCell.value).length := by
    intro r hr
    obtain ⟨s, hs, rfl⟩ := List.mem_map.1 hr
    rw [List.length_map, List.length_map, hl s hs, hl _ (List.getElem_mem _)]
  obtain ⟨fields, hnames, hread⟩ : ∃ fields, NamesOk (excelWanted (excelHeaders str_ true ((sheet[headerRow]'hlong).map XCell.value)) none) fields ∧ _ :=
    C89_excel str_ X hX ps hps { headerRow := headerRow } (Int.le_refl 0) (show (0:Int) < 9223372036854775807 by decide) (importedSheet sheet) _ hhead hlen (by simp) (by
      intro r hr x hx
      have hx' : x.2 < maxCol := by
        have := excelWanted_lt str_ { headerRow := headerRow } _ (by simp) x hx
        rw [List.length_map, hl _ (List.getElem_mem _)] at this
        exact this
      obtain ⟨s, hs, rfl⟩ := List.mem_map.1 (List.mem_of_mem_drop (List.mem_of_mem_take hr))
      exact hc s hs x.2 hx')
  have hpos : fields.map (·.2) = List.range maxCol := by
    rw [hnames.positions]
    unfold excelWanted
    dsimp only
    rw [show (fun x : PyText × Nat => x.2) = Prod.snd from rfl, List.zipIdx_map_snd]
    unfold excelHeaders
    simp [hl _ (List.getElem_mem hlong), List.range_eq_range']
  have hfl : fields.length = maxCol := by simpa using congrArg List.length hpos
  refine ⟨_, _, w, hread, hp, by simpa using hfl, ?_⟩
  intro i hi hrow j hjc
  have hjf : j < fields.length := by omega
  have hj2 : fields[j].2 = j := by
    have : (fields.map (·.2))[j]? = (List.range maxCol)[j]? := by rw [hpos]
    rw [List.getElem?_map, List.getElem?_eq_getElem hjf, List.getElem?_range hjc] at this
    simpa using this
  have hpi : (previewRows headerRow linecount sheet)[i + 1]? = some (sheet[headerRow + 1 + i]'hrow) := by
    unfold previewRows
    rw [List.getElem?_take, if_pos (by omega), List.getElem?_drop, show headerRow + (i + 1) = headerRow + 1 + i by omega, List.getElem?_eq_getElem hrow]
  have hmem := List.mem_of_getElem? hpi
  refine ⟨_, by rw [List.getElem?_map, List.getElem?_eq_getElem hjf]; rfl, ((sheet[headerRow + 1 + i]'hrow).map fun c => jsonOf R (stripEsc c.shown)).take w, ?_, ?_,
    xCellAt (sheet[headerRow + 1 + i]'hrow) j, ?_, ?_, ?_⟩
  · have hi' : i + 1 < (previewRows headerRow linecount sheet).length := by
      rcases Nat.lt_or_ge (i + 1) (previewRows headerRow linecount sheet).length with h | h
      · exact h
      · rw [List.getElem?_eq_none h] at hpi; cases hpi
    rw [List.getElem?_append_left (by simpa using hi'), List.getElem?_map, hpi]
    rfl
  · rw [List.length_take, List.length_map, hl _ (List.getElem_mem hrow)]
  · dsimp only
    rw [colIter_paginate ps hps, excelImported_none _ rfl, List.getElem?_map, hj2]
    dsimp only
    rw [if_pos rfl, Int.toNat_zero, Nat.add_zero, List.getElem?_take, if_pos (by simp; omega), List.getElem?_drop]
    unfold importedSheet
    rw [List.getElem?_map, List.getElem?_eq_getElem hrow]
    simp only [Option.map_some]
    unfold sheetCell xCellAt
    rw [hsh _ (List.getElem_mem hrow)]
  · intro hjw
    rw [List.getElem?_take, if_pos hjw, List.getElem?_map, List.getElem?_eq_getElem (by rw [hl _ (List.getElem_mem hrow)]; exact hjc)]
    unfold xCellAt
    rw [List.getD_eq_getElem?_getD, List.getElem?_map, List.getElem?_eq_getElem (by rw [hl _ (List.getElem_mem hrow)]; exact hjc)]
    rfl
  · intro hwj
    exact hw.1 _ hmem j hwj


/-- a header and two rows, with an empty column at the right and a tab in a text -/
def previewDemo : List (List (XCell Unit)) :=
  [[⟨none, .str (txt "a")⟩, ⟨none, .str (txt "b")⟩, ⟨none, .none⟩],
   [⟨none, .int 1⟩, ⟨none, .none⟩, ⟨none, .none⟩],
   [⟨none, .str [120, 9, 121]⟩, ⟨none, .bool true⟩, ⟨none, .none⟩]]

example : excelPreview exactRuntime 0 1 3 previewDemo = .ok [some [.str (txt "a"), .str (txt "b")], some [.int 1, .null]] := by decide +kernel

example : ∃ w, UsedWidth (previewRows 0 1 previewDemo) w ∧
    excelPreview exactRuntime 0 1 3 previewDemo = .ok ((previewRows 0 1 previewDemo).map (fun r => some ((r.map fun c => jsonOf exactRuntime (stripEsc c.shown)).take w)) ++
      List.replicate (min previewDemo.length (1 + 1) - (previewRows 0 1 previewDemo).length) none) :=
  C121_effect exactRuntime 0 1 3 previewDemo (by decide) (by
    intro r hr c hc
    simp only [previewRows, previewDemo, List.drop, List.take, List.mem_cons, List.not_mem_nil, or_false] at hr
    rcases hr with rfl | rfl <;>
      · simp only [List.mem_cons, List.not_mem_nil, or_false] at hc
        rcases hc with rfl | rfl | rfl <;> trivial)

example : ∃ t p w, excelRead (fun _ => []) exactXls 2 {} (importedSheet previewDemo) = .ok t ∧ excelPreview exactRuntime 0 2 3 previewDemo = .ok p ∧ t.length = 3 ∧
      ∀ i, i < 2 → 0 + 1 + i < previewDemo.length → ∀ j, j < 3 → ∃ c, t[j]? = some c ∧
        ∃ row, p[i + 1]? = some (some row) ∧ row.length = min w 3 ∧
          ∃ v, (colIter c.2)[i]? = some v ∧ (j < w → row[j]? = some (jsonOf exactRuntime v)) ∧ (w ≤ j → v = .none) := by
  refine C121_import (fun _ => []) exactXls exactXls_ok 2 (by decide) exactRuntime 0 2 3 previewDemo (by decide) (by decide) (by decide) (by
    intro r hr c hc
    simp only [previewDemo, List.mem_cons, List.not_mem_nil, or_false] at hr
    rcases hr with rfl | rfl | rfl <;>
      · simp only [List.mem_cons, List.not_mem_nil, or_false] at hc
        rcases hc with rfl | rfl | rfl <;> rfl) ?_ (by
    intro r hr c hc
    simp only [previewRows, previewDemo, List.drop, List.take, List.mem_cons, List.not_mem_nil, or_false] at hr
    rcases hr with rfl | rfl | rfl <;>
      · simp only [List.mem_cons, List.not_mem_nil, or_false] at hc
        rcases hc with rfl | rfl | rfl <;> trivial)
  intro r hr j hj
  simp only [previewDemo, List.mem_cons, List.not_mem_nil, or_false] at hr
  have hj' : j = 0 ∨ j = 1 ∨ j = 2 := by omega
  rcases hr with rfl | rfl | rfl <;> rcases hj' with rfl | rfl | rfl <;> first
    | trivial
    | exact show List.length _ < _ by decide +kernel
    | exact ⟨by simp [Scalar, txt], fun b hb => by
        first
        | (rw [show utf8Encode ((txt "a").filter fun c => !(c == 9 || c == 10 || c == 13)) = .ok [97] by decide] at hb; cases hb; decide)
        | (rw [show utf8Encode ((txt "b").filter fun c => !(c == 9 || c == 10 || c == 13)) = .ok [98] by decide] at hb; cases hb; decide)
        | (rw [show utf8Encode ([120, 9, 121].filter fun c => !(c == 9 || c == 10 || c == 13)) = .ok [120, 121] by decide] at hb; cases hb; decide)⟩

/-! ## formulas -/

/-- C121: a preview shows the values of the cells, whether they are calculated or not -/
def C121_formula_statement : Prop :=
  ∀ (O : Type) (R : Runtime O) (headerRow linecount maxCol : Nat) (sheet : List (List (XCell O))),
    excelPreview R headerRow linecount maxCol sheet = excelPreview R headerRow linecount maxCol (sheet.map fun r => r.map fun c => ⟨none, c.value⟩)

/-- False: a calculated cell is shown as the text of its formula, where the import has its value -/
theorem C121_formula_fails : ¬ C121_formula_statement := by
  intro h
  have := h Unit exactRuntime 0 1 1 [[⟨some (txt "=1+1"), .int 2⟩]]
  exact absurd this (by decide +kernel)

/-- C121, the part of `C121_formula_statement` that holds: nothing is different if no cell is calculated -/
theorem C121_formula_partial (R : Runtime O) (headerRow linecount maxCol : Nat) (sheet : List (List (XCell O))) (hf : ∀ r ∈ sheet, ∀ c ∈ r, c.formula = none) :
    excelPreview R headerRow linecount maxCol sheet = excelPreview R headerRow linecount maxCol (sheet.map fun r => r.map fun c => ⟨none, c.value⟩) := by
  have : sheet.map (fun r => r.map fun c => (⟨none, c.value⟩ : XCell O)) = sheet := by
    conv => rhs; rw [← List.map_id sheet]
    apply List.map_congr_left
    intro r hr
    conv => rhs; rw [id, ← List.map_id r]
    apply List.map_congr_left
    intro c hc
    have := hf r hr c hc
    cases c
    cases this
    rfl
  rw [this]

example : ∀ r ∈ previewDemo, ∀ c ∈ r, c.formula = none := by
  intro r hr c hc
  simp only [previewDemo, List.mem_cons, List.not_mem_nil, or_false] at hr
  rcases hr with rfl | rfl | rfl <;>
    · simp only [List.mem_cons, List.not_mem_nil, or_false] at hc
      rcases hc with rfl | rfl | rfl <;> rfl

/-! ## ODS -/

/-- C121, ODS, what is shown: `linecount` rows, the header row being the first of them -/
theorem C121_ods (R : Runtime O) (headerRow linecount : Nat) (sheet : List (List (PV O))) (hj : ∀ r ∈ (sheet.drop headerRow).take linecount, ∀ v ∈ r, Jsonable v) :
    odsPreview R headerRow linecount sheet = .ok (((sheet.drop headerRow).take linecount).map fun r => some (r.map (jsonOf R))) := by
  unfold odsPreview
  apply mapM_ok
  intro r hr
  rw [mapM_ok _ _ (jsonOf R) fun v hv => toJson_ok R v (hj r hr v hv)]
  rfl

/-- C121: previews of the same sheet in the two formats have the same number of rows -/
def C121_parity_statement : Prop :=
  ∀ (O : Type) (R : Runtime O) (headerRow linecount maxCol : Nat) (sheet : List (List (PV O))) (p q : List (Option (List JV))), (∀ r ∈ sheet, r.length = maxCol) →
    excelPreview R headerRow linecount maxCol (sheet.map fun r => r.map fun v => ⟨none, v⟩) = .ok p → odsPreview R headerRow linecount sheet = .ok q → p.length = q.length

theorem C121_parity_fails : ¬ C121_parity_statement := by
  intro h
  have := h Unit exactRuntime 0 1 1 [[.str (txt "a")], [.int 1]] [some [.str (txt "a")], some [.int 1]] [some [.str (txt "a")]] (by decide) (by decide +kernel) (by decide +kernel)
  exact absurd this (by decide)

theorem excelPreview_length (R : Runtime O) (headerRow linecount maxCol : Nat) (sheet : List (List (XCell O))) (hl : ∀ r ∈ sheet, r.length = maxCol)
    (hj : ∀ r ∈ previewRows headerRow linecount sheet, ∀ c ∈ r, Jsonable c.shown) (p : List (Option (List JV)))
    (hp : excelPreview R headerRow linecount maxCol sheet = .ok p) : p.length = min sheet.length (linecount + 1) := by
  obtain ⟨w, _, h2⟩ := C121_effect R headerRow linecount maxCol sheet hl hj
  rw [hp] at h2
  cases h2
  have hlen : (previewRows headerRow linecount sheet).length = min (linecount + 1) (sheet.length - headerRow) := by simp [previewRows]
  simp only [List.length_append, List.length_map, List.length_replicate]
  omega

/-- **C121, exactly**: the two previews have the same number of rows if and only if the sheet has at most `linecount` rows and the header row is the first of them,
or the sheet is empty -/
theorem C121_parity_exact (R : Runtime O) (headerRow linecount maxCol : Nat) (sheet : List (List (PV O))) (p q : List (Option (List JV)))
    (hl : ∀ r ∈ sheet, r.length = maxCol) (hj : ∀ r ∈ sheet, ∀ v ∈ r, Jsonable v)
    (hp : excelPreview R headerRow linecount maxCol (sheet.map fun r => r.map fun v => ⟨none, v⟩) = .ok p) (hq : odsPreview R headerRow linecount sheet = .ok q) :
    p.length = q.length ↔ sheet = [] ∨ (headerRow = 0 ∧ sheet.length ≤ linecount) := by
  have h1 := excelPreview_length R headerRow linecount maxCol _ (by
    intro r hr
    obtain ⟨s, hs, rfl⟩ := List.mem_map.1 hr
    rw [List.length_map]
    exact hl s hs) (by
    intro r hr c hc
    obtain ⟨s, hs, rfl⟩ := List.mem_map.1 (List.mem_of_mem_drop (List.mem_of_mem_take hr))
    obtain ⟨v, hv, rfl⟩ := List.mem_map.1 hc
    exact hj s hs v hv) p hp
  rw [C121_ods R headerRow linecount sheet fun r hr => hj r (List.mem_of_mem_drop (List.mem_of_mem_take hr))] at hq
  cases hq
  rw [h1, show sheet = [] ↔ sheet.length = 0 from List.length_eq_zero_iff.symm]
  simp only [List.length_map, List.length_take, List.length_drop]
  omega

example : ∃ p q, excelPreview exactRuntime 0 2 1 (([[.str (txt "a")], [.int 1]] : List (List (PV Unit))).map fun r => r.map fun v => ⟨none, v⟩) = .ok p ∧
    odsPreview exactRuntime 0 2 ([[.str (txt "a")], [.int 1]] : List (List (PV Unit))) = .ok q ∧ p.length = q.length :=
  ⟨[some [.str (txt "a")], some [.int 1]], [some [.str (txt "a")], some [.int 1]], by decide +kernel, by decide +kernel, rfl⟩

/-! ## the book -/

theorem dGet_dSet {β : Type} (k k' : PyText) (v : β) (d : List (PyText × β)) : dGet k' (dSet k v d) = if k' = k then some v else dGet k' d := by
  unfold dSet
  rw [dGet_upd]

theorem excelBook_get (R : Runtime O) (headerRow linecount : Nat) : ∀ (book : List (PyText × Nat × List (List (XCell O)))) (d b : BookPreview),
    excelBook R headerRow linecount d book = .ok b → (book.map (·.1)).Nodup → ∀ k,
      (k = txt "delimiter" → dGet k b = if book = [] then dGet k d else some none) ∧
      (k ≠ txt "delimiter" → (k ∉ book.map (·.1) → dGet k b = dGet k d) ∧
        ∀ s ∈ book, s.1 = k → ∃ p, excelPreview R headerRow linecount s.2.1 s.2.2 = .ok p ∧ dGet k b = some (some p))
  | [], d, b, h, _, k => by cases h; simp
  | s :: rest, d, b, h, hn, k => by
    rw [excelBook] at h
    cases hp : excelPreview R headerRow linecount s.2.1 s.2.2 with
    | error e => rw [hp] at h; cases h
    | ok p =>
      rw [hp] at h
      dsimp only [Except.bind] at h
      rw [List.map_cons, List.nodup_cons] at hn
      have ih := excelBook_get R headerRow linecount rest _ b h hn.2 k
      rw [dGet_dSet, dGet_dSet] at ih
      constructor
      · intro hk
        rw [ih.1 hk]
        simp [hk]
      · intro hk
        obtain ⟨i1, i2⟩ := ih.2 hk
        constructor
        · intro hnk
          rw [List.map_cons, List.mem_cons, not_or] at hnk
          rw [i1 hnk.2, if_neg hk, if_neg hnk.1]
        · intro s' hs' e
          rcases List.mem_cons.1 hs' with rfl | hs'
          · refine ⟨p, hp, ?_⟩
            rw [i1 (by rw [← e]; exact hn.1), if_neg hk, if_pos e.symm]
          · exact i2 s' hs' e

/-- C121: the preview of an Excel book has the entry of every sheet under its name -/
def C121_book_statement : Prop :=
  ∀ (O : Type) (R : Runtime O) (headerRow linecount : Nat) (book : List (PyText × Nat × List (List (XCell O)))) (b : BookPreview),
    (book.map (·.1)).Nodup → excelBook R headerRow linecount [] book = .ok b → ∀ s ∈ book, ∃ p, excelPreview R headerRow linecount s.2.1 s.2.2 = .ok p ∧ dGet s.1 b = some (some p)

/-- **C121, exactly**: a sheet of an Excel book is found in the preview under its name if and only if its name is not "delimiter"; the other sheets do not matter -/
theorem C121_book_exact (R : Runtime O) (headerRow linecount : Nat) (book : List (PyText × Nat × List (List (XCell O)))) (b : BookPreview)
    (hn : (book.map (·.1)).Nodup) (h : excelBook R headerRow linecount [] book = .ok b) (s : PyText × Nat × List (List (XCell O))) (hs : s ∈ book) :
    (∃ p, excelPreview R headerRow linecount s.2.1 s.2.2 = .ok p ∧ dGet s.1 b = some (some p)) ↔ s.1 ≠ txt "delimiter" := by
  have := excelBook_get R headerRow linecount book [] b h hn s.1
  constructor
  · rintro ⟨p, _, hp⟩ hk
    rw [this.1 hk, if_neg (List.ne_nil_of_mem hs)] at hp
    cases hp
  · intro hk
    exact (this.2 hk).2 s hs rfl

theorem C121_book_fails : ¬ C121_book_statement := by
  intro h
  have hb : excelBook exactRuntime 0 1 [] [(txt "delimiter", 1, [[⟨none, .int 1⟩]])] = .ok [(txt "delimiter", none)] := rfl
  exact (C121_book_exact exactRuntime 0 1 _ _ (by simp) hb (txt "delimiter", 1, [[⟨none, .int 1⟩]]) (by simp)).1
    (h Unit exactRuntime 0 1 _ _ (by simp) hb (txt "delimiter", 1, [[⟨none, .int 1⟩]]) (by simp)) rfl

theorem odsBookLoop_get (R : Runtime O) (headerRow linecount : Nat) : ∀ (book : List (PyText × List (List (PV O)))) (d b : BookPreview),
    odsBookLoop R headerRow linecount d book = .ok b → (book.map (·.1)).Nodup → ∀ k,
      (k ∉ book.map (·.1) → dGet k b = dGet k d) ∧
        ∀ s ∈ book, s.1 = k → ∃ p, odsPreview R headerRow linecount s.2 = .ok p ∧ dGet k b = some (some p)
  | [], d, b, h, _, k => by cases h; simp
  | s :: rest, d, b, h, hn, k => by
    rw [odsBookLoop] at h
    cases hp : odsPreview R headerRow linecount s.2 with
    | error e => rw [hp] at h; cases h
    | ok p =>
      rw [hp] at h
      dsimp only [Except.bind] at h
      rw [List.map_cons, List.nodup_cons] at hn
      obtain ⟨i1, i2⟩ := odsBookLoop_get R headerRow linecount rest _ b h hn.2 k
      rw [dGet_dSet] at i1
      constructor
      · intro hnk
        rw [List.map_cons, List.mem_cons, not_or] at hnk
        rw [i1 hnk.2, if_neg hnk.1]
      · intro s' hs' e
        rcases List.mem_cons.1 hs' with rfl | hs'
        · refine ⟨p, hp, ?_⟩
          rw [i1 (by rw [← e]; exact hn.1), if_pos e.symm]
        · exact i2 s' hs' e

/-- C121: in the preview of an ODS book every sheet is found under its name; the entry "delimiter" is `None` unless a sheet has that name -/
theorem C121_ods_book (R : Runtime O) (headerRow linecount : Nat) (book : List (PyText × List (List (PV O)))) (b : BookPreview)
    (hn : (book.map (·.1)).Nodup) (h : odsBook R headerRow linecount book = .ok b) :
    (∀ s ∈ book, ∃ p, odsPreview R headerRow linecount s.2 = .ok p ∧ dGet s.1 b = some (some p)) ∧
      (txt "delimiter" ∉ book.map (·.1) → dGet (txt "delimiter") b = some none) :=
  ⟨fun s hs => (odsBookLoop_get R headerRow linecount book _ b h hn s.1).2 s hs rfl,
    fun hk => by rw [(odsBookLoop_get R headerRow linecount book _ b h hn _).1 hk]; rfl⟩

example : odsBook exactRuntime 0 1 [(txt "one", [[.int 1]]), (txt "two", [])] = .ok [(txt "delimiter", none), (txt "one", some [some [.int 1]]), (txt "two", some [])] := rfl

example : excelBook exactRuntime 0 1 [] [(txt "one", 1, [[⟨none, .int 1⟩]]), (txt "two", 0, [])] =
    .ok [(txt "one", some [some [.int 1]]), (txt "delimiter", none), (txt "two", some [])] := rfl

end Tablite
