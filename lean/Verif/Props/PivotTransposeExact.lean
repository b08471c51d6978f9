import Verif.Props.PivotTranspose
/-!
# C60: exactly when the outcome has the rows a user expects
-/

namespace Tablite
set_option linter.unusedSectionVars false

section
variable {ν α : Type} [DecidableEq ν] [DecidableEq α]

/-- the rows of a table that is given by what its columns hold for the elements of a list -/
theorem rows_of_list {π : Type} (nul : α) (P : List π) (F : List (ν × (π → α))) (hF : F ≠ []) (t : Tbl ν α) (h : tview t = F.map fun c => (c.1, P.map c.2)) :
    tblRows nul t = .ok (P.map fun p => F.map fun c => c.2 p) := by
  have hlen : t.length = F.length := by
    have := congrArg List.length h
    simpa [tview] using this
  have hr : Rect t P.length := by
    intro c hc
    have : (c.1, colIter c.2) ∈ tview t := List.mem_map.2 ⟨c, hc, rfl⟩
    rw [h] at this
    obtain ⟨d, _, e⟩ := List.mem_map.1 this
    have e2 := congrArg Prod.snd e
    rw [colLen_eq, ← colIter_eq]
    dsimp only at e2
    rw [← e2]
    simp
  have ht : t ≠ [] := by
    intro e
    apply hF
    apply List.eq_nil_of_length_eq_zero
    rw [← hlen, e]; rfl
  rw [C15_rows, tblLen_rect t _ hr ht]
  congr 1
  apply List.ext_getElem
  · simp
  · intro j h1 h2
    have hj : j < P.length := by simpa using h2
    simp only [List.getElem_map, List.getElem_range]
    have e : (t.map fun c => (colIter c.2).getD j nul) = (tview t).map fun c => c.2.getD j nul := by
      unfold tview
      rw [List.map_map]
      rfl
    rw [e, h, List.map_map]
    apply List.map_congr_left
    intro c _
    simp only [Function.comp]
    rw [List.getD_eq_getElem?_getD, List.getElem?_map, List.getElem?_eq_getElem hj]
    rfl

/-- the cells of the listed columns, row after row -/
def ptCells (n : Nat) (columns : List ν) : List (Nat × ν) := (List.range n).flatMap fun i => columns.map fun c => (i, c)

/-- **C60, exactly**: with the assumptions of `C60_partial`, the outcome has one row for each cell of the listed columns; so it has the rows a user expects,
one for each cell that is not None, if and only if no cell of the listed columns is None -/
theorem C60_exact (ps limit : Nat) (hps : 0 < ps) (mk : ν → Nat → ν) (asVal : ν → α) (npArr : List α → List α) (nul : α) (t : Tbl ν α) (n : Nat)
    (columns keep : List ν) (columnName valueName : ν)
    (hnames : ∀ x ∈ keep ++ columns, ∃ p, dGet x t = some p ∧ colLen p = n) (hne : keep ++ columns ≠ []) (hnd : (keep ++ columns).Nodup)
    (cn vn : ν) (hcn : cn = if columnName ∈ keep ++ columns then uniqueName mk columnName (keep ++ columns) else columnName)
    (hvn : vn = if valueName ∈ keep ++ columns ++ [cn] then uniqueName mk valueName (keep ++ columns) else valueName)
    (hnew : (keep ++ [cn, vn]).Nodup)
    (hnp : ∀ c ∈ ptView nul asVal t n columns keep cn vn, ∀ l : List α, (∀ v ∈ l, v ∈ c.2) → npArr l = l) :
    ∃ t', pivotTranspose ps limit mk asVal npArr nul t columns keep columnName valueName = .ok t' ∧
      tblRows nul t' = .ok ((ptCells n columns).map fun p => (keep.map fun k => cell nul t k p.1) ++ [asVal p.2, cell nul t p.2 p.1]) ∧
      (tblRows nul t' = .ok (((ptCells n columns).filter fun p => cell nul t p.2 p.1 ≠ nul).map fun p => (keep.map fun k => cell nul t k p.1) ++ [asVal p.2, cell nul t p.2 p.1]) ↔
        ∀ i < n, ∀ c ∈ columns, cell nul t c i ≠ nul) := by
  obtain ⟨t', h1, h2⟩ := C60_partial ps limit hps mk asVal npArr nul t n columns keep columnName valueName hnames hne hnd cn vn hcn hvn hnew hnp
  have hview : tview t' = ((keep.map fun k => (k, fun p : Nat × ν => cell nul t k p.1)) ++ [(cn, fun p : Nat × ν => asVal p.2), (vn, fun p : Nat × ν => cell nul t p.2 p.1)] : List (ν × (Nat × ν → α))).map
      fun c => (c.1, (ptCells n columns).map c.2) := by
    rw [h2]
    unfold ptView ptCells
    simp only [List.map_append, List.map_map, List.map_cons, List.map_nil, List.map_flatMap, Function.comp_def]
  have hrows := rows_of_list nul (ptCells n columns) _ (by simp) t' hview
  simp only [List.map_append, List.map_map, List.map_cons, List.map_nil, Function.comp_def] at hrows
  refine ⟨t', h1, hrows, ?_⟩
  rw [hrows]
  have hall : (∀ i < n, ∀ c ∈ columns, cell nul t c i ≠ nul) ↔ ∀ p ∈ ptCells n columns, cell nul t p.2 p.1 ≠ nul := by
    unfold ptCells
    constructor
    · intro h p hp
      obtain ⟨i, hi, hp⟩ := List.mem_flatMap.1 hp
      obtain ⟨c, hc, rfl⟩ := List.mem_map.1 hp
      exact h i (List.mem_range.1 hi) c hc
    · intro h i hi c hc
      exact h (i, c) (List.mem_flatMap.2 ⟨i, List.mem_range.2 hi, List.mem_map.2 ⟨c, hc, rfl⟩⟩)
  rw [hall]
  constructor
  · intro h
    injection h with h
    have hl := congrArg List.length h
    rw [List.length_map, List.length_map] at hl
    intro p hp
    have := (List.length_filter_eq_length_iff).1 hl.symm p hp
    simpa using this
  · intro h
    rw [List.filter_eq_self.2]
    intro p hp
    simpa using h p hp

end

/-- the expected rows of C60 are those of the cells that are not None -/
theorem ptExpected_cells (asVal : String → GVal) (t : Tbl String GVal) (n : Nat) (columns keep : List String) :
    ptExpected .none asVal t n columns keep =
      ((ptCells n columns).filter fun p => cell .none t p.2 p.1 ≠ .none).map fun p => (keep.map fun k => cell .none t k p.1) ++ [asVal p.2, cell .none t p.2 p.1] := by
  unfold ptExpected ptCells
  rw [List.filter_flatMap, List.map_flatMap]
  congr 1
  funext i
  rw [List.filter_map, List.map_map]
  rfl

/-- a table that meets the assumptions, with a cell that is None (9) -/
example : ∃ t', pivotTranspose 2 1 suffixed (fun _ => (0 : Nat)) id 9 [("k", [[1], [2]]), ("a", [[5, 6]]), ("b", [[7], [9]])] ["b", "a"] ["k"] "t" "v" = .ok t' ∧
    tblRows 9 t' = .ok [[1, 0, 7], [1, 0, 5], [2, 0, 9], [2, 0, 6]] := by
  obtain ⟨t', h1, h2, _⟩ := C60_exact 2 1 (by decide) suffixed (fun _ => 0) id 9 [("k", [[1], [2]]), ("a", [[5, 6]]), ("b", [[7], [9]])] 2 ["b", "a"] ["k"] "t" "v"
    (by decide) (by decide) (by decide) "t" "v" (by decide) (by decide) (by decide) (fun _ _ _ _ => rfl)
  exact ⟨t', h1, h2⟩

end Tablite
