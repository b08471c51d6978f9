import Verif.Model.SheetWrite
import Verif.Model.JsonTable
import Verif.Props.Codec
import Verif.Props.Table
/-!
# C107: tables as spreadsheets
-/

namespace Tablite

variable {O : Type}

/-- spec: the rows of a table with its names on top -/
def sheetOf (t : Tbl (PV O) (PV O)) : List (List (PV O)) := t.map (·.1) :: (List.range (tblLen t)).map fun i => t.map fun c => (colIter c.2).getD i .none

/-- spec: None, texts, and numbers up to 2^32 - 1 in size -/
def SmallCell : PV O → Prop
  | .none => True
  | .str _ => True
  | .int z => -4294967295 ≤ z ∧ z ≤ 4294967295
  | .float (.fin q) => -4294967295 ≤ q ∧ q ≤ 4294967295
  | .float .nan => True
  | _ => False

/-- what a reader of the file sees -/
def bookSeen (rows : List (List JV)) : List (List (PV O)) := rows.map fun r => r.map jsonValue

theorem bookCell_small (R : Runtime O) (v : PV O) (h : SmallCell v) : ∃ j, bookCell R v = .ok j ∧ jsonValue j = v := by
  cases v with
  | none => exact ⟨_, rfl, rfl⟩
  | str s => exact ⟨_, rfl, rfl⟩
  | int z =>
    refine ⟨.int z, ?_, rfl⟩
    have : ¬ (z < -4294967295 ∨ 4294967295 < z) := by have := h.1; have := h.2; omega
    simp only [bookCell, if_neg this]; rfl
  | float x =>
    refine ⟨.float x, ?_, rfl⟩
    have : dblBig x = false := by
      cases x with
      | fin q =>
        have h1 : ¬ q < -4294967295 := not_lt.2 h.1
        have h2 : ¬ 4294967295 < q := not_lt.2 h.2
        simp [dblBig, h1, h2]
      | nan => rfl
      | posInf => exact absurd h (by simp [SmallCell])
      | negInf => exact absurd h (by simp [SmallCell])
    simp only [bookCell, this]; rfl
  | _ => exact absurd h (by simp [SmallCell])

/-- what a cell is read as -/
def cellValue (R : Runtime O) (v : PV O) : JV := match bookCell R v with | .ok j => j | .error _ => .null

/-- the full claim: the cells of the file are the names and values of the table -/
def C107_statement : Prop := ∀ (R : Runtime Unit) (t : Tbl (PV Unit) (PV Unit)), (bookRows R t).map bookSeen = .ok (sheetOf t)

/-- **C107**, partial: true of None, texts and numbers up to 2^32 - 1 in size. Missing: larger numbers, bools, dates and times are written as text, bytes and other objects raise. -/
theorem C107_partial [DecidableEq O] (R : Runtime O) (t : Tbl (PV O) (PV O)) (hn : ∀ c ∈ t, SmallCell c.1) (hv : ∀ c ∈ t, ∀ v ∈ colIter c.2, SmallCell v) :
    (bookRows R t).map bookSeen = .ok (sheetOf t) := by
  have hcell : ∀ r ∈ sheetOf t, ∀ v ∈ r, SmallCell v := by
    intro r hr v hvr
    rcases List.mem_cons.1 hr with rfl | hr
    · obtain ⟨c, hc, rfl⟩ := List.mem_map.1 hvr
      exact hn c hc
    · obtain ⟨i, _, rfl⟩ := List.mem_map.1 hr
      obtain ⟨c, hc, rfl⟩ := List.mem_map.1 hvr
      rw [List.getD_eq_getElem?_getD]
      cases hg : (colIter c.2)[i]? with
      | none => trivial
      | some x => exact hv c hc x (List.mem_of_getElem? hg)
  have hval : ∀ v : PV O, SmallCell v → bookCell R v = .ok (cellValue R v) ∧ jsonValue (cellValue R v) = v := by
    intro v h
    obtain ⟨j, h1, h2⟩ := bookCell_small R v h
    simp only [cellValue, h1]
    exact ⟨trivial, h2⟩
  unfold bookRows
  rw [C15_rows]
  change Except.map _ (List.mapM _ (sheetOf t)) = _
  rw [mapM_ok (sheetOf t) _ (fun r => r.map (cellValue R)) (fun r hr => mapM_ok r _ _ fun v hv => (hval v (hcell r hr v hv)).1)]
  simp only [Except.map, bookSeen, List.map_map]
  congr 1
  conv_rhs => rw [← List.map_id (sheetOf t)]
  refine List.map_congr_left fun r hr => ?_
  simp only [Function.comp, List.map_map, id]
  conv_rhs => rw [← List.map_id r]
  exact List.map_congr_left fun v hv => (hval v (hcell r hr v hv)).2

/-- a larger integer is written as its digits -/
theorem C107_large_fails (R : Runtime O) (z : Int) (h : z < -4294967295 ∨ 4294967295 < z) : ∃ s, bookCell R (.int z) = .ok (.str s) ∧ parseIntText s = .ok z :=
  ⟨intText z, by simp only [bookCell, if_pos h], parseIntText_intText z⟩

/-- a bool is written as text -/
theorem C107_bool_fails (R : Runtime O) (b : Bool) : ∃ s, bookCell R (.bool b) = .ok (.str s) := ⟨_, rfl⟩

theorem C107_fails : ¬ C107_statement := by
  intro h
  have := h ⟨id, fun _ => [], fun _ => .error .value, fun _ => [], fun _ => .error .value⟩ [(.str [97], [[.bool true]])]
  exact absurd this (by decide +kernel)

/-- in an .xlsx file all values are handed over as they are -/
theorem C107_xlsx [DecidableEq O] (t : Tbl (PV O) (PV O)) : bookValues t = .ok (sheetOf t) := by
  unfold bookValues
  rw [C15_rows]
  rfl

/-- a table of two columns with a missing value and a negative number -/
def bookDemo : Tbl (PV O) (PV O) := [(.str [97], [[.int 4294967295], [.none]]), (.str [98], [[.str [], .int (-4294967295)]])]

example [DecidableEq O] (R : Runtime O) : (bookRows R bookDemo).map bookSeen = .ok (sheetOf (bookDemo (O := O))) := by
  apply C107_partial
  · intro c hc
    simp [bookDemo] at hc
    rcases hc with rfl | rfl <;> trivial
  · intro c hc v hv
    simp [bookDemo] at hc
    rcases hc with rfl | rfl <;> rw [colIter_eq] at hv <;> simp at hv <;> rcases hv with rfl | rfl <;> simp [SmallCell]

end Tablite
