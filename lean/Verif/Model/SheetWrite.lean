import Verif.Model.Codec
import Verif.Model.Table
/-!
# Spreadsheets: `excel_writer` (`tablite/export_utils.py:108-136`)

The library pyexcel writes the rows it is given; the file is these rows.
-/

namespace Tablite

variable {O : Type}

/-- `abs(v) > 2**32 - 1`, export_utils.py:132; not for NaN -/
def dblBig : Dbl → Bool
  | .fin q => decide (q < -4294967295) || decide (4294967295 < q)
  | .nan => false
  | _ => true

/-- a cell of an .xls or .ods file, export_utils.py:131-133; a bool is an int and never large -/
def bookCell (R : Runtime O) : PV O → Except Err JV
  | .int z => if z < -4294967295 ∨ 4294967295 < z then .ok (.str (intText z)) else toJson R (.int z)
  | .float x => if dblBig x then .ok (.str (R.text x)) else toJson R (.float x)
  | v => toJson R v

/-- `excel_writer` for .xls and .ods, export_utils.py:108-136: the names, then the rows -/
def bookRows (R : Runtime O) (t : Tbl (PV O) (PV O)) : Except Err (List (List JV)) := do
  let rows ← tblRows .none t
  (t.map (·.1) :: rows).mapM fun r => r.mapM (bookCell R)

/-- `excel_writer` for .xlsx and others, export_utils.py:108-136: the values as they are (the names are handed over as the dictionary of columns, which iterates over its keys) -/
def bookValues (t : Tbl (PV O) (PV O)) : Except Err (List (List (PV O))) := do
  let rows ← tblRows .none t
  .ok (t.map (·.1) :: rows)

end Tablite
