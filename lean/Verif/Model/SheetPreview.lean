import Verif.Model.Sheet
import Verif.Model.TableObj
/-!
# Preview of spreadsheets: `excel_reader_headers`, `ods_reader_headers` (tablite/file_reader_utils.py:200-254)

A sheet is the list of its rows, as in `Model/Sheet.lean`; for Excel files every cell also has the text of its formula, if it has one: openpyxl delivers that
text unless the file is opened with `data_only=True`, which the import does (import_utils.py:189) and the preview does not (file_reader_utils.py:202).
After `fixup_worksheet`, `sheet.max_row` and `sheet.max_column` are the number of rows and the width of the sheet (C89).  `linecount` and
`header_row_index` are natural numbers.  Not modelled: opening and closing the book.
-/

namespace Tablite

variable {O : Type}

/-- a cell of an Excel file: the text of its formula, and its value (for a formula the value stored in the file) -/
structure XCell (O : Type) where
  formula : Option PyText
  value : PV O

/-- what openpyxl delivers for a cell of a file opened without `data_only` -/
def XCell.shown (c : XCell O) : PV O :=
  match c.formula with
  | some f => .str f
  | none => c.value

/-- `sheet.iter_rows(0, b)`: rows 1 to `b`; openpyxl takes 0 for "not given" -/
def rowsUpTo (sheet : List (List (XCell O))) (b : Nat) : List (List (XCell O)) := if b = 0 then sheet else sheet.take b

/-- the loop over the reversed row, file_reader_utils.py:227-233: the padding after this row -/
def padEnd (maxCol pad : Nat) (row : List (PV O)) : Nat :=
  match row.reverse.findIdx? fun v => !(v.type == .none) with
  | some j => max pad (maxCol - j)
  | none => pad

/-- the loop over the rows, file_reader_utils.py:217-233; rows before `header_row_index` are passed over by the caller. State: `container` and `padding_ends` -/
def xPreviewLoop (R : Runtime O) (maxCol : Nat) : Nat → List (Option (List JV)) × Nat → List (List (XCell O)) → Except Err (List (Option (List JV)) × Nat)
  | _, s, [] => .ok s
  | i, s, row :: rows =>
    ((row.map fun c => stripEsc c.shown).mapM (toJson R)).bind fun js =>
      if i < s.1.length then xPreviewLoop R maxCol (i + 1) (s.1.set i (some js), padEnd maxCol s.2 (row.map fun c => stripEsc c.shown)) rows
      else .error .index

/-- the preview of one sheet, file_reader_utils.py:208-235 -/
def excelPreview (R : Runtime O) (headerRow linecount maxCol : Nat) (sheet : List (List (XCell O))) : Except Err (List (Option (List JV))) :=
  let maxRows := min sheet.length (linecount + 1)
  (xPreviewLoop R maxCol 0 (List.replicate maxRows none, 0) ((rowsUpTo sheet (headerRow + maxRows)).drop headerRow)).bind fun s =>
    .ok (s.1.map fun c => c.map fun js => js.take s.2)

/-- the preview of one ODS sheet, file_reader_utils.py:250 -/
def odsPreview (R : Runtime O) (headerRow linecount : Nat) (sheet : List (List (PV O))) : Except Err (List (Option (List JV))) :=
  ((sheet.drop headerRow).take linecount).mapM fun row => (row.mapM (toJson R)).bind fun js => .ok (some js)

/-- the entries of a preview: `none` is the value `None` of the entry "delimiter" -/
abbrev BookPreview := List (PyText × Option (List (Option (List JV))))

/-- `excel_reader_headers`, file_reader_utils.py:200-240: sheets are given by name, width and rows; the entry "delimiter" is set after every sheet -/
def excelBook (R : Runtime O) (headerRow linecount : Nat) : BookPreview → List (PyText × Nat × List (List (XCell O))) → Except Err BookPreview
  | d, [] => .ok d
  | d, s :: rest => (excelPreview R headerRow linecount s.2.1 s.2.2).bind fun p =>
      excelBook R headerRow linecount (dSet (txt "delimiter") none (dSet s.1 (some p) d)) rest

/-- `ods_reader_headers`, file_reader_utils.py:243-254: the entry "delimiter" is set before the sheets -/
def odsBookLoop (R : Runtime O) (headerRow linecount : Nat) : BookPreview → List (PyText × List (List (PV O))) → Except Err BookPreview
  | d, [] => .ok d
  | d, s :: rest => (odsPreview R headerRow linecount s.2).bind fun p => odsBookLoop R headerRow linecount (dSet s.1 (some p) d) rest

/-- `ods_reader_headers`, file_reader_utils.py:243-254 -/
def odsBook (R : Runtime O) (headerRow linecount : Nat) (book : List (PyText × List (List (PV O)))) : Except Err BookPreview :=
  odsBookLoop R headerRow linecount [(txt "delimiter", none)] book

end Tablite
