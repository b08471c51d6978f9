import Verif.Model.Codec
import Verif.Model.Where
import Verif.Model.Misc
/-!
# Spreadsheets: `excel_reader` and `ods_reader` (tablite/import_utils.py:180-421), `calc_true_dims` (tablite/utils.py:424-458),
and `from_html` (import_utils.py:125-174)

A sheet is the list of its rows, each a list of cell values; openpyxl pads every row to the width of the sheet and delivers rows that
are not in the file as empty cells, pandas delivers a rectangular frame.  Not modelled: the workbook and the choice of the sheet, the
parsing of the XML, the progress bar, and the conversion of a list of values to a numpy array (`list_to_np_array`, see C79).
-/

namespace Tablite

variable {O : Type}

/-- `calc_true_dims`, utils.py:435-458: a cell is given by its letters and its row number -/
def calcTrueDims (cells : List (List Char × Int)) : Int × Int :=
  cells.foldl (fun m c => (max m.1 (calcColCount c.1), max m.2 c.2)) (0, 0)

/-- `strip_escape`, utils.py:517-533 -/
def stripEsc : PV O → PV O
  | .str t => .str (t.filter fun c => !(c == 9 || c == 10 || c == 13))
  | v => v

/-- `f"{wanted_name}_{i}"`, utils.py:50 -/
def nameSuffix (t : PyText) (i : Nat) : PyText := t ++ 95 :: natText i

/-- `str(c) if c is not None else ""`, import_utils.py:220 and 407; `str_` is `str` of a value that is not a text -/
def headerText (str_ : PV O → PyText) : PV O → PyText
  | .none => []
  | .str t => t
  | v => str_ v

/-- options of the two readers; `skip`: `none` is "NONE", `some false` "ANY", `some true` "ALL" -/
structure SheetOpts where
  headers : Bool := true
  headerRow : Nat := 0
  columns : Option (List PyText) := none
  start : Int := 0
  limit : Int := 9223372036854775807
  skip : Option Bool := none

/-- the loops that make the names unique: import_utils.py:233-237, 241-243 and 415-416; every name comes with its position in the sheet -/
def nameLoop : List (PyText × Nat) → List (PyText × Nat) → List (PyText × Nat)
  | acc, [] => acc
  | acc, x :: r => nameLoop (acc ++ [(uniqueName nameSuffix x.1 (acc.map (·.1)), x.2)]) r

/-- `fields.index(k)` for the wanted names, import_utils.py:241 -/
def wantedFields (fields : List PyText) : List PyText → Except Err (List (PyText × Nat))
  | [] => .ok []
  | k :: r => if k ∈ fields then (wantedFields fields r).bind fun l => .ok ((k, fields.idxOf k) :: l) else .error .value

/-- `field_dict`, import_utils.py:225-243 -/
def excelFields (str_ : PV O → PyText) (o : SheetOpts) (header : List (PV O)) : Except Err (List (PyText × Nat)) :=
  let fields := if o.headers then header.map fun c => headerText str_ (stripEsc c) else (List.range header.length).map natText
  match o.columns with
  | none => .ok (nameLoop [] fields.zipIdx)
  | some cols => (wantedFields fields cols).bind fun l => .ok (nameLoop [] l)

/-- the cells of a row that are used, import_utils.py:262 -/
def excelPick (fields : List (PyText × Nat)) (row : List (PV O)) : Except Err (List (PV O)) :=
  fields.mapM fun x => match row[x.2]? with
    | some v => .ok (stripEsc v)
    | none => .error .index

/-- import_utils.py:306-309 -/
def excelSkip (skip : Option Bool) (row : List (PV O)) : Bool :=
  match skip with
  | none => false
  | some true => row.all fun v => v.type == .none
  | some false => row.any fun v => v.type == .none

/-- the open page files and the columns of the table; `idx` counts the rows written -/
structure ExcelSt (O : Type) where
  idx : Nat
  fhs : Option (List (List Nat))
  cols : List (PyText × Pages (PV O))

/-- `for fh, value in zip(page_fhs, row)`, import_utils.py:323-360 -/
def excelWriteRow (R : XlsRuntime O) : List (List Nat) → List (PV O) → Except Err (List (List Nat))
  | f :: fs, v :: vs => (xlsRecord R v).bind fun b => (excelWriteRow R fs vs).bind fun r => .ok ((f ++ b) :: r)
  | fs, _ => .ok fs

/-- `_fix_xls_page` for every column, import_utils.py:312-314, 364-366 and 652-688 -/
def excelFlush (R : XlsRuntime O) (ps : Nat) : List (PyText × Pages (PV O)) → List (List Nat) → Except Err (List (PyText × Pages (PV O)))
  | c :: cs, f :: fs => (xlsRead R f).bind fun vs => (excelFlush R ps cs fs).bind fun r => .ok ((c.1, extend ps c.2 vs) :: r)
  | cs, _ => .ok cs

/-- close the open pages, if there are any -/
def excelClose (R : XlsRuntime O) (ps : Nat) (s : ExcelSt O) : Except Err (List (PyText × Pages (PV O))) :=
  match s.fhs with
  | none => .ok s.cols
  | some fs => excelFlush R ps s.cols fs

/-- import_utils.py:311-321: new pages after every `PAGE_SIZE` rows -/
def excelOpen (R : XlsRuntime O) (ps : Nat) (s : ExcelSt O) : Except Err (ExcelSt O) :=
  if ps = 0 then .error .zeroDivision
  else if s.idx % ps = 0 then (excelClose R ps s).bind fun cols => .ok { s with fhs := some (s.cols.map fun _ => []), cols := cols }
  else .ok s

/-- import_utils.py:311-362: a row that is not skipped -/
def excelPush (R : XlsRuntime O) (ps : Nat) (s : ExcelSt O) (row : List (PV O)) : Except Err (ExcelSt O) :=
  (excelOpen R ps s).bind fun s =>
    (excelWriteRow R (s.fhs.getD []) row).bind fun fs => .ok { s with idx := s.idx + 1, fhs := some fs }

/-- the loop over the rows, import_utils.py:298-362 -/
def excelLoop (R : XlsRuntime O) (ps : Nat) (skip : Option Bool) (fields : List (PyText × Nat)) : ExcelSt O → List (List (PV O)) → Except Err (ExcelSt O)
  | s, [] => .ok s
  | s, row :: rows => (excelPick fields row).bind fun cells =>
      if excelSkip skip cells then excelLoop R ps skip fields s rows
      else (excelPush R ps s cells).bind fun s => excelLoop R ps skip fields s rows

/-- `worksheet.iter_rows(min_row=a, max_row=b)`: rows `a` to `b`, both included, counted from 1 -/
def iterRows (sheet : List (List (PV O))) (a b : Nat) : List (List (PV O)) := (sheet.take b).drop (a - 1)

/-- the rows between `it_offset` and `min(it_offset+limit, total_rows)`, import_utils.py:246-259 -/
def excelRows (o : SheetOpts) (sheet : List (List (PV O))) : List (List (PV O)) :=
  let off := o.start.toNat + (if o.headers then 1 else 0) + o.headerRow + 1
  iterRows sheet off (min (off + o.limit.toNat) sheet.length)

/-- `excel_reader`, import_utils.py:180-368 -/
def excelRead (str_ : PV O → PyText) (R : XlsRuntime O) (ps : Nat) (o : SheetOpts) (sheet : List (List (PV O))) :
    Except Err (List (PyText × Pages (PV O))) :=
  if 0 ≤ o.start then
    if 0 < o.limit then
      match sheet[o.headerRow]? with
      | none => .ok []
      | some header =>
        (excelFields str_ o header).bind fun fields =>
          (excelLoop R ps o.skip fields ⟨0, none, fields.map fun x => (x.1, [])⟩ (excelRows o sheet)).bind fun s =>
            excelClose R ps s
    else .error .value
  else .error .value

/-! ## ods_reader -/

/-- `v is None or isinstance(v, str) and len(v) == 0`, import_utils.py:392 -/
def odsEmpty : PV O → Bool
  | .none => true
  | .str t => t.isEmpty
  | _ => false

/-- import_utils.py:386-393: rows before `keep` are always kept -/
def odsFilter (skip : Option Bool) (keep : Nat) (data : List (List (PV O))) : List (List (PV O)) :=
  match skip with
  | none => data
  | some true => (data.zipIdx.filter fun r => decide (r.2 < keep) || r.1.any fun v => !odsEmpty v).map (·.1)
  | some false => (data.zipIdx.filter fun r => decide (r.2 < keep) || r.1.all fun v => !odsEmpty v).map (·.1)

/-- the columns to import with their positions, import_utils.py:404-416 -/
def odsFields (str_ : PV O → PyText) (o : SheetOpts) (header : List (PV O)) : List (PyText × Nat) :=
  let named := if o.headers then (header.map (headerText str_)).zipIdx else (List.range header.length).map fun i => (95 :: natText (i + 1), i)
  match o.columns with
  | none => nameLoop [] named
  | some cols => nameLoop [] (named.filter fun x => decide (x.1 ∈ cols))

/-- `ods_reader`, import_utils.py:371-421.  `start` is checked and then not used. -/
def odsRead (str_ : PV O → PyText) (ps : Nat) (o : SheetOpts) (sheet : List (List (PV O))) : Except Err (List (PyText × Pages (PV O))) :=
  let data := odsFilter o.skip (o.headerRow + if o.headers then 1 else 0) sheet
  if 0 ≤ o.start then
    if 0 < o.limit then
      match data[o.headerRow]? with
      | none => .error .index
      | some header =>
        let pos := o.headerRow + if o.headers then 1 else 0
        let rows := (data.drop pos).take o.limit.toNat
        .ok ((odsFields str_ o header).map fun x => (x.1, paginate ps (rows.map fun r => r.getD x.2 .none)))
    else .error .value
  else .error .value

/-! ## from_html -/

/-- `text.find(sub, i)` -/
def pyFindFrom (sub : PyText) (t : PyText) (i : Nat) : Option Nat :=
  (List.range (t.length + 1)).find? fun k => decide (i ≤ k) && sub.isPrefixOf (t.drop k)

/-- `chunk.find(sub, start)` with a start that may be negative; -1 if there is no match -/
def pyFind (sub : PyText) (t : PyText) (start : Int) : Int :=
  let i := if start < 0 then (start + t.length).toNat else start.toNat
  match pyFindFrom sub t i with
  | some k => k
  | none => -1

/-- what happens in the loop of `from_html`: the state is `chunk`, `start`, `end` and what is left of the file; `none` when the file is
read to its end without a row having been found.  As soon as a row is found, `found` is returned: the rest of the loop is not modelled. -/
inductive HtmlRun where
  | endOfFile
  | found
  deriving DecidableEq, Repr

/-- the loop, import_utils.py:141-152, until the first row is found; `reads` are the texts that the calls of `fi.read` return -/
def htmlLoop : PyText → Int → Int → List PyText → HtmlRun
  | chunk, start, end_, reads =>
    let s := pyFind (txt "<tr>") chunk start
    let e := pyFind (txt "</tr>") chunk end_
    if s = -1 ∨ e = -1 then
      match reads with
      | [] => .endOfFile
      | new :: rest => if new = [] then .endOfFile else htmlLoop (chunk ++ new) s e rest
    else .found
termination_by _ _ _ reads => reads.length

end Tablite
