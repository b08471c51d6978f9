import Verif.Model.Csv
import Verif.Model.Where
/-!
# Text import: `nimlite/funcs/text_reader/text_reader.nim`, `paging.nim`, `csvparse.nim` and `tablite/nimlite.py` (`text_reader`)

Values are the texts of the fields (`guess_datatypes = False`); missing fields are empty.  File positions are modelled by line numbers.
Not modelled: encodings, the page files (their names are chosen so that no file is overwritten), parallel execution of the tasks, and a negative `start`.
-/

namespace Tablite

/-- one line fed to the parser, csvparse.nim:240-252 -/
def feedLine (d : Dialect) (s : CsvSt) (line : List Char) : Except Err CsvSt := do
  let s ← (line ++ ['\n']).foldlM (fun s c => processChar d s (some c)) s
  processChar d s none

/-- `findNewlinesQualifier`, csvparse.nim:329-341: the positions after each record; `n` lines have been read -/
def recordOffsets (d : Dialect) : CsvSt → Nat → List (List Char) → Except Err (List Nat)
  | _, _, [] => .ok []
  | s, n, line :: rest => do
    let s ← feedLine d s line
    if s.state = .startRecord then do
      let more ← recordOffsets d { s with fields := [] } (n + 1) rest
      .ok ((n + 1) :: more)
    else recordOffsets d s (n + 1) rest

/-- `findNewlines`, csvparse.nim:315-347: the positions of the records, and the position after the last one.  The number of records is one less. -/
def findNewlines (d : Dialect) (lines : List (List Char)) : Except Err (List Nat) :=
  if d.quoting = .none then .ok (List.range (lines.length + 1))
  else do .ok (0 :: (← recordOffsets d {} 0 lines))

/-- the loop over the tasks, text_reader.nim:230-253: (first row, number of rows).  With page size 0 the loop of the code never ends. -/
def planTasks (pageSize maxLine rowIdx : Nat) : List (Nat × Nat) :=
  if _h : rowIdx < maxLine ∧ 0 < pageSize then
    let nextLine := min (rowIdx + pageSize) maxLine
    (rowIdx, nextLine - rowIdx) :: planTasks pageSize maxLine nextLine
  else []
termination_by maxLine - rowIdx
decreasing_by omega

/-- `checkSkipEmpty`, csvparse.nim:268-280; `none`: NONE, `some false`: ANY, `some true`: ALL -/
def checkSkip (skip : Option Bool) (r : List (List Char)) : Bool :=
  match skip with
  | none => false
  | some true => r.all fun f => f.isEmpty
  | some false => r.any fun f => f.isEmpty

/-- the rows a task writes, the loop of paging.nim:237-242; `i` counts the records read -/
def pageLoop (skip : Option Bool) (count : Nat) : Nat → List (List (List Char)) → List (List (List Char))
  | _, [] => []
  | i, r :: rest =>
    if checkSkip skip r then pageLoop skip count (i + 1) rest
    else if i ≥ count then [] else r :: pageLoop skip count (i + 1) rest

/-- one row of the pages of a task, paging.nim:244-258, 333-339: the fields to import in the order of the file, missing fields at the end are empty -/
def importRow (fields : List Nat) (r : List (List Char)) : List (List Char) :=
  let present := ((List.range r.length).filter fun i => decide (i ∈ fields)).map fun i => r.getD i []
  present ++ List.replicate (fields.length - present.length) []

/-- `textReaderTask`, text_reader.nim:44-110: the pages of one task, one for each field -/
def textReaderTask (d : Dialect) (lines : List (List Char)) (skip : Option Bool) (fields : List Nat) (off count : Nat) :
    Except Err (List (List (List Char))) := do
  let recs ← parseLines d {} (lines.drop off)
  let rows := (pageLoop skip count 0 recs).map (importRow fields)
  .ok ((List.range fields.length).map fun j => rows.map fun r => r.getD j [])

/-- `stripEscape`, utils.nim:76-84 -/
def stripEscape : List Char → List Char
  | [] => []
  | [c] => if c = '\t' ∨ c = '\n' ∨ c = '\r' then [] else [c]
  | c :: e :: r =>
    if c = '\\' ∧ (e = 't' ∨ e = 'n' ∨ e = 'r') then stripEscape r
    else if c = '\t' ∨ c = '\n' ∨ c = '\r' then stripEscape (e :: r)
    else c :: stripEscape (e :: r)

/-- `uniqueName(n, fields)` for every header, text_reader.nim:166-174 (`uniqueName`, utils.nim:18-27, is the same loop as `unique_name`) -/
def uniqueNames (mk : List Char → Nat → List Char) (names : List (List Char)) : List (List Char) :=
  names.foldl (fun fs n => fs ++ [uniqueName mk n fs]) []

/-- `readColumns`, csvparse.nim:282-293: the first record at a position -/
def readColumns (d : Dialect) (lines : List (List Char)) (off : Nat) : Except Err (List (List Char)) := do
  let recs ← parseLines d {} (lines.drop off)
  .ok ((recs.headD []).map stripEscape)

/-- options of an import -/
structure ImportOpts where
  headers : Bool := true
  headerRow : Nat := 0
  columns : Option (List (List Char)) := none
  start : Nat := 0
  limit : Option Nat := none
  skip : Option Bool := none

/-- names of the fields of the file, text_reader.nim:164-178; `num i` is `$i` -/
def fieldNames (mk : List Char → Nat → List Char) (num : Nat → List Char) (headers : Bool) (first : List (List Char)) : List (List Char) :=
  if headers then uniqueNames mk first else (List.range first.length).map num

/-- `maxLine`, text_reader.nim:226 -/
def lastRow (limit : Option Nat) (newlines first : Nat) : Nat :=
  match limit with
  | some l => min newlines (l + first)
  | none => newlines

/-- `importTextFile`, text_reader.nim:144-274, with the assembly of the pages in `text_reader`, nimlite.py:148-193: a table of text columns -/
def importText (mk : List Char → Nat → List Char) (num : Nat → List Char) (d : Dialect) (o : ImportOpts) (pageSize : Nat) (lines : List (List Char)) :
    Except Err (List (List Char × List (List (List Char)))) := do
  let offsets ← findNewlines d lines
  let newlines := offsets.length - 1
  if 0 < newlines ∧ o.headerRow < newlines then do
    let first ← readColumns d lines (offsets.getD o.headerRow 0)
    let names := fieldNames mk num o.headers first
    let cols := o.columns.getD names
    if cols.all (fun c => decide (c ∈ names)) then do
      let fields := (List.range names.length).filter fun i => decide (names.getD i [] ∈ cols)
      let offsetRow := (if o.headers then 1 else 0) + o.headerRow
      let maxLine := lastRow o.limit newlines (o.start + offsetRow)
      let tasks := (planTasks pageSize maxLine (o.start + offsetRow)).map fun t => (offsets.getD t.1 0, t.2)
      let res ← tasks.mapM fun t => textReaderTask d lines o.skip fields t.1 t.2
      let columnDict := (List.range fields.length).map fun j => (names.getD (fields.getD j 0) [], res.map fun pages => pages.getD j [])
      .ok ((uniqueNames mk cols).zip (cols.map fun c => (columnDict.find? fun p => decide (p.1 = c)).elim [] (·.2)))
    else .error .other
  else .error .other

end Tablite
