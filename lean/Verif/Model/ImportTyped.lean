import Verif.Model.Import
import Verif.Model.Rank
/-!
# Text import with guessed types: `nimlite/funcs/text_reader/text_reader.nim`, `paging.nim` and `tablite/nimlite.py` (`text_reader`)

The import of `Verif.Model.Import` with `guess_datatypes = True`: every page of every column finds its own types.
Simplified: the body of a page is written value by value for one column after the other, where the code goes row by row; a failure ends the import in
both cases.
-/

namespace Tablite

/-- one row of the pages of a task, paging.nim:244-258, 333-347: the fields to import in the order of the file; fields missing at the end are `none` -/
def optRow (fields : List Nat) (r : List (List Char)) : List (Option (List Char)) :=
  let present := ((List.range r.length).filter fun i => decide (i ∈ fields)).map fun i => some (r.getD i [])
  present ++ List.replicate (fields.length - present.length) none

/-- a missing field as written to its page, paging.nim:333-347: `None` is pickled into any page but one of texts; in a page of numbers these bytes make the
file unreadable, which is modelled by an error -/
def writeMissing : PageType → Except Err InfVal
  | .unicode => .ok (.str [])
  | .object => .ok .none
  | _ => .error .other

/-- one page of one column, paging.nim:18-75, 91-186, 221-349: a missing field is ranked as an empty text (paging.nim:67-72) -/
def typedCells (inf : DType → List Char → Except Err InfVal) (cells : List (Option (List Char))) : Except Err (List InfVal) := do
  let x ← rankLoop inf newRank 1 (cells.map (·.getD []))
  let p ← pageType x.1
  cells.mapM fun c => match c with
    | some s => writeValue inf p.1 p.2 x.2 s
    | none => writeMissing p.1

/-- `textReaderTask`, text_reader.nim:44-110: the pages of one task, one for each field, each written by `page` -/
def taskPages {β : Type} (page : List (Option (List Char)) → Except Err (List β)) (d : Dialect) (lines : List (List Char)) (skip : Option Bool) (fields : List Nat)
    (off count : Nat) : Except Err (List (List β)) := do
  let recs ← parseLines d {} (lines.drop off)
  let rows := (pageLoop skip count 0 recs).map (optRow fields)
  (List.range fields.length).mapM fun j => page (rows.map fun r => r.getD j none)

/-- `importTextFile`, text_reader.nim:144-274, with the assembly of the pages in `text_reader`, nimlite.py:148-193, for any way `page` of writing a page -/
def importWith {β : Type} (page : List (Option (List Char)) → Except Err (List β)) (mk : List Char → Nat → List Char) (num : Nat → List Char) (d : Dialect)
    (o : ImportOpts) (pageSize : Nat) (lines : List (List Char)) : Except Err (List (List Char × List (List β))) := do
  let offsets ← findNewlines d lines
  let newlines := offsets.length - 1
  if 0 < newlines ∧ o.headerRow < newlines then do
    let first ← readColumns d lines (offsets.getD o.headerRow 0)
    let names := fieldNames mk num o.headers first
    let cols := o.columns.getD names
    if cols.all (fun c => decide (c ∈ names)) then do
      let fields := (List.range names.length).filter fun i => decide (names.getD i [] ∈ cols)
      let offsetRow := (if o.headers then 1 else 0) + o.headerRow
      let maxLine := lastRow o.limit newlines (o.start + offsetRow)
      let tasks := (planTasks pageSize maxLine (o.start + offsetRow)).map fun t => (offsets.getD t.1 0, t.2)
      let res ← tasks.mapM fun t => taskPages page d lines o.skip fields t.1 t.2
      let columnDict := (List.range fields.length).map fun j => (names.getD (fields.getD j 0) [], res.map fun pages => pages.getD j [])
      .ok ((uniqueNames mk cols).zip (cols.map fun c => (columnDict.find? fun p => decide (p.1 = c)).elim [] (·.2)))
    else .error .other
  else .error .other

/-- an import with `guess_datatypes = True`; `pf` is Nim's `parseFloat` -/
def importTyped (pf : List Char → Option Rat) (mk : List Char → Nat → List Char) (num : Nat → List Char) (d : Dialect) (o : ImportOpts) (pageSize : Nat)
    (lines : List (List Char)) : Except Err (List (List Char × List (List InfVal))) :=
  importWith (typedCells (inferAs pf)) mk num d o pageSize lines

end Tablite
