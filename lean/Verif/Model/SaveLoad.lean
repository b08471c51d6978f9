import Verif.Model.Table
import Verif.Model.Where
/-!
# Saving and loading: `tablite/base.py` `BaseTable.save` (1350-1417) and `BaseTable.load` (1420-1453)

`yaml.safe_dump`/`safe_load` of a dictionary of texts and `np.save`/`np.load` are taken to be inverse to each other: the archive is modelled as
the list of its entries, holding either the column dictionary or the values of a page.
-/

namespace Tablite

section
variable {ν η α : Type} [DecidableEq ν] [DecidableEq η]

/-- content of an archive entry: `table.yml` with the page names of the columns, or a page -/
inductive Entry (ν η α : Type)
  | yml (cols : List (ν × List η))
  | page (data : List α)

/-- a table whose pages carry the names of their files (`page.path.name`) -/
abbrev NTbl (ν η α : Type) := List (ν × List (η × List α))

/-- the table without file names -/
def NTbl.tbl (t : NTbl ν η α) : Tbl ν α := t.map fun c => (c.1, c.2.map (·.2))

/-- the zip archive written by `save`, base.py:1389-1411.  `ord` is the iteration order of `set(col.pages)`. -/
def archive (yml : η) (ord : List (η × List α) → List (η × List α)) (t : NTbl ν η α) : List (η × Entry ν η α) :=
  (yml, .yml (t.map fun c => (c.1, c.2.map (·.1)))) :: t.flatMap fun c => (ord c.2).map fun p => (p.1, .page p.2)

/-- `save`, base.py:1350-1417: the archive, and the integer division for the log message, which raises when there are no pages -/
def tblSave (yml : η) (ord : List (η × List α) → List (η × List α)) (t : NTbl ν η α) : Except Err (List (η × Entry ν η α)) :=
  if (t.map fun c => c.2.length).sum = 0 then .error .zeroDivision else .ok (archive yml ord t)

/-- `f.read(name)`: the last entry with this name, KeyError if there is none -/
def zipRead (z : List (η × Entry ν η α)) (name : η) : Except Err (Entry ν η α) :=
  match dGet name z.reverse with
  | some e => .ok e
  | none => .error .key

/-- `np.load(...)` of an entry -/
def readPage (z : List (η × Entry ν η α)) (name : η) : Except Err (List α) := do
  match ← zipRead z name with
  | .page d => .ok d
  | .yml _ => .error .value

/-- one column of `load`, base.py:1444-1451 -/
def loadCol (ps : Nat) (z : List (η × Entry ν η α)) (names : List η) : Except Err (Pages α) :=
  names.foldlM (fun col name => do .ok (extend ps col (← readPage z name))) []

/-- `load`, base.py:1419-1453 -/
def tblLoad (ps : Nat) (yml : η) (z : List (η × Entry ν η α)) : Except Err (Tbl ν α) := do
  match ← zipRead z yml with
  | .page _ => .error .type
  | .yml cols => cols.foldlM (fun t c => do .ok (tblSet t c.1 (← loadCol ps z c.2))) []

end

end Tablite
