import Verif.Model.Replace
import Verif.Model.Sort
/-!
# Arguments of entry points: `imputation.py:58-100`, `core.py:150-218`, `core.py:366-373`
-/

namespace Tablite

variable {ν α : Type} [DecidableEq ν]

/-- an argument that should be a name or a list of names: left out, a text, a list of texts, or something else -/
inductive NameArg (ν : Type) where
  | none
  | one (n : ν)
  | many (ns : List ν)
  | other

/-- the check of a list of names, imputation.py:63-68 and 82-87 (lists of other things than texts, which raise TypeError, are left out) -/
def checkNames (cols ns : List ν) : Except Err (List ν) := if ns.all fun n => decide (n ∈ cols) then .ok ns else .error .value

/-- the argument `targets`, imputation.py:61-70: `if isinstance(targets, str) and targets not in T.columns: targets = [targets]`, and what is not a list
raises TypeError -/
def imputeTargets (cols : List ν) : NameArg ν → Except Err (List ν)
  | .one n => if n ∈ cols then .error .type else checkNames cols [n]
  | .many ns => checkNames cols ns
  | .none => .error .type
  | .other => .error .type

/-- the argument `sources`, imputation.py:77-89: left out or empty, all columns; a text, the list of it -/
def imputeSources (cols : List ν) : NameArg ν → Except Err (List ν)
  | .none => .ok cols
  | .one n => checkNames cols [n]
  | .many ns => checkNames cols (if ns = [] then cols else ns)
  | .other => .error .type

/-- the argument `sort_mode` of `Table.sort_index` is whatever the user gives: the name of a mode or a mapping -/
inductive SortArg (ν : Type) where
  | mode (m : String)
  | mapping (m : List (ν × Bool))

/-- `Table.sort_index(sort_mode, **kwargs)`, core.py:366-373: `sort_mode` is handed on in the place of `mapping` and the keywords as keywords, of which
`sortation.sort_index` knows `mapping` and `sort_mode` only: the first is given twice, the second is taken by `Table.sort_index` itself; all others are
unknown. Without keywords the mapping must be a dictionary that is not empty, sortation.py:27-28. The index is that of mode "excel". -/
def tableSortIndex (rk : Bool → List α → Except Err (α → Option Nat)) (t : Tbl ν α) (arg : SortArg ν) (kwargs : List String) : Except Err (List Nat) :=
  if kwargs ≠ [] then .error .type
  else match arg with
    | .mode _ => .error .type
    | .mapping m => sortIndex rk t m

/-- the readers, import_utils.py:633-648 -/
inductive FileReader where
  | text | html | hdf5 | excel | ods
deriving DecidableEq

/-- `file_readers`, import_utils.py:633-648 -/
def fileReaders : List (String × FileReader) :=
  [("fods", .excel), ("json", .excel), ("html", .html), ("hdf5", .hdf5), ("simple", .excel), ("rst", .excel), ("mediawiki", .excel), ("xlsx", .excel),
   ("xls", .excel), ("xlsm", .excel), ("csv", .text), ("tsv", .text), ("txt", .text), ("ods", .ods)]

/-- the settings of an import that select rows and columns, core.py:62-80 -/
structure ImportArgs where
  columns : Option (List String)
  headers : Bool
  start : Int
  limit : Int

/-- what the readers make of the file; `from_html` and `from_hdf5` are called with the path alone, core.py:183-186 -/
structure FileOf (X : Type) where
  text : ImportArgs → Except Err X
  excel : ImportArgs → Except Err X
  ods : ImportArgs → Except Err X
  html : Except Err X
  hdf5 : Except Err X

/-- the suffixes `openpyxl.load_workbook` opens (openpyxl's SUPPORTED_FORMATS; it raises InvalidFileException for all others, import_utils.py:189) -/
def openpyxlOpens : List String := ["xlsx", "xlsm", "xltx", "xltm"]

/-- `sys.maxsize` of a 64-bit Python -/
def maxSize : Int := 2 ^ 63 - 1

/-- `Table.from_file(path, ...)`, core.py:150-218: the checks in their order, the reader of the suffix, and its result. Simplified: the types of the arguments
are right (`first_row_has_headers` is a bool, `start` and `limit` are ints). -/
def importAny {X : Type} (f : FileOf X) (pathExists : Bool) (suffix : String) (a : ImportArgs) : Except Err X :=
  if !pathExists then .error .other
  else if ¬ (0 ≤ a.start ∧ a.start ≤ maxSize) then .error .value
  else if ¬ (0 < a.limit ∧ a.limit ≤ maxSize) then .error .value
  else match fileReaders.lookup suffix with
    | none => .error .value
    | some .text => f.text a
    | some .html => f.html
    | some .hdf5 => f.hdf5
    | some .excel => if suffix ∈ openpyxlOpens then f.excel a else .error .other
    | some .ods => f.ods a

/-- `header_readers`, file_reader_utils.py:256-271 -/
def headerReaders : List (String × FileReader) :=
  [("fods", .excel), ("json", .excel), ("simple", .excel), ("rst", .excel), ("mediawiki", .excel), ("xlsx", .excel), ("xlsm", .excel), ("csv", .text),
   ("tsv", .text), ("txt", .text), ("ods", .ods)]

/-- the argument `path` of `get_headers`: a text or a path, and whether there is such a file; or something else -/
inductive PathArg where
  | path (present : Bool) (suffix : String)
  | other
deriving DecidableEq

/-- what the header readers make of the file with a delimiter, header row and line count -/
structure PreviewOf (X : Type) where
  text : Option String → Nat → Nat → Except Err X
  excel : Option String → Nat → Nat → Except Err X
  ods : Option String → Nat → Nat → Except Err X

/-- `get_headers`, file_reader_utils.py:273-316; `delimiter` is `.error ()` if it is neither None nor a text. `openpyxl.open` refuses the suffixes it does not
know (file_reader_utils.py:202) -/
def getHeadersAny {X : Type} (f : PreviewOf X) (path : PathArg) (delimiter : Except Unit (Option String)) (headerRow linecount : Nat) : Except Err X :=
  match path with
  | .other => .error .type
  | .path present suffix =>
    if !present then .error .other
    else match delimiter with
      | .error _ => .error .type
      | .ok d =>
        match headerReaders.lookup suffix with
        | some .text => f.text d headerRow linecount
        | some .excel => if suffix ∈ openpyxlOpens then f.excel d headerRow linecount else .error .other
        | some .ods => f.ods d headerRow linecount
        | _ => .error .type

/-- `sortation.reindex(T, index)`, sortation.py:72-98: Python's `max` and `min` of an empty index raise ValueError; `_mp_reindex` (105-107) returns what
`_sp_reindex` does, so the choice of the method has no effect -/
def sortReindex {ν α : Type} [DecidableEq ν] (ps : Nat) (nul : α) (t : Tbl ν α) (index : List Int) : Except Err (Tbl ν α) :=
  match index with
  | [] => .error .value
  | i :: r =>
    if r.foldl max i ≥ (tblLen t : Int) then .error .index
    else if r.foldl min i < -(tblLen t : Int) then .error .index
    else tblReindex ps nul t (i :: r)

end Tablite
