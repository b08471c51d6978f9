import Verif.Model.JsonTable
/-!
# pandas: `to_pandas` (`tablite/export_utils.py:51-60`), `from_pandas` (`tablite/import_utils.py:40-69`)

A data frame is the dictionary of lists it was made from (`pd.DataFrame(d).to_dict("list")` is `d` for columns of one length; what pandas makes of missing values is left out).
-/

namespace Tablite

variable {ν α : Type} [DecidableEq ν]

/-- reading a local variable: UnboundLocalError before the first assignment -/
def readLocal {β : Type} : Option β → Except Err β
  | none => .error .unbound
  | some x => .ok x

/-- `except ImportError` (`Err.other`) -/
def onImportError {β : Type} (r : Except Err β) (handler : Except Err β) : Except Err β :=
  match r with
  | .error .other => handler
  | r => r

/-- `to_pandas`, export_utils.py:51-60; `pandas` is the constructor `DataFrame` if pandas is installed. The function assigns `pd` (by `import pandas as pd`), so `pd` is a local variable in all of
it, without a value at line 57. -/
def toPandas {F : Type} (pandas : Option (List (ν × List α) → F)) (t : Tbl ν α) : Except Err F :=
  onImportError
    ((readLocal (none : Option (List (ν × List α) → F))).bind fun pd => (toDict t none none).bind fun d => .ok (pd d))
    (match pandas with
      | none => .error .other
      | some pd => (toDict t none none).bind fun d => .ok (pd d))

/-- `from_pandas`, import_utils.py:40-69: `T(columns=df.to_dict("list"))` -/
def fromPandas (ps : Nat) (h : Heap α) (df : List (ν × List α)) : Except Err (Heap α × OTbl ν) := tInit ps h (df.map fun c => (c.1, SetVal.values c.2)) [] []

end Tablite
