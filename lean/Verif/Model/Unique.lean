import Verif.Model.ColumnQuery
/-!
# `Column.unique`, `tablite/base.py:956-979`

As in `ColumnQuery`: `srt` is numpy's sort (`none`: TypeError), `same` is the `==` of numpy; equality on `α` is equality of type and value. The order of a Python set is the parameter `ord`.
MemoryError is left out.
-/

namespace Tablite

variable {α : Type}

/-- `np.unique(array)`, and `multitype_set(array)` if it raises TypeError, base.py:968-972, 974-979; `multitype_set` is datatypes.py:854-870 -/
def pageUnique (srt : List α → Option (List α)) (same : α → α → Bool) (ord : List α → List α) (p : List α) : List α :=
  match srt p with
  | some s => (runLengths same s).map (·.1)
  | none => ord p

/-- `Column.unique`, base.py:956-979: `pgs` are the distinct page objects in the order of a Python set; `np.concatenate` of no arrays raises ValueError (base.py:973) -/
def colUnique (srt : List α → Option (List α)) (same : α → α → Bool) (ord : List α → List α) (pgs : Pages α) : Except Err (List α) :=
  if pgs.isEmpty then .error .value
  else .ok (pageUnique srt same ord (pgs.flatMap (pageUnique srt same ord)))

end Tablite
