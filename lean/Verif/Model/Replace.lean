import Verif.Model.ColumnWrite
import Verif.Model.Table
/-!
# `Table.replace`, `tablite/core.py:500-528`
-/

namespace Tablite

variable {ν α : Type} [DecidableEq ν] [DecidableEq α]

/-- the argument `columns`: left out, a single name (or another value that is not a list), or a list of names -/
inductive ReplaceCols (ν : Type) where
  | all
  | one (n : ν)
  | many (ns : List ν)

/-- the names, core.py:512-519: a single name that is not a column is refused by `type_check` (TypeError), a name in a list by ValueError -/
def replaceNames (t : Tbl ν α) : ReplaceCols ν → Except Err (List ν)
  | .all => .ok (t.map (·.1))
  | .one n => if n ∈ t.map (·.1) then .ok [n] else .error .type
  | .many ns => if ns.all fun n => decide (n ∈ t.map (·.1)) then .ok ns else .error .value

/-- `self.columns[name].replace(mapping)`, core.py:526-527 -/
def replaceIn (mapping : List (α × α)) (t : Tbl ν α) (name : ν) : Tbl ν α := t.map fun c => if c.1 = name then (c.1, replaceVals c.2 mapping) else c

/-- `Table.replace`, core.py:500-528: the table afterwards, and the exception if there is one -/
def tblReplace (mapping : List (α × α)) (columns : ReplaceCols ν) (t : Tbl ν α) : Tbl ν α × Option Err :=
  match replaceNames t columns with
  | .error e => (t, some e)
  | .ok ns => (ns.foldl (replaceIn mapping) t, none)

end Tablite
