import Verif.Model.Codec
import Verif.Model.Table
/-!
# Export to SQL: `to_sql`, `tablite/export_utils.py:12-48`

`sql_writer` (export_utils.py:190-194) calls `to_sql(table)` without the name that it requires, so it always raises TypeError.
-/

namespace Tablite

variable {O : Type}

/-- `n` as `k` hexadecimal digits -/
def hexText : Nat → Nat → PyText
  | 0, _ => []
  | k + 1, n => hexText k (n / 16) ++ [if n % 16 < 10 then 48 + n % 16 else 87 + n % 16]

/-- one character in `repr` of a text in quotes `q`; `printable` is `str.isprintable` beyond ASCII -/
def reprChar (printable : Nat → Bool) (q c : Nat) : PyText :=
  if c = q ∨ c = 92 then [92, c]
  else if c = 9 then [92, 116]
  else if c = 10 then [92, 110]
  else if c = 13 then [92, 114]
  else if c < 32 ∨ c = 127 then 92 :: 120 :: hexText 2 c
  else if c < 127 then [c]
  else if printable c then [c]
  else if c < 256 then 92 :: 120 :: hexText 2 c
  else if c < 65536 then 92 :: 117 :: hexText 4 c
  else 92 :: 85 :: hexText 8 c

/-- `repr` of a text: in double quotes if it contains a single quote and no double quote -/
def reprText (printable : Nat → Bool) (t : PyText) : PyText :=
  let q := if 39 ∈ t ∧ 34 ∉ t then 34 else 39
  q :: t.flatMap (reprChar printable q) ++ [q]

/-- what the export uses from the runtime: `str.isprintable`, and `repr` of values that are neither text nor int -/
structure SqlOps (O : Type) where
  printable : Nat → Bool
  reprOther : PV O → PyText

/-- `repr(i if i is not None else "NULL")`, export_utils.py:46 -/
def sqlCell (ops : SqlOps O) : PV O → PyText
  | .none => reprText ops.printable (txt "NULL")
  | .int z => intText z
  | .str t => reprText ops.printable t
  | v => ops.reprOther v

/-- `str(tuple([…]))`, export_utils.py:46: a tuple of one element is written with a comma -/
def sqlRow (ops : SqlOps O) (row : List (PV O)) : PyText :=
  match row with
  | [v] => 40 :: sqlCell ops v ++ [44, 41]
  | row => 40 :: (txt ", ").intercalate (row.map (sqlCell ops)) ++ [41]

/-- the type of a column, export_utils.py:27-37; `types` are the keys of `col.types()` -/
def sqlType (types : List PT) : PyText :=
  match types with
  | [.int] => txt "INTEGER"
  | [.float] => txt "REAL"
  | _ => txt "TEXT"

/-- `f"{name} {dtype}"`, export_utils.py:38 -/
def sqlDef (c : PyText × Pages (PV O)) : PyText := c.1 ++ 32 :: sqlType ((colIter c.2).map PV.type).eraseDups

/-- `to_sql(table, name)`, export_utils.py:12-48 -/
def toSql (ops : SqlOps O) (name : PyText) (t : Tbl PyText (PV O)) : Except Err PyText := do
  let rows ← tblRows .none t
  .ok (txt "begin; CREATE TABLE " ++ name ++ txt " (" ++ (txt ", ").intercalate (t.map sqlDef) ++ txt "); INSERT INTO " ++ name ++ txt " VALUES " ++
    (txt ",").intercalate (rows.map (sqlRow ops)) ++ txt "; commit;")

end Tablite
