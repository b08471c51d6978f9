import Verif.Model.TableObj
import Verif.Model.Paging
/-!
# Display of tables: `BaseTable.display_dict`, `to_ascii`, `_repr_html_` (base.py:1685-1857) and `dict_to_rows` (utils.py:412-421)

Names of columns are texts.  `DOps` holds what Python does with a value: `str(v)`, `v is None`, `isinstance(v, str)`, `type(v).__name__`.  The text of a row number (`f"{i:,}"`) and the
number of places reserved for row numbers in a long table (base.py:1742) are parameters.  `_repr_html_` is modelled as the rows it puts into tags.
-/

namespace Tablite

/-- a value shown in a cell: a value of the table (or `blanks`), or a text made by the code -/
inductive DCell (α : Type) where
  | val (a : α)
  | text (t : List Char)
  deriving DecidableEq

/-- operations on values -/
structure DOps (α : Type) where
  str : α → List Char
  isNone : α → Bool
  isText : α → Bool
  typeName : α → List Char

/-- `str.rjust`, `str.ljust` -/
def padLeft (w : Nat) (t : List Char) : List Char := List.replicate (w - t.length) ' ' ++ t

/-- `str.ljust` -/
def padRight (w : Nat) (t : List Char) : List Char := t ++ List.replicate (w - t.length) ' '

/-- `str.center`: with an odd number of blanks the additional one is on the left if the width is odd -/
def padBoth (w : Nat) (t : List Char) : List Char :=
  let pad := w - t.length
  let left := pad / 2 + (if pad % 2 = 1 ∧ w % 2 = 1 then 1 else 0)
  List.replicate left ' ' ++ t ++ List.replicate (pad - left) ' '

/-- the candidates for the name of the column of row numbers in the order tried, base.py:1715-1717 -/
def rowTags : List (List Char) := (List.range' 1 5).flatMap fun n => ['#', '~', '*'].map fun c => List.replicate n c

/-- base.py:1715-1720: if all are taken, the variable of the loop keeps its last value -/
def pickTag (cols : List (List Char)) : List Char := (rowTags.find? fun t => decide (t ∉ cols)).getD ['*']

/-- `datatype(col)`, base.py:1703-1713. Simplified: the types are those of the values; `Column.types()` may still count values that were removed (C12) -/
def typeLabel {α : Type} (ops : DOps α) (p : Pages α) : List Char :=
  match ((colIter p).map ops.typeName).eraseDups with
  | [] => "empty".toList
  | [t] => t
  | _ => "mixed".toList

section
variable {α : Type}

/-- `list(chain(iter(col), repeat(blanks, times=n - len(col))))`, base.py:1737 -/
def padColumn (blanks : α) (n : Nat) (p : Pages α) : List α := colIter p ++ List.replicate (n - colLen p) blanks

/-- all rows of a slice, base.py:1732-1739; a step of 0 raises ValueError -/
def sliceDict (num : Nat → List Char) (blanks : α) (tag : List Char) (t : Tbl (List Char) α) (s : PySlice) : Except Err (List (List Char × List (DCell α))) :=
  if s.step = some 0 then .error .value
  else
    let n := tblLen t
    let rowNo := (rangeList (s.indices n).1 (s.indices n).2.1 (s.indices n).2.2).map fun i => DCell.text (padLeft 2 (num i.toNat))
    .ok (t.foldl (fun d c => dSet c.1 ((pySlice (padColumn blanks n c.2) s).map DCell.val) d) [(tag, rowNo)])

/-- the cells of one column of a long table, base.py:1751-1757 -/
def cutColumn (blanks : α) (n : Nat) (p : Pages α) : Except Err (List (DCell α)) :=
  if colLen p = n then do
    let head ← getSlice p { stop := some 7 }
    let tail ← getSlice p { start := some (-7) }
    .ok (head.map DCell.val ++ .text "...".toList :: tail.map DCell.val)
  else do
    let head ← getSlice p { stop := some 7 }
    let tail ← getSlice p { start := some ((n : Int) - 7) }
    let empty := List.replicate 7 blanks
    .ok ((pySlice (head ++ empty) { stop := some 7 }).map DCell.val ++ .text "...".toList :: (pySlice (tail ++ empty) { start := some (-7) }).map DCell.val)

/-- the loop over the columns of a long table, base.py:1750-1758 -/
def cutLoop (blanks : α) (n : Nat) : List (List Char × List (DCell α)) → Tbl (List Char) α → Except Err (List (List Char × List (DCell α)))
  | d, [] => .ok d
  | d, c :: t => do
    let row ← cutColumn blanks n c.2
    cutLoop blanks n (dSet c.1 row d) t

/-- a long table, base.py:1740-1758 -/
def cutDict (num : Nat → List Char) (width : Nat → Nat) (blanks : α) (tag : List Char) (t : Tbl (List Char) α) : Except Err (List (List Char × List (DCell α))) :=
  let n := tblLen t
  let place := fun i => DCell.text (padLeft (width n) (num i))
  cutLoop blanks n [(tag, (List.range 7).map place ++ .text "...".toList :: (List.range' (n - 7) 7).map place)] t

/-- the labels of the types, base.py:1760-1766 -/
def addTypes (ops : DOps α) (t : Tbl (List Char) α) (d : List (List Char × List (DCell α))) : List (List Char × List (DCell α)) :=
  d.map fun c => (c.1, .text ((dGet c.1 t).elim "row".toList (typeLabel ops)) :: c.2)

/-- the slice shown, base.py:1722-1730: `None` for the abbreviated view -/
def shownSlice (n : Nat) : Option PySlice → Option PySlice
  | some s => some s
  | none => if n ≤ 20 then some { start := some 0, stop := some 20, step := some 1 } else none

/-- the data of `display_dict` without labels -/
def displayData (num : Nat → List Char) (width : Nat → Nat) (t : Tbl (List Char) α) (slice : Option PySlice) (blanks : α) :
    Except Err (List (List Char × List (DCell α))) :=
  match shownSlice (tblLen t) slice with
  | some s => sliceDict num blanks (pickTag (t.map (·.1))) t s
  | none => cutDict num width blanks (pickTag (t.map (·.1))) t

/-- `display_dict`, base.py:1685-1768, for a table with columns -/
def displayDict (ops : DOps α) (num : Nat → List Char) (width : Nat → Nat) (t : Tbl (List Char) α) (slice : Option PySlice) (blanks : α) (dtype : Bool) :
    Except Err (List (List Char × List (DCell α))) := do
  let data ← displayData num width t slice blanks
  .ok (if dtype then addTypes ops t data else data)

/-- one row of `dict_to_rows`, utils.py:419 -/
def dictRow {β : Type} (d : List (List Char × List β)) (i : Nat) : Except Err (List β) :=
  d.mapM fun c => match c.2[i]? with
    | some v => .ok v
    | none => .error .index

/-- `dict_to_rows`, utils.py:412-421: the names, and the rows; `max` of nothing is a ValueError -/
def dictToRows {β : Type} (d : List (List Char × List β)) : Except Err (List (List Char) × List (List β)) :=
  if d = [] then .error .value
  else do .ok (d.map (·.1), ← (List.range ((d.map fun c => c.2.length).foldl max 0)).mapM (dictRow d))

/-- `str(v)` -/
def cellText (ops : DOps α) : DCell α → List Char
  | .val a => ops.str a
  | .text t => t

/-- `adjust`, base.py:1779-1786 -/
def adjustCell (ops : DOps α) (blanks : α) (w : Nat) : DCell α → List Char
  | .text t => padRight w t
  | .val a => if ops.isNone a then padRight w (ops.str blanks) else if ops.isText a then padRight w (ops.str a) else padLeft w (ops.str a)

/-- the width of a column, base.py:1795-1796 -/
def asciiWidth (ops : DOps α) (c : List Char × List (DCell α)) : Nat := ((c.2.map (cellText ops) ++ [c.1]).map List.length).foldl max 0

/-- the label of the type in the middle, base.py:1798-1799 -/
def centerLabel (ops : DOps α) (w : Nat) : List (DCell α) → List (DCell α)
  | [] => []
  | v :: r => .text (padBoth w (cellText ops v)) :: r

/-- the loop over the columns in `to_ascii`, base.py:1791-1800 -/
def asciiCols (ops : DOps α) (blanks : α) (dtype : Bool) (d : List (List Char × List (DCell α))) : List (List Char × List (List Char)) :=
  d.foldl (fun acc c =>
    let w := asciiWidth ops c
    dSet (padBoth w c.1) ((if dtype then centerLabel ops w c.2 else c.2).map (adjustCell ops blanks w)) acc) []

/-- `a + sep.join(cells) + a` -/
def frameLine (a : Char) (cells : List (List Char)) : List Char := a :: (List.intersperse [a] cells).flatten ++ [a]

/-- a line of `=` or `-` under the names -/
def ruleLine (c : Char) (names : List (List Char)) : List Char := frameLine '+' (names.map fun n => List.replicate n.length c)

/-- the lines of `to_ascii`, base.py:1802-1814, without the warning; `dtype` moves the rule below the labels -/
def asciiLines (dtype : Bool) (names : List (List Char)) (rows : List (List (List Char))) : List (List Char) :=
  let k := if dtype then 1 else 0
  [ruleLine '=' names, frameLine '|' names] ++ (rows.take k).map (frameLine '|') ++ [ruleLine '-' names] ++ (rows.drop k).map (frameLine '|') ++ [ruleLine '=' names]

/-- `to_ascii`, base.py:1770-1820, for a table with columns: the lines, and whether the warning about different lengths follows -/
def toAscii (ops : DOps α) (num : Nat → List Char) (width : Nat → Nat) (t : Tbl (List Char) α) (slice : Option PySlice) (blanks : α) (dtype : Bool) :
    Except Err (List (List Char) × Bool) := do
  let d ← displayDict ops num width t slice blanks dtype
  let r ← dictToRows (asciiCols ops blanks dtype d)
  .ok (asciiLines dtype r.1 r.2, decide ((t.map fun c => colLen c.2).eraseDups.length ≠ 1))

/-- the rows of `_repr_html_`, base.py:1832-1857 -/
def htmlRows (ops : DOps α) (num : Nat → List Char) (width : Nat → Nat) (t : Tbl (List Char) α) (slice : Option PySlice) (blanks : α) (dtype : Bool) :
    Except Err (List (List Char) × List (List (DCell α))) := do
  let d ← displayDict ops num width t slice blanks dtype
  dictToRows d

end

end Tablite
