import Verif.Model.Display
/-!
# The HTML view of a table: `BaseTable._repr_html_`, base.py:1832-1857

`str` of a value and the text of row numbers are as in `Model/Display.lean`; `format(v)` in an f-string is taken to be `str(v)`.
-/
namespace Tablite

/-- `"<tr>" + "".join(f"<th>{cn}</th>" for cn in row) + "</tr>"`, base.py:1850 -/
def htmlRow (cells : List (List Char)) : List Char := "<tr>".toList ++ (cells.flatMap fun c => "<th>".toList ++ c ++ "</th>".toList) ++ "</tr>".toList

/-- the warning, base.py:1853-1855 -/
def htmlWarning {α : Type} (ops : DOps α) (t : Tbl (List Char) α) (blanks : α) : List Char :=
  if (t.map fun c => colLen c.2).eraseDups.length ≠ 1 then
    "Warning: Columns have different lengths. ".toList ++ ops.str blanks ++ " is used as fill value.".toList
  else []

/-- `_repr_html_`, base.py:1832-1857 -/
def reprHtml {α : Type} (ops : DOps α) (num : Nat → List Char) (width : Nat → Nat) (t : Tbl (List Char) α) (slice : Option PySlice) (blanks : α) (dtype : Bool) :
    Except Err (List Char) :=
  if t.isEmpty then .ok ("<div><table border=1>".toList ++ "<tr>Empty Table</tr>".toList ++ "</table></div>".toList)
  else do
    let r ← htmlRows ops num width t slice blanks dtype
    .ok ("<div><table border=1>".toList ++ ((r.1 :: r.2.map fun row => row.map (cellText ops)).flatMap htmlRow) ++ "</table></div>".toList ++ htmlWarning ops t blanks)

end Tablite
