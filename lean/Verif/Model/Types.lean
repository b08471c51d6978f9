import Verif.Model.OrdDict
import Verif.Model.Paging
/-!
# Types of columns: `Column.types` (tablite/base.py:927-938), `Table.types` (base.py:1665-1683), `select_type_name` and `get_predominant_types` (tablite/utils.py:483-503)

`ty` is `pytype`, the Python type of a value.  The dictionaries of the pages are those made by `pytype_from_iterable` (datatypes.py:756-802); how writes keep them is C12.
-/

namespace Tablite

variable {α τ ν : Type} [DecidableEq τ]

/-- the dictionary of a page, datatypes.py:789-798.  A page with a numpy type has values of one Python type (C85), so counting them gives the same as `{type: len}`;
an empty page with a numpy type has the entry `{type: 0}` (`typ`), an empty page of objects has none. -/
def pageTypeDict (ty : α → τ) (typ : Option τ) (values : List α) : List (τ × Nat) :=
  match values, typ with
  | [], some t => [(t, 0)]
  | _, _ => dGroup ty 0 (fun _ n => n + 1) values

/-- `d += page.dtype` for a `Counter`: counts are added, then entries that are not positive are removed -/
def counterAdd (d e : List (τ × Nat)) : List (τ × Nat) :=
  (e.foldl (fun d x => dUpd 0 x.1 (· + x.2) d) d).filter fun x => decide (0 < x.2)

/-- `Column.types`, base.py:927-938; a page is its values and, if it has one, its numpy type -/
def columnTypes (ty : α → τ) (pages : List (Option τ × List α)) : List (τ × Nat) :=
  pages.foldl (fun d p => counterAdd d (pageTypeDict ty p.1 p.2)) []

/-- `Table.types`, base.py:1665-1683 -/
def tableTypes (ty : α → τ) (t : List (ν × List (Option τ × List α))) : List (ν × List (τ × Nat)) :=
  t.map fun c => (c.1, columnTypes ty c.2)

/-- `select_type_name`, utils.py:483-491: `noneTy` is `NoneType`, the answer `none` stands for "empty"; Python's `sorted` keeps the order of equal counts, also in reverse -/
def selectTypeName (noneTy : τ) (dtypes : List (τ × Nat)) : Option τ :=
  (((dtypes.filter fun x => decide (x.1 ≠ noneTy)).mergeSort fun a b => decide (b.2 ≤ a.2)).head?).map (·.1)

/-- `get_predominant_types`, utils.py:494-503, without `all_dtypes` -/
def predominantTypes (ty : α → τ) (noneTy : τ) (t : List (ν × List (Option τ × List α))) : List (ν × Option τ) :=
  (tableTypes ty t).map fun c => (c.1, selectTypeName noneTy c.2)

end Tablite
