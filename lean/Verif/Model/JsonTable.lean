import Verif.Model.Where
import Verif.Model.TableObj
import Verif.Model.Codec
/-!
# Tables as dictionaries and as JSON: `BaseTable.to_dict`, `as_json_serializable` (base.py:1859-1925), `to_json` (export_utils.py:139-143) and
`from_json` (import_utils.py:112-122)

Trusted: `json.loads(json.dumps(x))` is `x` for dictionaries with texts as keys and lists of null, texts, integers and floats as values. Not modelled: the
conversion of a list to a numpy array in `T(columns=...)`.
-/

namespace Tablite

section
variable {ν α β : Type} [DecidableEq ν]

/-- `{name: list(self.columns[name][slice_]) for name in columns}` (base.py:1890): KeyError for a missing name, a repeated name counts once -/
def toDictLoop (t : Tbl ν α) (s : PySlice) : List (ν × List α) → List ν → Except Err (List (ν × List α))
  | d, [] => .ok d
  | d, n :: l =>
    match dGet n t with
    | none => .error .key
    | some p => (getSlice p s).bind fun v => toDictLoop t s (dSet n v d) l

/-- `to_dict(columns, slice_)` (base.py:1859-1890) -/
def toDict (t : Tbl ν α) (columns : Option (List ν)) (slice : Option PySlice) : Except Err (List (ν × List α)) :=
  toDictLoop t (slice.getD { start := some 0, stop := some (tblLen t) }) [] (columns.getD (t.map (·.1)))

/-- the row counts (base.py:1914); a step of 0 raises -/
def rowIds (num : Int → β) (startOn : Int) (s : PySlice) (n : Nat) : Except Err (List β) :=
  if s.step = some 0 then .error .value
  else .ok ((rangeList (s.indices n).1 (s.indices n).2.1 (s.indices n).2.2).map fun i => num (i + startOn))

/-- the first entry of `new["columns"]` (base.py:1912-1915) -/
def rowIdColumn (num : Int → β) (rowCount : Option ν) (startOn : Int) (s : PySlice) (n : Nat) : Except Err (List (ν × List β)) :=
  match rowCount with
  | none => .ok []
  | some r => (rowIds num startOn s n).bind fun l => .ok [(r, l)]

/-- the loop over the dictionary (base.py:1918-1924) -/
def jsonLoop (mk : ν → Nat → ν) (conv : α → Except Err β) : List (ν × List β) → List (ν × List α) → Except Err (List (ν × List β))
  | new, [] => .ok new
  | new, (k, data) :: l => (data.mapM conv).bind fun v => jsonLoop mk conv (dSet (uniqueName mk k (new.map (·.1))) v new) l

/-- `as_json_serializable` (base.py:1892-1925): the columns, and the number of rows. `conv` is `DataTypes.to_json`, `num` an integer as it is -/
def jsonSer (mk : ν → Nat → ν) (conv : α → Except Err β) (num : Int → β) (rowCount : Option ν) (startOn : Int) (columns : Option (List ν)) (slice : Option PySlice)
    (t : Tbl ν α) : Except Err (List (ν × List β) × Nat) :=
  (rowIdColumn num rowCount startOn (slice.getD { start := some 0, stop := some (tblLen t) }) (tblLen t)).bind fun first =>
    (toDict t columns (some (slice.getD { start := some 0, stop := some (tblLen t) }))).bind fun d =>
      (jsonLoop mk conv first d).bind fun new => .ok (new, tblLen t)

/-- a JSON value as Python reads it -/
def jsonValue {O : Type} : JV → PV O
  | .null => .none
  | .str t => .str t
  | .int z => .int z
  | .float x => .float x

/-- `Table.from_json(t.to_json())` as names and lists (import_utils.py:112-122, base.py:1080-1126) -/
def jsonRoundtrip {O : Type} (R : Runtime O) (ps : Nat) (mk : ν → Nat → ν) (rowId : ν) (t : Tbl ν (PV O)) : Except Err (Heap (PV O) × OTbl ν) :=
  (jsonSer mk (toJson R) .int (some rowId) 1 none none t).bind fun r =>
    tInit ps [] (r.1.map fun c => (c.1, SetVal.values (c.2.map jsonValue))) [] []

end

end Tablite
