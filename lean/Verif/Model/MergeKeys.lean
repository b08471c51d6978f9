import Verif.Model.Join
import Verif.Model.ColumnWrite
/-!
# Joins with `merge_keys=True`: step 5 of `_join`, `tablite/joins.py:524-562`

After the join, each pair of key columns is merged into the left one and the right one is deleted.  The right key column is looked up under
the name `unique_name(right_name, T.columns)`, while step 3 named it `unique_name(name, new_table.columns)`.
Values are as in `Model/Join.lean`: equal keys are the same value (Python's `1 == 1.0 == True` is not distinguished), and the pages keep the
values written into them (`Model/TypedCol.lean` treats numpy's types).  Tasks run one after another, see `C27`.
-/

namespace Tablite

section
variable {ν α : Type} [DecidableEq ν]

/-- a task of step 5, joins.py:535-546: `left`, `right`, `start`, `end` -/
structure MergeTask (ν : Type) where
  left : ν
  right : ν
  start : Nat
  end_ : Nat

/-- the column "boolean map" of the mapping table, joins.py:527-528: `left != -1` for an outer join, `right == -1` for a left join -/
def mergeCrit (kind : JoinKind) (mapping : List (Int × Int)) : List Bool :=
  mapping.map fun p => if kind = .outer then decide (p.1 ≠ -1) else decide (p.2 = -1)

/-- `_mp_where`, joins.py:304-336: left value where the criterion holds, else right value; an unknown column raises KeyError.  The result
goes through a one-column table (joins.py:336) and is read back with `[:]` (joins.py:557). -/
def mpWhere (ps : Nat) (t : Tbl ν α) (crit : Pages Bool) (k : MergeTask ν) : Except Err (List α) := do
  let c ← getSlice crit { start := some (k.start : Int), stop := some (k.end_ : Int) }
  match dGet k.left t, dGet k.right t with
  | some l, some r =>
    let lv ← getSlice l { start := some (k.start : Int), stop := some (k.end_ : Int) }
    let rv ← getSlice r { start := some (k.start : Int), stop := some (k.end_ : Int) }
    let vals ← npWhere c lv rv
    getSlice (paginate ps vals) {}
  | _, _ => .error .key

/-- `new_table[col][start:end] = result["bmap"][:]`, joins.py:555-557 -/
def mergeWrite (ps : Nat) (t : Tbl ν α) (x : MergeTask ν × List α) : Except Err (Tbl ν α) :=
  match dGet x.1.left t with
  | none => .error .key
  | some p => do
    let q ← setSlice ps p { start := some (x.1.start : Int), stop := some (x.1.end_ : Int) } x.2
    .ok (tblSet t x.1.left q)

/-- the tasks of step 5, joins.py:530-547; `cols` are the columns of the left table `T` -/
def mergeTasks (ps : Nat) (mk : ν → Nat → ν) (cols lk rk : List ν) (n : Nat) : List (MergeTask ν) :=
  (lk.zip rk).flatMap fun x => (pageSteps ps n).map fun se => ⟨x.1, uniqueName mk x.2 cols, se.1, se.2⟩

/-- the merged key columns, joins.py:526-557 -/
def mergeColumns (ps : Nat) (mk : ν → Nat → ν) (kind : JoinKind) (cols lk rk : List ν) (mapping : List (Int × Int)) (t : Tbl ν α) :
    Except Err (Tbl ν α) :=
  if kind = .outer ∨ kind = .left then do
    let tasks := mergeTasks ps mk cols lk rk mapping.length
    let results ← tasks.mapM (mpWhere ps t (paginate ps (mergeCrit kind mapping)))
    (tasks.zip results).foldlM (mergeWrite ps) t
  else .ok t

/-- `for right_name in right_keys: del new_table[unique_name(right_name, T.columns)]`, joins.py:561-562 -/
def mergeDelete (mk : ν → Nat → ν) (cols rk : List ν) (t : Tbl ν α) : Except Err (Tbl ν α) :=
  rk.foldlM (fun t b => tblDel t (uniqueName mk b cols)) t

/-- `join(..., merge_keys=True)`, joins.py:16-110, 409-569 -/
def tblJoinMerged [DecidableEq α] (ps : Nat) (mk : ν → Nat → ν) (ord : List (List α) → List (List α)) (nul : α) (kind : JoinKind)
    (t o : Tbl ν α) (lk rk lc rc : List ν) : Except Err (Tbl ν α) := do
  joinCheck t o lk rk lc rc
  let mapping ← joinMapping ord kind t o lk rk
  let new ← joinColumns ps mk nul t o lc rc mapping
  let new ← mergeColumns ps mk kind (t.map (·.1)) lk rk mapping new
  mergeDelete mk (t.map (·.1)) rk new

end

end Tablite
