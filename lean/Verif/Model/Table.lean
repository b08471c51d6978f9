import Verif.Model.ColumnQuery
import Verif.Model.ColumnWrite
/-!
# Tables: `tablite/base.py` class `BaseTable` (1075-1990), `reindex.py`, `config.py` page steps

A table is the insertion-ordered dictionary column name ↦ column (list of pages).  `nul` is the value `None`.
Column names of a Python dict are distinct: theorems assume `TblWF`.
-/

namespace Tablite

section
variable {ν α : Type} [DecidableEq ν]

/-- `self.columns`, base.py:1113 -/
abbrev Tbl (ν α : Type) := List (ν × Pages α)

/-- `Config.page_steps`, config.py:77-89: `k` counts the remaining iterations of `range(0, length + 1, PAGE_SIZE)`, `e` is `end`. -/
def pageStepsLoop (ps n : Nat) : Nat → Nat → List (Nat × Nat)
  | 0, _ => []
  | k + 1, e =>
    let e' := min (e + ps) n
    (e, e') :: if e' = n then [] else pageStepsLoop ps n k e'

/-- `len(range(0, n + 1, ps)) = n / ps + 1` for `ps ≥ 1`; page size 0 raises ValueError and is excluded by the theorems. -/
def pageSteps (ps n : Nat) : List (Nat × Nat) := pageStepsLoop ps n (n / ps + 1) 0

/-- `Table.__len__`, base.py:1289-1292 -/
def tblLen (t : Tbl ν α) : Nat := (t.map fun c => colLen c.2).foldl max 0

/-- one `next()` on every generator of `rows` (base.py:1317-1318); an exhausted generator raises. -/
def nextAll : List (List α) → Except Err (List α × List (List α))
  | [] => .ok ([], [])
  | [] :: _ => .error .other
  | (v :: g) :: gs => do
    let (vs, gs') ← nextAll gs
    .ok (v :: vs, g :: gs')

/-- `for _ in range(n): yield [next(i) for i in generators]` -/
def rowsLoop : Nat → List (List α) → Except Err (List (List α))
  | 0, _ => .ok []
  | n + 1, gs => do
    let (r, gs') ← nextAll gs
    let more ← rowsLoop n gs'
    .ok (r :: more)

/-- `Table.rows`, base.py:1294-1318 -/
def tblRows (nul : α) (t : Tbl ν α) : Except Err (List (List α)) :=
  let n := tblLen t
  rowsLoop n (t.map fun c => colIter c.2 ++ List.replicate (n - colLen c.2) nul)

/-- `Column.getpages` with the distinction shared page (`true`) / new array (`false`), base.py:277-339 -/
def sliceItemsLoop (isRev : Bool) (r : PyRange) : Int → Pages α → Except Err (List (Bool × List α))
  | _, [] => .ok []
  | start, page :: rest =>
    let end_ := start + page.length
    if isRev && decide (start > r.start) then .ok []
    else if isRev && decide (end_ < r.stop) then sliceItemsLoop isRev r end_ rest
    else if !isRev && decide (start > r.stop) then .ok []
    else if !isRev && decide (end_ < r.start) then sliceItemsLoop isRev r end_ rest
    else do
      let ro ← intercept ⟨start, end_, 1⟩ r
      let more ← sliceItemsLoop isRev r end_ rest
      if ro.len = 0 then .ok more
      else if ro.len = page.length then .ok ((true, page) :: more)
      else .ok ((false, pySlice page { start := some (ro.start - start), stop := some (ro.stop - start), step := some ro.step }) :: more)

/-- the items `table[...]` receives from `getpages`; reversed reads deliver new arrays only (base.py:330-337) -/
def sliceItems (pages : Pages α) (s : PySlice) : Except Err (List (Bool × List α)) :=
  if s.step = some 0 then .error .value else do
    let (a, b, k) := s.indices (colLen pages)
    let out ← sliceItemsLoop (isReversed s) ⟨a, b, k⟩ 0 pages
    .ok (if isReversed s then out.reverse.map (fun x => (false, x.2.reverse)) else out)

/-- the column a table slice builds, base.py:1273-1280: whole pages are shared, arrays are paginated. -/
def sliceCol (ps : Nat) (pages : Pages α) (s : PySlice) : Except Err (Pages α) := do
  let items ← sliceItems pages s
  .ok (items.foldl (fun new it => if it.1 then new ++ [it.2] else extend ps new it.2) [])

/-- `table[slice]`, base.py:1268-1287, all columns. -/
def tblSlice (ps : Nat) (t : Tbl ν α) (s : PySlice) : Except Err (Tbl ν α) :=
  t.mapM fun c => do .ok (c.1, ← sliceCol ps c.2 s)

/-- `table[i]`, base.py:1236-1261: every column sliced with `slice(i, i + 1)`, first element (`[0]` of an empty list raises IndexError). -/
def tblRow (t : Tbl ν α) (i : Int) : Except Err (List α) :=
  t.mapM fun c => do
    match ← getSlice c.2 { start := some i, stop := some (i + 1) } with
    | [] => .error .index
    | v :: _ => .ok v

/-- `Table.__imul__`, base.py:1464-1478 -/
def tblIMul (t : Tbl ν α) (n : Int) : Except Err (Tbl ν α) :=
  if n > 0 then t.mapM fun c => do .ok (c.1, ← colIMul c.2 n) else .error .type

/-- `Table.__iadd__` / `__add__`, base.py:1493-1537 -/
def tblIAdd (t o : Tbl ν α) : Except Err (Tbl ν α) :=
  if t.all (fun c => (dGet c.1 o).isSome) then
    if o.all (fun c => (dGet c.1 t).isSome) then
      t.mapM fun c =>
        match dGet c.1 o with
        | some p => .ok (c.1, c.2 ++ p)
        | none => .error .attribute
    else .error .value
  else .error .value

/-- the first loop of `stack`, base.py:1654-1657: `cp[name]` gets a column of Nones if missing, then the other pages -/
def stackStep (ps : Nat) (nul : α) (n : Nat) (cp : Tbl ν α) (c : ν × Pages α) : Tbl ν α :=
  dUpd (paginate ps (List.replicate n nul)) c.1 (fun p => p ++ c.2) cp

/-- `Table.stack`, base.py:1640-1663 -/
def tblStack (ps : Nat) (nul : α) (t o : Tbl ν α) : Tbl ν α :=
  let cp := o.foldl (stackStep ps nul (tblLen t)) t
  t.foldl (fun cp c =>
    if (dGet c.1 o).isSome then cp
    else if tblLen cp > 0 then dUpd [] c.1 (fun p => extend ps p (List.replicate (tblLen o) nul)) cp
    else cp) cp

/-- `Table.__eq__` with a table that is a different object, base.py:1331-1344; columns carry page identities. -/
def tblEq (eq : α → α → Bool) (t o : List (ν × RCol α)) : Bool :=
  let len := fun (t : List (ν × RCol α)) => (t.map fun c => colLen c.2.pages).foldl max 0
  if len t ≠ len o then false
  else if len t = 0 then true
  else if ¬ (t.all (fun c => (dGet c.1 o).isSome) ∧ o.all (fun c => (dGet c.1 t).isSome)) then false
  else t.all fun c => match dGet c.1 o with
    | some d => colEqCol eq c.2 d
    | none => false

/-- `zip(*iterators)`: rows until the shortest iterator ends; no iterators give no rows. -/
def zipRows : Nat → List (List α) → List (List α)
  | 0, _ => []
  | n + 1, gs =>
    if gs = [] then [] else
    match nextAll gs with
    | .ok (r, gs') => r :: zipRows n gs'
    | .error _ => []

/-- the columns named by `args`, KeyError if one is missing -/
def tblPick (t : Tbl ν α) (args : List ν) : Except Err (List (List α)) :=
  args.mapM fun a => match dGet a t with
    | some p => .ok (colIter p)
    | none => .error .key

/-- `Table.index`, base.py:1927-1965.  The fuel `tblLen t` bounds the number of rows of `zip`. -/
def tblIndex [DecidableEq α] (t : Tbl ν α) (args : List ν) : Except Err (List (List α × List Nat)) := do
  let its ← tblPick t args
  .ok (dGroup (fun x => x.1) [] (fun x l => l ++ [x.2]) (zipRows (tblLen t) its).zipIdx)

/-- the loop of `unique_index`, base.py:1983-1988; `seen` is the set of hashes met so far -/
def uniqueLoop {η : Type} [DecidableEq η] (hash : List α → η) : List η → List (List α × Nat) → List Nat
  | _, [] => []
  | seen, (key, ix) :: rest =>
    if hash key ∈ seen then uniqueLoop hash seen rest else ix :: uniqueLoop hash (hash key :: seen) rest

/-- `Table.unique_index`, base.py:1967-1989 (`sorted(unique)`: the indices were added in ascending order) -/
def uniqueIndex {η : Type} [DecidableEq η] (hash : List α → η) (t : Tbl ν α) (args : List ν) : Except Err (List Nat) :=
  if args = [] then .error .value else do
    let its ← tblPick t args
    .ok (uniqueLoop hash [] (zipRows (tblLen t) its).zipIdx)

/-- numpy broadcasting of two one-dimensional lengths -/
def bcast (a b : Nat) : Except Err Nat :=
  if a = b then .ok a else if a = 1 then .ok b else if b = 1 then .ok a else .error .value

/-- stretch an array to the broadcast length -/
def stretch {β : Type} (l : List β) (n : Nat) : List β :=
  if l.length = n then l else match l with
    | [] => []
    | v :: _ => List.replicate n v

/-- `np.where(mask, x, y)` for one-dimensional arrays, with broadcasting -/
def npWhere (mask : List Bool) (x y : List α) : Except Err (List α) := do
  let n ← bcast mask.length x.length
  let n ← bcast n y.length
  .ok (List.zipWith (fun (m : Bool) (p : α × α) => if m then p.1 else p.2) (stretch mask n) ((stretch x n).zip (stretch y n)))

/-- one chunk of `reindex`, reindex.py:37-47.  Slots left empty by `get_by_indices` are None. -/
def reindexChunk (nul : α) (pages : Pages α) (total : Nat) (chunk : List Int) : Except Err (List α) := do
  let got ← getByIndices pages chunk
  let values := got.map fun o => o.getD nul
  let mask := chunk.map fun i => decide (i = -1)
  if mask.any id then npWhere mask (List.replicate total nul) values else .ok values

/-- `reindex` of one column, reindex.py:32-47 -/
def reindexCol (ps : Nat) (nul : α) (pages : Pages α) (index : List Int) : Except Err (Pages α) :=
  (pageSteps ps index.length).foldlM (fun new se => do
    let vals ← reindexChunk nul pages index.length ((index.take se.2).drop se.1)
    .ok (extend ps new vals)) []

/-- `reindex`, reindex.py:8-50, all columns -/
def tblReindex (ps : Nat) (nul : α) (t : Tbl ν α) (index : List Int) : Except Err (Tbl ν α) :=
  t.mapM fun c => do .ok (c.1, ← reindexCol ps nul c.2 index)

/-- `Table.drop_duplicates`, core.py:394-404 -/
def dropDuplicates {η : Type} [DecidableEq η] (hash : List α → η) (ps : Nat) (nul : α) (t : Tbl ν α) (args : List ν) : Except Err (Tbl ν α) := do
  let idx ← uniqueIndex hash t (if args = [] then t.map (·.1) else args)
  tblReindex ps nul t (idx.map fun (n : Nat) => (n : Int))

/-- the dictionary `self.columns` has distinct keys -/
def TblWF (t : Tbl ν α) : Prop := (t.map (·.1)).Nodup

/-- all columns have length `n` -/
def Rect (t : Tbl ν α) (n : Nat) : Prop := ∀ c ∈ t, colLen c.2 = n

end

end Tablite
