import Verif.Model.Where
/-!
# Joins: `tablite/joins.py`

The three mapping functions build a list of (left row, right row) pairs, -1 meaning "no row".  The reindexing tasks then gather every
column page by page.
-/

namespace Tablite

section
variable {ν α : Type} [DecidableEq ν]

/-- `Table.index` result: key tuple ↦ row numbers, in insertion order -/
abbrev KeyIndex (α : Type) := List (List α × List Nat)

/-- the double loop `for left_ix in left_ixs: for right_ix in right_ixs:`, joins.py:206-209 -/
def crossIx (ls : List Nat) (rs : List Int) : List (Int × Int) :=
  ls.flatMap fun (i : Nat) => rs.map fun j => ((i : Int), j)

/-- `_sp_inner_mapping`, joins.py:215-240 -/
def innerMapping [DecidableEq α] (li ri : KeyIndex α) : List (Int × Int) :=
  li.flatMap fun e => match dGet e.1 ri with
    | none => []
    | some rs => crossIx e.2 (rs.map fun (j : Nat) => (j : Int))

/-- `_sp_left_mapping`, joins.py:190-212 -/
def leftMapping [DecidableEq α] (li ri : KeyIndex α) : List (Int × Int) :=
  li.flatMap fun e => crossIx e.2 (match dGet e.1 ri with
    | none => [-1]
    | some rs => rs.map fun (j : Nat) => (j : Int))

/-- the keys left in `_right_unused` after the loop, joins.py:257-264: a key is discarded when a pair is appended for it -/
def rightUnused [DecidableEq α] (li ri : KeyIndex α) : List (List α) :=
  (ri.map (·.1)).filter fun k => !(li.any fun e => decide (e.1 = k) && !e.2.isEmpty)

/-- `_sp_outer_mapping`, joins.py:243-272.  `ord` is the iteration order of the Python set `_right_unused` (any order). -/
def outerMapping [DecidableEq α] (ord : List (List α) → List (List α)) (li ri : KeyIndex α) : List (Int × Int) :=
  leftMapping li ri ++ (ord (rightUnused li ri)).flatMap fun k =>
    match dGet k ri with
    | none => []
    | some rs => rs.map fun (j : Nat) => ((-1 : Int), (j : Int))

/-- `_sp_cross_mapping`, joins.py:275-289: `_left, _right = zip(*product(...))` raises ValueError when the product is empty. -/
def crossMapping (n m : Nat) : Except Err (List (Int × Int)) :=
  let p := (List.range n).flatMap fun i => (List.range m).map fun j => (((i : Nat) : Int), ((j : Nat) : Int))
  if p = [] then .error .value else .ok p

/-- join kinds, joins.py:292-297 -/
inductive JoinKind | inner | left | outer | cross
  deriving DecidableEq, Repr

/-- the row mapping of a join -/
def joinMapping [DecidableEq α] (ord : List (List α) → List (List α)) (kind : JoinKind) (t o : Tbl ν α) (lk rk : List ν) : Except Err (List (Int × Int)) :=
  match kind with
  | .cross => crossMapping (tblLen t) (tblLen o)
  | .inner => do
    let li ← tblIndex t lk
    let ri ← tblIndex o rk
    .ok (innerMapping li ri)
  | .left => do
    let li ← tblIndex t lk
    let ri ← tblIndex o rk
    .ok (leftMapping li ri)
  | .outer => do
    let li ← tblIndex t lk
    let ri ← tblIndex o rk
    .ok (outerMapping ord li ri)

/-- `_mp_reindex_page`, joins.py:338-379; `mapcol` is the mapping column.  If the part of the mapping is exactly `start … end-1` the column
is sliced, otherwise gathered; slots with -1 become None (here `nones` has the shape of the part, unlike reindex.py). -/
def mpReindexPage (nul : α) (pages : Pages α) (mapcol : Pages Int) (start end_ : Nat) : Except Err (List α) := do
  let ix ← getSlice mapcol { start := some (start : Int), stop := some (end_ : Int) }
  if ix = [] ∨ (ix.head? = some (start : Int) ∧ ix.getLast? = some ((end_ : Int) - 1) ∧
      ix = (List.range' start (end_ - start)).map fun (i : Nat) => (i : Int)) then
    getSlice pages { start := some (start : Int), stop := some (end_ : Int) }
  else do
    let got ← getByIndices pages ix
    let values := got.map fun o => o.getD nul
    let mask := ix.map fun i => decide (i = -1)
    if mask.any id then npWhere mask (List.replicate ix.length nul) values else .ok values

/-- the parts `range(0, n + 1, step)` with `end = min(start + step, n)`, joins.py:474-487 -/
def joinParts (ps n : Nat) : List (Nat × Nat) :=
  (List.range (n / ps + 1)).map fun k => (k * ps, min (k * ps + ps) n)

/-- a reindexing task: the new column name, the source column, the mapping column, start and end, joins.py:470-508 -/
structure JoinTask (ν α : Type) where
  new : ν
  pages : Pages α
  mapcol : Pages Int
  start : Nat
  end_ : Nat

/-- running one task -/
def JoinTask.run (nul : α) (k : JoinTask ν α) : Except Err (List α) := mpReindexPage nul k.pages k.mapcol k.start k.end_

/-- names of the right columns in the result, `unique_name(name, new_table.columns)`, joins.py:492-494 -/
def rightNames (mk : ν → Nat → ν) : List ν → List ν → List ν
  | _, [] => []
  | have_, x :: xs =>
    let y := uniqueName mk x have_
    y :: rightNames mk (have_ ++ [y]) xs

/-- the tasks of one source column -/
def colTasks (ps n : Nat) (mapcol : Pages Int) (new : ν) (pages : Pages α) : List (JoinTask ν α) :=
  (joinParts ps n).map fun se => ⟨new, pages, mapcol, se.1, se.2⟩

/-- step 4 of `_join`, joins.py:516-519: the arrays are appended to their columns in task order. -/
def assemble (ps : Nat) (init : Tbl ν α) (rs : List (ν × List α)) : Tbl ν α :=
  rs.foldl (fun tb r => dUpd [] r.1 (fun p => extend ps p r.2) tb) init

/-- the source columns of a join: new name, pages, mapping column -/
def joinSources (mk : ν → Nat → ν) (t o : Tbl ν α) (lc rc : List ν) (lm rm : Pages Int) : Except Err (List (ν × Pages α × Pages Int)) := do
  let ls ← lc.mapM fun x => match dGet x t with
    | some p => .ok (x, p, lm)
    | none => .error .key
  let rs ← (rc.zip (rightNames mk lc rc)).mapM fun x => match dGet x.1 o with
    | some p => .ok (x.2, p, rm)
    | none => .error .key
  .ok (ls ++ rs)

/-- steps 2-4 of `_join`, joins.py:462-519, for a given row mapping.  `left_columns` with a repeated name makes `add_column` raise
ValueError.  Tasks run one after another here; `C27` treats the process pool. -/
def joinColumns (ps : Nat) (mk : ν → Nat → ν) (nul : α) (t o : Tbl ν α) (lc rc : List ν) (mapping : List (Int × Int)) : Except Err (Tbl ν α) :=
  if ¬ lc.Nodup then .error .value else do
    let lm := paginate ps (mapping.map (·.1))
    let rm := paginate ps (mapping.map (·.2))
    let srcs ← joinSources mk t o lc rc lm rm
    let tasks := srcs.flatMap fun s => colTasks ps mapping.length s.2.2 s.1 s.2.1
    let results ← tasks.mapM fun k => do .ok (k.new, ← k.run nul)
    .ok (assemble ps (srcs.map fun s => (s.1, [])) results)

/-- `_jointype_check`, joins.py:152-182 -/
def joinCheck (t o : Tbl ν α) (lk rk lc rc : List ν) : Except Err Unit :=
  if lk.any (fun k => k ∉ t.map (·.1)) then .error .value
  else if rk.any (fun k => k ∉ o.map (·.1)) then .error .value
  else if lk.length ≠ rk.length then .error .value
  else if lc = [] then .error .type
  else if lc.any (fun k => k ∉ t.map (·.1)) then .error .value
  else if rc = [] then .error .type
  else if rc.any (fun k => k ∉ o.map (·.1)) then .error .value
  else .ok ()

/-- `join(...)` without `merge_keys`, joins.py:16-110, 409-519 -/
def tblJoin [DecidableEq α] (ps : Nat) (mk : ν → Nat → ν) (ord : List (List α) → List (List α)) (nul : α) (kind : JoinKind)
    (t o : Tbl ν α) (lk rk lc rc : List ν) : Except Err (Tbl ν α) := do
  joinCheck t o lk rk lc rc
  let mapping ← joinMapping ord kind t o lk rk
  joinColumns ps mk nul t o lc rc mapping

/-- one finished task of a pool: its result is stored at the position of the task -/
def poolStep {β γ : Type} (f : β → γ) (tasks : List β) (res : List (Option γ)) (i : Nat) : List (Option γ) :=
  match tasks[i]? with
  | some k => res.set i (some (f k))
  | none => res

/-- a pool of workers: tasks finish in the order `done`, each result is stored at the position of its task (the contract of the process
pool library `mplite`, which is not part of the repository). -/
def runPool {β γ : Type} (f : β → γ) (tasks : List β) (done : List Nat) : List (Option γ) :=
  done.foldl (poolStep f tasks) (tasks.map fun _ => none)

end

end Tablite
