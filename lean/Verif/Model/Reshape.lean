import Verif.Model.GroupBy
/-!
# `tablite/imputation.py` (carry forward) and `tablite/pivots.py`

`nul` is None.  Assigning a Python list or array to a table cuts it into pages (`paginate`).
-/

namespace Tablite

section
variable {ν α : Type} [DecidableEq ν]

/-! ## carry forward -/

/-- the loop of `carry_forward`, imputation.py:114-119, over the array `data`; `last` is `last_value`, at first None.  `store` is what the array
makes of an assigned None: an object array keeps it, an integer array raises TypeError, a text array keeps the text `None` cut to its width. -/
def carryLoop (missing : α → Bool) (store : Except Err α) : Option α → List α → Except Err (List α)
  | _, [] => .ok []
  | last, v :: rest =>
    if missing v then
      match last with
      | some w => do .ok (w :: (← carryLoop missing store last rest))
      | none => do
        let w ← store
        .ok (w :: (← carryLoop missing store last rest))
    else do .ok (v :: (← carryLoop missing store (some v) rest))

/-- the new column of a target, imputation.py:112-121; `store` depends on the array, i.e. on the data -/
def carryCol (ps : Nat) (missing : α → Bool) (store : List α → Except Err α) (pages : Pages α) : Except Err (Pages α) := do
  let data ← getSlice pages {}
  let out ← carryLoop missing (store data) none data
  .ok (paginate ps out)

/-- `carry_forward`, imputation.py:103-125: `new` starts as a copy, every column is assigned in turn -/
def carryForward (ps : Nat) (missing : α → Bool) (store : List α → Except Err α) (t : Tbl ν α) (targets : List ν) : Except Err (Tbl ν α) :=
  t.foldlM (fun new c => do
    if c.1 ∈ targets then .ok (tblSet new c.1 (← carryCol ps missing store c.2)) else .ok (tblSet new c.1 c.2)) t

/-- the argument checks of `imputation` for carry forward, imputation.py:59-70 and 93-94: `targets` is a text (`inl`) or a list (`inr`) -/
def imputeCarry (ps : Nat) (missing : α → Bool) (store : List α → Except Err α) (t : Tbl ν α) (targets : ν ⊕ List ν) : Except Err (Tbl ν α) :=
  match targets with
  | .inl x => if x ∉ t.map (·.1) then .error .value else .error .type
  | .inr l => if l.all (fun x => x ∈ t.map (·.1)) then carryForward ps missing store t l else .error .value

/-! ## transpose: names and values are of one kind -/

/-- `new[row[0]] = row[1:]`, pivots.py:196-197 -/
def transposeRow {V : Type} [DecidableEq V] (ps : Nat) (new : Tbl V V) (row : List V) : Except Err (Tbl V V) :=
  match row with
  | [] => .error .index
  | k :: vs => .ok (tblSet new k (paginate ps vs))

/-- `transpose`, pivots.py:185-198 -/
def transpose {V : Type} [DecidableEq V] (ps : Nat) (nul : V) (t : Tbl V V) : Except Err (Tbl V V) :=
  match t with
  | [] => .ok []
  | c0 :: rest => do
    let rows ← tblRows nul (c0 :: rest)
    rows.foldlM (transposeRow ps) (tblSet [] c0.1 (paginate ps (rest.map (·.1))))

/-! ## pivot_transpose -/

/-- `news[name].extend(values)` -/
def newsExtend (x : ν) (vs : List α) (news : List (ν × List α)) : List (ν × List α) := dUpd [] x (· ++ vs) news

/-- the work on one row, pivots.py:269-276 -/
def ptRow (asVal : ν → α) (keep columns : List ν) (cn vn : ν) (news : List (ν × List α)) (row : List α) : List (ν × List α) :=
  let keeps := row.take keep.length
  let tr := row.drop keep.length
  let news := (keep.zip keeps).foldl (fun d p => newsExtend p.1 (List.replicate tr.length p.2) d) news
  (columns.zip tr).foldl (fun d p => newsExtend vn [p.2] (newsExtend cn [asVal p.1] d)) news

/-- `for name, values in news.items(): new[name].extend(values); values.clear()`, pivots.py:279-281 and 285-287.  `arr` is what the values
become on the way: nothing for a list, `np.array` for the last flush. -/
def flush (ps : Nat) (arr : List α → List α) (s : Tbl ν α × List (ν × List α)) : Tbl ν α × List (ν × List α) :=
  (s.2.foldl (fun new e => dUpd [] e.1 (fun p => extend ps p (arr e.2)) new) s.1, s.2.map fun e => (e.1, []))

/-- the row loop, pivots.py:268-281; `ix` counts from 1 -/
def ptLoop (ps limit : Nat) (asVal : ν → α) (keep columns : List ν) (cn vn : ν) :
    Nat → List (List α) → Tbl ν α × List (ν × List α) → Tbl ν α × List (ν × List α)
  | _, [], s => s
  | ix, row :: rest, (new, news) =>
    let s := (new, ptRow asVal keep columns cn vn news row)
    ptLoop ps limit asVal keep columns cn vn (ix + 1) rest (if ix % limit = 0 then flush ps id s else s)

/-- `T[names].rows`, pivots.py:266: a dictionary of the named columns, a repeated name counts once; a single name is read as a column; no name is
an IndexError -/
def selectRows (nul : α) (t : Tbl ν α) (names : List ν) : Except Err (List (List α)) :=
  match names with
  | [] => .error .index
  | [x] => match dGet x t with
    | some p => .ok ((colIter p).map fun v => [v])
    | none => .error .key
  | _ => tblRows nul (t := (pySetIns names).filterMap fun x => (dGet x t).map fun p => (x, p))
where
  /-- the keys of the dictionary comprehension, base.py:1263-1266 -/
  pySetIns (l : List ν) : List ν := l.foldl (fun s x => if x ∈ s then s else s ++ [x]) []

/-- `pivot_transpose`, pivots.py:201-288.  `asVal` is a column name used as a value; `npArr` is what `np.array` does to a list of values. -/
def pivotTranspose (ps limit : Nat) (mk : ν → Nat → ν) (asVal : ν → α) (npArr : List α → List α) (nul : α) (t : Tbl ν α) (columns keep : List ν)
    (columnName valueName : ν) : Except Err (Tbl ν α) :=
  if ¬ columns.all (fun x => x ∈ t.map (·.1)) then .error .value
  else if ¬ columns.Nodup then .error .value
  else if ¬ keep.all (fun x => x ∈ t.map (·.1)) then .error .value
  else do
    let cn := if columnName ∈ keep ++ columns then uniqueName mk columnName (keep ++ columns) else columnName
    let vn := if valueName ∈ keep ++ columns ++ [cn] then uniqueName mk valueName (keep ++ columns) else valueName
    let new : Tbl ν α := (keep ++ [cn, vn]).foldl (fun t x => tblSet t x []) []
    let news := new.map fun c => (c.1, ([] : List α))
    let rows ← selectRows nul t (keep ++ columns)
    let s := ptLoop ps limit asVal keep columns cn vn 1 rows (new, news)
    .ok (flush ps npArr s).1

end

/-- `np.array(list)` for these values: None, dates and times give an object array that keeps them; otherwise any text turns everything into text,
any float turns numbers and booleans into floats, any integer turns booleans into integers.  `txt` is the text numpy gives a value. -/
def npArray (txt : GVal → String) (l : List GVal) : List GVal :=
  if l.any (fun v => decide (v.kind = 0 ∨ 5 ≤ v.kind)) then l
  else if l.any (fun v => decide (v.kind = 4)) then l.map fun v => .str (if v.kind = 4 then v.text else txt v)
  else if l.any (fun v => decide (v.kind = 3)) then l.map fun v => .float v.toFloat
  else if l.any (fun v => decide (v.kind = 2)) then l.map fun v => match v with
    | .bool b => .int (if b then 1 else 0)
    | v => v
  else l

/-! ## pivot -/

section
variable {ν α φ : Type} [DecidableEq ν] [DecidableEq α]

/-- the dictionaries of `pivot`: row keys and column keys numbered in order of appearance, and the sparse matrix, pivots.py:93-119 -/
structure PivotSt (α : Type) where
  rowKeys : List (List α) := []
  colKeys : List (List α) := []
  records : List (Nat × List (Nat × List α)) := []

/-- `if key not in index: index[key] = len(index)` followed by `index[key]`, pivots.py:108-115 -/
def keyNo {κ : Type} [DecidableEq κ] (k : κ) (keys : List κ) : Nat × List κ :=
  if k ∈ keys then (keys.idxOf k, keys) else (keys.length, keys ++ [k])

/-- one row of the grouped table, pivots.py:103-119 -/
def pivotRow (r c : Nat) (s : PivotSt α) (row : List α) : Except Err (PivotSt α) :=
  let rk := keyNo (row.take r) s.rowKeys
  let ck := keyNo ((row.take (r + c)).drop r) s.colKeys
  if ((dGet ck.1 s.records).bind (dGet rk.1)).isSome then .error .value
  else .ok { rowKeys := rk.2, colKeys := ck.2
             records := dUpd [] ck.1 (fun d => dUpd [] rk.1 (fun _ => row.drop (r + c)) d) s.records }

/-- `L[i] = v`; IndexError outside -/
def setAt (l : List α) (i : Nat) (v : α) : Except Err (List α) := if i < l.length then .ok (l.set i v) else .error .index

/-- the column of one column key with values as rows, pivots.py:145-148 -/
def fillRows (nul : α) (len g : Nat) (recs : List (Nat × List α)) : Except Err (List α) :=
  recs.foldlM (fun L e => e.2.zipIdx.foldlM (fun L f => setAt L (g * e.1 + f.2) f.1) L) (List.replicate len nul)

/-- the column of function number `ix` for one column key with values as columns, pivots.py:173-176 -/
def fillCol (nul : α) (len ix : Nat) (recs : List (Nat × List α)) : Except Err (List α) :=
  recs.foldlM (fun L e => match e.2[ix]? with
    | some f => setAt L e.1 f
    | none => .ok L) (List.replicate len nul)

/-- `result[unique_name(name, result.columns)] = values` -/
def addUnique (ps : Nat) (mk : ν → Nat → ν) (t : Tbl ν α) (name : ν) (values : List α) : Tbl ν α :=
  tblSet t (uniqueName mk name (t.map (·.1))) (paginate ps values)

/-- names and texts used by `pivot`: `fnVal` the text `f(col)` as a value, `keyName` the name `(A=1,B=2)`, `fnName` the name `f(col,A=1,B=2)`,
`function` the name of the column of functions -/
structure PivotNames (ν α φ : Type) where
  fnVal : ν × φ → α
  keyName : List ν → List α → ν
  fnName : ν × φ → List ν → List α → ν
  function : ν

/-- `pivot` after the group-by, with `values_as_rows=True`, pivots.py:124-149.  An empty list of columns cannot occur: `n = r + 1`. -/
def pivotAsRows (ps : Nat) (mk : ν → Nat → ν) (N : PivotNames ν α φ) (nul : α) (rows columns : List ν) (functions : List (ν × φ)) (s : PivotSt α) :
    Except Err (Tbl ν α) :=
  let keyCols := (List.range rows.length).map fun j => s.rowKeys.flatMap fun k => functions.map fun _ => k.getD j nul
  let fnCol := s.rowKeys.flatMap fun _ => functions.map N.fnVal
  let cols := keyCols ++ [fnCol]
  let res := ((rows ++ [N.function]).zip cols).foldl (fun t c => addUnique ps mk t c.1 c.2) []
  let len := (cols.headD []).length
  s.colKeys.zipIdx.foldlM (fun res ck => do
    let L ← fillRows nul len functions.length ((dGet ck.2 s.records).getD [])
    .ok (addUnique ps mk res (N.keyName columns ck.1) L)) res

/-- the names made for one column key, pivots.py:167-172: the result is not extended in between -/
def pivotNames (mk : ν → Nat → ν) (N : PivotNames ν α φ) (columns : List ν) (functions : List (ν × φ)) (key : List α) (res : Tbl ν α) : List ν :=
  functions.map fun f => uniqueName mk (N.fnName f columns key) (res.map (·.1))

/-- `pivot` after the group-by, with `values_as_rows=False`, pivots.py:151-178; `functions` are those of `zip(functions, func_key)` (167) -/
def pivotAsCols (ps : Nat) (mk : ν → Nat → ν) (N : PivotNames ν α φ) (nul : α) (rows columns : List ν) (functions : List (ν × φ)) (s : PivotSt α) :
    Except Err (Tbl ν α) :=
  let keyCols := (List.range rows.length).map fun j => s.rowKeys.map fun k => k.getD j nul
  let res := (rows.zip keyCols).foldl (fun t c => tblSet t c.1 (paginate ps c.2)) []
  s.colKeys.zipIdx.foldlM (fun res ck => do
    let cols ← (List.range functions.length).mapM fun ix => fillCol nul s.rowKeys.length ix ((dGet ck.2 s.records).getD [])
    .ok (((pivotNames mk N columns functions ck.1 res).zip cols).foldl (fun t c => tblSet t c.1 (paginate ps c.2)) res)) res

/-- `pivot`, pivots.py:11-182; `grpby` is the outcome of `groupby(T, rows + columns, functions)` -/
def pivot (ps : Nat) (mk : ν → Nat → ν) (N : PivotNames ν α φ) (nul : α) (grpby : Except Err (Tbl ν α)) (rows columns : List ν)
    (functions : List (ν × φ)) (asRows : Bool) : Except Err (Tbl ν α) := do
  let g ← grpby
  if tblLen g = 0 then .ok []
  else do
    let rs ← tblRows nul g
    let s ← rs.foldlM (pivotRow rows.length columns.length) {}
    if asRows then pivotAsRows ps mk N nul rows columns functions s
    else pivotAsCols ps mk N nul rows columns (functions.take (g.length - (rows.length + columns.length))) s

end

end Tablite
