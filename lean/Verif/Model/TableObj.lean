import Verif.Model.Table

/-! Tables as Python objects: a table is a dictionary from names to `Column` objects, and two names, or two tables, may hold the
same object (`tablite/base.py`: construction, `__setitem__`, `__getitem__`, `copy`, `add_columns`, `add_column`, `add_rows`).

The heap lists the pages of every `Column` object ever made; an object is its position. Values are those of `α`; the
conversions of `list_to_np_array` are not modelled (a list keeps its values). -/
namespace Tablite

variable {ν α : Type} [DecidableEq ν]

/-- the `Column` objects -/
abbrev Heap (α : Type) := List (Pages α)

/-- `self.columns` (base.py:1113): names and column objects -/
abbrev OTbl (ν : Type) := List (ν × Nat)

/-- the pages of an object -/
def colAt (h : Heap α) (i : Nat) : Pages α := h.getD i []

/-- the table as values -/
def view (h : Heap α) (t : OTbl ν) : Tbl ν α := t.map fun c => (c.1, colAt h c.2)

/-- `d[k] = v` -/
def dSet {β : Type} (k : ν) (v : β) (d : List (ν × β)) : List (ν × β) := dUpd v k (fun _ => v) d

/-- what `__setitem__` is given -/
inductive SetVal (α : Type) where
  | none
  | values (l : List α)
  | column (i : Nat)
  | other

/-- `Table.__setitem__` (base.py:1177-1203); a `Column` is stored itself, not a copy -/
def tSet (ps : Nat) (s : Heap α × OTbl ν) (k : ν) : SetVal α → Except Err (Heap α × OTbl ν)
  | .none => .ok (s.1 ++ [[]], dSet k s.1.length s.2)
  | .values l => .ok (s.1 ++ [extend ps [] l], dSet k s.1.length s.2)
  | .column i => .ok (s.1, dSet k i s.2)
  | .other => .error .type

/-- `zip(*rows)` (base.py:1120) -/
def rowsToCols (rows : List (List α)) : List (List α) := zipRows (rows.head?.getD []).length rows

/-- the dictionary of columns that `__init__` works with (base.py:1119-1121): the last of two columns with the same name wins -/
def initCols (columns : List (ν × SetVal α)) (headers : List ν) (rows : List (List α)) : List (ν × SetVal α) :=
  if headers ≠ [] ∧ rows ≠ [] then (headers.zip (rowsToCols rows)).foldl (fun d x => dSet x.1 (.values x.2) d) [] else columns

/-- the loop of `__init__` (base.py:1125-1126) -/
def tSetAll (ps : Nat) : Heap α × OTbl ν → List (ν × SetVal α) → Except Err (Heap α × OTbl ν)
  | s, [] => .ok s
  | s, c :: l => (tSet ps s c.1 c.2).bind fun s' => tSetAll ps s' l

/-- `Table.__init__` (base.py:1080-1126); absent arguments are empty lists -/
def tInit (ps : Nat) (h : Heap α) (columns : List (ν × SetVal α)) (headers : List ν) (rows : List (List α)) : Except Err (Heap α × OTbl ν) :=
  if columns ≠ [] ∧ (headers ≠ [] ∨ rows ≠ []) then .error .value
  else tSetAll ps (h, []) (initCols columns headers rows)

/-- `Table.copy` (base.py:1455-1462) and the column copies it makes -/
def tCopy (h : Heap α) (t : OTbl ν) : Heap α × OTbl ν :=
  t.foldl (fun s c => (s.1 ++ [colAt h c.2], dSet c.1 s.1.length s.2)) (h, [])

/-- `add_columns` (base.py:1618-1621): an existing column is replaced by an empty one -/
def tAddColumns (s : Heap α × OTbl ν) (names : List ν) : Heap α × OTbl ν :=
  names.foldl (fun s n => (s.1 ++ [[]], dSet n s.1.length s.2)) s

/-- `add_column` (base.py:1623-1638) -/
def tAddColumn (ps : Nat) (s : Heap α × OTbl ν) (name : ν) (v : SetVal α) : Except Err (Heap α × OTbl ν) :=
  if name ∈ s.2.map (·.1) then .error .value else tSet ps s name v

/-! ## selection -/

/-- the keys of `__getitem__` -/
inductive Key (ν : Type) where
  | name (n : ν)
  | int (i : Int)
  | slice (s : PySlice)

/-- what `__getitem__` returns -/
inductive GetRes (ν α : Type) where
  | column (i : Nat)
  | row (l : List α)
  | table (t : OTbl ν)

def Key.name? : Key ν → Option ν
  | .name n => some n
  | _ => none
def Key.int? : Key ν → Option Int
  | .int i => some i
  | _ => none
def Key.slice? : Key ν → Option PySlice
  | .slice s => some s
  | _ => none

/-- one value of `table[..., i]` (base.py:1261) -/
def cellOf (h : Heap α) (t : OTbl ν) (i : Int) (name : ν) : Except Err α :=
  match dGet name t with
  | none => .error .key
  | some c => (getSlice (colAt h c) { start := some i, stop := some (i + 1) }).bind fun l =>
    match l with
    | [] => .error .index
    | v :: _ => .ok v

/-- the columns of `table[names]` without slices (base.py:1263-1266): a dictionary comprehension of the objects, handed to `__init__` -/
def pickObjs (t : OTbl ν) : List ν → Except Err (OTbl ν)
  | [] => .ok []
  | n :: l =>
    match dGet n t with
    | none => .error .key
    | some c => (pickObjs t l).bind fun r => .ok ((n, c) :: r)

/-- the columns of `table[names, slice]` (base.py:1268-1287): a new object for each name -/
def sliceObjs (ps : Nat) (t : OTbl ν) (slc : PySlice) : Heap α × OTbl ν → List ν → Except Err (Heap α × OTbl ν)
  | s, [] => .ok s
  | s, n :: l =>
    match dGet n t with
    | none => .error .key
    | some c => (sliceCol ps (colAt s.1 c) slc).bind fun p => sliceObjs ps t slc (s.1 ++ [p], dSet n s.1.length s.2) l

/-- the names selected: those among the keys, or all (base.py:1240-1241) -/
def keyNames (t : OTbl ν) (keys : List (Key ν)) : List ν :=
  match keys.filterMap Key.name? with
  | [] => t.map (·.1)
  | l => l

/-- the slices among the keys; a single integer as the only key counts as one (base.py:1236-1238, 1246) -/
def keySlices (keys : List (Key ν)) : List PySlice :=
  match keys with
  | [.int i] => [{ stop := some i }]
  | l => l.filterMap Key.slice?

/-- `Table.__getitem__` (base.py:1205-1287); nested tuples of keys are flattened already -/
def tGet (ps : Nat) (h : Heap α) (t : OTbl ν) (keys : List (Key ν)) : Except Err (Heap α × GetRes ν α) :=
  if keys.isEmpty then .error .index
  else if ¬ (keyNames t keys).all (fun n => (dGet n t).isSome) then .error .key
  else
    match keySlices keys, keyNames t keys, keys.filterMap Key.int? with
    | [], [n], _ =>
      match dGet n t with
      | some c => .ok (h, .column c)
      | none => .error .key
    | _, names, [i] => (names.mapM (cellOf h t i)).map fun r => (h, .row r)
    | [], names, _ => (pickObjs t names).map fun r => (h, .table (r.foldl (fun d c => dSet c.1 c.2 d) []))
    | slc :: _, names, _ => (sliceObjs ps t slc (h, []) names).map fun r => (r.1, .table r.2)

/-! ## adding rows -/

/-- an argument of `add_rows` that is a list, a tuple or a dictionary -/
inductive RowArg (ν α : Type) where
  | seq (l : List α)
  | dict (d : List (ν × α))

/-- `len(arg)` -/
def RowArg.len : RowArg ν α → Nat
  | .seq l => l.length
  | .dict d => d.length

/-- `d[k].append(v)` (base.py:1590, 1594) -/
def rowPut (d : List (ν × List α)) (x : ν × α) : Except Err (List (ν × List α)) :=
  match dGet x.1 d with
  | none => .error .key
  | some _ => .ok (dUpd [] x.1 (· ++ [x.2]) d)

/-- the values of one argument put into the lists (base.py:1588-1594) -/
def rowPuts : List (ν × List α) → List (ν × α) → Except Err (List (ν × List α))
  | d, [] => .ok d
  | d, x :: l => (rowPut d x).bind fun d' => rowPuts d' l

/-- the pairs of name and value of an argument: the items of a dictionary, or `zip(self.columns, arg)` (base.py:1589, 1593) -/
def RowArg.pairs (names : List ν) : RowArg ν α → List (ν × α)
  | .seq l => names.zip l
  | .dict d => d

/-- the loop over the arguments (base.py:1581-1597) -/
def rowArgs (names : List ν) : List (ν × List α) → List (RowArg ν α) → Except Err (List (ν × List α))
  | d, [] => .ok d
  | d, a :: l =>
    if a.len ≠ names.length then .error .value
    else (rowPuts d (a.pairs names)).bind fun d' => rowArgs names d' l

/-- a call of `add_rows`: positional arguments are containers or single values, keyword arguments lists or single values -/
structure AddCall (ν α : Type) where
  args : List (RowArg ν α ⊕ α)
  kwargs : List (ν × (List α ⊕ α))

/-- the rows among the positional arguments: if one of them is no container, all together are one row (base.py:1575-1576) -/
def callRows (asVal : RowArg ν α → α) (args : List (RowArg ν α ⊕ α)) : List (RowArg ν α) :=
  if args.all Sum.isLeft then args.filterMap Sum.getLeft? else [.seq (args.map (Sum.elim asVal id))]

/-- `col.extend(values)` of an object -/
def objExtend (ps : Nat) (h : Heap α) (i : Nat) (vs : List α) : Heap α := h.modify i fun p => extend ps p vs

/-- `self.columns[n].extend(values)` for the collected lists (base.py:1599-1601) -/
def extendAll (ps : Nat) (t : OTbl ν) : Heap α → List (ν × List α) → Heap α × Option Err
  | h, [] => (h, none)
  | h, x :: l =>
    match dGet x.1 t with
    | none => (h, some .key)
    | some c => extendAll ps t (objExtend ps h c x.2) l

/-- the positional part of `add_rows` (base.py:1574-1601): the heap after and the exception -/
def addArgs (ps : Nat) (asVal : RowArg ν α → α) (h : Heap α) (t : OTbl ν) (args : List (RowArg ν α ⊕ α)) : Heap α × Option Err :=
  if args.isEmpty then (h, none)
  else
    match rowArgs (t.map (·.1)) (t.map fun c => (c.1, [])) (callRows asVal args) with
    | .error e => (h, some e)
    | .ok d => extendAll ps t h d

/-- the lists of the keyword arguments: as they are if all are lists, else each value alone (base.py:1605-1612).
`np.array([v])` of a list `v` would be a two-dimensional array; here it is the list as one value -/
def kwLists (asVal : List α → α) (kw : List (ν × (List α ⊕ α))) : List (ν × List α) :=
  if kw.all fun x => x.2.isLeft then kw.map fun x => (x.1, x.2.elim id fun v => [v])
  else kw.map fun x => (x.1, [x.2.elim asVal id])

/-- `add_rows` (base.py:1539-1616): the heap after and the exception, if any. What is done before an exception stays done -/
def tAddRows (ps : Nat) (asVal : List α → α) (asArg : RowArg ν α → α) (h : Heap α) (t : OTbl ν) (c : AddCall ν α) : Heap α × Option Err :=
  match addArgs ps asArg h t c.args with
  | (h', some e) => (h', some e)
  | (h', none) => extendAll ps t h' (kwLists asVal c.kwargs)

/-! ## programs on a table -/

/-- the changes a user can make through a table -/
inductive TOp (ν α : Type) where
  /-- `t[k] = values` -/
  | set (k : ν) (l : List α)
  /-- `t[k] = t[k']`: the same object under another name -/
  | alias (k k' : ν)
  /-- `del t[k]` -/
  | del (k : ν)
  /-- any change of the column `t[k]` in place: assignment, deletion, `extend`, `append`, `*=`, … -/
  | column (k : ν) (f : Pages α → Except Err (Pages α))
  /-- any change of all columns in place: `del t[rows]`, `t *= n`, … (base.py:1169-1171, 1476-1477) -/
  | columns (f : Pages α → Except Err (Pages α))
  | addColumns (names : List ν)
  | addRows (c : AddCall ν α)
  | clear

/-- a change of one object, nothing if it raises -/
def objApply (f : Pages α → Except Err (Pages α)) (h : Heap α) (i : Nat) : Heap α :=
  match f (colAt h i) with
  | .ok p => h.set i p
  | .error _ => h

/-- a change of the columns one after the other, until one raises -/
def objApplyAll (f : Pages α → Except Err (Pages α)) : Heap α → List Nat → Heap α
  | h, [] => h
  | h, i :: l =>
    match f (colAt h i) with
    | .ok p => objApplyAll f (h.set i p) l
    | .error _ => h

/-- the state after an operation, whether it raises or not -/
def tRun (ps : Nat) (asVal : List α → α) (asArg : RowArg ν α → α) (s : Heap α × OTbl ν) : TOp ν α → Heap α × OTbl ν
  | .set k l => (s.1 ++ [extend ps [] l], dSet k s.1.length s.2)
  | .alias k k' =>
    match dGet k' s.2 with
    | some c => (s.1, dSet k c s.2)
    | none => s
  | .del k => (s.1, s.2.filter fun c => c.1 ≠ k)
  | .column k f =>
    match dGet k s.2 with
    | some c => (objApply f s.1 c, s.2)
    | none => s
  | .columns f => (objApplyAll f s.1 (s.2.map (·.2)), s.2)
  | .addColumns names => tAddColumns s names
  | .addRows c => ((tAddRows ps asVal asArg s.1 s.2 c).1, s.2)
  | .clear => (s.1, [])

end Tablite
