import Verif.Model.ColumnWrite
/-!
# Columns with numpy types (tablite/datatypes.py:756-851, tablite/base.py:219-269, 395-666, 887-925)

`Model/Paging.lean` and `Model/ColumnWrite.lean` speak of values only.  Here every page carries the numpy dtype it is stored with, so that
the conversions numpy makes are visible: when a list becomes an array (`list_to_np_array`), when arrays of different dtypes are joined
(`np_type_unify`), and when a value is assigned to a slot of an array that already has a dtype.

Values are the Python values that come out of `numpy_to_python` (datatypes.py:699-712); `F` is the type of Python floats.  Sequences as
cell values (lists, tuples, sets), numpy scalars given by the user and subclasses of the built-in types are left out.  `np.save` followed
by `np.load` is taken to be the identity (see C69, C70 for the Nim side of the file format).
-/

namespace Tablite

/-- Python values; a `datetime` has microseconds of wall-clock time and, if aware, its offset from UTC in microseconds; `other` stands for
any further object without a numpy type (Decimal, UUID, ...) -/
inductive CV (F : Type) where
  | none
  | bool (b : Bool)
  | int (n : Int)
  | float (x : F)
  | str (s : List Char)
  | bytes (b : List Nat)
  | date (d : Int)
  | datetime (us : Int) (off : Option Int)
  | time (us : Nat)
  | timedelta (us : Int)
  | other (k : Nat)
  deriving DecidableEq

/-- Python types: the result of `pytype`, datatypes.py:715-726 -/
inductive CT where
  | none | bool | int | float | str | bytes | date | datetime | time | timedelta | other
  deriving DecidableEq

/-- `pytype(v)` -/
def CV.ty {F} : CV F → CT
  | .none => .none
  | .bool _ => .bool
  | .int _ => .int
  | .float _ => .float
  | .str _ => .str
  | .bytes _ => .bytes
  | .date _ => .date
  | .datetime _ _ => .datetime
  | .time _ => .time
  | .timedelta _ => .timedelta
  | .other _ => .other

/-- numpy dtypes; `str w` is `<Uw`, `bytes w` is `Sw`, `dtUs` is `M8[us]`, `dtD` is `M8[D]`, `tdUs` is `m8[us]` -/
inductive Dt where
  | obj | bool | int64 | uint64 | float64 | str (w : Nat) | bytes (w : Nat) | dtUs | dtD | tdUs
  deriving DecidableEq

/-- a numpy array: its dtype and its items -/
structure Arr (F : Type) where
  dt : Dt
  data : List (CV F)

/-- what is left of numpy: `ofInt` rounds an integer to a float, `tdWrap` is the number of microseconds stored for a timedelta outside 64
bit, `trunc` converts a float to an integer, `cast` is assignment to a slot for the pairs of dtype and value not described by `castInto` -/
structure NpRt (F : Type) where
  ofInt : Int → F
  tdWrap : Int → Int
  trunc : F → Except Err Int
  cast : Dt → CV F → Except Err (CV F)

/-- numpy text and byte strings have fixed width and are padded with NULs, so trailing NULs are lost on reading -/
def dropNuls {α} [DecidableEq α] (nul : α) (s : List α) : List α := (s.reverse.dropWhile (· = nul)).reverse

/-- within 64 bit, signed -/
def isI64 (n : Int) : Bool := decide (-2 ^ 63 ≤ n ∧ n < 2 ^ 63)

/-- within 64 bit, unsigned, but not signed -/
def isU64 (n : Int) : Bool := decide (2 ^ 63 ≤ n ∧ n < 2 ^ 64)

/-- the integer of a value -/
def CV.intOf {F} : CV F → Int
  | .int n => n
  | _ => 0

/-- `np.asarray` of Python integers: int64, uint64, float64 for a mixture of the two, object beyond 64 bit -/
def npInts {F} (R : NpRt F) (l : List (CV F)) : Arr F :=
  if l.all (fun v => isI64 v.intOf) then ⟨.int64, l⟩
  else if l.all (fun v => isU64 v.intOf) then ⟨.uint64, l⟩
  else if l.all (fun v => isI64 v.intOf || isU64 v.intOf) then ⟨.float64, l.map fun v => .float (R.ofInt v.intOf)⟩
  else ⟨.obj, l⟩

/-- length of a text or byte string -/
def CV.width {F} : CV F → Nat
  | .str s => s.length
  | .bytes b => b.length
  | _ => 0

/-- itemsize of an array of texts: the longest one, at least 1 -/
def maxWidth {F} (l : List (CV F)) : Nat := l.foldl (fun m v => max m v.width) 1

/-- an item as it is read back from an array of its type: trailing NULs are lost, aware datetimes become naive UTC, timedeltas outside 64 bit wrap -/
def stored {F} (R : NpRt F) : CV F → CV F
  | .str s => .str (dropNuls (Char.ofNat 0) s)
  | .bytes b => .bytes (dropNuls 0 b)
  | .datetime us (some off) => .datetime (us - off) none
  | .timedelta us => if isI64 us then .timedelta us else .timedelta (R.tdWrap us)
  | v => v

/-- `np.asarray(list, dtype)` for a list of values of one type, with the dtype chosen in datatypes.py:777-786 (`np.datetime64`,
`np.timedelta64` or left to numpy) -/
def npOneType {F} (R : NpRt F) (t : CT) (l : List (CV F)) : Arr F :=
  match t with
  | .none | .time | .other => ⟨.obj, l⟩
  | .bool => ⟨.bool, l⟩
  | .int => npInts R l
  | .float => ⟨.float64, l⟩
  | .str => ⟨.str (maxWidth l), l.map (stored R)⟩
  | .bytes => ⟨.bytes (maxWidth l), l.map (stored R)⟩
  | .date => ⟨.dtD, l⟩
  | .datetime => ⟨.dtUs, l.map (stored R)⟩
  | .timedelta => ⟨.tdUs, l.map (stored R)⟩

/-- `list_to_np_array` with `pytype_from_iterable`, datatypes.py:756-802 and 819-832: object for the empty list and for several types -/
def listToNp {F} (R : NpRt F) : List (CV F) → Arr F
  | [] => ⟨.obj, []⟩
  | v :: r => if r.all (fun x => x.ty = v.ty) then npOneType R v.ty (v :: r) else ⟨.obj, v :: r⟩

/-- `np_type_unify`, datatypes.py:835-851: arrays of one dtype are joined as they are, otherwise all become object arrays.
`np.concatenate([])` raises ValueError. -/
def npUnify {F} : List (Arr F) → Except Err (Arr F)
  | [] => .error .value
  | a :: r => if r.all (fun b => b.dt = a.dt) then .ok ⟨a.dt, ((a :: r).map Arr.data).flatten⟩ else .ok ⟨.obj, ((a :: r).map Arr.data).flatten⟩

/-- a column: the arrays of its pages -/
abbrev TCol (F : Type) := List (Arr F)

/-- the values of the pages -/
def TCol.pages {F} (c : TCol F) : Pages (CV F) := List.map Arr.data c

/-- `Column._paginate`, base.py:219-244: slices of the array with its dtype (datatypes.py:789-798) -/
def tPaginate {F} (ps : Nat) (a : Arr F) : TCol F := (paginate ps a.data).map (⟨a.dt, ·⟩)

/-- `Column.extend` with an array, base.py:252-269 -/
def tExtend {F} (ps : Nat) (c : TCol F) (a : Arr F) : TCol F := c ++ tPaginate ps a

/-- `Column(path, value)` and `Column.extend` with a list, base.py:199-210, 252-269 -/
def tColumn {F} (R : NpRt F) (ps : Nat) (l : List (CV F)) : TCol F := tExtend ps [] (listToNp R l)

/-- `column[:]`, base.py:356-393: empty pages are skipped, the others joined; no values at all give `np.array([])` -/
def tReadAll {F} (c : TCol F) : Except Err (Arr F) :=
  match c.filter (fun a => a.data ≠ []) with
  | [] => .ok ⟨.float64, []⟩
  | a :: r => npUnify (a :: r)

/-! ### writes -/

/-- the page loop of `_setitem_integer_key`, base.py:446-464: the page becomes an object array -/
def tSetIntLoop {F} (key : Int) (v : CV F) : Int → TCol F → TCol F
  | _, [] => []
  | start, page :: rest =>
    let end_ := start + page.data.length
    if start ≤ key ∧ key < end_ then ⟨.obj, page.data.set (key - start).toNat v⟩ :: rest
    else page :: tSetIntLoop key v end_ rest

/-- `Column._setitem_integer_key`, base.py:430-464 -/
def tSetInt {F} (c : TCol F) (i : Int) (v : CV F) : Except Err (TCol F) :=
  let length := colLen c.pages
  let key := if i < 0 then (length : Int) + i else i
  if 0 ≤ key ∧ key < length then .ok (tSetIntLoop key v 0 c) else .error .index

/-- the loop of `_setitem_extend`, base.py:485-497 -/
def tSetExtendLoop {F} (ps : Nat) (key : Int) (value : Arr F) : TCol F → Int → TCol F → Except Err (TCol F)
  | done, _, [] => .ok (done ++ [value])
  | done, start, page :: rest =>
    let end_ := start + page.data.length
    if start ≤ key ∧ key < end_ then do
      let new ← npUnify [⟨page.dt, page.data.take (key - start).toNat⟩, value]
      .ok (tExtend ps done new)
    else tSetExtendLoop ps key value (done ++ [page]) end_ rest

/-- the loop of `_setitem_prextend`, base.py:513-524 -/
def tSetPrextendLoop {F} (ps : Nat) (stop : Int) (value : Arr F) : Int → TCol F → Except Err (Option (TCol F))
  | _, [] => .ok none
  | start, page :: rest =>
    let end_ := start + page.data.length
    if start ≤ stop ∧ stop < end_ then do
      let new ← npUnify [value, ⟨page.dt, page.data.drop (stop - start).toNat⟩]
      .ok (some (tExtend ps [] new ++ rest))
    else tSetPrextendLoop ps stop value end_ rest

/-- `Column._setitem_prextend`, base.py:499-524 -/
def tSetPrextend {F} (ps : Nat) (c : TCol F) (stop : Int) (value : Arr F) : Except Err (TCol F) :=
  if stop = colLen c.pages then .ok (tExtend ps [] value)
  else
    let stop' := if stop < 0 then (({ stop := some stop } : PySlice).indices (colLen c.pages)).2.1 else stop
    match tSetPrextendLoop ps stop' value 0 c with
    | .error e => .error e
    | .ok (some p) => .ok p
    | .ok none => .ok c

/-- state of the loop of `_setitem_insert`, base.py:538-541: `head, tail = np.array([]), np.array([])` are float arrays -/
structure TInsertAcc (F : Type) where
  unchangedHead : TCol F := []
  head : Arr F := ⟨.float64, []⟩
  tail : Arr F := ⟨.float64, []⟩
  unchangedTail : TCol F := []

/-- the loop of `_setitem_insert`, base.py:541-559 -/
def tSetInsertLoop {F} (ks ke : Int) : Int → TCol F → TInsertAcc F → TInsertAcc F
  | _, [], acc => acc
  | start, page :: rest, acc =>
    let end_ := start + page.data.length
    let acc := if end_ ≤ ks then { acc with unchangedHead := acc.unchangedHead ++ [page] } else acc
    let acc := if start ≤ ks ∧ ks < end_ then { acc with head := ⟨page.dt, page.data.take (ks - start).toNat⟩ } else acc
    let acc := if start ≤ ke ∧ ke < end_ then { acc with tail := ⟨page.dt, page.data.drop (ke - start).toNat⟩ } else acc
    let acc := if ke < start then { acc with unchangedTail := acc.unchangedTail ++ [page] } else acc
    tSetInsertLoop ks ke end_ rest acc

/-- `Column._setitem_insert`, base.py:526-563 -/
def tSetInsert {F} (ps : Nat) (c : TCol F) (start stop : Int) (value : Arr F) : Except Err (TCol F) := do
  let (ks, ke0, _) := ({ start := some start, stop := some stop } : PySlice).indices (colLen c.pages)
  let ke := if ks > ke0 then ks else ke0
  let acc := tSetInsertLoop ks ke 0 c {}
  let middle ← npUnify [acc.head, value, acc.tail]
  .ok (acc.unchangedHead ++ tPaginate ps middle ++ acc.unchangedTail)

/-- `arr[i] = v` for an array with a dtype: what numpy stores.  Texts are cut to the width of the array, floats given to an integer array
are truncated, Booleans become numbers; the combinations not listed are left to `R.cast`. -/
def castInto {F} (R : NpRt F) : Dt → CV F → Except Err (CV F)
  | .obj, v => .ok v
  | .bool, .bool b => .ok (.bool b)
  | .int64, .int n => if isI64 n then .ok (.int n) else .error .overflow
  | .int64, .bool b => .ok (.int (if b then 1 else 0))
  | .int64, .float x => (R.trunc x).map .int
  | .float64, .float x => .ok (.float x)
  | .float64, .int n => .ok (.float (R.ofInt n))
  | .str w, .str s => .ok (stored R (.str (s.take w)))
  | .bytes w, .bytes b => .ok (stored R (.bytes (b.take w)))
  | .dtUs, .datetime us off => .ok (stored R (.datetime us off))
  | .dtD, .date d => .ok (.date d)
  | .tdUs, .timedelta us => .ok (stored R (.timedelta us))
  | d, v => R.cast d v

/-- `arr[i] = v`, with one negative wrap of the position -/
def tNpSet {F} (R : NpRt F) (a : Arr F) (i : Int) (v : CV F) : Except Err (Arr F) := do
  let w ← castInto R a.dt v
  let l ← npSet a.data i w
  .ok ⟨a.dt, l⟩

/-- classification of pages in `_setitem_update`/`_del_by_slice` -/
structure TUpdAcc (F : Type) where
  head : TCol F := []
  changed : TCol F := []
  tail : TCol F := []
  startsOn : Option Int := none

/-- the page loop of `_setitem_update`, base.py:580-592 -/
def tSetUpdateLoop {F} (ks ke : Int) : Int → TCol F → TUpdAcc F → TUpdAcc F
  | _, [], acc => acc
  | start, page :: rest, acc =>
    let end_ := start + page.data.length
    let acc :=
      if end_ ≤ ks ∧ acc.changed.isEmpty then { acc with head := acc.head ++ [page] }
      else if start ≤ ks ∧ ks < end_ then { acc with changed := acc.changed ++ [page], startsOn := some start }
      else if start ≤ ke ∧ ke < end_ then { acc with changed := acc.changed ++ [page] }
      else { acc with tail := acc.tail ++ [page] }
    tSetUpdateLoop ks ke end_ rest acc

/-- `for index, val in zip(range, value): new[index - starts_on] = val`, base.py:598-599 -/
def tSetUpdateWrite {F} (R : NpRt F) (startsOn : Option Int) : List Int → List (CV F) → Arr F → Except Err (Arr F)
  | i :: is, v :: vs, new =>
    match startsOn with
    | none => .error .unbound
    | some s => do
      let new' ← tNpSet R new (i - s) v
      tSetUpdateWrite R startsOn is vs new'
  | _, _, new => .ok new

/-- `Column._setitem_update`, base.py:565-602 -/
def tSetUpdate {F} (R : NpRt F) (ps : Nat) (c : TCol F) (s : PySlice) (value : Arr F) : Except Err (TCol F) :=
  if s.step = some 0 then .error .value else do
    let (ks, ke, k) := s.indices (colLen c.pages)
    let seq := rangeList ks ke k
    if value.data.length > seq.length then .error .value
    else
      let acc := tSetUpdateLoop ks ke 0 c {}
      let unified ← npUnify acc.changed
      let new ← tSetUpdateWrite R acc.startsOn seq value.data unified
      .ok (acc.head ++ tPaginate ps new ++ acc.tail)

/-- `Column.__setitem__` for slices, base.py:395-428, with a list of values -/
def tSetSlice {F} (R : NpRt F) (ps : Nat) (c : TCol F) (s : PySlice) (value : List (CV F)) : Except Err (TCol F) :=
  if s.step = none ∨ s.step = some 1 then
    match s.start, s.stop with
    | none, none => .ok (tExtend ps [] (listToNp R value))
    | some a, none => tSetExtendLoop ps a (listToNp R value) [] 0 c
    | none, some b => tSetPrextend ps c b (listToNp R value)
    | some a, some b => tSetInsert ps c a b (listToNp R value)
  else tSetUpdate R ps c s (listToNp R value)

/-- `Column._del_by_int`, base.py:620-633: `np.delete` keeps the dtype -/
def tDelInt {F} (key : Int) : Int → TCol F → Except Err (TCol F)
  | _, [] => .ok []
  | start, page :: rest =>
    let end_ := start + page.data.length
    if start ≤ key ∧ key < end_ then
      if key < page.data.length then do
        let more ← tDelInt key end_ rest
        .ok (⟨page.dt, page.data.eraseIdx key.toNat⟩ :: more)
      else .error .index
    else do
      let more ← tDelInt key end_ rest
      .ok (page :: more)

/-- the page loop of `_del_by_slice`, base.py:645-656 -/
def tDelSliceLoop {F} (ks ke : Int) : Int → TCol F → TUpdAcc F → TUpdAcc F
  | _, [], acc => acc
  | start, page :: rest, acc =>
    let end_ := start + page.data.length
    let acc :=
      if ke < start ∧ acc.changed.isEmpty then { acc with head := acc.head ++ [page] }
      else if start ≤ ks ∧ ks < end_ then { acc with changed := acc.changed ++ [page], startsOn := some start }
      else if start ≤ ke ∧ ke ≤ end_ then { acc with changed := acc.changed ++ [page] }
      else { acc with tail := acc.tail ++ [page] }
    tDelSliceLoop ks ke end_ rest acc

/-- `Column._del_by_slice`, base.py:635-666 -/
def tDelSlice {F} (ps : Nat) (c : TCol F) (s : PySlice) : Except Err (TCol F) :=
  if s.step = some 0 then .error .value else do
    let (ks, ke, k) := s.indices (colLen c.pages)
    let seq := rangeList ks ke k
    let acc := tDelSliceLoop ks ke 0 c {}
    let new ← npUnify acc.changed
    match acc.startsOn with
    | none => if seq = [] then .ok (acc.head ++ tPaginate ps new ++ acc.tail) else .error .unbound
    | some so => do
      let pruned ← npDelete new.data (seq.map (· - so))
      .ok (acc.head ++ tPaginate ps ⟨new.dt, pruned⟩ ++ acc.tail)

/-! ### `Column.replace` -/

/-- the loop over the matching items of a page, base.py:914-925: `mapping[old]` (KeyError), then `warray[ix] = new` in an array with the
dtype of the page; `isin` is `np.isin(data, to_replace)` item by item -/
def tReplaceItems {F} [DecidableEq F] (R : NpRt F) (dt : Dt) (isin : CV F → Bool) (mapping : List (CV F × CV F)) : List (CV F) → Except Err (List (CV F))
  | [] => .ok []
  | v :: r =>
    if isin v then
      match mapping.lookup v with
      | none => .error .key
      | some w => do
        let x ← castInto R dt w
        let more ← tReplaceItems R dt isin mapping r
        .ok (x :: more)
    else do
      let more ← tReplaceItems R dt isin mapping r
      .ok (v :: more)

/-- one page of `Column.replace`, base.py:905-925 -/
def tReplacePage {F} [DecidableEq F] (R : NpRt F) (isin : CV F → Bool) (mapping : List (CV F × CV F)) (page : Arr F) : Except Err (Arr F) :=
  if page.data.any isin then (tReplaceItems R page.dt isin mapping page.data).map (⟨page.dt, ·⟩) else .ok page

/-- `Column.replace`, base.py:887-925 (the counts of types are C12, C14) -/
def tReplace {F} [DecidableEq F] (R : NpRt F) (isin : Arr F → CV F → Bool) (mapping : List (CV F × CV F)) : TCol F → Except Err (TCol F)
  | [] => .ok []
  | page :: rest => do
    let page' ← tReplacePage R (isin page) mapping page
    let more ← tReplace R isin mapping rest
    .ok (page' :: more)

/-- `np.array(list(mapping.keys()))`, base.py:903, for integers and texts: with a text among them the integers become texts (`num`); other mixtures of types are
left out -/
def npKeys {F} (num : Int → List Char) (keys : List (CV F)) : List (CV F) :=
  if keys.any (fun k => k.ty = .str) then keys.map (fun k => if k.ty = .int then .str (num k.intOf) else k) else keys

end Tablite
