import Verif.Model.Paging
/-!
# Column writes: model of `Column.__setitem__`, `Column.__delitem__` and friends (tablite/base.py:395-709, 791-925)
-/

namespace Tablite

/-- the page loop of `_setitem_integer_key`, base.py:446-464: the first page with `start <= key < end` is replaced by a copy
in which `data[key - start] = value`. -/
def setIntLoop {α} (key : Int) (v : α) : Int → Pages α → Pages α
  | _, [] => []
  | start, page :: rest =>
    let end_ := start + page.length
    if start ≤ key ∧ key < end_ then page.set (key - start).toNat v :: rest
    else page :: setIntLoop key v end_ rest

/-- `Column._setitem_integer_key`, base.py:430-464 (the type check on the value is left out). -/
def setInt {α} (pages : Pages α) (i : Int) (v : α) : Except Err (Pages α) :=
  let length := colLen pages
  let key := if i < 0 then (length : Int) + i else i
  if 0 ≤ key ∧ key < length then .ok (setIntLoop key v 0 pages) else .error .index

/-- `Column._setitem_replace_all`, base.py:466-475. -/
def setReplaceAll {α} (ps : Nat) (_pages : Pages α) (value : List α) : Pages α :=
  extend ps [] value

/-- the loop of `_setitem_extend`, base.py:485-497: `done` are the pages already passed (`self.pages[:index]`);
the `else` branch of the `for` appends one page holding all of `value`. -/
def setExtendLoop {α} (ps : Nat) (key : Int) (value : List α) : Pages α → Int → Pages α → Pages α
  | done, _, [] => done ++ [value]
  | done, start, page :: rest =>
    let end_ := start + page.length
    if start ≤ key ∧ key < end_ then extend ps done (page.take (key - start).toNat ++ value)
    else setExtendLoop ps key value (done ++ [page]) end_ rest

/-- `Column._setitem_extend`, base.py:477-497: `L[start:] = value`. -/
def setExtend {α} (ps : Nat) (pages : Pages α) (start : Int) (value : List α) : Pages α :=
  setExtendLoop ps start value [] 0 pages

/-- the loop of `_setitem_prextend`, base.py:513-524; without a matching page nothing happens (`none`). -/
def setPrextendLoop {α} (ps : Nat) (stop : Int) (value : List α) : Int → Pages α → Option (Pages α)
  | _, [] => none
  | start, page :: rest =>
    let end_ := start + page.length
    if start ≤ stop ∧ stop < end_ then some (extend ps [] (value ++ page.drop (stop - start).toNat) ++ rest)
    else setPrextendLoop ps stop value end_ rest

/-- `Column._setitem_prextend`, base.py:499-524: `L[:stop] = value`. -/
def setPrextend {α} (ps : Nat) (pages : Pages α) (stop : Int) (value : List α) : Pages α :=
  if stop = colLen pages then extend ps [] value
  else
    let stop' := if stop < 0 then (({ stop := some stop } : PySlice).indices (colLen pages)).2.1 else stop
    match setPrextendLoop ps stop' value 0 pages with
    | some p => p
    | none => pages

/-- state of the loop of `_setitem_insert`, base.py:538-541 -/
structure InsertAcc (α : Type _) where
  unchangedHead : Pages α := []
  head : List α := []
  tail : List α := []
  unchangedTail : Pages α := []

/-- the loop of `_setitem_insert`, base.py:541-559: four independent `if`s per page. -/
def setInsertLoop {α} (ks ke : Int) : Int → Pages α → InsertAcc α → InsertAcc α
  | _, [], acc => acc
  | start, page :: rest, acc =>
    let end_ := start + page.length
    let acc := if end_ ≤ ks then { acc with unchangedHead := acc.unchangedHead ++ [page] } else acc
    let acc := if start ≤ ks ∧ ks < end_ then { acc with head := page.take (ks - start).toNat } else acc
    let acc := if start ≤ ke ∧ ke < end_ then { acc with tail := page.drop (ke - start).toNat } else acc
    let acc := if ke < start then { acc with unchangedTail := acc.unchangedTail ++ [page] } else acc
    setInsertLoop ks ke end_ rest acc

/-- `Column._setitem_insert`, base.py:526-563: `L[start:stop] = value`. -/
def setInsert {α} (ps : Nat) (pages : Pages α) (start stop : Int) (value : List α) : Pages α :=
  let (ks, ke0, _) := ({ start := some start, stop := some stop } : PySlice).indices (colLen pages)
  let ke := if ks > ke0 then ks else ke0
  let acc := setInsertLoop ks ke 0 pages {}
  acc.unchangedHead ++ paginate ps (acc.head ++ value ++ acc.tail) ++ acc.unchangedTail

/-- numpy item assignment `arr[i] = v` with one negative wrap -/
def npSet {α} (l : List α) (i : Int) (v : α) : Except Err (List α) :=
  if 0 ≤ i ∧ i < l.length then .ok (l.set i.toNat v)
  else if i < 0 ∧ 0 ≤ i + l.length then .ok (l.set (i + l.length).toNat v)
  else .error .index

/-- classification of pages in `_setitem_update`/`_del_by_slice` -/
structure UpdAcc (α : Type _) where
  head : Pages α := []
  changed : Pages α := []
  tail : Pages α := []
  startsOn : Option Int := none

/-- the page loop of `_setitem_update`, base.py:580-592. -/
def setUpdateLoop {α} (ks ke : Int) : Int → Pages α → UpdAcc α → UpdAcc α
  | _, [], acc => acc
  | start, page :: rest, acc =>
    let end_ := start + page.length
    let acc :=
      if end_ ≤ ks ∧ acc.changed = [] then { acc with head := acc.head ++ [page] }
      else if start ≤ ks ∧ ks < end_ then { acc with changed := acc.changed ++ [page], startsOn := some start }
      else if start ≤ ke ∧ ke < end_ then { acc with changed := acc.changed ++ [page] }
      else { acc with tail := acc.tail ++ [page] }
    setUpdateLoop ks ke end_ rest acc

/-- `for index, val in zip(range, value): new[index - starts_on] = val`, base.py:598-599. -/
def setUpdateWrite {α} (startsOn : Option Int) : List Int → List α → List α → Except Err (List α)
  | i :: is, v :: vs, new =>
    match startsOn with
    | none => .error .unbound
    | some s => do
      let new' ← npSet new (i - s) v
      setUpdateWrite startsOn is vs new'
  | _, _, new => .ok new

/-- `Column._setitem_update`, base.py:565-602: `L[a:b:k] = value`, `k` not 1. `np_type_unify([])` raises ValueError. -/
def setUpdate {α} (ps : Nat) (pages : Pages α) (s : PySlice) (value : List α) : Except Err (Pages α) :=
  if s.step = some 0 then .error .value else do
    let (ks, ke, k) := s.indices (colLen pages)
    let seq := rangeList ks ke k
    if value.length > seq.length then .error .value
    else
      let acc := setUpdateLoop ks ke 0 pages {}
      if acc.changed = [] then .error .value
      else do
        let new ← setUpdateWrite acc.startsOn seq value acc.changed.flatten
        .ok (acc.head ++ paginate ps new ++ acc.tail)

/-- `Column.__setitem__` for slices, base.py:395-428. -/
def setSlice {α} (ps : Nat) (pages : Pages α) (s : PySlice) (value : List α) : Except Err (Pages α) :=
  if s.step = none ∨ s.step = some 1 then
    match s.start, s.stop with
    | none, none => .ok (setReplaceAll ps pages value)
    | some a, none => .ok (setExtend ps pages a value)
    | none, some b => .ok (setPrextend ps pages b value)
    | some a, some b => .ok (setInsert ps pages a b value)
  else setUpdate ps pages s value

/-- `Column._del_by_int`, base.py:620-633. `np.delete(data, [key])` gets the position in the *column*, not in the page; numpy raises
IndexError if it is outside the page.  The loop runs on over the remaining pages, none of which can match. -/
def delInt {α} (key : Int) : Int → Pages α → Except Err (Pages α)
  | _, [] => .ok []
  | start, page :: rest =>
    let end_ := start + page.length
    if start ≤ key ∧ key < end_ then
      if key < page.length then do
        let more ← delInt key end_ rest
        .ok (page.eraseIdx key.toNat :: more)
      else .error .index
    else do
      let more ← delInt key end_ rest
      .ok (page :: more)

/-- the page loop of `_del_by_slice`, base.py:645-656. -/
def delSliceLoop {α} (ks ke : Int) : Int → Pages α → UpdAcc α → UpdAcc α
  | _, [], acc => acc
  | start, page :: rest, acc =>
    let end_ := start + page.length
    let acc :=
      if ke < start ∧ acc.changed = [] then { acc with head := acc.head ++ [page] }
      else if start ≤ ks ∧ ks < end_ then { acc with changed := acc.changed ++ [page], startsOn := some start }
      else if start ≤ ke ∧ ke ≤ end_ then { acc with changed := acc.changed ++ [page] }
      else { acc with tail := acc.tail ++ [page] }
    delSliceLoop ks ke end_ rest acc

/-- `np.delete(arr, [i, ...])`: indices may be negative (one wrap), out of range raises IndexError. -/
def npDelete {α} (l : List α) (idx : List Int) : Except Err (List α) :=
  if idx.all fun i => decide (-(l.length : Int) ≤ i ∧ i < l.length) then
    .ok ((l.zipIdx.filter fun p => !(idx.any fun i => i == (p.2 : Int) || i + l.length == (p.2 : Int))).map (·.1))
  else .error .index

/-- `Column._del_by_slice`, base.py:635-666. -/
def delSlice {α} (ps : Nat) (pages : Pages α) (s : PySlice) : Except Err (Pages α) :=
  if s.step = some 0 then .error .value else do
    let (ks, ke, k) := s.indices (colLen pages)
    let seq := rangeList ks ke k
    let acc := delSliceLoop ks ke 0 pages {}
    if acc.changed = [] then .error .value
    else
      match acc.startsOn with
      | none => if seq = [] then .ok (acc.head ++ paginate ps acc.changed.flatten ++ acc.tail) else .error .unbound
      | some so => do
        let pruned ← npDelete acc.changed.flatten (seq.map (· - so))
        .ok (acc.head ++ paginate ps pruned ++ acc.tail)

/-- `Column.__imul__`, base.py:805-822: TypeError unless `n > 0`; `pages[:] * n`. -/
def colIMul {α} (pages : Pages α) (n : Int) : Except Err (Pages α) :=
  if n > 0 then .ok (List.replicate n.toNat pages).flatten else .error .type

/-- `Column.__iadd__`, base.py:844-852 (list / column). -/
def colIAddList {α} (ps : Nat) (pages : Pages α) (value : List α) : Pages α := extend ps pages value
def colIAddCol {α} (pages other : Pages α) : Pages α := extendCol pages other

/-- `Column.remove_all`, base.py:870-885: pages without a match are kept, the others are compressed. -/
def removeAll {α} [DecidableEq α] (pages : Pages α) (values : List α) : Pages α :=
  pages.map fun data =>
    let bitmask := data.map fun x => decide (x ∈ values)
    if bitmask.any id then ((bitmask.map not).zip data).filterMap fun p => if p.1 then some p.2 else none
    else data

/-- `Column.replace`, base.py:887-925 with an association list for the mapping (values, not dtypes). -/
def replaceVals {α} [DecidableEq α] (pages : Pages α) (mapping : List (α × α)) : Pages α :=
  pages.map fun data =>
    if data.any fun x => (mapping.map (·.1)).contains x then
      data.map fun x => (mapping.lookup x).getD x
    else data

/-- `Column.copy`, base.py:791-799. -/
def colCopy {α} (pages : Pages α) : Pages α := pages

end Tablite
