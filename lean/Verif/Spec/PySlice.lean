/-!
# Python sequence semantics (specification)

Independent specification of `slice.indices`, `range` and list slicing, following the Python language
reference / CPython `PySlice_AdjustIndices`.  Nothing here refers to tablite.
-/

namespace Tablite

/-- Exceptions raised by the modelled code, as values. -/
inductive Err where
  | index | value | type | key | zeroDivision | unbound | attribute | overflow | other
  deriving DecidableEq, Repr

instance {ε α} [DecidableEq ε] [DecidableEq α] : DecidableEq (Except ε α)
  | .ok a, .ok b => if h : a = b then isTrue (by rw [h]) else isFalse (by intro e; injection e; contradiction)
  | .error a, .error b => if h : a = b then isTrue (by rw [h]) else isFalse (by intro e; injection e; contradiction)
  | .ok _, .error _ => isFalse (by intro e; cases e)
  | .error _, .ok _ => isFalse (by intro e; cases e)

/-- A Python `slice` object with integer or `None` fields. -/
structure PySlice where
  start : Option Int := none
  stop : Option Int := none
  step : Option Int := none
  deriving DecidableEq, Repr

/-- clamp of one slice bound, CPython `PySlice_AdjustIndices`. -/
def adjustBound (len lower upper : Int) (x : Int) : Int :=
  if x < 0 then
    (if x + len < lower then lower else x + len)
  else if x > upper then upper else x

/-- the effective step of a slice (`None` means 1) -/
def PySlice.stepOr1 (s : PySlice) : Int := s.step.getD 1

/-- `slice.indices(len)` for a non-zero step. -/
def PySlice.indices (s : PySlice) (len : Nat) : Int × Int × Int :=
  let k := s.stepOr1
  let lower : Int := if k < 0 then -1 else 0
  let upper : Int := if k < 0 then (len : Int) - 1 else len
  let a := match s.start with
    | none => if k < 0 then upper else lower
    | some x => adjustBound len lower upper x
  let b := match s.stop with
    | none => if k < 0 then lower else upper
    | some x => adjustBound len lower upper x
  (a, b, k)

/-- number of elements of `range(a, b, k)` -/
def rangeLen (a b k : Int) : Nat :=
  if k > 0 then ((b - a + k - 1) / k).toNat
  else if k < 0 then ((a - b + (-k) - 1) / (-k)).toNat
  else 0

/-- `list(range(a, b, k))` -/
def rangeList (a b k : Int) : List Int :=
  (List.range (rangeLen a b k)).map fun (i : Nat) => a + (i : Int) * k

/-- `l[i]` for `0 ≤ i`; `none` outside `[0, len)` (no negative wrapping). -/
def getI? {α} (l : List α) (i : Int) : Option α :=
  if i < 0 then none else l[i.toNat]?

/-- Python list/numpy slicing `l[a:b:k]`: the values at the positions of `range(*indices)`. -/
def pySlice {α} (l : List α) (s : PySlice) : List α :=
  let (a, b, k) := s.indices l.length
  (rangeList a b k).filterMap (getI? l)

/-- Python list integer indexing `l[i]`. -/
def pyIndex {α} (l : List α) (i : Int) : Except Err α :=
  let j := if i < 0 then (l.length : Int) + i else i
  match getI? l j with
  | some v => .ok v
  | none => .error .index

/-- Python list item assignment `l[i] = v`. -/
def pySetIndex {α} (l : List α) (i : Int) (v : α) : Except Err (List α) :=
  let j := if i < 0 then (l.length : Int) + i else i
  if 0 ≤ j ∧ j < l.length then .ok (l.set j.toNat v) else .error .index

/-- Python contiguous slice assignment `l[a:b] = v` (step `None` or 1). -/
def pySetSlice {α} (l : List α) (a b : Option Int) (v : List α) : List α :=
  let (i, j, _) := ({ start := a, stop := b } : PySlice).indices l.length
  l.take i.toNat ++ v ++ l.drop (max i j).toNat

/-- write `vs` to the positions `is` one after the other -/
def setMany {α} (l : List α) : List Int → List α → List α
  | i :: is, v :: vs => setMany (l.set i.toNat v) is vs
  | _, _ => l

/-- Python extended slice assignment `l[a:b:k] = v`, `k ≠ 1`: sizes must agree. -/
def pySetStride {α} (l : List α) (s : PySlice) (v : List α) : Except Err (List α) :=
  let (a, b, k) := s.indices l.length
  let idx := rangeList a b k
  if v.length = idx.length then .ok (setMany l idx v) else .error .value

/-- Python `del l[a:b:k]`: keep the positions not in the range. -/
def pyDelSlice {α} (l : List α) (s : PySlice) : List α :=
  let (a, b, k) := s.indices l.length
  let idx := rangeList a b k
  (l.zipIdx.filter fun p => !(idx.contains (p.2 : Int))).map (·.1)

/-- Python `del l[i]`. -/
def pyDelIndex {α} (l : List α) (i : Int) : Except Err (List α) :=
  let j := if i < 0 then (l.length : Int) + i else i
  if 0 ≤ j ∧ j < l.length then .ok (l.eraseIdx j.toNat) else .error .index

end Tablite
