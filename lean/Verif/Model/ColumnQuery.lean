import Verif.Model.Store
import Verif.Model.OrdDict
/-!
# Column comparisons and look-ups: `tablite/base.py` 668-789, 854-868, 940-1072

`eq : α → α → Bool` is the `==` of Python/numpy on stored values (`NaN` makes it irreflexive); `a != b` is its negation.
Comparing two numpy arrays is elementwise `eq`.
-/

namespace Tablite

section
variable {α : Type}

/-- a column with page identities: `Ref.id` is the identity of the `Page` object (pages have no `__eq__`, so `==` on page lists is
identity page by page, base.py:67-155). -/
abbrev RCol (α : Type) := List (Ref α)

/-- values page by page -/
def RCol.pages (c : RCol α) : Pages α := c.map Ref.data

/-- `(a == b).all()` for two arrays of the same length -/
def allEq (eq : α → α → Bool) (a b : List α) : Bool := (a.zip b).all fun x => eq x.1 x.2

/-- `Column.__eq__` with a column, base.py:717-740. -/
def colEqCol (eq : α → α → Bool) (c d : RCol α) : Bool :=
  if colLen c.pages ≠ colLen d.pages then false
  else if c.map Ref.id = d.map Ref.id then true
  else if c.length = d.length ∧ c.pages.map List.length = d.pages.map List.length then
    (c.pages.zip d.pages).all fun x => allEq eq x.1 x.2
  else allEq eq (colIter c.pages) (colIter d.pages)

/-- `Column.__ne__` with a column, base.py:754-777. -/
def colNeCol (eq : α → α → Bool) (c d : RCol α) : Bool :=
  if colLen c.pages ≠ colLen d.pages then true
  else if c.map Ref.id = d.map Ref.id then false
  else if c.length = d.length ∧ c.pages.map List.length = d.pages.map List.length then
    (c.pages.zip d.pages).any fun x => !allEq eq x.1 x.2
  else ((colIter c.pages).zip (colIter d.pages)).any fun x => !eq x.1 x.2

/-- `Column.__eq__` with a list or tuple, base.py:721-725: `all(a == b for a, b in zip(self[:], other))`. -/
def colEqList (eq : α → α → Bool) (pages : Pages α) (l : List α) : Except Err Bool :=
  if colLen pages ≠ l.length then .ok false
  else do
    let mine ← getSlice pages {}
    .ok ((mine.zip l).all fun x => eq x.1 x.2)

/-- `Column.__ne__` with a list or tuple, base.py:758-762. -/
def colNeList (eq : α → α → Bool) (pages : Pages α) (l : List α) : Except Err Bool :=
  if colLen pages ≠ l.length then .ok true
  else do
    let mine ← getSlice pages {}
    .ok ((mine.zip l).any fun x => !eq x.1 x.2)

/-- the loop of `Column.__eq__` with an array, base.py:744-750 -/
def eqArrLoop (eq : α → α → Bool) (other : List α) : Nat → Pages α → Bool
  | _, [] => true
  | start, p :: rest =>
    let end_ := start + p.length
    if !allEq eq p ((other.take end_).drop start) then false else eqArrLoop eq other end_ rest

/-- `Column.__eq__` with a numpy array -/
def colEqArr (eq : α → α → Bool) (pages : Pages α) (other : List α) : Bool :=
  if colLen pages ≠ other.length then false else eqArrLoop eq other 0 pages

/-- the loop of `Column.__ne__` with an array, base.py:781-787 -/
def neArrLoop (eq : α → α → Bool) (other : List α) : Nat → Pages α → Bool
  | _, [] => false
  | start, p :: rest =>
    let end_ := start + p.length
    if (p.zip ((other.take end_).drop start)).any (fun x => !eq x.1 x.2) then true else neArrLoop eq other end_ rest

/-- `Column.__ne__` with a numpy array -/
def colNeArr (eq : α → α → Bool) (pages : Pages α) (other : List α) : Bool :=
  if colLen pages ≠ other.length then true else neArrLoop eq other 0 pages

/-! ### gather -/

/-- one slot of the page step of `get_by_indices`, base.py:692-704: the slot is overwritten if its index falls in the page or is -1.
`np.take(data, -1)` is the last element and raises on an empty page.  The clause `len(data) > (-1 - start)` always holds (`start ≥ 0`). -/
def gatherSlot (start end_ : Int) (data : List α) (i : Int) (old : Option α) : Except Err (Option α) :=
  if (start ≤ i ∧ i < end_) ∨ i = -1 then
    if i = -1 then
      match data.getLast? with
      | some v => .ok (some v)
      | none => .error .index
    else
      match getI? data (i - start) with
      | some v => .ok (some v)
      | none => .error .index
  else .ok old

/-- all slots for one page -/
def gatherPage (start end_ : Int) (data : List α) : List Int → List (Option α) → Except Err (List (Option α))
  | i :: is, o :: os => do
    let v ← gatherSlot start end_ data i o
    let more ← gatherPage start end_ data is os
    .ok (v :: more)
  | _, _ => .ok []

/-- the page loop of `get_by_indices`, base.py:692-704 -/
def gatherLoop (idx : List Int) : Int → Pages α → List (Option α) → Except Err (List (Option α))
  | _, [], vals => .ok vals
  | start, p :: rest, vals => do
    let vals' ← gatherPage start (start + p.length) p idx vals
    gatherLoop idx (start + p.length) rest vals'

/-- `Column.get_by_indices`, base.py:668-709.  The final dtype simplification (706-708) is the identity on filled slots; on an unfilled
slot (index out of range) it may raise, which is not modelled: the theorems only speak of filled slots. -/
def getByIndices (pages : Pages α) (idx : List Int) : Except Err (List (Option α)) :=
  gatherLoop idx 0 pages (idx.map fun _ => none)

/-! ### index, histogram, count, contains -/

/-- `Column.index`, base.py:940-954. -/
def colIndex [DecidableEq α] (pages : Pages α) : List (α × List Nat) :=
  dGroup (fun x => x.1) [] (fun x l => l ++ [x.2]) (colIter pages).zipIdx

/-- run lengths of equal neighbours: what `np.unique(.., return_counts=True)` does to a sorted array; equality is `same` (numpy `==`) -/
def runLengths (same : α → α → Bool) : List α → List (α × Nat)
  | [] => []
  | a :: t =>
    match runLengths same t with
    | [] => [(a, 1)]
    | (b, n) :: r => if same a b then (a, n + 1) :: r else (a, 1) :: (b, n) :: r

/-- the pairs (value, count) a page contributes to the histogram, base.py:993-998.  `srt` is numpy's sort (`none`: TypeError, then every
value counts one). -/
def pageCounts (srt : List α → Option (List α)) (same : α → α → Bool) (p : List α) : List (α × Nat) :=
  match srt p with
  | some s => runLengths same s
  | none => p.map fun v => (v, 1)

/-- `Column.histogram`, base.py:981-1005.  Decidable equality on `α` is the equality of the keys `(type(v), v)`: same type, equal value. -/
def histogram [DecidableEq α] (srt : List α → Option (List α)) (same : α → α → Bool) (pages : Pages α) : List (α × Nat) :=
  dGroup (fun x => x.1) 0 (fun x n => n + x.2) (pages.flatMap (pageCounts srt same))

/-- `Column.count`, base.py:1026-1072.  `isObj p`: the page is stored with numpy dtype object.  In an object page the type must agree, in
a typed page numpy's `==` decides. -/
def colCount [DecidableEq α] (isObj : List α → Bool) (same : α → α → Bool) (pages : Pages α) (item : α) : Nat :=
  (pages.map fun p => if isObj p then p.countP (fun v => v = item) else p.countP (fun v => same v item)).sum

/-- `Column.__contains__`, base.py:854-868: `pgs` are the distinct page objects in the order a Python set yields them. -/
def colContains (same : α → α → Bool) (pgs : Pages α) (item : α) : Bool :=
  pgs.any fun p => p.any fun v => same v item

end

end Tablite
