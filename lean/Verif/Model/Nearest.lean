import Verif.Model.Table
import Verif.Spec.Grouping
import Mathlib.Data.List.Sort
import Mathlib.Algebra.Order.Ring.Rat
/-!
# `nimlite/funcs/imputation.nim`: nearest neighbour imputation

Distances are exact rationals, `none` is `Inf`.  The order `unixSort` puts values in, imputation.nim:47-68, is an argument (`nnSort` in `Model/NearestSort.lean`).  Reading outside a
page or a list is an error (the release build would read foreign memory).  Progress bars and page files are left out: a page is the list of its
values.
-/

namespace Tablite

/-- `e1 + abs(normValue - e2)`, imputation.nim:218 -/
def addDist (nv : Rat) : Option Rat → Option Rat → Option Rat
  | some e, some d => some (e + |nv - d|)
  | _, _ => none

/-- `<` of floats with `Inf` -/
def distLt : Option Rat → Option Rat → Bool
  | some a, some b => decide (a < b)
  | some _, none => true
  | none, _ => false

/-- `min(errMap)`: the first smallest element; `min` of an empty seq is an error in the code -/
def minDist : List (Option Rat) → Option Rat
  | [] => none
  | e :: l => l.foldl (fun m x => if distLt x m then x else m) e

/-- `errMap.find(min(errMap))`, imputation.nim:219-220 -/
def argMin (l : List (Option Rat)) : Nat := l.idxOf (minDist l)

/-- the loop imputation.nim:216-218 over `zip(errMap, normalisedValues[n])` -/
def addErrs (nv : Rat) : List (Option Rat) → List (Option Rat) → List (Option Rat)
  | e :: es, d :: ds => addDist nv e d :: addErrs nv es ds
  | es, _ => es

section
variable {ν α : Type} [DecidableEq ν] [DecidableEq α]

/-- the table `d`, imputation.nim:134-145; `sorted` are the distinct values in order -/
def normMap (missing sorted : List α) : List (α × Option Rat) :=
  let n := (sorted.filter fun v => v ∉ missing).length
  sorted.zipIdx.map fun x => (x.1, if x.1 ∉ missing then some ((x.2 : Rat) / (n : Rat)) else none)

/-- one source column: its name, pages, `normIndex[name]` and `normalisedValues[name]` -/
structure NNSource (ν α : Type) where
  name : ν
  pages : Pages α
  norm : List (α × Option Rat)
  values : List (Option Rat)

/-- `d[v]` -/
def normAt (norm : List (α × Option Rat)) (v : α) : Except Err (Option Rat) :=
  match dGet v norm with
  | some d => .ok d
  | none => .error .key

/-- the loop over `sources`, imputation.nim:130-148 -/
def nnSource (sortVals : List α → List α) (missing : List α) (t : Tbl ν α) (name : ν) : Except Err (NNSource ν α) :=
  match dGet name t with
  | none => .error .key
  | some pages =>
    let norm := normMap missing (sortVals (firstOccs (colIter pages)))
    ((colIter pages).mapM (normAt norm)).bind fun values => .ok ⟨name, pages, norm, values⟩

/-- `getRowObjects`, imputation.nim:79-99: page number, row number and place in the page for every wanted row; `lens` are the page lengths of the
first source column -/
def locateRows : List Nat → Nat → Nat → List Nat → List (Nat × Nat × Nat)
  | [], _, _, _ => []
  | n :: lens, page, cnt, rows =>
    let here := rows.takeWhile fun r => r < cnt + n
    here.map (fun r => (page, r, r - cnt)) ++ locateRows lens (page + 1) (cnt + n) (rows.drop here.length)

/-- `normIndex[n][v]` for the value of one source column in a row, given by its page and its place there, imputation.nim:92-96, 214 -/
def nnAt (page place : Nat) (s : NNSource ν α) : Except Err (Option Rat × List (Option Rat)) :=
  match s.pages[page]? with
  | none => .error .index
  | some p => match p[place]? with
    | none => .error .index
    | some v => (normAt s.norm v).bind fun d => .ok (d, s.values)

/-- one source column added to `errMap`, imputation.nim:213-218 -/
def nnAdd (errs : List (Option Rat)) (x : Option Rat × List (Option Rat)) : List (Option Rat) :=
  match x.1 with
  | none => errs
  | some nv => addErrs nv errs x.2

/-- `errMap` for one row, imputation.nim:212-218 -/
def nnErrs (srcs : List (NNSource ν α)) (len : Nat) (page place : Nat) : Except Err (List (Option Rat)) :=
  (srcs.mapM (nnAt page place)).bind fun row => .ok (row.foldl nnAdd (List.replicate len (some 0)))

/-- `sparseMap` -/
abbrev Sparse (ν α : Type) := ν → Nat → Option α

/-- `sparseMap[name][ix] = v` -/
def Sparse.put (sp : Sparse ν α) (name : ν) (ix : Nat) (v : α) : Sparse ν α := fun n i => if n = name ∧ i = ix then some v else sp n i

/-- reading a row of the original column through `sparseMap`, imputation.nim:238-243 -/
def nnFetch (name : ν) (col : List α) (ix : Nat) (sp : Sparse ν α) : Except Err (α × Sparse ν α) :=
  match sp name ix with
  | some v => .ok (v, sp)
  | none => match col[ix]? with
    | some v => .ok (v, sp.put name ix v)
    | none => .error .index

/-- the search for the next best match, imputation.nim:249-268; `fuel` counts `0 ..< len(errMap)` -/
def nnSearch (missing : List α) (rowIdx : Nat) (name : ν) (col : List α) : Nat → List (Option Rat) → Sparse ν α → Except Err (Option α × Sparse ν α)
  | 0, _, sp => .ok (none, sp)
  | fuel + 1, errs, sp =>
    (nnFetch name col (argMin errs) sp).bind fun x =>
      if rowIdx = argMin errs ∨ x.1 ∈ missing then nnSearch missing rowIdx name col fuel (errs.set (argMin errs) none) x.2
      else .ok (some x.1, x.2)

/-- one cell, imputation.nim:234-268 -/
def nnCell (missing : List α) (errs : List (Option Rat)) (rowIdx : Nat) (name : ν) (col : List α) (cur : α) (sp : Sparse ν α) :
    Except Err (α × Sparse ν α) :=
  if cur ∉ missing then .ok (cur, sp)
  else (nnFetch name col (argMin errs) sp).bind fun x =>
    if x.1 ∉ missing then .ok (x.1, x.2.put name rowIdx x.1)
    else (nnSearch missing rowIdx name col errs.length errs x.2).bind fun y =>
      match y.1 with
      | some v => .ok (v, y.2.put name rowIdx v)
      | none => .ok (cur, y.2)

/-- the loop over the targets for one row, imputation.nim:233-268 -/
def nnRow (missing : List α) (errs : List (Option Rat)) (rowIdx place : Nat) :
    List (ν × Pages α) → List (List α) → Sparse ν α → Except Err (List (List α) × Sparse ν α)
  | [], [], sp => .ok ([], sp)
  | c :: cs, pg :: pgs, sp =>
    match pg[place]? with
    | none => .error .index
    | some cur => (nnCell missing errs rowIdx c.1 (colIter c.2) cur sp).bind fun x =>
        (nnRow missing errs rowIdx place cs pgs x.2).bind fun y => .ok (pg.set place x.1 :: y.1, y.2)
  | _, _, _ => .error .other

/-- `savePages`, imputation.nim:101-114: `zip(sliceData, columns)` -/
def savePages (k : Nat) : List (List α) → List (Pages α) → Except Err (List (Pages α))
  | v :: vs, c :: cs => if k < c.length then (savePages k vs cs).bind fun r => .ok (c.set k v :: r) else .error .index
  | _, cs => .ok cs

/-- the variables `lastPageIndex` with `targetsPages`, `sparseMap`, `targetsPYColumns` -/
structure NNState (ν α : Type) where
  loaded : Option (Nat × List (List α))
  sparse : Sparse ν α
  out : List (Pages α)

/-- saving the loaded pages, if any -/
def nnSave (s : NNState ν α) : Except Err (List (Pages α)) :=
  match s.loaded with
  | none => .ok s.out
  | some l => savePages l.1 l.2 s.out

/-- one original page of a target -/
def nnPage (page : Nat) (c : ν × Pages α) : Except Err (List α) :=
  match c.2[page]? with
  | some p => .ok p
  | none => .error .index

/-- the pages to work on, imputation.nim:221-230: the original pages are read again whenever the page number changes -/
def nnLoad (targets : List (ν × Pages α)) (page : Nat) (s : NNState ν α) : Except Err (NNState ν α) :=
  if s.loaded.map (·.1) = some page then .ok s
  else (nnSave s).bind fun out =>
    (targets.mapM (nnPage page)).bind fun pages => .ok ⟨some (page, pages), s.sparse, out⟩

/-- one row, imputation.nim:211-269 -/
def nnVisit (missing : List α) (srcs : List (NNSource ν α)) (len : Nat) (targets : List (ν × Pages α)) (s : NNState ν α) (x : Nat × Nat × Nat) :
    Except Err (NNState ν α) :=
  (nnErrs srcs len x.1 x.2.2).bind fun errs =>
    (nnLoad targets x.1 s).bind fun s =>
      match s.loaded with
      | none => .error .other
      | some l => (nnRow missing errs x.2.1 x.2.2 targets l.2 s.sparse).bind fun y => .ok ⟨some (l.1, y.1), y.2, s.out⟩

/-- `cmpSeqs(a, b) >= 0`, imputation.nim:72-77 -/
def rankGe : List Nat → List Nat → Bool
  | a :: as, b :: bs => if a = b then rankGe as bs else decide (b < a)
  | _, _ => true

/-- the keys with missing values in the order they are worked on, imputation.nim:150-184 -/
def nnOrder (sortVals : List α → List α) (missing : List α) (index : List (List α × List Nat)) : List (List α × List Nat) :=
  let keys := index.filter fun e => e.1.any fun v => decide (v ∈ missing)
  let item := sortVals (firstOccs (keys.flatMap (·.1)))
  keys.insertionSort fun a b => rankGe (a.1.map item.idxOf) (b.1.map item.idxOf) = true

/-- the new table, imputation.nim:190-201: targets get the new columns in the order of the table -/
def nnTable (targets : List ν) : Tbl ν α → List (Pages α) → Tbl ν α
  | [], _ => []
  | c :: t, out =>
    if c.1 ∈ targets then (c.1, out.headD c.2) :: nnTable targets t out.tail
    else c :: nnTable targets t out

/-- `T[name]` with its pages, imputation.nim:186-188 -/
def nnTarget (t : Tbl ν α) (a : ν) : Except Err (ν × Pages α) :=
  match dGet a t with
  | some p => .ok (a, p)
  | none => .error .key

/-- `nearestNeighbourImputation`, imputation.nim:116-275 -/
def nearest (sortVals : List α → List α) (missing : List α) (sources targets : List ν) (t : Tbl ν α) : Except Err (Tbl ν α) :=
  (sources.mapM (nnSource sortVals missing t)).bind fun srcs =>
    (tblIndex t targets).bind fun index =>
      (targets.mapM (nnTarget t)).bind fun tps =>
        match srcs with
        | [] => .error .index
        | s0 :: _ =>
          let visits := (nnOrder sortVals missing index).flatMap fun e => locateRows (s0.pages.map List.length) 0 0 e.2
          (visits.foldlM (nnVisit missing srcs (tblLen t) tps)
            ⟨none, fun _ _ => none, (t.filter fun c => c.1 ∈ targets).map (·.2)⟩).bind fun s =>
            (nnSave s).bind fun out => .ok (nnTable targets t out)

end

end Tablite
