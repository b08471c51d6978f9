import Verif.Model.Table
import Verif.Model.Where
import Mathlib.Data.List.Sort
import Mathlib.Algebra.Order.Ring.Rat
import Mathlib.Data.String.Basic
/-!
# Group-by: `nimlite/funcs/groupby.nim`

Floating point numbers are modelled by rationals.
-/

namespace Tablite

/-- Nim's `PY_ObjectND`, pytypes/pyobjs.nim: a value with its kind; points in time by their number -/
inductive GVal
  | none
  | bool (b : Bool)
  | int (n : Int)
  | float (q : Rat)
  | str (s : String)
  | time (q : Rat)
  | date (q : Rat)
  | datetime (q : Rat)
  deriving DecidableEq

/-- `kind` -/
def GVal.kind : GVal → Nat
  | .none => 0 | .bool _ => 1 | .int _ => 2 | .float _ => 3 | .str _ => 4 | .time _ => 5 | .date _ => 6 | .datetime _ => 7

/-- `==`, pytypes/pycmp.nim:174: int with float by number, date with datetime by moment, otherwise same kind and value -/
def GVal.eq : GVal → GVal → Bool
  | .int a, .float b => decide ((a : Rat) = b)
  | .float a, .int b => decide (a = (b : Rat))
  | .date a, .datetime b => decide (a = b)
  | .datetime a, .date b => decide (a = b)
  | a, b => decide (a = b)

/-- `a < b` for values of the same kind, pycmp.nim:178 -/
def GVal.lt : GVal → GVal → Bool
  | .bool a, .bool b => !a && b
  | .int a, .int b => decide (a < b)
  | .float a, .float b => decide (a < b)
  | .str a, .str b => decide (a < b)
  | .time a, .time b => decide (a < b)
  | .date a, .date b => decide (a < b)
  | .datetime a, .datetime b => decide (a < b)
  | _, _ => false

/-- `Accumulator`, groupby.nim:6-8 -/
inductive Acc
  | max | min | sum | first | last | product | count | countUnique | average | stdev | median | mode
  deriving DecidableEq

/-- the fields of all accumulator objects together; each accumulator uses its own -/
structure AState where
  value : Option GVal := none
  isSet : Bool := false
  items : List GVal := []
  num : Rat := 0
  count : Nat := 0
  mean : Rat := 0
  c : Rat := 0
  hist : List (GVal × Nat) := []

/-- the constructors `construct…`, groupby.nim:48-440 -/
def accInit : Acc → AState
  | .sum => { num := 0 }
  | .product => { num := 1 }
  | .last => { value := some .none }
  | .average => { value := some (.float 0) }
  | _ => {}

/-- kinds refused by the arithmetic accumulators: date, time, datetime, string -/
def GVal.unsupported : GVal → Bool
  | .str _ | .time _ | .date _ | .datetime _ => true
  | _ => false

/-- `vv` of Sum and Product, groupby.nim:119-125: values that are neither int nor float leave the variable at 0.0 -/
def GVal.numOr0 : GVal → Rat
  | .int n => n
  | .float q => q
  | _ => 0

/-- `v` of Average and StandardDeviation, groupby.nim:232-236: anything but int is converted with `PY_Float(…)`, which raises for other objects -/
def GVal.num? : GVal → Except Err Rat
  | .int n => .ok n
  | .float q => .ok q
  | _ => .error .type

/-- `Limit.update`, groupby.nim:60-66 with `run` of Max (82-88) and Min (98-104) -/
def limitUpdate (better : GVal → GVal → Bool) (s : AState) (v : GVal) : Except Err AState :=
  match s.value with
  | none => .ok { s with value := some v }
  | some cur =>
    if cur.kind = v.kind then .ok (if better v cur then { s with value := some v } else s)
    else .error .other

/-- Sum, groupby.nim:116-127 -/
def sumUpdate (s : AState) (v : GVal) : Except Err AState :=
  if v.unsupported then .error .value else .ok { s with num := s.num + v.numOr0 }

/-- Product, groupby.nim:140-151 -/
def productUpdate (s : AState) (v : GVal) : Except Err AState :=
  if v.unsupported then .error .value else .ok { s with num := s.num * v.numOr0 }

/-- Average, groupby.nim:228-239 -/
def averageUpdate (s : AState) (v : GVal) : Except Err AState :=
  if v.unsupported then .error .value else do
    let q ← v.num?
    .ok { s with num := s.num + q, count := s.count + 1, value := some (.float ((s.num + q) / (s.count + 1 : Nat))) }

/-- StandardDeviation (Welford), groupby.nim:264-276 -/
def stdevUpdate (s : AState) (v : GVal) : Except Err AState :=
  if v.unsupported then .error .value else do
    let q ← v.num?
    let dt := q - s.mean
    let mean := s.mean + dt / (s.count + 1 : Nat)
    .ok { s with count := s.count + 1, mean := mean, c := s.c + dt * (q - mean) }

/-- CountUnique, groupby.nim:210-213 -/
def countUniqueUpdate (s : AState) (v : GVal) : AState :=
  if s.items.any (fun x => GVal.eq x v) then s else { s with items := s.items ++ [v] }

/-- Histogram, groupby.nim:334-339; the table compares kinds and values (the hash covers both) -/
def histUpdate (s : AState) (v : GVal) : AState := { s with hist := dUpd 0 v (· + 1) s.hist }

/-- `update` of every accumulator -/
def accUpdate (f : Acc) (s : AState) (v : GVal) : Except Err AState :=
  match f with
  | .max => limitUpdate (fun a b => GVal.lt b a) s v
  | .min => limitUpdate (fun a b => GVal.lt a b) s v
  | .sum => sumUpdate s v
  | .product => productUpdate s v
  | .first => .ok (if s.isSet then s else { s with value := some v, isSet := true })
  | .last => .ok { s with value := some v }
  | .count => .ok { s with count := s.count + 1 }
  | .countUnique => .ok (countUniqueUpdate s v)
  | .average => averageUpdate s v
  | .stdev => stdevUpdate s v
  | .median => .ok (histUpdate s v)
  | .mode => .ok (histUpdate s v)

/-- `toFloat`, imputation.nim:28-35; None is -Inf, which matters only next to values of the same parity: there are none -/
def GVal.toFloat : GVal → Rat
  | .bool b => if b then 1 else 0
  | .int n => n
  | .float q => q
  | .time q => q
  | .date q => q
  | .datetime q => q
  | _ => 0

/-- `PARITY_TABLE`, groupby.nim:280-288 -/
def GVal.parity : GVal → Nat
  | .none => 0 | .bool _ => 1 | .int _ => 2 | .float _ => 2 | .time _ => 3 | .date _ => 4 | .datetime _ => 5 | .str _ => 6

/-- is text -/
def GVal.isStr : GVal → Bool
  | .str _ => true
  | _ => false

/-- `cmpNonText(this, other) <= 0` on (value, count), groupby.nim:299-306 -/
def cmpHist (a b : GVal × Nat) : Bool :=
  decide (a.1.parity < b.1.parity) || (decide (a.1.parity = b.1.parity) &&
    (decide (a.1.toFloat < b.1.toFloat) || (decide (a.1.toFloat = b.1.toFloat) && decide (a.2 ≤ b.2))))

/-- the text of a value -/
def GVal.text : GVal → String
  | .str s => s
  | _ => ""

/-- `cmpText(this, other) <= 0` on (value, count), groupby.nim:308-312 -/
def cmpHistText (a b : GVal × Nat) : Bool := decide (a.1.text < b.1.text) || (decide (a.1.text = b.1.text) && decide (a.2 ≤ b.2))

/-- `sortedHistogram`, groupby.nim:314-332; Nim's `sort` is stable, as insertion sort -/
def sortedHist (hist : List (GVal × Nat)) : List (GVal × Nat) :=
  (hist.filter fun x => !x.1.isStr).insertionSort (fun a b => cmpHist a b = true) ++
    (hist.filter fun x => x.1.isStr).insertionSort (fun a b => cmpHistText a b = true)

/-- the loop of the median for an odd number of keys, groupby.nim:382-390; falling through returns no value (`none`) -/
def medianOdd (mid : Rat) : Nat → List (GVal × Nat) → Option GVal
  | _, [] => none
  | total, (k, v) :: rest => if ((total + v : Nat) : Rat) > mid then some k else medianOdd mid (total + v) rest

/-- the loop of the median for an even number of keys, groupby.nim:366-377; `A` is nil (`none`) at first, using it is a NilAccessDefect -/
def medianEven (mid : Rat) : Nat → Option GVal → List (GVal × Nat) → Except Err (Option GVal)
  | _, _, [] => .ok none
  | total, b, (k, v) :: rest =>
    if ((total + v : Nat) : Rat) > mid then
      match b with
      | none => .error .attribute
      | some a =>
        match a.num?, k.num? with
        | .ok x, .ok y => .ok (some (.float ((x + y) / 2)))
        | _, _ => .error .value
    else medianEven mid (total + v) (some k) rest

/-- `GroupByMedian.value`, groupby.nim:357-390 -/
def medianValue (hist : List (GVal × Nat)) : Except Err (Option GVal) :=
  let mid : Rat := ((hist.map (·.2)).sum : Nat) / 2
  match hist with
  | [(k, _)] => .ok (some k)
  | _ => if hist.length % 2 = 0 then medianEven mid 0 none (sortedHist hist) else .ok (medianOdd mid 0 (sortedHist hist))

/-- `cmpNonText` of Mode on (count, value), groupby.nim:402-409: `this >= other` -/
def cmpMode (a b : GVal × Nat) : Bool :=
  decide (b.2 < a.2) || (decide (a.2 = b.2) && (decide (b.1.parity < a.1.parity) || (decide (a.1.parity = b.1.parity) && decide (b.1.toFloat ≤ a.1.toFloat))))

/-- `cmpText` of Mode, groupby.nim:411-415 -/
def cmpModeText (a b : GVal × Nat) : Bool := decide (b.2 < a.2) || (decide (a.2 = b.2) && decide (b.1.text ≤ a.1.text))

/-- `sortedHistogramReversed(Descending)`, groupby.nim:417-434 -/
def sortedMode (hist : List (GVal × Nat)) : List (GVal × Nat) :=
  (hist.filter fun x => !x.1.isStr).insertionSort (fun a b => cmpMode a b = true) ++
    (hist.filter fun x => x.1.isStr).insertionSort (fun a b => cmpModeText a b = true)

/-- `value` followed by `get()`, groupby.nim:675; `sqrt` stands for `pow(variance, 1/2)` -/
def accValue (sqrt : Rat → Rat) (f : Acc) (s : AState) : Except Err GVal :=
  match f with
  | .sum | .product => .ok (.float s.num)
  | .count => .ok (.int s.count)
  | .countUnique => .ok (.int s.items.length)
  | .stdev => .ok (.float (if s.count ≤ 1 then 0 else sqrt (s.c / (s.count - 1 : Nat))))
  | .median =>
    match medianValue s.hist with
    | .ok (some v) => .ok v
    | .ok none => .error .other
    | .error e => .error e
  | .mode =>
    match sortedMode s.hist with
    | x :: _ => .ok x.1
    | [] => .error .index
  | _ =>
    match s.value with
    | some v => .ok v
    | none => .error .other

/-- an accumulator fed with the values of one group -/
def accRun (sqrt : Rat → Rat) (f : Acc) (values : List GVal) : Except Err GVal := do
  let s ← values.foldlM (accUpdate f) (accInit f)
  accValue sqrt f s

/-! ## the grouping loop -/

section
variable {ν α σ φ : Type} [DecidableEq ν] [DecidableEq α]

/-- `getPages`, groupby.nim:496-529: cut into pages of `ps` values -/
def toPages (ps : Nat) (l : List α) : Pages α :=
  if h : 0 < ps ∧ l ≠ [] then l.take ps :: toPages ps (l.drop ps) else []
  termination_by l.length
  decreasing_by
    have := List.length_pos_iff.2 h.2
    simp only [List.length_drop]; omega

/-- `pageZipper` then `iteratePages`, groupby.nim:531-586: the pages of the columns are taken in parallel, and the rows of these pages in parallel;
both stop at the shortest -/
def zipPages (cols : List (Pages α)) : List (List α) :=
  (zipRows ((cols.head?.getD []).length) cols).flatMap fun pages => zipRows ((pages.head?.getD []).length) pages

/-- the pages of the named columns; `T[cn]` raises KeyError -/
def pickPages (t : Tbl ν α) (names : List ν) : Except Err (List (Pages α)) :=
  names.mapM fun a => match dGet a t with
    | some p => .ok p
    | none => .error .key

/-- `d[cn]` in the row dictionary, groupby.nim:645-650, 660 -/
def rowGet (nul : α) (names : List ν) (row : List α) (cn : ν) : α := ((dGet cn (names.zip row)).getD nul)

/-- feed one row to the accumulators of its group.  An exception raised by an accumulator is kept as its state and raised at the end:
in both cases `groupby` raises instead of returning a table. -/
def feedRow (nul : α) (upd : φ → σ → α → Except Err σ) (names : List ν) (functions : List (ν × φ)) (row : List α) (states : List (Except Err σ)) :
    List (Except Err σ) :=
  List.zipWith (fun f s => s.bind fun s => upd f.2 s (rowGet nul names row f.1)) functions states

/-- the table `aggregationFuncs`, groupby.nim:642-660 -/
def aggregate (nul : α) (init : φ → σ) (upd : φ → σ → α → Except Err σ) (names keys : List ν) (functions : List (ν × φ)) (rows : List (List α)) :
    List (List α × List (Except Err σ)) :=
  dGroup (fun row => keys.map (rowGet nul names row)) (functions.map fun f => .ok (init f.2)) (fun row states => feedRow nul upd names functions row states) rows

/-- the column names needed, groupby.nim:624-627 -/
def neededNames (keys : List ν) (functions : List (ν × φ)) : List ν :=
  functions.foldl (fun names f => if f.1 ∈ names then names else names ++ [f.1]) keys

/-- the new table: every column is stored under its name, groupby.nim:677-687; a repeated name overwrites -/
def storeColumns (ps : Nat) : List (ν × List α) → Tbl ν α → Tbl ν α
  | [], t => t
  | (n, vals) :: rest, t => storeColumns ps rest (tblSet t n (toPages ps vals))

/-- `index` of numpy.nim:1484-1500: pages of equal number and rows of equal number are assumed; a missing page or row is an IndexDefect -/
def nimIndexRows (nul : α) (cols : List (Pages α)) : Except Err (List (List α)) :=
  match cols with
  | [] => .error .index
  | c0 :: _ =>
    if (cols.all fun c => (List.range c0.length).all fun i => decide ((c0.getD i []).length ≤ (c.getD i []).length ∧ i < c.length)) then
      .ok ((List.range c0.length).flatMap fun i => (List.range (c0.getD i []).length).map fun r => cols.map fun c => (c.getD i []).getD r nul)
    else .error .index

/-- one row of the result, groupby.nim:669-675: the key followed by the values of the accumulators -/
def groupRow (val : φ → σ → Except Err α) (functions : List (ν × φ)) (e : List α × List (Except Err σ)) : Except Err (List α) :=
  match (functions.zip e.2).mapM fun x => x.2.bind (val x.1.2) with
  | .ok vs => .ok (e.1 ++ vs)
  | .error err => .error err

/-- `groupby`, groupby.nim:588-689; `nm f cn` is the name `f(cn)` of an aggregate column -/
def groupby (nul : α) (init : φ → σ) (upd : φ → σ → α → Except Err σ) (val : φ → σ → Except Err α) (nm : φ → ν → ν) (ps : Nat) (t : Tbl ν α)
    (keys : List ν) (functions : List (ν × φ)) : Except Err (Tbl ν α) :=
  if keys.length + functions.length = 0 then .error .value
  else if ¬ keys.Nodup then .error .value
  else if functions = [] then do
    let cols ← pickPages t keys
    let rows ← nimIndexRows nul cols
    let d := dGroup (fun row => row) () (fun _ _ => ()) rows
    .ok (storeColumns ps (keys.zipIdx.map fun k => (k.1, d.map fun e => e.1.getD k.2 nul)) [])
  else do
    let names := neededNames keys functions
    let cols ← pickPages t names
    let agg := aggregate nul init upd names keys functions (zipPages cols)
    let out ← agg.mapM (groupRow val functions)
    .ok (storeColumns ps ((keys ++ functions.map fun f => nm f.2 f.1).zipIdx.map fun k => (k.1, out.map fun r => r.getD k.2 nul)) [])

end

end Tablite
