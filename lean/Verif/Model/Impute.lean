import Verif.Model.Stats
import Verif.Model.ColumnQuery
import Verif.Model.TableObj
/-!
# `tablite/imputation.py`: replacing missing values by the mean or the mode of the column

Tables are those of `Model/TableObj`: names and column objects.  Values are None, integers, floats and texts; other types are left out.  Numbers
are exact.  Two values are equal only if they have the same type (so 1 and 1.0 are not, although they are in Python: columns and `missing` with
both are outside of the model).
-/

namespace Tablite

/-- the values -/
inductive IV where
  | none
  | int (n : Int)
  | float (x : Rat)
  | str (s : String)
  deriving DecidableEq

/-- `type(v)` -/
inductive IVT where
  | none | int | float | str
  deriving DecidableEq

def IV.ty : IV → IVT
  | .none => .none
  | .int _ => .int
  | .float _ => .float
  | .str _ => .str

/-- the number that the summary of the type of `v` works with: the value, or the length of a text (utils.py:233, 374) -/
def IV.size : IV → Rat
  | .none => 0
  | .int n => n
  | .float x => x
  | .str s => s.length

/-- `method` -/
inductive StatMethod where
  | mean | mode
  deriving DecidableEq

/-- the number in the type of the column: a mode of integers is an integer -/
def numLike (T : IVT) (x : Rat) : IV := if T = .int then .int x.floor else .float x

/-- `summary_statistics(values, counts)[method]` (utils.py:188-230, 233-298, 301-302, 373-385): an empty dictionary without counts; texts for None; the
lengths for texts, but the mode is a text.  `fmt` writes a float. -/
def statOf (fmt : Rat → String) (m : StatMethod) (vc : List (IV × Nat)) : Except Err IV :=
  match dominant IV.ty vc with
  | none => .error .key
  | some (.none, _) => .ok (.str "n/a")
  | some (.str, l) => (numericSummary (l.map fun e => (e.1.size, e.2))).bind fun s =>
    match m with
    | .mean => .ok (.str (fmt s.mean ++ " characters"))
    | .mode => .ok ((maxKey l).elim .none (·.1))
  | some (T, l) => (numericSummary (l.map fun e => (e.1.size, e.2))).bind fun s =>
    match m with
    | .mean => .ok (.float s.mean)
    | .mode => .ok (s.mode.elim .none (numLike T))

/-- `hist_counts[hist_values.index(m)] = 0`, nothing if there is no such value (imputation.py:143-148) -/
def zeroFirst : List (IV × Nat) → IV → List (IV × Nat)
  | [], _ => []
  | e :: l, m => if e.1 = m then (e.1, 0) :: l else e :: zeroFirst l m

/-- one page in `Column.replace` with one new value (base.py:904-925); `store` is what the array of the page makes of it: an array of objects keeps it, an
array of integers cuts off the fraction, an array of texts cuts it to its width -/
def replacePage (store : List IV → IV → Except Err IV) (missing : List IV) (v : IV) (p : List IV) : Except Err (List IV) :=
  if p.any (· ∈ missing) then (store p v).bind fun w => .ok (p.map fun x => if x ∈ missing then w else x) else .ok p

/-- the pages one after the other until one raises -/
def replacePages (store : List IV → IV → Except Err IV) (missing : List IV) (v : IV) : Pages IV → Pages IV × Option Err
  | [] => ([], none)
  | p :: l =>
    match replacePage store missing v p with
    | .error e => (p :: l, some e)
    | .ok q => (q :: (replacePages store missing v l).1, (replacePages store missing v l).2)

/-- the new value of a column (imputation.py:141-152) -/
def newValue (srt : List IV → Option (List IV)) (same : IV → IV → Bool) (fmt : Rat → String) (m : StatMethod) (missing : List IV) (col : Pages IV) : Except Err IV :=
  statOf fmt m (missing.foldl zeroFirst (histogram srt same col))

section
variable {ν : Type} [DecidableEq ν]

/-- the loop of `stats_method` (imputation.py:136-157) over the columns of the source: the heap and the new table after it, and the exception.
`col` is the column of the source itself, and it is put into the new table -/
def statsLoop (new : Pages IV → Except Err IV) (store : List IV → IV → Except Err IV) (missing : List IV) (targets : List ν) :
    Heap IV × OTbl ν → OTbl ν → Heap IV × OTbl ν × Option Err
  | s, [] => (s.1, s.2, none)
  | s, c :: l =>
    if c.1 ∈ targets then
      match new (colAt s.1 c.2) with
      | .error e => (s.1, s.2, some e)
      | .ok v =>
        match replacePages store missing v (colAt s.1 c.2) with
        | (p, some e) => (s.1.set c.2 p, s.2, some e)
        | (p, none) => statsLoop new store missing targets (s.1.set c.2 p, dSet c.1 c.2 s.2) l
    else statsLoop new store missing targets (s.1, dSet c.1 c.2 s.2) l

/-- `imputation(T, targets, missing, method)` with the methods mean and mode and a list of targets (imputation.py:59-75, 95-96, 128-159) -/
def imputeStat (srt : List IV → Option (List IV)) (same : IV → IV → Bool) (fmt : Rat → String) (store : List IV → IV → Except Err IV) (m : StatMethod)
    (missing : List IV) (targets : List ν) (h : Heap IV) (t : OTbl ν) : Heap IV × OTbl ν × Option Err :=
  if targets.all (fun x => x ∈ t.map (·.1)) then
    statsLoop (newValue srt same fmt m missing) store missing targets (tCopy h t) t
  else (h, [], some .value)

end

end Tablite
