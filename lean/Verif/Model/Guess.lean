import Verif.Model.Codec
import Verif.Model.OrdDict

/-! Guessing the types of the values of a column in Python: `DataTypes.guess`, `DataTypes.infer`, the `_infer_*` functions and
`Rank` (tablite/datatypes.py:453-688, 729-753). Used for HTML and HDF5 files.

Not modelled: numpy scalars (`hasattr(value, "dtype")`), subclasses of the built-in types, the digit limit on `int(text)`. -/
namespace Tablite

/-- `d[k] = v` -/
def dPut {κ β : Type} [DecidableEq κ] (k : κ) (v : β) (d : List (κ × β)) : List (κ × β) := dUpd v k (fun _ => v) d

/-- `Rank` (datatypes.py:729-733): `items` gives the position of each item, `ranks` the counts by position, `list` the
items by position -/
structure PyRank (κ : Type) where
  items : List (κ × Nat)
  ranks : List Nat
  list : List κ

/-- `Rank.__init__` (datatypes.py:730-733) -/
def PyRank.new {κ : Type} [DecidableEq κ] (types : List κ) : PyRank κ where
  items := types.zipIdx.foldl (fun d x => dPut x.1 x.2 d) []
  ranks := types.map fun _ => 0
  list := types

/-- the loop of `Rank.match` (datatypes.py:742-750) -/
def PyRank.bubble {κ : Type} [DecidableEq κ] (k : κ) : Nat → PyRank κ → Except Err (PyRank κ)
  | 0, s => .ok s
  | ix + 1, s =>
    match s.ranks[ix + 1]?, s.ranks[ix]?, s.list[ix + 1]?, s.list[ix]? with
    | some r1, some r0, some p1, some p0 =>
      if r1 > r0 then
        PyRank.bubble k ix ⟨dPut k ix (dPut p0 (ix + 1) s.items), (s.ranks.set (ix + 1) r0).set ix r1, (s.list.set (ix + 1) p0).set ix p1⟩
      else .ok s
    | _, _, _, _ => .error .index

/-- `Rank.match` (datatypes.py:735-750) -/
def PyRank.match {κ : Type} [DecidableEq κ] (s : PyRank κ) (k : κ) : Except Err (PyRank κ) :=
  match dGet k s.items with
  | none => .error .key
  | some ix =>
    match s.ranks[ix]? with
    | none => .error .index
    | some r => PyRank.bubble k ix ⟨s.items, s.ranks.set ix (r + 1), s.list⟩

/-- the loop over the types for one value (datatypes.py:496-502): ValueError and TypeError are caught -/
def guessOne {κ V : Type} (inf : κ → Except Err V) : List κ → Except Err (Option (κ × V))
  | [] => .ok none
  | t :: ts =>
    match inf t with
    | .ok v => .ok (some (t, v))
    | .error .value => guessOne inf ts
    | .error .type => guessOne inf ts
    | .error e => .error e

/-- the result for one value and the ranking after it (datatypes.py:496-502) -/
def guessStep {κ V : Type} [DecidableEq κ] (inf : κ → Except Err V) (s : PyRank κ) : Except Err (Option V × PyRank κ) :=
  (guessOne inf s.list).bind fun c => match c with
    | none => .ok (none, s)
    | some (t, v) => (s.match t).bind fun s' => .ok (some v, s')

/-- the loop over the values (datatypes.py:493-503) -/
def guessLoop {κ V α : Type} [DecidableEq κ] (inf : α → κ → Except Err V) : PyRank κ → List α → Except Err (List (Option V))
  | _, [] => .ok []
  | s, v :: vs => (guessStep (inf v) s).bind fun x => (guessLoop inf x.2 vs).bind fun r => .ok (x.1 :: r)

/-- the types that are tried -/
inductive GT where
  | datetime | date | time | int | bool | float | str
deriving DecidableEq

/-- `DataTypes.types` (datatypes.py:453) -/
def GT.types : List GT := [.datetime, .date, .time, .int, .bool, .float, .str]

/-- what the `_infer_*` functions use from Python: `float(text)`, `str(double)`, `"{0:.nf}".format(double)`, `float(int)`,
reading dates, datetimes (datatypes.py:634-642, 653-669: ISO forms and the tables of formats) and times, `str` of other values,
and which other objects can be hashed -/
structure GuessRt (O : Type) where
  parse : PyText → Except Err Dbl
  text : Dbl → PyText
  fmt : Nat → Dbl → PyText
  ofInt : Int → Except Err Dbl
  dateText : PyText → Except Err PyDate
  datetimeText : PyText → Except Err (PyDate × PyTime)
  timeText : PyText → Except Err PyTime
  strOf : PV O → PyText
  hashable : O → Bool

/-- `text.replace(c, "")` -/
def dropChar (c : Nat) (t : PyText) : PyText := t.filter (· != c)

/-- `text.replace(a, b)` for characters -/
def swapChar (a b : Nat) (t : PyText) : PyText := t.map fun c => if c = a then b else c

/-- `text.find(c)` -/
def findChar (c : Nat) (t : PyText) : Int := if t.contains c then t.idxOf c else -1

/-- `text.lower()`; only ASCII letters, which is all that matters where it is used -/
def lowerText (t : PyText) : PyText := t.map fun c => if 65 ≤ c ∧ c ≤ 90 then c + 32 else c

/-- `DataTypes.integers` (datatypes.py:29) -/
def integerChars : PyText := txt "1234567890-+"

/-- `DataTypes.decimals` (datatypes.py:28) -/
def decimalChars : PyText := txt "1234567890-+eE."

/-- `_infer_bool` (datatypes.py:520-535) -/
def pyInferBool {O : Type} : PV O → Except Err (PV O)
  | .bool b => .ok (.bool b)
  | .str t => if lowerText t = txt "true" then .ok (.bool true) else if lowerText t = txt "false" then .ok (.bool false) else .error .value
  | _ => .error .value

/-- `_infer_int` of text (datatypes.py:547-557) -/
def pyIntText (t : PyText) : Except Err Int :=
  if (dropChar 44 (dropChar 32 (dropChar 34 t))).any (fun c => !integerChars.contains c) then .error .value
  else parseIntText (dropChar 44 (dropChar 32 (dropChar 34 t)))

/-- `_infer_int` (datatypes.py:538-559) -/
def pyInferInt {O : Type} : PV O → Except Err (PV O)
  | .int z => .ok (.int z)
  | .float (.fin q) => if (ratTrunc q : Rat) = q then .ok (.int (ratTrunc q)) else .error .value
  | .float .nan => .error .value
  | .float _ => .error .overflow
  | .str t => (pyIntText t).bind fun z => .ok (.int z)
  | _ => .error .value

/-- separators of decimal text (datatypes.py:568-583) -/
def floatSeps (t : PyText) : PyText :=
  if findChar 46 t = -1 ∧ findChar 44 t = -1 then t
  else if 0 < findChar 46 t ∧ findChar 46 t < findChar 44 t then swapChar 44 46 (dropChar 46 t)
  else if findChar 46 t > findChar 44 t ∧ findChar 44 t > 0 then dropChar 44 t
  else if findChar 44 t ≠ 0 ∧ findChar 46 t = -1 then swapChar 44 46 t
  else t

/-- scientific notation (datatypes.py:598-606) -/
def pySciText {O : Type} (R : GuessRt O) (v : PyText) : Except Err Dbl :=
  if v.count 101 ≠ 1 then .error .value
  else (R.parse (v.take (v.idxOf 101))).bind fun f => (parseIntText (v.drop (v.idxOf 101 + 1))).bind fun e =>
    R.parse (R.text f ++ 101 :: intText e)

/-- the text the value is compared with (datatypes.py:608-620); `int` of a double that is not finite is not reached, as the text
of such a double has no dot -/
def floatBack {O : Type} (R : GuessRt O) (t : PyText) (x : Dbl) : PyText :=
  if (R.text x).contains 46 ∧ ¬ t.contains 46 then
    match x with
    | .fin q => intText (ratTrunc q)
    | _ => []
  else if t.contains 46 then R.fmt (t.length - t.idxOf 46 - 1) x
  else R.text x

/-- `_infer_float` of text without quotes and with separators resolved (datatypes.py:585-625) -/
def pyFloatText {O : Type} (R : GuessRt O) (t : PyText) : Except Err Dbl :=
  if t.any (fun c => !decimalChars.contains c) then .error .type
  else match R.parse t with
    | .error _ => .error .value
    | .ok x =>
      if t.contains 101 ∨ t.contains 69 then pySciText R (lowerText t)
      else if lowerText t ≠ floatBack R t x then .error .value
      else .ok x

/-- `_infer_float` (datatypes.py:562-625). A bool is an int to Python. -/
def pyInferFloat {O : Type} (R : GuessRt O) : PV O → Except Err (PV O)
  | .bool b => (R.ofInt (if b then 1 else 0)).bind fun x => .ok (.float x)
  | .int z => (R.ofInt z).bind fun x => .ok (.float x)
  | .float x => .ok (.float x)
  | .str t => (pyFloatText R (floatSeps (dropChar 34 t))).bind fun x => .ok (.float x)
  | _ => .error .value

/-- `_infer_date` (datatypes.py:628-644) -/
def pyInferDate {O : Type} (R : GuessRt O) : PV O → Except Err (PV O)
  | .datetime d _ => .ok (.date d)
  | .date d => .ok (.date d)
  | .str t => (R.dateText t).bind fun d => .ok (.date d)
  | _ => .error .value

/-- `_infer_datetime` (datatypes.py:647-671) -/
def pyInferDatetime {O : Type} (R : GuessRt O) : PV O → Except Err (PV O)
  | .datetime d t => .ok (.datetime d t)
  | .date d => .ok (.datetime d ⟨0, 0, 0, 0, none⟩)
  | .str t => (R.datetimeText t).bind fun x => .ok (.datetime x.1 x.2)
  | _ => .error .value

/-- `_infer_time` (datatypes.py:674-681) -/
def pyInferTime {O : Type} (R : GuessRt O) : PV O → Except Err (PV O)
  | .time t => .ok (.time t)
  | .str t => if t.contains 58 then (R.timeText t).bind fun x => .ok (.time x) else .error .value
  | _ => .error .value

/-- `_infer_str` (datatypes.py:684-688) -/
def pyInferStr {O : Type} (R : GuessRt O) : PV O → Except Err (PV O)
  | .str t => .ok (.str t)
  | v => .ok (.str (R.strOf v))

/-- `v in DataTypes.nones` (datatypes.py:511): objects that cannot be hashed raise TypeError; a NaN is taken to be the object `np.nan` -/
def pyInNones {O : Type} (R : GuessRt O) : PV O → Except Err Bool
  | .none => .ok true
  | .str t => .ok (noneTexts.contains t)
  | .float .nan => .ok true
  | .other o => if R.hashable o then .ok false else .error .type
  | _ => .ok false

/-- `matched_types` (datatypes.py:873-881) -/
def pyMatched {O : Type} (R : GuessRt O) (v : PV O) : GT → Except Err (PV O)
  | .datetime => pyInferDatetime R v
  | .date => pyInferDate R v
  | .time => pyInferTime R v
  | .int => pyInferInt v
  | .bool => pyInferBool v
  | .float => pyInferFloat R v
  | .str => pyInferStr R v

/-- `DataTypes.infer` (datatypes.py:506-517) -/
def pyInfer {O : Type} (R : GuessRt O) (v : PV O) (t : GT) : Except Err (PV O) :=
  if v.type = .str ∧ t = .str then .ok v
  else (pyInNones R v).bind fun b => if b then .ok .none else pyMatched R v t

/-- `DataTypes.guess` (datatypes.py:483-503) -/
def pyGuess {O : Type} (R : GuessRt O) (values : List (PV O)) : Except Err (List (PV O)) :=
  (guessLoop (pyInfer R) (PyRank.new GT.types) values).bind fun r => .ok (r.map fun x => x.getD .none)

end Tablite
