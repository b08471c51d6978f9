import Verif.Model.Guess
import Verif.Model.Table
import Mathlib.Data.List.Sort
/-!
# HDF5: `to_hdf5` (`tablite/export_utils.py:63-105`), `from_hdf5` (`tablite/import_utils.py:72-109`)

The library `h5py` is described here as its documentation says: a file is a dictionary of arrays whose keys come in alphabetical order; arrays of integers of 64 bits, of floats and of bools are
stored as they are, other arrays raise TypeError; a list of texts is stored as UTF-8, and a text with a NUL or half of a surrogate pair raises ValueError.
Not modelled: names that begin or end with `/`, the empty name, integers from 2^63 up to 2^64.
-/

namespace Tablite

variable {O : Type}

/-- an array in the file: of values, or of texts -/
inductive H5Data (O : Type) where
  | native (vs : List (PV O))
  | texts (ts : List PyText)

/-- an integer of 64 bits -/
def isInt64 (z : Int) : Bool := decide (-9223372036854775808 ≤ z) && decide (z < 9223372036854775808)

/-- an integer of 64 bits, as value -/
def pvInt64 : PV O → Bool
  | .int z => isInt64 z
  | _ => false

/-- a float -/
def pvFloat : PV O → Bool
  | .float _ => true
  | _ => false

/-- a bool -/
def pvBool : PV O → Bool
  | .bool _ => true
  | _ => false

/-- `col[:]` is an array of one type that HDF5 has; an empty column is an empty array of floats -/
def h5Native (vs : List (PV O)) : Bool := vs.all pvInt64 || vs.all pvFloat || vs.all pvBool

/-- a text that can be stored -/
def h5Text (t : PyText) : Bool := t.all fun c => c != 0 && !(decide (0xd800 ≤ c) && decide (c < 0xe000))

/-- one column, export_utils.py:99-103 -/
def h5Column (str : PV O → PyText) (vs : List (PV O)) : Except Err (H5Data O) :=
  if h5Native vs then .ok (.native vs)
  else if (vs.map str).all h5Text then .ok (.texts (vs.map str))
  else .error .value

/-- `to_hdf5`, export_utils.py:63-105 -/
def toHdf5 (str : PV O → PyText) (t : Tbl PyText (PV O)) : Except Err (List (PyText × H5Data O)) :=
  t.mapM fun c => do .ok (c.1, ← h5Column str (colIter c.2))

/-- order of names: by code points, which is the order of their bytes in UTF-8 -/
def nameLe : PyText → PyText → Bool
  | [], _ => true
  | _ :: _, [] => false
  | a :: s, b :: t => decide (a < b) || (decide (a = b) && nameLe s t)

/-- `h5.keys()` -/
def h5Keys (f : List (PyText × H5Data O)) : List (PyText × H5Data O) := f.insertionSort fun x y => nameLe x.1 y.1 = true

/-- a value that numpy can put into an array of numbers or of text -/
def pvPlain : PV O → Bool
  | .int z => isInt64 z
  | .float _ => true
  | .bool _ => true
  | .str _ => true
  | _ => false

/-- a text -/
def pvStr : PV O → Bool
  | .str _ => true
  | _ => false

/-- the text of a number in an array of texts; `numText` is numpy's -/
def h5AsText (numText : PV O → PyText) : PV O → PV O
  | .str t => .str t
  | v => .str (numText v)

/-- the float of a number in an array of floats -/
def h5AsFloat (toFloat : Int → Dbl) : PV O → PV O
  | .int z => .float (toFloat z)
  | .bool b => .float (toFloat b.toNat)
  | v => v

/-- the integer of a bool in an array of integers -/
def h5AsInt : PV O → PV O
  | .bool b => .int b.toNat
  | v => v

/-- `np.array(list)` for a list of Python values, and its values: one type for all, objects if there is anything else than numbers, bools and texts -/
def h5Array (numText : PV O → PyText) (toFloat : Int → Dbl) (vs : List (PV O)) : List (PV O) :=
  if !vs.all pvPlain then vs
  else if vs.any pvStr then vs.map (h5AsText numText)
  else if vs.any pvFloat then vs.map (h5AsFloat toFloat)
  else if vs.all pvBool then vs
  else vs.map h5AsInt

/-- one array, import_utils.py:104-108; `guess` is `DataTypes.guess` -/
def h5Read (R : GuessRt O) (numText : PV O → PyText) (toFloat : Int → Dbl) : H5Data O → Except Err (List (PV O))
  | .native vs => .ok vs
  | .texts ts => do .ok (h5Array numText toFloat (← pyGuess R (ts.map .str)))

/-- one key, import_utils.py:102-108: a name with `/` is a group, which has no `[:]` -/
def h5Get (R : GuessRt O) (numText : PV O → PyText) (toFloat : Int → Dbl) (ps : Nat) (c : PyText × H5Data O) : Except Err (PyText × Pages (PV O)) :=
  if 47 ∈ c.1 then .error .type
  else do .ok (c.1, paginate ps (← h5Read R numText toFloat c.2))

/-- `from_hdf5`, import_utils.py:72-109 -/
def fromHdf5 (R : GuessRt O) (numText : PV O → PyText) (toFloat : Int → Dbl) (ps : Nat) (f : List (PyText × H5Data O)) : Except Err (Tbl PyText (PV O)) :=
  (h5Keys f).mapM (h5Get R numText toFloat ps)

end Tablite
