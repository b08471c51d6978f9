import Verif.Model.Paging
import Mathlib.Data.Rat.Floor
import Mathlib.Algebra.Order.Ring.Rat
/-!
# Small helpers: column letters, splitting by a delimiter sequence, rounding, the .npy header
-/

namespace Tablite

/-- the loop of `calc_col_count`, utils.py:429-430, over `enumerate(reversed(letters))` starting with exponent `i` -/
def colCountLoop : List Char → Nat → Int → Int
  | [], _, acc => acc
  | v :: rest, i, acc => colCountLoop rest (i + 1) (acc + ((v.toNat : Int) - 64) * 26 ^ i)

/-- `calc_col_count`, utils.py:424-432; `ord_nil = ord("A") - 1 = 64`, 26 columns per letter -/
def calcColCount (letters : List Char) : Int := colCountLoop letters.reverse 0 0

/-- `text.find(element)`: the first position at which `element` occurs -/
def strFind (element : List Char) : List Char → Option Nat
  | [] => if element = [] then some 0 else none
  | c :: rest => if element.isPrefixOf (c :: rest) then some 0 else (strFind element rest).map (· + 1)

/-- `split_by_sequence`, file_reader_utils.py:15-25 -/
def splitBySequence (text : List Char) : List (List Char) → Except Err (List (List Char))
  | [] => .ok [text]
  | element :: rest =>
    match strFind element text with
    | none => .error .value
    | some idx => do
      let chunks ← splitBySequence (text.drop (element.length + idx)) rest
      .ok (text.take idx :: chunks)

/-- `DataTypes.round`, datatypes.py:325-371, for numbers (`epoch = 0`); `up = none` is Python's None; `multiple = 0` is ZeroDivisionError. -/
def dtRound (value multiple : Rat) (up : Option Bool) : Except Err Rat :=
  if value = 0 then .ok value
  else if multiple = 0 then .error .zeroDivision
  else
    let low := (Rat.floor (value / multiple) : Rat) * multiple
    let high := low + multiple
    match up with
    | some true => .ok high
    | some false => .ok low
    | none => if |high - value| < |value - low| then .ok high else .ok low

/-- `_create_numpy_header`, import_utils.py:472-489: the bytes written; `headerStr` is `str(header).encode("ascii")`.
`int.to_bytes(2, …)` raises OverflowError for numbers that need more than two bytes. -/
def numpyHeader (headerStr : List UInt8) : Except Err (List UInt8) :=
  let magic : List UInt8 := [0x93, 78, 85, 77, 80, 89]
  let major : List UInt8 := [1]
  let minor : List UInt8 := [0]
  let headerLen := headerStr.length
  let padding := 64 - (magic.length + major.length + minor.length + 2 + headerLen) % 64
  if headerLen + padding ≥ 65536 then .error .overflow
  else .ok (magic ++ major ++ minor ++ [UInt8.ofNat ((headerLen + padding) % 256), UInt8.ofNat ((headerLen + padding) / 256)] ++ headerStr ++
    (List.replicate (padding - 1) 32 ++ [10]))

end Tablite
