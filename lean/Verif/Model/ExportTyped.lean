import Verif.Model.Export
import Verif.Model.ImportTyped
import Verif.Props.InferInt
/-!
# Export to `.csv` and import with the default settings: `tablite/export_utils.py` (`text_writer`), `tablite/core.py` (`Table.from_file`)

`renderSigned renderNat` of `Verif.Props.InferInt` is the decimal text of an integer, Python's `str`.
Not modelled: timedeltas, and times with a time zone.
-/

namespace Tablite

/-- values of a table -/
inductive CsvVal
  | none
  | bool (b : Bool)
  | int (n : Int)
  | float (q : Rat)
  | text (s : List Char)
  | date (y m d : Nat)
  | time (h mi s us : Nat)
  | datetime (y m d h mi s us : Nat)
  deriving DecidableEq

/-- the value as the import gives it -/
def CsvVal.imported : CsvVal → InfVal
  | .none => .none
  | .bool b => .bool b
  | .int n => .int n
  | .float q => .float q
  | .text s => .str s
  | .date y m d => .date y m d
  | .time h mi s us => .time [h, mi, s] us Option.none
  | .datetime y m d h mi s us => .datetime (y, m, d) ([h, mi, s], us, Option.none)

/-- `date.isoformat()` -/
def dateChars (y m d : Nat) : List Char :=
  [digitChar (y / 1000), digitChar (y / 100), digitChar (y / 10), digitChar y, '-', digitChar (m / 10), digitChar m, '-', digitChar (d / 10), digitChar d]

/-- `time.isoformat()`: microseconds are written if there are any -/
def timeChars (h mi s us : Nat) : List Char :=
  [digitChar (h / 10), digitChar h, ':', digitChar (mi / 10), digitChar mi, ':', digitChar (s / 10), digitChar s] ++
    if us = 0 then [] else ['.', digitChar (us / 100000), digitChar (us / 10000), digitChar (us / 1000), digitChar (us / 100), digitChar (us / 10), digitChar us]

/-- the local function `txt` of `text_writer`, export_utils.py:171-179, with `DataTypes.to_json`, datatypes.py:374-407; `ft` is Python's `str` of a float -/
def csvText (ft : Rat → List Char) : CsvVal → List Char
  | .none => []
  | .bool b => if b then "True".toList else "False".toList
  | .int n => renderSigned renderNat n
  | .float q => ft q
  | .text s => s
  | .date y m d => dateChars y m d
  | .time h mi s us => timeChars h mi s us
  | .datetime y m d h mi s us => dateChars y m d ++ 'T' :: timeChars h mi s us

/-- `table.to_csv(path)`, then `Table.from_file(path)` with the default settings (core.py:46-210): comma, no text qualifier, white space removed, types
guessed; `pf` is Nim's `parseFloat` -/
def csvRoundTrip (pf : List Char → Option Rat) (ft : Rat → List Char) (mk : List Char → Nat → List Char) (num : Nat → List Char) (ps : Nat) (t : Tbl (List Char) CsvVal) :
    Except Err (List (List Char × List (List InfVal))) := do
  let text ← textWriter (csvText ft) CsvVal.none ',' t
  importTyped pf mk num (readDialect Option.none Option.none true) {} ps (readLines [] text)

end Tablite
