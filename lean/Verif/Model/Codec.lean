import Verif.Spec.PySlice
import Verif.Model.Dates
import Mathlib.Data.Nat.Digits.Defs
import Mathlib.Data.Rat.Floor

/-! Byte and JSON forms of single values: `DataTypes.to_bytes`, `from_type_code`, `to_json`, `from_json`
(tablite/datatypes.py), and the temporary page format of the Excel importer (tablite/import_utils.py).

Text is a list of code points, so that lone surrogates, which Python strings may hold, exist here too. Bytes are
numbers below 256. Doubles are the rationals they denote, plus the three special values; every arithmetic operation on
doubles is followed by a rounding function `fl`. The sign of zero is not modelled. Numpy scalars are not modelled. -/
namespace Tablite

/-- text as code points -/
abbrev PyText := List Nat

/-- `str.encode('utf-8')` of one code point; lone surrogates raise -/
def utf8Char (c : Nat) : Except Err (List Nat) :=
  if c < 128 then .ok [c]
  else if c < 2048 then .ok [192 + c / 64, 128 + c % 64]
  else if c < 65536 then
    if 55296 ≤ c ∧ c < 57344 then .error .value else .ok [224 + c / 4096, 128 + c / 64 % 64, 128 + c % 64]
  else .ok [240 + c / 262144, 128 + c / 4096 % 64, 128 + c / 64 % 64, 128 + c % 64]

/-- `str.encode('utf-8')` (datatypes.py:70) -/
def utf8Encode : PyText → Except Err (List Nat)
  | [] => .ok []
  | c :: l => (utf8Char c).bind fun h => (utf8Encode l).bind fun t => .ok (h ++ t)

/-- a continuation byte -/
def isCont (b : Nat) : Bool := 128 ≤ b && b < 192

/-- `bytes.decode('utf-8')` (datatypes.py:127): strict, so overlong forms, surrogates and stray bytes raise -/
def utf8Decode : List Nat → Except Err PyText
  | [] => .ok []
  | a :: r =>
    if a < 128 then (utf8Decode r).bind fun t => .ok (a :: t)
    else if a < 194 then .error .value
    else if a < 224 then
      match r with
      | b :: r => if isCont b then (utf8Decode r).bind fun t => .ok (((a - 192) * 64 + (b - 128)) :: t) else .error .value
      | _ => .error .value
    else if a < 240 then
      match r with
      | b :: c :: r =>
        let p := (a - 224) * 4096 + (b - 128) * 64 + (c - 128)
        if isCont b && isCont c && (2048 ≤ p) && !(55296 ≤ p && p < 57344) then (utf8Decode r).bind fun t => .ok (p :: t)
        else .error .value
      | _ => .error .value
    else
      match r with
      | b :: c :: d :: r =>
        let p := (a - 240) * 262144 + (b - 128) * 4096 + (c - 128) * 64 + (d - 128)
        if isCont b && isCont c && isCont d && (65536 ≤ p) && (p < 1114112) then (utf8Decode r).bind fun t => .ok (p :: t)
        else .error .value
      | _ => .error .value

/-- the text of a literal -/
def txt (s : String) : PyText := s.toList.map Char.toNat

/-- decimal digits of a natural number -/
def natText (n : Nat) : PyText := if n = 0 then [48] else (Nat.digits 10 n).reverse.map (48 + ·)

/-- `str` of an int (datatypes.py:64). The digit limit recent Python versions put on this conversion is not modelled. -/
def intText (z : Int) : PyText := if z < 0 then 45 :: natText z.natAbs else natText z.natAbs

/-- is an ASCII digit -/
def isDig (c : Nat) : Bool := 48 ≤ c && c < 58

/-- value of a digit sequence -/
def parseNatText (t : PyText) : Except Err Nat :=
  if t ≠ [] ∧ t.all isDig then .ok (t.foldl (fun a c => a * 10 + (c - 48)) 0) else .error .value

/-- `int(text)` (datatypes.py:121). Simplified: spaces, underscores and non-ASCII digits, which `int` accepts, raise here. -/
def parseIntText : PyText → Except Err Int
  | 45 :: t => (parseNatText t).bind fun n => .ok (-(n : Int))
  | 43 :: t => (parseNatText t).bind fun n => .ok (n : Int)
  | t => (parseNatText t).bind fun n => .ok (n : Int)

/-- `datetime.date` -/
structure PyDate where
  y : Nat
  m : Nat
  d : Nat
deriving DecidableEq, Repr

/-- `datetime.time`: hour, minute, second, microsecond and the offset from UTC in minutes, if any.
Offsets with seconds and `fold` are not modelled. -/
structure PyTime where
  h : Nat
  m : Nat
  s : Nat
  us : Nat
  off : Option Int
deriving DecidableEq, Repr

/-- two, four and six digit numbers -/
def pad2 (n : Nat) : PyText := [48 + n / 10, 48 + n % 10]
def pad4 (n : Nat) : PyText := pad2 (n / 100) ++ pad2 (n % 100)
def pad6 (n : Nat) : PyText := pad2 (n / 10000) ++ pad4 (n % 10000)

/-- `date.isoformat()` (datatypes.py:79) -/
def isoDate (d : PyDate) : PyText := pad4 d.y ++ 45 :: (pad2 d.m ++ 45 :: pad2 d.d)

/-- UTC offset as written by `isoformat` -/
def isoOff : Option Int → PyText
  | none => []
  | some z => (if z < 0 then 45 else 43) :: (pad2 (z.natAbs / 60) ++ 58 :: pad2 (z.natAbs % 60))

/-- `time.isoformat()` (datatypes.py:82) -/
def isoTime (t : PyTime) : PyText :=
  pad2 t.h ++ 58 :: (pad2 t.m ++ 58 :: (pad2 t.s ++ ((if t.us = 0 then [] else 46 :: pad6 t.us) ++ isoOff t.off)))

/-- `datetime.isoformat()` (datatypes.py:76) -/
def isoDatetime (d : PyDate) (t : PyTime) : PyText := isoDate d ++ 84 :: isoTime t

/-- reads two digits -/
def read2 : PyText → Except Err (Nat × PyText)
  | a :: b :: r => if isDig a && isDig b then .ok ((a - 48) * 10 + (b - 48), r) else .error .value
  | _ => .error .value

def read4 (t : PyText) : Except Err (Nat × PyText) :=
  (read2 t).bind fun a => (read2 a.2).bind fun b => .ok (a.1 * 100 + b.1, b.2)

def read6 (t : PyText) : Except Err (Nat × PyText) :=
  (read2 t).bind fun a => (read4 a.2).bind fun b => .ok (a.1 * 10000 + b.1, b.2)

/-- expects one character -/
def expect (c : Nat) : PyText → Except Err PyText
  | a :: r => if a = c then .ok r else .error .value
  | [] => .error .value

/-- days of a month, as the constructor of `datetime.date` checks them -/
def monthDays (y m : Nat) : Nat :=
  if m = 2 then (if isLeapYear y then 29 else 28) else if m = 4 ∨ m = 6 ∨ m = 9 ∨ m = 11 then 30 else 31

/-- range checks of the constructor of `datetime.date` -/
def dateOk (d : PyDate) : Bool :=
  1 ≤ d.y && d.y ≤ 9999 && 1 ≤ d.m && d.m ≤ 12 && 1 ≤ d.d && d.d ≤ monthDays d.y d.m

/-- range checks of the constructors of `datetime.time` and `datetime.timezone` -/
def timeOk (t : PyTime) : Bool :=
  t.h < 24 && t.m < 60 && t.s < 60 && t.us < 1000000 && (match t.off with | none => true | some z => decide (z.natAbs < 1440))

/-- leading `YYYY-MM-DD` -/
def readDate (t : PyText) : Except Err (PyDate × PyText) :=
  (read4 t).bind fun y => (expect 45 y.2).bind fun r => (read2 r).bind fun m => (expect 45 m.2).bind fun r =>
    (read2 r).bind fun d => if dateOk ⟨y.1, m.1, d.1⟩ then .ok (⟨y.1, m.1, d.1⟩, d.2) else .error .value

/-- `date.fromisoformat` (datatypes.py:136). Simplified: only the form `isoformat` writes is read. -/
def fromIsoDate (t : PyText) : Except Err PyDate :=
  (readDate t).bind fun x => if x.2 = [] then .ok x.1 else .error .value

/-- microseconds after the seconds, if any -/
def readUs : PyText → Except Err (Nat × PyText)
  | 46 :: r => read6 r
  | r => .ok (0, r)

/-- UTC offset at the end, if any -/
def readOff : PyText → Except Err (Option Int)
  | [] => .ok none
  | c :: r => (read2 r).bind fun h => (expect 58 h.2).bind fun r => (read2 r).bind fun m =>
      if m.2 = [] ∧ (c = 43 ∨ c = 45) then .ok (some ((if c = 45 then -1 else 1) * ((h.1 * 60 + m.1 : Nat) : Int))) else .error .value

/-- `time.fromisoformat` (datatypes.py:139). Simplified: only the forms `isoformat` writes are read. -/
def fromIsoTime (t : PyText) : Except Err PyTime :=
  (read2 t).bind fun h => (expect 58 h.2).bind fun r => (read2 r).bind fun m => (expect 58 m.2).bind fun r =>
    (read2 r).bind fun s => (readUs s.2).bind fun us => (readOff us.2).bind fun off =>
      if timeOk ⟨h.1, m.1, s.1, us.1, off⟩ then .ok ⟨h.1, m.1, s.1, us.1, off⟩ else .error .value

/-- `datetime.fromisoformat` (datatypes.py:133): a date, one separating character and a time.
Simplified: only the forms `isoformat` writes are read. -/
def fromIsoDatetime (t : PyText) : Except Err (PyDate × PyTime) :=
  (readDate t).bind fun x => match x.2 with
    | _ :: r => (fromIsoTime r).bind fun y => .ok (x.1, y)
    | [] => .error .value

/-- doubles -/
inductive Dbl where
  | fin (q : Rat)
  | posInf
  | negInf
  | nan
deriving DecidableEq

/-- what the conversions use from the Python runtime: rounding to a double, `str` and `float` of doubles,
and pickling of other objects -/
structure Runtime (O : Type) where
  fl : Rat → Rat
  text : Dbl → PyText
  parse : PyText → Except Err Dbl
  dumps : O → List Nat
  loads : List Nat → Except Err O

/-- Python values -/
inductive PV (O : Type) where
  | none
  | bool (b : Bool)
  | int (z : Int)
  | float (x : Dbl)
  | str (t : PyText)
  | bytes (b : List Nat)
  | datetime (d : PyDate) (t : PyTime)
  | date (d : PyDate)
  | time (t : PyTime)
  | timedelta (days secs us : Int)
  | other (o : O)
deriving DecidableEq

/-- Python types -/
inductive PT where
  | none | bool | int | float | str | bytes | datetime | date | time | timedelta | other
deriving DecidableEq

/-- `type(v)` -/
def PV.type {O : Type} : PV O → PT
  | .none => .none | .bool _ => .bool | .int _ => .int | .float _ => .float | .str _ => .str | .bytes _ => .bytes
  | .datetime _ _ => .datetime | .date _ => .date | .time _ => .time | .timedelta _ _ _ => .timedelta | .other _ => .other

/-- `_type_codes`, `type_code` (datatypes.py:33-55) -/
def typeCode {O : Type} (v : PV O) : Nat :=
  match v.type with
  | .none => 1 | .bool => 2 | .int => 3 | .float => 4 | .str => 5 | .bytes => 6
  | .datetime => 7 | .date => 8 | .time => 9 | .timedelta => 10 | .other => 11

/-- integer part towards zero -/
def ratTrunc (q : Rat) : Int := if 0 ≤ q then ⌊q⌋ else ⌈q⌉

/-- nearest integer, ties to the even one -/
def roundEven (q : Rat) : Int :=
  if q - ⌊q⌋ < 1 / 2 then ⌊q⌋
  else if 1 / 2 < q - ⌊q⌋ then ⌊q⌋ + 1
  else if ⌊q⌋ % 2 = 0 then ⌊q⌋ else ⌊q⌋ + 1

/-- microseconds of a day -/
def dayUs : Int := 86400000000

/-- a `timedelta` from a number of microseconds: normalised fields, or OverflowError -/
def tdOf (total : Int) : Except Err (Int × Int × Int) :=
  if -999999999 ≤ total / dayUs ∧ total / dayUs ≤ 999999999 then
    .ok (total / dayUs, total % dayUs / 1000000, total % 1000000)
  else .error .overflow

/-- `timedelta(days, seconds)` for an int and a double: the whole seconds are added exactly, the fraction is scaled
to microseconds in double arithmetic and rounded -/
def timedelta (fl : Rat → Rat) (days : Int) (seconds : Dbl) : Except Err (Int × Int × Int) :=
  match seconds with
  | .fin q => tdOf ((days * 86400 + ratTrunc q) * 1000000 + roundEven (fl ((q - ratTrunc q) * 1000000)))
  | .nan => .error .value
  | _ => .error .overflow

/-- `to_bytes` with `bytes_functions` (datatypes.py:57-112) -/
def toBytes {O : Type} (R : Runtime O) : PV O → Except Err (List Nat)
  | .none => .ok (txt "None")
  | .bool b => utf8Encode (if b then txt "True" else txt "False")
  | .int z => utf8Encode (intText z)
  | .float x => utf8Encode (R.text x)
  | .str t => utf8Encode t
  | .bytes b => .ok b
  | .datetime d t => utf8Encode (isoDatetime d t)
  | .date d => utf8Encode (isoDate d)
  | .time t => utf8Encode (isoTime t)
  | .timedelta days secs _ => utf8Encode (R.text (.fin (R.fl (days + R.fl (secs / 86400)))))
  | .other o => .ok (R.dumps o)

/-- `_timedelta` (datatypes.py:141-144) -/
def bytesToTimedelta {O : Type} (R : Runtime O) (b : List Nat) : Except Err (PV O) :=
  (R.parse b).bind fun x =>
    match x with
    | .fin q => (timedelta R.fl (ratTrunc q) (.fin (R.fl (86400 * R.fl (q - ratTrunc q))))).bind fun x => .ok (.timedelta x.1 x.2.1 x.2.2)
    | .nan => .error .value
    | _ => .error .overflow

/-- `from_type_code` with `type_code_functions` (datatypes.py:114-180) -/
def fromTypeCode {O : Type} (R : Runtime O) (b : List Nat) : Nat → Except Err (PV O)
  | 1 => .ok .none
  | 2 => (utf8Decode b).bind fun t => .ok (.bool (t == txt "True"))
  | 3 => (utf8Decode b).bind fun t => (parseIntText t).bind fun z => .ok (.int z)
  | 4 => (utf8Decode b).bind fun t => (R.parse t).bind fun x => .ok (.float x)
  | 5 => (utf8Decode b).bind fun t => .ok (.str t)
  | 6 => .ok (.bytes b)
  | 7 => (utf8Decode b).bind fun t => (fromIsoDatetime t).bind fun x => .ok (.datetime x.1 x.2)
  | 8 => (utf8Decode b).bind fun t => (fromIsoDate t).bind fun x => .ok (.date x)
  | 9 => (utf8Decode b).bind fun t => (fromIsoTime t).bind fun x => .ok (.time x)
  | 10 => bytesToTimedelta R b
  | 11 => (R.loads b).bind fun o => .ok (.other o)
  | _ => .error .key

/-! ## JSON -/

/-- JSON scalars -/
inductive JV where
  | null
  | str (t : PyText)
  | int (z : Int)
  | float (x : Dbl)
deriving DecidableEq

/-- `to_json` (datatypes.py:373-407) -/
def toJson {O : Type} (R : Runtime O) : PV O → Except Err JV
  | .none => .ok .null
  | .bool b => .ok (.str (if b then txt "True" else txt "False"))
  | .int z => .ok (.int z)
  | .str t => .ok (.str t)
  | .float x => .ok (.float x)
  | .datetime d t => .ok (.str (isoDatetime d t))
  | .time t => .ok (.str (isoTime t))
  | .date d => .ok (.str (isoDate d))
  | .timedelta days secs us =>
    .ok (.str (txt "P" ++ (intText days ++ (txt "DT" ++ (R.text (.fin (R.fl (secs + R.fl (us / 1000000)))) ++ txt "S")))))
  | .bytes _ => .error .type
  | .other _ => .error .type

/-- the texts of `DataTypes.nones` (datatypes.py:30) -/
def noneTexts : List PyText := [txt "null", txt "Null", txt "NULL", txt "#N/A", txt "#n/a", txt "", txt "None"]

/-- `v in DataTypes.nones`; a NaN is taken to be the object `np.nan` -/
def inNones : JV → Bool
  | .null => true
  | .str t => noneTexts.contains t
  | .int _ => false
  | .float x => x == .nan

/-- `text.split("DT")` (datatypes.py:445) -/
def splitDT : PyText → List PyText
  | [] => [[]]
  | [c] => [[c]]
  | c :: d :: r =>
    if c = 68 ∧ d = 84 then [] :: splitDT r
    else match splitDT (d :: r) with
      | h :: t => (c :: h) :: t
      | [] => [[c]]

/-- `from_json` for a text and `timedelta` (datatypes.py:444-448) -/
def textToTimedelta {O : Type} (R : Runtime O) (t : PyText) : Except Err (PV O) :=
  match splitDT t with
  | a :: b :: _ =>
    (parseIntText (a.dropWhile (· == 80))).bind fun days =>
      (R.parse (b.reverse.dropWhile (· == 83)).reverse).bind fun x =>
        (timedelta R.fl days x).bind fun x => .ok (.timedelta x.1 x.2.1 x.2.2)
  | _ => .error .index

/-- `from_json` once the value is known not to stand for `None` (datatypes.py:425-450). `dtype` is a type object,
so the error messages' `str(dtype)` is left out. -/
def fromJsonCast {O : Type} (R : Runtime O) (v : JV) (dtype : PT) : Except Err (PV O) :=
  match dtype, v with
  | .int, .int z => .ok (.int z)
  | .int, .str t => (parseIntText t).bind fun z => .ok (.int z)
  | .int, .float (.fin q) => .ok (.int (ratTrunc q))
  | .int, .float .nan => .error .value
  | .int, .float _ => .error .overflow
  | .str, .str t => .ok (.str t)
  | .str, .int z => .ok (.str (intText z))
  | .str, .float x => .ok (.str (R.text x))
  | .float, .float x => .ok (.float x)
  | .float, .int z => .ok (.float (.fin (R.fl z)))
  | .float, .str t => (R.parse t).bind fun x => .ok (.float x)
  | .bool, .str t => if t = txt "False" then .ok (.bool false) else if t = txt "True" then .ok (.bool true) else .error .value
  | .bool, _ => .error .value
  | .date, .str t => (fromIsoDate t).bind fun x => .ok (.date x)
  | .datetime, .str t => (fromIsoDatetime t).bind fun x => .ok (.datetime x.1 x.2)
  | .time, .str t => (fromIsoTime t).bind fun x => .ok (.time x)
  | .timedelta, .str t => textToTimedelta R t
  | .timedelta, _ => .error .attribute
  | _, _ => .error .type

/-- `from_json` (datatypes.py:409-450) -/
def fromJson {O : Type} (R : Runtime O) (v : JV) (dtype : PT) : Except Err (PV O) :=
  if inNones v then
    if dtype = .str ∧ v = .str [] then .ok (.str []) else .ok .none
  else fromJsonCast R v dtype

/-! ## temporary page of the Excel importer -/

/-- little-endian bytes of a number -/
def leBytes : Nat → Nat → List Nat
  | 0, _ => []
  | k + 1, n => n % 256 :: leBytes k (n / 256)

/-- number from little-endian bytes -/
def leNat : List Nat → Nat
  | [] => 0
  | b :: l => b + 256 * leNat l

/-- `struct.pack('q', value)` on the little-endian platforms the project targets; raises outside 64 bits -/
def packQ (z : Int) : Except Err (List Nat) :=
  if -9223372036854775808 ≤ z ∧ z < 9223372036854775808 then .ok (leBytes 8 (z % 18446744073709551616).toNat) else .error .value

/-- `struct.unpack('q', bytes)[0]` -/
def unpackQ (b : List Nat) : Except Err Int :=
  if b.length = 8 then
    .ok (if leNat b < 9223372036854775808 then (leNat b : Int) else (leNat b : Int) - 18446744073709551616)
  else .error .value

/-- `struct.pack('d', …)` and `struct.unpack('d', …)`, and pickling -/
structure XlsRuntime (O : Type) where
  packD : Dbl → List Nat
  unpackD : List Nat → Except Err Dbl
  dumps : PV O → List Nat
  loads : List Nat → Except Err (PV O)

/-- type letter and payload of one cell (import_utils.py:338-353) -/
def xlsPayload {O : Type} (R : XlsRuntime O) : PV O → Except Err (Nat × List Nat)
  | .int z => (packQ z).bind fun b => .ok (113, b)
  | .float x => .ok (100, R.packD x)
  | .str t => (utf8Encode t).bind fun b => .ok (115, b)
  | .bool v => .ok (98, if v then [49] else [48])
  | .none => .ok (110, [])
  | .date d => .ok (112, R.dumps (.date d))
  | .time t => .ok (112, R.dumps (.time t))
  | .datetime d t => .ok (112, R.dumps (.datetime d t))
  | _ => .error .other

/-- one record: type letter, four length bytes, payload; payloads of 2^32 bytes or more raise (import_utils.py:355-360) -/
def xlsRecord {O : Type} (R : XlsRuntime O) (v : PV O) : Except Err (List Nat) :=
  (xlsPayload R v).bind fun x =>
    if x.2.length < 4294967296 then .ok (x.1 :: (leBytes 4 x.2.length ++ x.2)) else .error .value

/-- the file after writing all cells -/
def xlsWrite {O : Type} (R : XlsRuntime O) : List (PV O) → Except Err (List Nat)
  | [] => .ok []
  | v :: l => (xlsRecord R v).bind fun a => (xlsWrite R l).bind fun b => .ok (a ++ b)

/-- value of one record (import_utils.py:667-680) -/
def xlsValue {O : Type} (R : XlsRuntime O) (ptype : Nat) (b : List Nat) : Except Err (PV O) :=
  if ptype = 113 then (unpackQ b).bind fun z => .ok (.int z)
  else if ptype = 100 then (R.unpackD b).bind fun x => .ok (.float x)
  else if ptype = 115 then (utf8Decode b).bind fun t => .ok (.str t)
  else if ptype = 98 then .ok (.bool (b == [49]))
  else if ptype = 110 then .ok .none
  else if ptype = 112 then R.loads b
  else .error .other

/-- the reading loop of `_fix_xls_page` (import_utils.py:661-682); `fuel` bounds the number of records, each of which
takes at least five bytes. A read past the end gives what is left, as `fh.read` does; `struct.unpack('I', …)` raises on
fewer than four bytes. -/
def xlsReadFuel {O : Type} (R : XlsRuntime O) : Nat → List Nat → Except Err (List (PV O))
  | _, [] => .ok []
  | 0, _ => .error .other
  | fuel + 1, t :: r =>
    if (r.take 4).length < 4 then .error .value
    else
      (xlsValue R t ((r.drop 4).take (leNat (r.take 4)))).bind fun v =>
        (xlsReadFuel R fuel ((r.drop 4).drop (leNat (r.take 4)))).bind fun l => .ok (v :: l)

def xlsRead {O : Type} (R : XlsRuntime O) (file : List Nat) : Except Err (List (PV O)) := xlsReadFuel R file.length file

end Tablite
