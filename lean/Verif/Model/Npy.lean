import Verif.Model.Pickle
import Verif.Model.Dates

/-! Page files of the native code: `nimlite/numpy.nim` (header, typed pages, choice of format) on a little-endian machine.

A file is a list of bytes. A float is its bits, a text of a typed page the list of its code points. Calendar arithmetic of
Nim's `std/times` is written out where it is used (`toEpochDay`); its inverse, `utc()`, is taken to be the same calendar
as `days2Components`. `divmod` of the native code goes through a double; it is exact here, as it is for all values up to
2^53 and for all whole seconds of years up to 9999. Durations (`m8`) are left out: no page is written in that format. -/
namespace Tablite

/-! ## header -/

/-- the text of the header (numpy.nim:346) -/
def npyText (descr : PyText) (n : Nat) : PyText :=
  txt "{'descr': '" ++ (descr ++ (txt "', 'fortran_order': False, 'shape': (" ++ (natText n ++ txt ",)}")))

/-- magic, major and minor version (numpy.nim:12-14) -/
def npyMagic : List Nat := [147, 78, 85, 77, 80, 89, 1, 0]

/-- `padding` (numpy.nim:348) -/
def npyPadding (len : Nat) : Nat := 64 - (6 + 1 + 1 + 2 + len) % 64

/-- `writeNumpyHeader` (numpy.nim:345-362) -/
def npyHeader (descr : PyText) (n : Nat) : List Nat :=
  npyMagic ++ (leBytes 2 ((npyPadding (npyText descr n).length + (npyText descr n).length) % 65536) ++
    (npyText descr n ++ (List.replicate (npyPadding (npyText descr n).length - 1) 32 ++ [10])))

/-- the text before the first `c` and the text after it -/
def cutAt (c : Nat) : PyText → Option (PyText × PyText)
  | [] => none
  | x :: r => if x = c then some ([], r) else (cutAt c r).map fun y => (x :: y.1, y.2)

/-- `consumeHeaderString` (numpy.nim:395-417); the rest of the header stands for the offset -/
def headString (h : PyText) : Except Err (PyText × PyText) :=
  match cutAt 39 h with
  | none => .error .other
  | some a =>
    match cutAt 39 a.2 with
    | none => .error .other
    | some b => .ok b

/-- ASCII letters and digits -/
def isAlnum (c : Nat) : Bool := (48 ≤ c && c < 58) || (65 ≤ c && c < 91) || (97 ≤ c && c < 123)

/-- ASCII lower case -/
def lowerAscii (t : PyText) : PyText := t.map fun c => if 65 ≤ c ∧ c < 91 then c + 32 else c

/-- `consumeBool` (numpy.nim:419-446); without a comma the value is empty, which is no boolean -/
def headBool (h : PyText) : Except Err (Bool × PyText) :=
  match cutAt 44 (h.dropWhile fun c => !isAlnum c) with
  | none => .error .other
  | some a => if lowerAscii a.1 = txt "true" then .ok (true, a.2) else if lowerAscii a.1 = txt "false" then .ok (false, a.2) else .error .other

/-- the scan of `consumeShape` for the text between the last opening parenthesis and the first closing one
(numpy.nim:453-461); the text so far is kept reversed -/
def shapeScan : Option PyText → PyText → Except Err (PyText × PyText)
  | _, [] => .error .other
  | start, c :: r =>
    if c = 41 then
      match start with
      | none => .error .other
      | some t => .ok (t.reverse, c :: r)
    else if c = 40 then shapeScan (some []) r
    else shapeScan (start.map (c :: ·)) r

/-- `split(',')` -/
def splitComma : PyText → List PyText
  | [] => [[]]
  | c :: r =>
    if c = 44 then [] :: splitComma r
    else
      match splitComma r with
      | [] => [[c]]
      | t :: l => (c :: t) :: l

/-- the numbers of a shape: an empty piece is allowed at the end only (numpy.nim:468-475). Nim's `parseInt` also takes
signs and underscores, which are errors here. -/
def shapeInts : List PyText → Except Err (List Nat)
  | [] => .ok []
  | [t] => if t = [] then .ok [] else (parseNatText t).bind fun n => .ok [n]
  | t :: l => if t = [] then .error .other else (parseNatText t).bind fun n => (shapeInts l).bind fun r => .ok (n :: r)

/-- `consumeShape` (numpy.nim:448-477); a single character between the parentheses is refused (`start_index == end_index`) -/
def headShape (h : PyText) : Except Err (List Nat × PyText) :=
  (shapeScan none h).bind fun a =>
    if a.1.length = 1 then .error .other else (shapeInts (splitComma a.1)).bind fun s => .ok (s, a.2)

/-- page formats (numpy.nim:19-31) -/
inductive NpyType where
  | object
  | str (size : Nat)
  | bool
  | int (size : Nat)
  | float (size : Nat)
  | dateDays
  | dtSec
  | dtMs
  | dtUs
  deriving DecidableEq, Repr

/-- the type letter without byte order and what follows it (numpy.nim:493-543) -/
def descrType (t : PyText) : Except Err NpyType :=
  match t with
  | 79 :: r => if r = [] ∨ r = [56] then .ok .object else .error .other
  | 77 :: r =>
    if r = txt "8[D]" then .ok .dateDays
    else if r = txt "8[us]" then .ok .dtUs
    else if r = txt "8[ms]" then .ok .dtMs
    else if r = txt "8[s]" then .ok .dtSec
    else .error .other
  | 98 :: r => (parseNatText r).bind fun n => if n = 1 then .ok .bool else .error .other
  | 105 :: r => (parseNatText r).bind fun n => .ok (.int n)
  | 102 :: r => (parseNatText r).bind fun n => .ok (.float n)
  | 85 :: r => (parseNatText r).bind fun n => if n = 0 then .error .other else .ok (.str n)
  | _ => .error .other

/-- the byte order mark: `|`, `<`, or none; `>` is accepted too and the order then ignored, which is an error here (numpy.nim:495-502) -/
def descrParse (d : PyText) : Except Err NpyType :=
  match d with
  | 124 :: r => descrType r
  | 60 :: r => descrType r
  | 62 :: _ => .error .other
  | r => descrType r

/-- `consumeDescr` (numpy.nim:479-559) -/
def headDescr (h : PyText) : Except Err (NpyType × PyText) :=
  (headString h).bind fun a => (descrParse a.1).bind fun t =>
    match cutAt 44 a.2 with
    | none => .ok (t, [])
    | some b => .ok (t, b.2)

/-- what has been found of the header so far -/
structure NpyHead where
  descr : Option NpyType
  order : Option Bool
  shape : Option (List Nat)

/-- the loop of `parseHeader` (numpy.nim:586-600) -/
def headLoop : Nat → NpyHead → PyText → Except Err NpyHead
  | 0, s, _ => .ok s
  | k + 1, s, h =>
    (headString h).bind fun a =>
      if a.1 = txt "descr" then (headDescr a.2).bind fun b => headLoop k { s with descr := some b.1 } b.2
      else if a.1 = txt "fortran_order" then (headBool a.2).bind fun b => headLoop k { s with order := some b.1 } b.2
      else if a.1 = txt "shape" then (headShape a.2).bind fun b => headLoop k { s with shape := some b.1 } b.2
      else .error .other

/-- `parseHeader` (numpy.nim:561-605) with the checks of `readPageInfo` (numpy.nim:740-741): format and number of values -/
def parseHeader (h : PyText) : Except Err (NpyType × Nat) :=
  match cutAt 123 h with
  | none => .error .other
  | some a =>
    (headLoop 3 ⟨none, none, none⟩ a.2).bind fun s =>
      match s with
      | ⟨some d, some false, some [n]⟩ => .ok (d, n)
      | _ => .error .other

/-- `readPageInfo` (numpy.nim:721-743): format, number of values and the bytes after the header -/
def npyInfo (file : List Nat) : Except Err (NpyType × Nat × List Nat) :=
  (pTake 8 file).bind fun a =>
    if a.1 = npyMagic then
      (pTake 2 a.2).bind fun b => (pTake (leNat b.1) b.2).bind fun c => (parseHeader c.1).bind fun d => .ok (d.1, d.2, c.2)
    else .error .other

/-! ## values -/

/-- `toEpochDay` of Nim's `std/times`: days from 1970-01-01 to a date -/
def toEpochDay (year m d : Int) : Int :=
  let y := if m ≤ 2 then year - 1 else year
  let era := (if 0 ≤ y then y else y - 399).tdiv 400
  let yoe := y - era * 400
  let doy := (153 * (m + (if 2 < m then -3 else 9)) + 2) / 5 + d - 1
  let doe := yoe * 365 + yoe / 4 - yoe / 100 + doy
  era * 146097 + doe - 719468

/-- a datetime with nanoseconds -/
structure NDT where
  y : Nat
  m : Nat
  d : Nat
  h : Nat
  mi : Nat
  s : Nat
  ns : Nat
  deriving DecidableEq, Repr

/-- a page in memory (numpy.nim:64-104); the rows of a text page have exactly `size` code points, padded with zeros -/
inductive NPage where
  | bool (l : List Bool)
  | int (size : Nat) (l : List Int)
  | float (size : Nat) (l : List Nat)
  | str (size : Nat) (l : List PyText)
  | date (l : List (Nat × Nat × Nat))
  | datetime (l : List NDT)
  | object (vs : List ObjV)
  deriving DecidableEq, Repr

/-- the text of a row (`pgIter`, numpy.nim:166-191) -/
def rowText (row : PyText) : PyText :=
  if row.getLast? ≠ some 0 then row
  else if row.head? = some 0 then []
  else (row.reverse.dropWhile (· = 0)).reverse

/-- the value of an element; a 4 byte float is widened, which is left to `widen` -/
def NPage.vals (widen : Nat → Nat) : NPage → Except Err (List ObjV)
  | .bool l => .ok (l.map .bool)
  | .int _ l => .ok (l.map .int)
  | .float size l => .ok (l.map fun b => .float (if size = 4 then widen b else b))
  | .str _ l => l.mapM fun row => (utf8Encode (rowText row)).map .str
  | .date l => .ok (l.map fun x => .date x.1 x.2.1 x.2.2)
  | .datetime l => .ok (l.map fun x => .datetime x.y x.m x.d x.h x.mi x.s (x.ns / 1000))
  | .object vs => .ok vs

/-! ## saving -/

/-- `writeBuffer` of a signed number of `k` bytes -/
def sintBytes (k : Nat) (z : Int) : List Nat := leBytes k (z % (256 ^ k : Nat)).toNat

/-- `inDays` of a date since the epoch (numpy.nim:956, 980) -/
def dateDays (x : Nat × Nat × Nat) : Int := toEpochDay x.1 x.2.1 x.2.2

/-- seconds of a datetime since the epoch -/
def NDT.secs (x : NDT) : Int := toEpochDay x.y x.m x.d * 86400 + x.h * 3600 + x.mi * 60 + x.s

/-- `inMicroseconds` of a datetime since the epoch (numpy.nim:958, 981) -/
def NDT.micros (x : NDT) : Int := x.secs * 1000000 + (x.ns / 1000 : Nat)

/-- the code points of a row (numpy.nim:364-372) -/
def runeBytes (t : PyText) : List Nat := t.flatMap (leBytes 4)

/-- header and payload of the typed pages (numpy.nim:928-964, 966-975) -/
def saveBools (l : List Bool) : List Nat := npyHeader (txt "|b1") l.length ++ l.map fun b => if b then 1 else 0
def saveInts (size : Nat) (l : List Int) : List Nat := npyHeader (txt "<i" ++ natText size) l.length ++ l.flatMap (sintBytes size)
def saveFloats (size : Nat) (l : List Nat) : List Nat := npyHeader (txt "<f" ++ natText size) l.length ++ l.flatMap (leBytes size)
def saveRows (size : Nat) (l : List PyText) : List Nat := npyHeader (txt "<U" ++ natText size) l.length ++ l.flatMap runeBytes
def saveDates (l : List (Nat × Nat × Nat)) : List Nat := npyHeader (txt "<M8[D]") l.length ++ l.flatMap fun x => sintBytes 8 (dateDays x)
def saveDatetimes (l : List NDT) : List Nat := npyHeader (txt "<M8[us]") l.length ++ l.flatMap fun x => sintBytes 8 x.micros

/-- the fields `writeBool`, `writeInt`, … take from an object of the one kind present (numpy.nim:977-981); the object-to-type
conversions are unchecked in Nim and errors here -/
def asBool : ObjV → Except Err Bool
  | .bool b => .ok b
  | _ => .error .type
def asInt : ObjV → Except Err Int
  | .int z => .ok z
  | _ => .error .type
def asFloat : ObjV → Except Err Nat
  | .float b => .ok b
  | _ => .error .type
def asStr : ObjV → Except Err (List Nat)
  | .str b => .ok b
  | _ => .error .type
def asDate : ObjV → Except Err (Nat × Nat × Nat)
  | .date y m d => .ok (y, m, d)
  | _ => .error .type
def asDatetime : ObjV → Except Err NDT
  | .datetime y m d h mi s us => .ok ⟨y, m, d, h, mi, s, us * 1000⟩
  | _ => .error .type

/-- one padded row of `saveAsUnicode` (numpy.nim:364-372); `toRunes` is strict here -/
def runeRow (longest : Nat) (b : List Nat) : Except Err PyText :=
  (utf8Decode b).bind fun t => .ok (t ++ List.replicate (longest - t.length) 0)

/-- `saveAsUnicode` (numpy.nim:983-997): the width is the longest text in bytes, at least one -/
def saveUnicode (bs : List (List Nat)) : Except Err (List Nat) :=
  let longest := bs.foldl (fun a b => max a b.length) 1
  (bs.mapM (runeRow longest)).bind fun rows => .ok (saveRows longest rows)

/-- the kinds with a non-zero count (numpy.nim:1000-1009) -/
def activeKinds (vs : List ObjV) : List ObjKind := ((kindCounts vs).filter fun x => x.2 ≠ 0).map (·.1)

/-- `save` of an object page (numpy.nim:999-1041) -/
def saveObject (vs : List ObjV) : Except Err (List Nat) :=
  match activeKinds vs with
  | [.bool] => (vs.mapM asBool).map saveBools
  | [.int] => (vs.mapM asInt).map (saveInts 8)
  | [.float] => (vs.mapM asFloat).map (saveFloats 8)
  | [.str] => (vs.mapM asStr).bind saveUnicode
  | [.date] => (vs.mapM asDate).map saveDates
  | [.datetime] => (vs.mapM asDatetime).map saveDatetimes
  | _ => .ok (npyHeader (txt "|O8") vs.length ++ pickleWrite vs)

/-- `save` (numpy.nim:1061-1073) -/
def npySave : NPage → Except Err (List Nat)
  | .bool l => .ok (saveBools l)
  | .int size l => .ok (saveInts size l)
  | .float size l => .ok (saveFloats size l)
  | .str size l => .ok (saveRows size l)
  | .date l => .ok (saveDates l)
  | .datetime l => .ok (saveDatetimes l)
  | .object vs => saveObject vs

/-! ## reading -/

/-- `n` pieces of `k` bytes -/
def chunksOf (k : Nat) : Nat → List Nat → List (List Nat)
  | 0, _ => []
  | n + 1, b => b.take k :: chunksOf k n (b.drop k)

/-- `readPrimitiveBuffer` (numpy.nim:609-623): too few bytes are an error -/
def readChunks (k n : Nat) (b : List Nat) : Except Err (List (List Nat)) :=
  if n * k ≤ b.length then .ok (chunksOf k n b) else .error .other

/-- a signed little-endian number -/
def sintOf (b : List Nat) : Int := if 2 * leNat b < 256 ^ b.length then (leNat b : Int) else (leNat b : Int) - (256 ^ b.length : Nat)

/-- `days2Date` (dateutils.nim:103-106); years before 0 are left out -/
def dateOf (days : Int) : Except Err (Nat × Nat × Nat) :=
  match days2Components days with
  | some (y, m, d) => if 0 ≤ y then .ok (y.toNat, m.toNat, d.toNat) else .error .other
  | none => .error .index

/-- `initTime(s, ns).utc()` -/
def timeOf (s : Int) (ns : Nat) : Except Err NDT :=
  (dateOf (s / 86400)).bind fun x =>
    .ok ⟨x.1, x.2.1, x.2.2, (s % 86400 / 3600).toNat, (s % 3600 / 60).toNat, (s % 60).toNat, ns⟩

/-- `newDateTimeArray_Microseconds` for one element: the microseconds are passed as nanoseconds (numpy.nim:663-664) -/
def dtOfUs (v : Int) : Except Err NDT := timeOf (divmod v 1000000).1 (divmod v 1000000).2.toNat
/-- `newDateTimeArray_Miliseconds` (numpy.nim:654-655): milliseconds times 1000 as nanoseconds -/
def dtOfMs (v : Int) : Except Err NDT := timeOf (divmod v 1000).1 ((divmod v 1000).2 * 1000).toNat
/-- `newDateTimeArray_Seconds` (numpy.nim:646) -/
def dtOfSec (v : Int) : Except Err NDT := timeOf v 0

/-- the code points of `size` times four bytes -/
def rowOf (size : Nat) (b : List Nat) : PyText := (chunksOf 4 size b).map leNat

/-- the page of a format (numpy.nim:745-763, 625-719) -/
def npyBody (t : NpyType) (n : Nat) (b : List Nat) : Except Err NPage :=
  match t with
  | .bool => (readChunks 1 n b).bind fun cs => .ok (.bool (cs.map fun c => leNat c ≠ 0))
  | .int size =>
    if size = 1 ∨ size = 2 ∨ size = 4 ∨ size = 8 then (readChunks size n b).bind fun cs => .ok (.int size (cs.map sintOf)) else .error .other
  | .float size =>
    if size = 4 ∨ size = 8 then (readChunks size n b).bind fun cs => .ok (.float size (cs.map leNat)) else .error .other
  | .str size => (readChunks (4 * size) n b).bind fun cs => .ok (.str size (cs.map (rowOf size)))
  | .dateDays => (readChunks 8 n b).bind fun cs => (cs.mapM fun c => dateOf (sintOf c)).map .date
  | .dtSec => (readChunks 8 n b).bind fun cs => (cs.mapM fun c => dtOfSec (sintOf c)).map .datetime
  | .dtMs => (readChunks 8 n b).bind fun cs => (cs.mapM fun c => dtOfMs (sintOf c)).map .datetime
  | .dtUs => (readChunks 8 n b).bind fun cs => (cs.mapM fun c => dtOfUs (sintOf c)).map .datetime
  | .object => (pickleRead nimUs b).bind fun p => if p.shape.foldl (· * ·) 1 = (n : Int) then .ok (.object p.vals) else .error .other

/-- `readNumpy` (numpy.nim:745-771) -/
def npyRead (file : List Nat) : Except Err NPage := (npyInfo file).bind fun x => npyBody x.1 x.2.1 x.2.2

end Tablite
