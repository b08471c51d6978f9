import Verif.Model.Codec
import Verif.Model.OrdDict

/-! Object pages: the pickle written by `nimlite/pickling.nim` and the stack machine of `nimlite/unpickling.nim`.

A file is a list of bytes, each a number below 256; the platform is little-endian. Nim's memory operations on integers
(`writeBuffer(x.addr, k)`, `cast`, `swapEndian`) are written out on these bytes. Reading past the end of the file is an
error here. The memo holds the value an object had when it was put there (in Nim it is a reference; no list is fetched
from the memo in the files considered). Not modelled: `EMPTY_DICT`, `EMPTY_SET`, `EMPTY_TUPLE`, and the
`numpy.core.multiarray scalar` branch, which calls back into Python; they are errors here. -/
namespace Tablite

/-- the values of an object page (pytypes/pyobjs.nim:12-46). A float is its 64 bits, a string its bytes, a date its
fields, a time its duration in microseconds, a datetime its fields down to the microsecond -/
inductive ObjV where
  | none
  | bool (b : Bool)
  | int (z : Int)
  | float (bits : Nat)
  | str (b : List Nat)
  | date (y m d : Nat)
  | time (us : Nat)
  | datetime (y m d h mi s us : Nat)
  deriving DecidableEq, Repr

/-- the kinds (pytypes/pyobjs.nim:12-20) -/
inductive ObjKind where
  | none | bool | int | float | str | date | time | datetime
  deriving DecidableEq, Repr

/-- `getType` (unpickling.nim:540-549) -/
def ObjV.kind : ObjV → ObjKind
  | .none => .none
  | .bool _ => .bool
  | .int _ => .int
  | .float _ => .float
  | .str _ => .str
  | .date .. => .date
  | .time _ => .time
  | .datetime .. => .datetime

/-! ## writing -/

/-- a writer: from the next memo index to the bytes written and the memo index after -/
abbrev PW := Nat → List Nat × Nat

/-- writing fixed bytes -/
def PW.emit (b : List Nat) : PW := fun k => (b, k)

/-- one writer after the other -/
def PW.seq : List PW → PW
  | [] => fun k => ([], k)
  | w :: l => fun k => ((w k).1 ++ (PW.seq l (w k).2).1, (PW.seq l (w k).2).2)

/-- `writePickleBinput` (pickling.nim:4-13) -/
def wBinput : PW := fun k => (if k ≤ 255 then [113, k % 256] else 114 :: leBytes 4 k, (k + 1) % 4294967296)

/-- `writePickleGlobal` (pickling.nim:15-22) -/
def wGlobal (m n : List Nat) : List Nat := 99 :: (m ++ 10 :: (n ++ [10]))

/-- `writePickleProto` (pickling.nim:24-26) -/
def wProto : List Nat := [128, 3]

/-- `writePickleBinint` (pickling.nim:28-37, 48-62): negative numbers and those above 0xffff are cut to 32 bits -/
def wBinint (z : Int) : List Nat :=
  if z < 0 then 74 :: leBytes 4 (z % 4294967296).toNat
  else if z ≤ 255 then 75 :: leBytes 1 z.toNat
  else if z ≤ 65535 then 77 :: leBytes 2 z.toNat
  else 74 :: leBytes 4 (z % 4294967296).toNat

/-- `writePickleBinfloat` (pickling.nim:39-46): the eight bytes big-endian -/
def wBinfloat (bits : Nat) : List Nat := 71 :: (leBytes 8 bits).reverse

/-- `writePickleShortbinbytes` (pickling.nim:64-70) -/
def wShortbinbytes (b : List Nat) : List Nat := 67 :: b.length % 256 :: b

/-- `writePickleBinunicode` (pickling.nim:72-77) -/
def wBinunicode (b : List Nat) : List Nat := 88 :: (leBytes 4 b.length ++ b)

/-- `writePickleBoolean` (pickling.nim:79-83) -/
def wBoolean (b : Bool) : List Nat := if b then [136] else [137]

/-- `writePickleDateBody` (pickling.nim:85-94): the year big-endian in two bytes, month, day -/
def wDateBody (y m d : Nat) : List Nat := [y / 256 % 256, y % 256, m % 256, d % 256]

/-- the memo and call operations after the argument bytes (pickling.nim:104-108, 126-132) -/
def wCall : PW := PW.seq [wBinput, PW.emit [133], wBinput, PW.emit [82], wBinput]

/-- `writePickleTimeBody` (pickling.nim:112-125): the microseconds are made big-endian in four bytes and the last three
of those are written -/
def wTimeBody (h mi s us : Nat) : List Nat := [h % 256, mi % 256, s % 256, us / 65536 % 256, us / 256 % 256, us % 256]

/-- `writePickleDate` (pickling.nim:96-108) -/
def wDate (y m d : Nat) : PW :=
  PW.seq [PW.emit (wGlobal (txt "datetime") (txt "date")), wBinput, PW.emit [67, 4], PW.emit (wDateBody y m d), wCall]

/-- `getHour` of a time (pytypes.nim:67) -/
def timeHour (us : Nat) : Nat := us / 3600000000 % 24
/-- `getMinute` of a time (pytypes.nim:68-72) -/
def timeMinute (us : Nat) : Nat := us / 60000000 - us / 3600000000 * 60
/-- `getSecond` of a time (pytypes.nim:74-78) -/
def timeSecond (us : Nat) : Nat := us / 1000000 - us / 60000000 * 60
/-- `getMicrosecond` of a time (pytypes.nim:80-84) -/
def timeMicro (us : Nat) : Nat := us - us / 1000000 * 1000000

/-- `writePickleTime` (pickling.nim:134-140) -/
def wTime (us : Nat) : PW :=
  PW.seq [PW.emit (wGlobal (txt "datetime") (txt "time")), wBinput, PW.emit [67, 6],
    PW.emit (wTimeBody (timeHour us) (timeMinute us) (timeSecond us) (timeMicro us)), wCall]

/-- `writePickleDatetime` (pickling.nim:142-149); the length byte `'\10'` is decimal ten -/
def wDatetime (y m d h mi s us : Nat) : PW :=
  PW.seq [PW.emit (wGlobal (txt "datetime") (txt "datetime")), wBinput, PW.emit [67, 10], PW.emit (wDateBody y m d),
    PW.emit (wTimeBody h mi s us), wCall]

/-- `writePicklePyObj` (pickling.nim:151-172) -/
def wObj : ObjV → PW
  | .none => PW.emit [78]
  | .bool b => PW.emit (wBoolean b)
  | .int z => PW.emit (wBinint z)
  | .float bits => PW.emit (wBinfloat bits)
  | .str b => PW.emit (wBinunicode b)
  | .date y m d => wDate y m d
  | .time us => wTime us
  | .datetime y m d h mi s us => wDatetime y m d h mi s us

/-- the part of `writePickleStart` up to the element count (pickling.nim:177-194) -/
def wStartA : PW :=
  PW.seq [PW.emit wProto, PW.emit (wGlobal (txt "numpy.core.multiarray") (txt "_reconstruct")), wBinput,
    PW.emit (wGlobal (txt "numpy") (txt "ndarray")), wBinput, PW.emit (wBinint 0), PW.emit [133], wBinput,
    PW.emit (wShortbinbytes (txt "b")), wBinput, PW.emit [135], wBinput, PW.emit [82], wBinput, PW.emit [40],
    PW.emit (wBinint 1)]

/-- the part of `writePickleStart` after the element count (pickling.nim:196-226) -/
def wStartB : PW :=
  PW.seq [PW.emit [133], wBinput, PW.emit (wGlobal (txt "numpy") (txt "dtype")), wBinput, PW.emit (wBinunicode (txt "O8")),
    wBinput, PW.emit (wBoolean false), PW.emit (wBoolean true), PW.emit [135], wBinput, PW.emit [82], wBinput, PW.emit [40],
    PW.emit (wBinint 3), PW.emit (wBinunicode (txt "|")), wBinput, PW.emit [78], PW.emit [78], PW.emit [78], PW.emit (wBinint (-1)),
    PW.emit (wBinint (-1)), PW.emit (wBinint 63), PW.emit [116], wBinput, PW.emit [98], PW.emit (wBoolean false),
    PW.emit [93], wBinput]

/-- `writePickleStart` (pickling.nim:174-231) -/
def wStart (n : Nat) : PW :=
  PW.seq [wStartA, PW.emit (wBinint n), wStartB, PW.emit (if n > 0 then [40] else [])]

/-- `writePickleFinish` (pickling.nim:233-240) -/
def wFinish (n : Nat) : PW :=
  PW.seq [PW.emit (if n > 0 then [101] else []), PW.emit [116], wBinput, PW.emit [98], PW.emit [46]]

/-- the pickle part of `save` of an object page (numpy.nim:1031-1039); the memo index starts at zero -/
def pickleWrite (vs : List ObjV) : List Nat :=
  (PW.seq [wStart vs.length, PW.seq (vs.map wObj), wFinish vs.length] 0).1

/-! ## reading -/

/-- the objects on the stack (unpickling.nim:13-45) -/
inductive PObj where
  | global (m n : List Nat)
  | bytes (b : List Nat)
  | val (v : ObjV)
  | tuple (l : List PObj)
  | list (l : List PObj)
  | dtype (name : List Nat)
  | array (shape : List Int) (dt : List Nat) (elems : List PObj)

/-- the state of the reading loop (unpickling.nim:574-581); the head of the stack is its top -/
structure PVM where
  inp : List Nat
  stack : List PObj
  meta_ : List (List PObj)
  memo : List (Nat × PObj)

/-- `readOfSize` (unpickling.nim:167-173): the bytes and the rest -/
def pTake (k : Nat) (inp : List Nat) : Except Err (List Nat × List Nat) :=
  if k ≤ inp.length then .ok (inp.take k, inp.drop k) else .error .other

/-- `readLine` (unpickling.nim:61-72) -/
def pLine : List Nat → Except Err (List Nat × List Nat)
  | [] => .error .other
  | c :: r => if c = 10 then .ok ([], r) else (pLine r).bind fun x => .ok (c :: x.1, x.2)

/-- `cast[int32]` of four bytes -/
def sint32 (b : List Nat) : Int := if leNat b < 2147483648 then (leNat b : Int) else (leNat b : Int) - 4294967296

/-- pushing an object -/
def PVM.push (s : PVM) (o : PObj) : PVM := { s with stack := o :: s.stack }

/-- byte `i` of the argument; the checks are off in the release build, so the value past the end is arbitrary: an error here -/
def pByte (b : List Nat) (i : Nat) : Except Err Nat :=
  match b[i]? with
  | some x => .ok x
  | none => .error .other

/-- how the three microsecond bytes are decoded -/
abbrev UsDecode := Nat → Nat → Nat → Nat

/-- `copyMem(addr microsecond, addr bytes[7], 3)` into a four byte number, then `swapEndian32` (unpickling.nim:365-366, 383-384) -/
def nimUs : UsDecode := fun b0 b1 b2 => b0 * 16777216 + b1 * 65536 + b2 * 256

/-- what Python's `datetime` does with the same bytes -/
def pyUs : UsDecode := fun b0 b1 b2 => b0 * 65536 + b1 * 256 + b2

/-- the argument of the datetime constructors: a 1-tuple of bytes (unpickling.nim:338, 350, 373) -/
def callBytes (args : List PObj) : Except Err (List Nat) :=
  match args with
  | [.bytes b] => .ok b
  | _ => .error .other

/-- `datetime.date` (unpickling.nim:337-348) -/
def callDate (b : List Nat) : Except Err PObj :=
  (pByte b 0).bind fun y1 => (pByte b 1).bind fun y0 => (pByte b 2).bind fun m => (pByte b 3).bind fun d =>
    .ok (.val (.date (y1 * 256 + y0) m d))

/-- `datetime.datetime` (unpickling.nim:349-371) -/
def callDatetime (us : UsDecode) (b : List Nat) : Except Err PObj :=
  (pByte b 0).bind fun y1 => (pByte b 1).bind fun y0 => (pByte b 2).bind fun m => (pByte b 3).bind fun d =>
  (pByte b 4).bind fun h => (pByte b 5).bind fun mi => (pByte b 6).bind fun s =>
  (pByte b 7).bind fun u0 => (pByte b 8).bind fun u1 => (pByte b 9).bind fun u2 =>
    .ok (.val (.datetime (y1 * 256 + y0) m d h mi s (us u0 u1 u2)))

/-- `datetime.time` (unpickling.nim:372-386) with `time2NimDuration` (dateutils.nim:125-126) -/
def callTime (us : UsDecode) (b : List Nat) : Except Err PObj :=
  (pByte b 0).bind fun h => (pByte b 1).bind fun mi => (pByte b 2).bind fun s =>
  (pByte b 3).bind fun u0 => (pByte b 4).bind fun u1 => (pByte b 5).bind fun u2 =>
    .ok (.val (.time (h * 3600000000 + mi * 60000000 + s * 1000000 + us u0 u1 u2)))

/-- `numpy.dtype` (unpickling.nim:331-336) -/
def callDtype (args : List PObj) : Except Err PObj :=
  match args with
  | [.val (.str b), _, _] => .ok (.dtype b)
  | _ => .error .other

/-- `newReducePickle` (unpickling.nim:326-416) -/
def pReduce (us : UsDecode) (m n : List Nat) (args : List PObj) : Except Err PObj :=
  if m = txt "numpy.core.multiarray" ∧ n = txt "_reconstruct" then
    if args.length = 3 then .ok (.array [] [] []) else .error .other
  else if m = txt "numpy" ∧ n = txt "dtype" then callDtype args
  else if m = txt "datetime" ∧ n = txt "date" then (callBytes args).bind callDate
  else if m = txt "datetime" ∧ n = txt "datetime" then (callBytes args).bind (callDatetime us)
  else if m = txt "datetime" ∧ n = txt "time" then (callBytes args).bind (callTime us)
  else .error .other

/-- the integers of a shape tuple (unpickling.nim:447) -/
def pShape : List PObj → Except Err (List Int)
  | [] => .ok []
  | .val (.int z) :: l => (pShape l).bind fun r => .ok (z :: r)
  | _ => .error .type

/-- `setState` of an array (unpickling.nim:434-453) -/
def pSetState (st : List PObj) : Except Err PObj :=
  match st with
  | .val (.int ver) :: .tuple sh :: .dtype dt :: _ :: .list elems :: _ =>
    if ver = 1 then (pShape sh).bind fun shape => .ok (.array shape dt elems) else .error .other
  | _ => .error .type

/-- `loadBuild` (unpickling.nim:455-463); the state of a dtype is kept by Nim but never looked at -/
def pBuild (inst : PObj) (st : List PObj) : Except Err PObj :=
  match inst with
  | .dtype n => .ok (.dtype n)
  | .array .. => pSetState st
  | _ => .error .other

/-- the result of one operation: go on, or stop with a value -/
inductive PStep where
  | next (s : PVM)
  | stop (o : PObj)

/-- `loadBinput`, `loadLongBinput` (unpickling.nim:202-214) -/
def pPut (s : PVM) (i : Nat) (r : List Nat) : Except Err PStep :=
  match s.stack with
  | o :: _ => .ok (.next { s with inp := r, memo := (i, o) :: s.memo })
  | _ => .error .index

/-- `loadBinGet`, `loadLongBinGet` (unpickling.nim:216-230) -/
def pGet (s : PVM) (i : Nat) (r : List Nat) : Except Err PStep :=
  match s.memo.lookup i with
  | some o => .ok (.next { s with inp := r, stack := o :: s.stack })
  | none => .error .key

/-- `popMark` (unpickling.nim:289-292): the items above the mark, oldest first, and the stack below -/
def popMark (s : PVM) : Except Err (List PObj × List PObj × List (List PObj)) :=
  match s.meta_ with
  | st :: ms => .ok (s.stack.reverse, st, ms)
  | [] => .error .index

/-- the operations that read an argument after the opcode; `r` is the input after the opcode -/
def pLoadArg (s : PVM) (op : Nat) (r : List Nat) : Except Err PStep :=
  if op = 99 then      -- GLOBAL (unpickling.nim:191-199)
    (pLine r).bind fun m => (pLine m.2).bind fun n => .ok (.next ({ s with inp := n.2 }.push (.global m.1 n.1)))
  else if op = 113 then (pTake 1 r).bind fun x => pPut s (leNat x.1) x.2
  else if op = 114 then (pTake 4 r).bind fun x => pPut s ((sint32 x.1 % 18446744073709551616).toNat) x.2
  else if op = 104 then (pTake 1 r).bind fun x => pGet s (leNat x.1) x.2
  else if op = 106 then (pTake 4 r).bind fun x => pGet s ((sint32 x.1 % 18446744073709551616).toNat) x.2
  else if op = 74 then (pTake 4 r).bind fun x => .ok (.next ({ s with inp := x.2 }.push (.val (.int (sint32 x.1)))))
  else if op = 75 then (pTake 1 r).bind fun x => .ok (.next ({ s with inp := x.2 }.push (.val (.int (leNat x.1)))))
  else if op = 77 then (pTake 2 r).bind fun x => .ok (.next ({ s with inp := x.2 }.push (.val (.int (leNat x.1)))))
  else if op = 71 then (pTake 8 r).bind fun x => .ok (.next ({ s with inp := x.2 }.push (.val (.float (leNat x.1.reverse)))))
  else if op = 67 then -- SHORT_BINBYTES (unpickling.nim:299-310)
    (pTake 1 r).bind fun x => (pTake (leNat x.1) x.2).bind fun y => .ok (.next ({ s with inp := y.2 }.push (.bytes y.1)))
  else if op = 88 then -- BINUNICODE (unpickling.nim:312-323): a negative length reads nothing
    (pTake 4 r).bind fun x => (pTake (sint32 x.1).toNat x.2).bind fun y => .ok (.next ({ s with inp := y.2 }.push (.val (.str y.1))))
  else if op = 128 then -- PROTO (unpickling.nim:182-188)
    (pTake 1 r).bind fun x => if x.1 = [3] then .ok (.next { s with inp := x.2 }) else .error .other
  else .error .other

/-- the operations on the stack alone -/
def pLoadStack (us : UsDecode) (s : PVM) (op : Nat) : Except Err PStep :=
  if op = 133 then     -- TUPLE1 (unpickling.nim:260-267)
    match s.stack with
    | a :: st => .ok (.next { s with stack := .tuple [a] :: st })
    | _ => .error .index
  else if op = 134 then -- TUPLE2 (unpickling.nim:269-277)
    match s.stack with
    | b :: a :: st => .ok (.next { s with stack := .tuple [a, b] :: st })
    | _ => .error .index
  else if op = 135 then -- TUPLE3 (unpickling.nim:279-287)
    match s.stack with
    | c :: b :: a :: st => .ok (.next { s with stack := .tuple [a, b, c] :: st })
    | _ => .error .index
  else if op = 82 then -- REDUCE (unpickling.nim:418-425)
    match s.stack with
    | .tuple args :: .global m n :: st => (pReduce us m n args).bind fun o => .ok (.next { s with stack := o :: st })
    | _ => .error .type
  else if op = 40 then -- MARK (unpickling.nim:427-431)
    .ok (.next { s with stack := [], meta_ := s.stack :: s.meta_ })
  else if op = 136 then .ok (.next (s.push (.val (.bool true))))
  else if op = 137 then .ok (.next (s.push (.val (.bool false))))
  else if op = 78 then .ok (.next (s.push (.val .none)))
  else if op = 116 then -- TUPLE (unpickling.nim:294-297)
    (popMark s).bind fun x => .ok (.next { s with stack := .tuple x.1 :: x.2.1, meta_ := x.2.2 })
  else if op = 98 then -- BUILD (unpickling.nim:455-463)
    match s.stack with
    | .tuple st :: inst :: rest => (pBuild inst st).bind fun o => .ok (.next { s with stack := o :: rest })
    | _ => .error .type
  else if op = 93 then .ok (.next (s.push (.list [])))
  else if op = 97 then -- APPEND (unpickling.nim:465-471)
    match s.stack with
    | v :: .list l :: rest => .ok (.next { s with stack := .list (l ++ [v]) :: rest })
    | _ => .error .type
  else if op = 101 then -- APPENDS (unpickling.nim:473-479)
    (popMark s).bind fun x =>
      match x.2.1 with
      | .list l :: rest => .ok (.next { s with stack := .list (l ++ x.1) :: rest, meta_ := x.2.2 })
      | _ => .error .type
  else if op = 46 then -- STOP (unpickling.nim:481-482)
    match s.stack with
    | o :: _ => .ok (.stop o)
    | _ => .error .index
  else .error .other

/-- the opcodes with an argument -/
def hasArg (op : Nat) : Bool := [99, 113, 114, 104, 106, 74, 75, 77, 71, 67, 88, 128].contains op

/-- `unpickle`: one operation (unpickling.nim:505-538) -/
def pStep (us : UsDecode) (s : PVM) : Except Err PStep :=
  match s.inp with
  | [] => .error .other
  | op :: r => if hasArg op then pLoadArg s op r else pLoadStack us { s with inp := r } op

/-- the loop of `readPickledPage` (unpickling.nim:583-592); each operation takes at least one byte, so the number of
bytes bounds the number of operations -/
def pRun (us : UsDecode) : Nat → PVM → Except Err PObj
  | 0, _ => .error .other
  | fuel + 1, s =>
    (pStep us s).bind fun r =>
      match r with
      | .stop o => .ok o
      | .next s' => pRun us fuel s'

/-- the elements of a page must be values (unpickling.nim:555-559) -/
def pVals : List PObj → Except Err (List ObjV)
  | [] => .ok []
  | .val v :: l => (pVals l).bind fun r => .ok (v :: r)
  | _ => .error .type

/-- the counts of kinds made by `toPage` (unpickling.nim:553-564) -/
def kindCounts (vs : List ObjV) : List (ObjKind × Nat) :=
  vs.foldl (fun d v => dUpd 0 v.kind (· + 1) d) []

/-- an object page in memory: shape, values, counts (unpickling.nim:11) -/
structure ObjPage where
  shape : List Int
  vals : List ObjV
  counts : List (ObjKind × Nat)
  deriving DecidableEq, Repr

/-- `construct`, `toPage` (unpickling.nim:551-572) -/
def pConstruct (o : PObj) : Except Err ObjPage :=
  match o with
  | .array shape _ elems => (pVals elems).bind fun vs => .ok ⟨shape, vs, kindCounts vs⟩
  | _ => .error .other

/-- `readPickledPage` (unpickling.nim:574-594) -/
def pickleRead (us : UsDecode) (file : List Nat) : Except Err ObjPage :=
  (pRun us file.length ⟨file, [], [], []⟩).bind pConstruct

end Tablite
