import Verif.Model.Guess

/-! Reading dates and datetimes from text in Python: `_infer_date`, `_infer_datetime`, `_infer_time`, the tables of formats and
`pattern_to_datetime` (tablite/datatypes.py:182-323, 628-681).

`fromisoformat` follows CPython 3.8 to 3.10; setup.py:107 asks for 3.8 or later. Later versions read more forms. Left out: offsets from UTC with
seconds. -/
namespace Tablite

/-- three or six digits after the dot -/
def isoFrac (t : PyText) : Except Err Nat :=
  if t.length = 6 then (parseNatText t)
  else if t.length = 3 then (parseNatText t).bind fun n => .ok (n * 1000)
  else .error .value

/-- after the seconds -/
def isoAfterS (h m s : Nat) : PyText → Except Err (Nat × Nat × Nat × Nat)
  | [] => .ok (h, m, s, 0)
  | 46 :: r => (isoFrac r).bind fun us => .ok (h, m, s, us)
  | _ => .error .value

/-- after the minutes -/
def isoAfterM (h m : Nat) : PyText → Except Err (Nat × Nat × Nat × Nat)
  | [] => .ok (h, m, 0, 0)
  | 58 :: r => (read2 r).bind fun s => isoAfterS h m s.1 s.2
  | 46 :: r => (isoFrac r).bind fun us => .ok (h, m, 0, us)
  | _ => .error .value

/-- after the hours -/
def isoAfterH (h : Nat) : PyText → Except Err (Nat × Nat × Nat × Nat)
  | [] => .ok (h, 0, 0, 0)
  | 58 :: r => (read2 r).bind fun m => isoAfterM h m.1 m.2
  | 46 :: r => (isoFrac r).bind fun us => .ok (h, 0, 0, us)
  | _ => .error .value

/-- neither `+` nor `-` -/
def noSign (c : Nat) : Bool := c != 43 && c != 45

/-- `time.fromisoformat` -/
def isoTimeText (t : PyText) : Except Err PyTime :=
  (read2 (t.takeWhile noSign)).bind fun h => (isoAfterH h.1 h.2).bind fun x => (readOff (t.dropWhile noSign)).bind fun off =>
    if timeOk ⟨x.1, x.2.1, x.2.2.1, x.2.2.2, off⟩ then .ok ⟨x.1, x.2.1, x.2.2.1, x.2.2.2, off⟩ else .error .value

/-- `datetime.fromisoformat`: a date, and then one character of any kind and a time, or nothing -/
def isoDatetimeText (t : PyText) : Except Err (PyDate × PyTime) :=
  (readDate t).bind fun x => match x.2 with
    | [] => .ok (x.1, ⟨0, 0, 0, 0, none⟩)
    | _ :: r => (isoTimeText r).bind fun y => .ok (x.1, y)

/-- `"".join(["N" if n in DataTypes.digits else n for n in value])` (datatypes.py:637, 663) -/
def digitPattern (t : PyText) : PyText := t.map fun c => if isDig c then 78 else c

/-- `text.split(c)` -/
def pySplit (c : Nat) : PyText → List PyText
  | [] => [[]]
  | x :: r => if x = c then [] :: pySplit c r else
    match pySplit c r with
    | [] => [[x]]
    | p :: ps => (x :: p) :: ps

/-- the entries of the table of date formats: a separator and whether the day comes first, or no separator -/
inductive DateFmt where
  | sep (c : Nat) (dayFirst : Bool)
  | compact
deriving DecidableEq

/-- `date_formats` (datatypes.py:182-216) -/
def dateFormats : List (PyText × DateFmt) := [
  (txt "NNNN-NN-NN", .sep 45 false), (txt "NNNN-N-NN", .sep 45 false), (txt "NNNN-NN-N", .sep 45 false), (txt "NNNN-N-N", .sep 45 false),
  (txt "NN-NN-NNNN", .sep 45 true), (txt "N-NN-NNNN", .sep 45 true), (txt "NN-N-NNNN", .sep 45 true), (txt "N-N-NNNN", .sep 45 true),
  (txt "NNNN.NN.NN", .sep 46 false), (txt "NNNN.N.NN", .sep 46 false), (txt "NNNN.NN.N", .sep 46 false), (txt "NNNN.N.N", .sep 46 false),
  (txt "NN.NN.NNNN", .sep 46 true), (txt "N.NN.NNNN", .sep 46 true), (txt "NN.N.NNNN", .sep 46 true), (txt "N.N.NNNN", .sep 46 true),
  (txt "NNNN/NN/NN", .sep 47 false), (txt "NNNN/N/NN", .sep 47 false), (txt "NNNN/NN/N", .sep 47 false), (txt "NNNN/N/N", .sep 47 false),
  (txt "NN/NN/NNNN", .sep 47 true), (txt "N/NN/NNNN", .sep 47 true), (txt "NN/N/NNNN", .sep 47 true), (txt "N/N/NNNN", .sep 47 true),
  (txt "NNNN NN NN", .sep 32 false), (txt "NNNN N NN", .sep 32 false), (txt "NNNN NN N", .sep 32 false), (txt "NNNN N N", .sep 32 false),
  (txt "NN NN NNNN", .sep 32 true), (txt "N N NNNN", .sep 32 true), (txt "NN N NNNN", .sep 32 true), (txt "N NN NNNN", .sep 32 true),
  (txt "NNNNNNNN", .compact)]

/-- the constructor of `date` on the numbers -/
def mkDate : List Nat → Except Err PyDate
  | [y, m, d] => if dateOk ⟨y, m, d⟩ then .ok ⟨y, m, d⟩ else .error .value
  | _ => .error .type

/-- the lambda of an entry (datatypes.py:183-215). `int` of a piece: the pieces have ASCII digits and `N` only. -/
def readDateFmt (t : PyText) : DateFmt → Except Err PyDate
  | .sep c false => ((pySplit c t).mapM parseNatText).bind mkDate
  | .sep c true => ((pySplit c t).mapM parseNatText).bind fun l => mkDate l.reverse
  | .compact => ([t.take 4, (t.drop 4).take 2, t.drop 6].mapM parseNatText).bind mkDate

/-- `_infer_date` of text (datatypes.py:633-642) -/
def pyDateText (t : PyText) : Except Err PyDate :=
  match fromIsoDate t with
  | .ok d => .ok d
  | .error _ =>
    match dGet (digitPattern t) dateFormats with
    | some f => readDateFmt t f
    | none => .error .value

/-- the arguments of `pattern_to_datetime` -/
structure DtFmt where
  ymd : Option Nat := none
  T : Option Nat := none
  compact : Nat := 0
  dayFirst : Bool := false
deriving DecidableEq

/-- `datetime_formats` (datatypes.py:219-265) -/
def datetimeFormats : List (PyText × DtFmt) := [
  (txt "NNNN-NN-NNTNN:NN:NN", {}), (txt "NNNN-NN-NNTNN:NN", {}), (txt "NNNN-NN-NN NN:NN:NN", { T := some 32 }), (txt "NNNN-NN-NN NN:NN", { T := some 32 }),
  (txt "NNNN/NN/NNTNN:NN:NN", { ymd := some 47 }), (txt "NNNN/NN/NNTNN:NN", { ymd := some 47 }),
  (txt "NNNN/NN/NN NN:NN:NN", { ymd := some 47, T := some 32 }), (txt "NNNN/NN/NN NN:NN", { ymd := some 47, T := some 32 }),
  (txt "NNNN NN NNTNN:NN:NN", { ymd := some 32 }), (txt "NNNN NN NNTNN:NN", { ymd := some 32 }),
  (txt "NNNN NN NN NN:NN:NN", { ymd := some 32, T := some 32 }), (txt "NNNN NN NN NN:NN", { ymd := some 32, T := some 32 }),
  (txt "NNNN.NN.NNTNN:NN:NN", { ymd := some 46 }), (txt "NNNN.NN.NNTNN:NN", { ymd := some 46 }),
  (txt "NNNN.NN.NN NN:NN:NN", { ymd := some 46, T := some 32 }), (txt "NNNN.NN.NN NN:NN", { ymd := some 46, T := some 32 }),
  (txt "NN-NN-NNNNTNN:NN:NN", { ymd := some 45, T := some 32, dayFirst := true }), (txt "NN-NN-NNNNTNN:NN", { ymd := some 45, T := some 32, dayFirst := true }),
  (txt "NN-NN-NNNN NN:NN:NN", { ymd := some 45, T := some 32, dayFirst := true }), (txt "NN-NN-NNNN NN:NN", { ymd := some 45, T := some 32, dayFirst := true }),
  (txt "NN/NN/NNNNTNN:NN:NN", { ymd := some 47, dayFirst := true }), (txt "NN/NN/NNNNTNN:NN", { ymd := some 47, dayFirst := true }),
  (txt "NN/NN/NNNN NN:NN:NN", { ymd := some 47, T := some 32, dayFirst := true }), (txt "NN/NN/NNNN NN:NN", { ymd := some 47, T := some 32, dayFirst := true }),
  (txt "NN NN NNNNTNN:NN:NN", { ymd := some 47, dayFirst := true }), (txt "NN NN NNNNTNN:NN", { ymd := some 47, dayFirst := true }),
  (txt "NN NN NNNN NN:NN:NN", { ymd := some 47, dayFirst := true }), (txt "NN NN NNNN NN:NN", { ymd := some 47, dayFirst := true }),
  (txt "NN.NN.NNNNTNN:NN:NN", { ymd := some 46, dayFirst := true }), (txt "NN.NN.NNNNTNN:NN", { ymd := some 46, dayFirst := true }),
  (txt "NN.NN.NNNN NN:NN:NN", { ymd := some 46, dayFirst := true }), (txt "NN.NN.NNNN NN:NN", { ymd := some 46, dayFirst := true }),
  (txt "NNNNNNNNTNNNNNN", { compact := 1 }), (txt "NNNNNNNNTNNNN", { compact := 1 }), (txt "NNNNNNNNTNN", { compact := 1 }),
  (txt "NNNNNNNNNN", { compact := 2 }), (txt "NNNNNNNNNNNN", { compact := 2 }), (txt "NNNNNNNNNNNNNN", { compact := 2 }),
  (txt "NNNNNNNNTNN:NN:NN", { compact := 3 })]

/-- `s[a:b]` for natural bounds -/
def textSlice (s : PyText) (a b : Nat) : PyText := (s.take b).drop a

/-- the slices of compact forms (datatypes.py:273-301) -/
def compactSlices (n : Nat) : Nat → List (Nat × Nat × PyText)
  | 1 => [(0, 4, [45]), (4, 6, [45]), (6, 8, [84]), (9, 11, [58]), (11, 13, [58]), (13, n, [])]
  | 2 => [(0, 4, [45]), (4, 6, [45]), (6, 8, [84]), (8, 10, [58]), (10, 12, [58]), (12, n, [])]
  | _ => [(0, 4, [45]), (4, 6, [45]), (6, 8, [84]), (9, 11, [58]), (12, 14, [58]), (15, n, [])]

/-- `rstrip(":")` -/
def stripColons (t : PyText) : PyText := (t.reverse.dropWhile (· == 58)).reverse

/-- compact forms spelled out (datatypes.py:271-303) -/
def uncompact (f : DtFmt) (s : PyText) : PyText :=
  if f.compact = 0 then s
  else stripColons (((compactSlices s.length f.compact).filter (fun x => x.2.1 ≤ s.length)).flatMap fun x => textSlice s x.1 x.2.1 ++ x.2.2)

/-- day first (datatypes.py:305-307) -/
def yearFirst (f : DtFmt) (s : PyText) : PyText :=
  if f.dayFirst then textSlice s 6 10 ++ 45 :: (textSlice s 3 5 ++ 45 :: (textSlice s 0 2 ++ s.drop 10)) else s

/-- `int(float("0." + digits) * 10**6)` (datatypes.py:315); `fl` rounds to a double -/
def microOf (fl : Rat → Rat) (ds : PyText) : Except Err Nat :=
  (parseNatText ds).bind fun n => .ok ⌊fl (fl ((n : Rat) / 10 ^ ds.length) * 10 ^ 6)⌋.toNat

/-- `str(n).rjust(6, "0")` -/
def rjust6 (n : Nat) : PyText := List.replicate (6 - (natText n).length) 48 ++ natText n

/-- the fraction of a second with six digits (datatypes.py:309-317); `dot` is the number of characters behind the last dot. Other texts than digits that
`float` reads behind `0.` (exponents, underscores, spaces) raise here: a simplification. -/
def fixFraction (fl : Rat → Rat) (s : PyText) : Except Err PyText :=
  if s.contains 46 ∧ 0 < s.reverse.idxOf 46 ∧ s.reverse.idxOf 46 < 10 then
    (microOf fl (s.drop (s.length - s.reverse.idxOf 46))).bind fun us => .ok (s.take (s.length - s.reverse.idxOf 46) ++ rjust6 us)
  else .ok s

/-- `text.replace(c, d, n)` -/
def swapFirst (c d : Nat) : Nat → PyText → PyText
  | 0, t => t
  | _, [] => []
  | n + 1, x :: t => if x = c then d :: swapFirst c d n t else x :: swapFirst c d (n + 1) t

/-- `if ymd: replace(ymd, "-", 2)` (datatypes.py:319-320) -/
def fixYmd (f : DtFmt) (s : PyText) : PyText := match f.ymd with
  | none => s
  | some c => swapFirst c 45 2 s

/-- `if T: replace(T, "T")` (datatypes.py:321-322) -/
def fixT (f : DtFmt) (s : PyText) : PyText := match f.T with
  | none => s
  | some c => swapChar c 84 s

/-- `pattern_to_datetime` (datatypes.py:268-323) -/
def patternToDatetime (fl : Rat → Rat) (f : DtFmt) (s : PyText) : Except Err (PyDate × PyTime) :=
  (fixFraction fl (swapChar 44 46 (yearFirst f (uncompact f s)))).bind fun s => isoDatetimeText (fixT f (fixYmd f s))

/-- `value.find(c, 11)` -/
def findFrom11 (c : Nat) (t : PyText) : Int := if (t.drop 11).contains c then 11 + ((t.drop 11).idxOf c : Int) else -1

/-- where the pattern ends (datatypes.py:656-661) -/
def patternEnd (t : PyText) : Int :=
  if t.contains 46 then findFrom11 46 t
  else if t.contains 44 then findFrom11 44 t
  else t.length

/-- `value[:dot]`: a negative bound counts from the end -/
def patternPart (t : PyText) : PyText := if patternEnd t < 0 then t.take (t.length - (-patternEnd t).toNat) else t.take (patternEnd t).toNat

/-- `_infer_datetime` of text (datatypes.py:652-669) -/
def pyDatetimeText (fl : Rat → Rat) (t : PyText) : Except Err (PyDate × PyTime) :=
  match isoDatetimeText t with
  | .ok x => .ok x
  | .error _ =>
    match dGet (digitPattern (patternPart t)) datetimeFormats with
    | some f => patternToDatetime fl f t
    | none => .error .value

/-- rounding of a positive rational to the nearest double, ties to even, in the range of normal numbers -/
def fl64 (q : Rat) : Rat :=
  if q ≤ 0 then 0
  else if q < 1 then
    -- q < 1: scale up by a power of two
    let e := Nat.log2 (⌈1 / q⌉.toNat) + 53
    let x := q * 2 ^ e
    let b := Nat.log2 ⌊x⌋.toNat
    (roundEven (x / 2 ^ (b - 52)) : Rat) * 2 ^ (b - 52) / 2 ^ e
  else
    let x := q * 2 ^ 53
    let b := Nat.log2 ⌊x⌋.toNat
    (roundEven (x / 2 ^ (b - 52)) : Rat) * 2 ^ (b - 52) / 2 ^ 53

end Tablite
