import Mathlib.Algebra.Order.Ring.Rat
import Verif.Spec.PySlice
import Verif.Model.Dates
/-!
# Type inference of text: `nimlite/infertypes.nim`

Texts are lists of characters.  `Err.value` is Nim's `ValueError`, `Err.other` any other exception, `Err.index` an access out of bounds.
The library is compiled with `-d:danger` (build_nim.sh:25): arithmetic on `int` wraps, and reading one past the end of a string gives NUL.
Floating point values are exact rationals.  `pf` is the `parseFloat` of Nim's standard library, which is not modelled.
-/

namespace Tablite

/-- value of a decimal digit -/
def digitVal (c : Char) : Nat := c.toNat - 48

/-- Python values that text can be read as -/
inductive InfVal
  | none
  | bool (b : Bool)
  | int (v : Int)
  | float (q : Rat)
  | str (s : List Char)
  | date (y m d : Int)
  | time (hms : List Int) (us : Int) (tz : Option (Bool × List Int × Int))
  | datetime (date : Int × Int × Int) (time : List Int × Int × Option (Bool × List Int × Int))
  deriving DecidableEq

/-- digits of `parseInt` after the first one; underscores between digits are ignored -/
def nimDigits : Nat → List Char → Nat × List Char
  | acc, [] => (acc, [])
  | acc, c :: r => if c.isDigit then nimDigits (acc * 10 + digitVal c) r else if c = '_' then nimDigits acc r else (acc, c :: r)

/-- sign of a number -/
def nimSign : List Char → Bool × List Char
  | '+' :: r => (false, r)
  | '-' :: r => (true, r)
  | r => (false, r)

/-- `parseInt` of Nim's standard library: sign, digits with underscores, range check -/
def nimParseInt (s : List Char) : Except Err Int :=
  match (nimSign s).2 with
  | [] => .error .value
  | c :: r =>
    if c.isDigit then
      let (v, rest) := nimDigits (digitVal c) r
      if rest ≠ [] then .error .value
      else if (nimSign s).1 then (if v ≤ 2 ^ 63 then .ok (-(v : Int)) else .error .value)
      else (if v < 2 ^ 63 then .ok (v : Int) else .error .value)
    else .error .value

/-- quotes and blanks are removed before numbers are read, infertypes.nim:27-31 -/
def stripNum (s : List Char) : List Char := s.filter fun c => c ≠ '"' ∧ c ≠ '\'' ∧ c ≠ ' '

/-- `inferNone`, infertypes.nim:11-14 -/
def inferNone (s : List Char) : Except Err InfVal :=
  if s ∈ ["null".toList, "Null".toList, "NULL".toList, "#N/A".toList, "#n/a".toList, [], "None".toList] then .ok .none else .error .value

/-- `inferBool`, infertypes.nim:16-24 -/
def inferBool (s : List Char) : Except Err InfVal :=
  let l := s.map Char.toLower
  if l = "true".toList then .ok (.bool true) else if l = "false".toList then .ok (.bool false) else .error .value

/-- the loop of `inferInt`, infertypes.nim:61-80; `(str_len - i)` is the number of characters left -/
def intLoop (sep : Char) (value : Int) (count : Bool) (after : Nat) : List Char → Except Err Int
  | [] => if count && after != 3 then .error .value else .ok value
  | ch :: r =>
    if ch.isDigit then intLoop sep (wrap64 (value * 10 + digitVal ch)) count (if count then after + 1 else after) r
    else if ch = sep then
      if (ch :: r).length < 4 then .error .value
      else if count && after != 3 then .error .value
      else intLoop sep value true 0 r
    else .error .value

/-- `inferInt(str, is_simple = false, is_american)`, infertypes.nim:26-82, after removal of quotes and blanks -/
def intLocale (american : Bool) (s : List Char) : Except Err Int :=
  let sep := if american then ',' else '.'
  match s with
  | [] => .error .value
  | c :: r =>
    if c.isDigit then intLoop sep (digitVal c) false 0 r
    else if c = '+' ∨ c = '-' then
      match r with
      | [] => .error .value
      | c' :: r' =>
        if c'.isDigit then do .ok (wrap64 ((← intLoop sep (digitVal c') false 0 r') * (if c = '+' then 1 else -1))) else .error .value
    else .error .value

/-- `inferInt`, infertypes.nim:26-82 -/
def inferInt (simple american : Bool) (s : List Char) : Except Err Int :=
  let s := stripNum s
  if s = [] then .error .value
  else if simple then nimParseInt s else intLocale american s

/-- state of the loop of `inferFloat` -/
structure FloatSt where
  value : Rat
  isFrac : Bool
  fracLevel : Rat := 1
  isExp : Bool := false
  expSign : Int := 0
  exponent : Int := 0

/-- one character of `inferFloat`, infertypes.nim:142-167; `left` is `str_len - i` -/
def floatChar (american : Bool) (st : FloatSt) (ch : Char) (left : Nat) : Except Err FloatSt :=
  let group := if american then ',' else '.'
  let point := if american then '.' else ','
  if ch.isDigit then
    if st.isExp then (if st.expSign = 0 then .error .value else .ok { st with exponent := st.exponent * 10 + digitVal ch })
    else if st.isFrac then .ok { st with fracLevel := st.fracLevel / 10, value := st.value + digitVal ch * (st.fracLevel / 10) }
    else .ok { st with value := st.value * 10 + digitVal ch }
  else if ch = group then (if left < 4 ∨ st.isFrac then .error .value else .ok st)
  else if ch = point then (if st.isFrac then .error .value else .ok { st with isFrac := true })
  else if st.isFrac ∧ ch.toLower = 'e' ∧ st.isExp = false then .ok { st with isExp := true }
  else if st.isFrac ∧ (ch = '+' ∨ ch = '-') ∧ st.isExp then .ok { st with expSign := if ch = '+' then 1 else -1 }
  else .error .value

/-- the loop of `inferFloat` -/
def floatLoop (american : Bool) : FloatSt → List Char → Except Err FloatSt
  | st, [] => .ok st
  | st, ch :: r => do floatLoop american (← floatChar american st ch (ch :: r).length) r

/-- the value at the end, infertypes.nim:169-174 -/
def floatEnd (sign : Rat) (st : FloatSt) : Except Err Rat :=
  if st.isExp then (if st.expSign = 0 then .error .value else .ok (st.value * sign * (10 : Rat) ^ (st.exponent * st.expSign)))
  else .ok (st.value * sign)

/-- `inferFloat(str, is_simple = false, is_american)`, infertypes.nim:97-174, after removal of quotes and blanks -/
def floatLocale (american : Bool) (s : List Char) : Except Err Rat :=
  let point := if american then '.' else ','
  match s with
  | [] => .error .value
  | c :: r =>
    if c.isDigit then do floatEnd 1 (← floatLoop american { value := digitVal c, isFrac := false } r)
    else if c = '+' ∨ c = '-' then
      match r with
      | [] => .error .value
      | c' :: r' =>
        if c'.isDigit then do floatEnd (if c = '+' then 1 else -1) (← floatLoop american { value := digitVal c', isFrac := false } r')
        else .error .value
    else if c = point then do floatEnd 1 (← floatLoop american { value := 0, isFrac := true } r)
    else .error .value

/-- `inferFloat`, infertypes.nim:97-174 -/
def inferFloat (pf : List Char → Option Rat) (simple american : Bool) (s : List Char) : Except Err Rat :=
  let s := stripNum s
  if s = [] then .error .value
  else if simple then (match pf s with | some q => .ok q | none => .error .value)
  else floatLocale american s

/-! ## dates -/

/-- whether short dates (YYYYMMDD) are allowed, infertypes.nim:6-9 -/
inductive ShortDate
  | dontCare | never | required
  deriving DecidableEq

/-- `accepted_tokens` -/
def dateToken (c : Char) : Bool := c == ' ' || c == '.' || c == '-' || c == '/'

/-- the first five characters, infertypes.nim:199-216: is there a separator among them? -/
def dateHead (allowTime : Bool) : List Char → Except Err Bool
  | [] => .ok false
  | c :: r =>
    if c.isDigit then dateHead allowTime r
    else if dateToken c then .ok true
    else if (c = ':' ∨ c = 'T') ∧ allowTime then dateHead allowTime r
    else .error .value

/-- the loop over the characters of a date with separators, infertypes.nim:224-254.  `cur` is the text from `slice_start` to `idx`: a digit after a
separator starts it anew, a separator is appended to it.  A fourth word is written behind the end of the array `substrings`.
The result is the words, the last `cur` and the text that is left. -/
def dateWordsLoop (allowTime : Bool) (first wasDigit : Bool) (cur : List Char) (active : Option Char) (words : List (List Char)) :
    List Char → Except Err (List (List Char) × List Char × List Char)
  | [] => .ok (words, cur, [])
  | ch :: r =>
    if ch.isDigit then dateWordsLoop allowTime false true (if wasDigit then cur ++ [ch] else [ch]) active words r
    else if first then .error .value
    else if active ≠ none ∧ active ≠ some ch then
      if words.length = 2 ∧ allowTime ∧ (ch = ' ' ∨ ch = 'T') then .ok (words, cur, ch :: r) else .error .value
    else if words.length ≥ 3 then .error .index
    else dateWordsLoop allowTime false false (cur ++ [ch]) (some ch) (words ++ [cur]) r

/-- `parseDateWords`, infertypes.nim:189-271: three words and the text after them -/
def parseDateWords (short : ShortDate) (allowTime : Bool) (s : List Char) : Except Err ((List Char × List Char × List Char) × List Char) :=
  if s.any fun c => decide (127 < c.toNat) then .error .value else do
  let hasTokens ← dateHead allowTime (s.take 5)
  if hasTokens then
    if short = .required then .error .value else do
    let (words, cur, rest) ← dateWordsLoop allowTime true false [] none [] s
    match words with
    | [w0, w1] => if cur = [] then .error .value else .ok ((w0, w1, cur), rest)
    | _ => .error .value
  else if s.length < 8 ∨ short = .never then .error .value
  else .ok ((s.take 4, (s.drop 4).take 2, (s.drop 6).take 2), s.drop 8)

/-- `guessDate`, infertypes.nim:273-321 -/
def guessDate (american : Bool) (w : List Char × List Char × List Char) : Except Err (Int × Int × Int) :=
  if w.1.length = 4 then do
    let y ← nimParseInt w.1
    let a ← nimParseInt w.2.1
    let b ← nimParseInt w.2.2
    if american then .error .value else .ok (y, a, b)
  else if w.2.2.length = 4 then do
    let y ← nimParseInt w.2.2
    let a ← nimParseInt w.1
    let b ← nimParseInt w.2.1
    if a ≤ 0 ∨ b ≤ 0 ∨ (a > 12 ∧ b > 12) then .error .value
    else if a ≤ 12 ∧ b ≤ 12 then (if american then .ok (y, a, b) else .ok (y, b, a))
    else if a < 12 then (if american then .ok (y, a, b) else .error .value)
    else if b < 12 then (if american then .error .value else .ok (y, b, a))
    else .error .value
  else .error .value

/-- `getDaysInMonth`, dateutils.nim:16 -/
def getDaysInMonth (year month : Int) : Int := (monthTable (isLeapYear year)).getD (month - 1).toNat 0

/-- `wordsToDate`, infertypes.nim:323-336 -/
def wordsToDate (american : Bool) (w : List Char × List Char × List Char) : Except Err (Int × Int × Int) := do
  let ymd ← guessDate american w
  if ymd.1 < 0 ∨ ymd.1 > 9999 then .error .value
  else if ymd.2.1 < 1 ∨ ymd.2.1 > 12 then .error .value
  else if getDaysInMonth ymd.1 ymd.2.1 < ymd.2.2 ∨ ymd.2.2 < 0 then .error .value
  else .ok ymd

/-- `inferDate`, infertypes.nim:340-350 -/
def inferDate (short american : Bool) (s : List Char) : Except Err (Int × Int × Int) :=
  if s.length > 10 ∨ s.length < 8 then .error .value else do
  let (w, _) ← parseDateWords (if short then .required else .never) false s
  wordsToDate american w

/-! ## times -/

/-- the loop of `parse_hh_mm_ss_ff`, infertypes.nim:373-394; `comps` components may follow -/
def hmsLoop : Nat → List Char → Except Err (List Int × List Char)
  | 0, _ => .error .other
  | comps + 1, s =>
    if s.length < 2 then .error .value else do
    let v ← nimParseInt (s.take 2)
    if s.drop 2 = [] ∨ comps = 0 then .ok ([v], s.drop 2)
    else if (s.drop 2).head? = some ':' then do
      let (vs, rest) ← hmsLoop comps (s.drop 3)
      .ok (v :: vs, rest)
    else .error .value

/-- `parse_hh_mm_ss_ff`, infertypes.nim:365-407: components and microseconds -/
def parseHms (s : List Char) : Except Err (List Int × Int) := do
  let (vs, rest) ← hmsLoop 3 s
  match rest with
  | [] => .ok (vs, 0)
  | c :: r =>
    if c ≠ '.' then .error .value
    else if r.length = 3 then do .ok (vs, (← nimParseInt r) * 1000)
    else if r.length = 6 then do .ok (vs, ← nimParseInt r)
    else .error .value

/-- times without colon, infertypes.nim:416-431 -/
def timeDigits (s : List Char) : Except Err (List Int × Int × Option (Bool × List Int × Int)) :=
  if s.length = 2 then do .ok ([← nimParseInt s], 0, none)
  else if s.length = 4 then do .ok ([← nimParseInt (s.take 2), ← nimParseInt (s.drop 2)], 0, none)
  else if s.length = 6 then do .ok ([← nimParseInt (s.take 2), ← nimParseInt ((s.drop 2).take 2), ← nimParseInt (s.drop 4)], 0, none)
  else .error .value

/-- the time zone after a sign, infertypes.nim:453-465; a wrong length raises an exception that is not a ValueError -/
def timeZone (s : List Char) : Except Err (List Int × Int) :=
  if s.length = 5 ∨ s.length = 8 ∨ s.length = 15 then parseHms s else .error .other

/-- `inferTime`, infertypes.nim:409-467; the time zone is kept as sign and components -/
def inferTime (s : List Char) : Except Err (List Int × Int × Option (Bool × List Int × Int)) :=
  if s.length < 2 then .error .value
  else if ':' ∉ s then timeDigits s
  else if '-' ∈ s ∧ '+' ∈ s then .error .value
  else do
    let sign := if '+' ∈ s then '+' else '-'
    let (hms, us) ← parseHms (s.takeWhile (· ≠ sign))
    match s.dropWhile (· ≠ sign) with
    | [] => .ok (hms, us, none)
    | c :: r => do
      let z ← timeZone r
      .ok (hms, us, some (c = '-', z.1, z.2))

/-- the part of `inferDatetime` after the date, infertypes.nim:479-490: the text of the time -/
def timeText (rest : List Char) : Except Err (List Char) :=
  match rest with
  | [] => .error .value
  | c :: r => if c.isDigit then .ok (c :: r) else if c = ' ' ∨ c = 'T' then .ok r else .error .value

/-- `inferDatetime`, infertypes.nim:470-495 -/
def inferDatetime (american : Bool) (s : List Char) : Except Err ((Int × Int × Int) × (List Int × Int × Option (Bool × List Int × Int))) :=
  if s.length > 42 ∨ s.length < 10 then .error .value else do
  let (w, rest) ← parseDateWords .dontCare true s
  let t ← timeText rest
  let d ← wordsToDate american w
  .ok (d, ← inferTime t)

end Tablite
