import Verif.Model.Infer
/-!
# Type ranking of a text column: `nimlite/ranking.nim`, `nimlite/insertsort.nim`, and the choice of page types in `text_reader/paging.nim`
-/

namespace Tablite

/-- `DataTypes`, ranking.nim:5-12 -/
inductive DType
  | none | bool | dateShort | intSimple | intUS | intEU | floatSimple | floatUS | floatEU | datetime | datetimeUS | date | dateUS | time | string
  deriving DecidableEq

/-- the order of the enumeration -/
def DType.all : List DType :=
  [.none, .bool, .dateShort, .intSimple, .intUS, .intEU, .floatSimple, .floatUS, .floatEU, .datetime, .datetimeUS, .date, .dateUS, .time, .string]

/-- reading text as a type, ranking.nim:52-84 and paging.nim:280-325 -/
def inferAs (pf : List Char → Option Rat) (t : DType) (s : List Char) : Except Err InfVal :=
  match t with
  | .none => inferNone s
  | .bool => inferBool s
  | .dateShort => do let d ← inferDate true false s; .ok (.date d.1 d.2.1 d.2.2)
  | .intSimple => do .ok (.int (← inferInt true false s))
  | .intUS => do .ok (.int (← inferInt false true s))
  | .intEU => do .ok (.int (← inferInt false false s))
  | .floatSimple => do .ok (.float (← inferFloat pf true false s))
  | .floatUS => do .ok (.float (← inferFloat pf false true s))
  | .floatEU => do .ok (.float (← inferFloat pf false false s))
  | .datetime => do let d ← inferDatetime false s; .ok (.datetime d.1 d.2)
  | .datetimeUS => do let d ← inferDatetime true s; .ok (.datetime d.1 d.2)
  | .date => do let d ← inferDate false false s; .ok (.date d.1 d.2.1 d.2.2)
  | .dateUS => do let d ← inferDate false true s; .ok (.date d.1 d.2.1 d.2.2)
  | .time => do let t ← inferTime s; .ok (.time t.1 t.2.1 t.2.2)
  | .string => .ok (.str s)

/-- `Rank`, ranking.nim:14 -/
abbrev Rank := List (DType × Nat)

/-- `newRank`, ranking.nim:16-22 -/
def newRank : Rank := DType.all.map fun t => (t, 0)

/-- `cmpDtypes`, ranking.nim:32-33 -/
def cmpDtypes (a b : DType × Nat) : Bool := decide (a.2 > b.2)

/-- `cmpDtypesStringless`, ranking.nim:35-39 -/
def cmpStringless (a b : DType × Nat) : Bool :=
  if a.1 = .string ∧ b.2 > 0 then false
  else if b.1 = .string ∧ a.2 > 0 then true
  else cmpDtypes a b

/-- the inner loop of `insertSort`, insertsort.nim:5-9: the value moves towards the front while it precedes its neighbour; the sorted part is given in
reverse -/
def insertBack {α : Type} (cmp : α → α → Bool) (v : α) : List α → List α
  | [] => [v]
  | x :: xs => if cmp v x then x :: insertBack cmp v xs else v :: x :: xs

/-- `insertSort`, insertsort.nim:1-9 -/
def insertSort {α : Type} (cmp : α → α → Bool) (l : List α) : List α := (l.foldl (fun sorted v => insertBack cmp v sorted) []).reverse

/-- `sortRanks`, ranking.nim:41-45 -/
def sortRanks (stringless : Bool) (r : Rank) : Rank := insertSort (if stringless then cmpStringless else cmpDtypes) r

/-- the loop of `updateRank`, ranking.nim:52-94: the first type that accepts the text is counted -/
def countFirst (inf : DType → Except Err InfVal) : Rank → Except Err (DType × Rank)
  | [] => .error .other
  | (t, n) :: r =>
    match inf t with
    | .ok _ => .ok (t, (t, n + 1) :: r)
    | .error .value => do
      let x ← countFirst inf r
      .ok (x.1, (t, n) :: x.2)
    | .error e => .error e

/-- `updateRank`, ranking.nim:47-99 -/
def updateRank (inf : DType → Except Err InfVal) (r : Rank) : Except Err (DType × Rank) := do
  let x ← countFirst inf r
  .ok (x.1, sortRanks true x.2)

/-- the first pass over the values of a page, paging.nim:38-75: ranking and width of the longest string; `inf t s` reads `s` as `t` -/
def rankLoop (inf : DType → List Char → Except Err InfVal) : Rank → Nat → List (List Char) → Except Err (Rank × Nat)
  | r, w, [] => .ok (r, w)
  | r, w, s :: rest => do
    let x ← updateRank (fun t => inf t s) r
    rankLoop inf x.2 (if x.1 = .string then max s.length w else w) rest

/-- `PageType`, paging.nim:6-14 -/
inductive PageType
  | unset | unicode | int | float | object | date | datetime | dateShort
  deriving DecidableEq

/-- page type of the most frequent type, paging.nim:123-140 (the three int and float page types are treated alike everywhere) -/
def firstPageType : DType → PageType
  | .intSimple | .intUS | .intEU => .int
  | .floatSimple | .floatUS | .floatEU => .float
  | .string => .unicode
  | .datetime | .datetimeUS => .datetime
  | .date | .dateUS => .date
  | .dateShort => .dateShort
  | _ => .object

/-- `isAnyInt`, paging.nim:82-83 -/
def DType.isInt (t : DType) : Bool := t == .intSimple || t == .intUS || t == .intEU
/-- `isAnyFloat`, paging.nim:88-89 -/
def DType.isFloat (t : DType) : Bool := t == .floatSimple || t == .floatUS || t == .floatEU

/-- a further type, paging.nim:144-165.  `A and B or C` is `(A and B) or C`. -/
def overlap (p : PageType) (t : DType) : PageType :=
  if (p = .float ∧ t.isInt) ∨ t = .dateShort then p
  else if p = .int ∧ t.isFloat then .float
  else if p = .dateShort then (if t.isFloat then .float else if t.isInt then .int else p)
  else .object

/-- the loop of `dumpPageHeader`, paging.nim:116-165, over the types in order of their counts; the iterator raises when it is exhausted
(ranking.nim:30), that is when every type has been counted -/
def pageTypeLoop : PageType → Rank → Except Err PageType
  | _, [] => .error .other
  | p, (t, n) :: r =>
    if n = 0 then .ok p
    else if p = .unset then (if t = .string then .ok .unicode else pageTypeLoop (firstPageType t) r)
    else pageTypeLoop (overlap p t) r

/-- page type and order of types, paging.nim:167-176 -/
def finishPageType (r : Rank) : PageType → Except Err (PageType × Rank)
  | .unset => .error .other
  | .unicode => .ok (.unicode, r)
  | .int => .ok (.int, r)
  | .float => .ok (.float, r)
  | _ => .ok (.object, sortRanks true r)

/-- the page type as written, paging.nim:109-178, and the order of types used for reading the values.  A page without values raises. -/
def pageType (r : Rank) : Except Err (PageType × Rank) := do
  finishPageType (sortRanks false r) (← pageTypeLoop .unset (sortRanks false r))

/-- the first of the given types that accepts the text, as in `inferLocaleInt`, paging.nim:188-200, and in the loop paging.nim:277-330 -/
def inferFirst (inf : DType → Except Err InfVal) (p : DType → Bool) : Rank → Except Err InfVal
  | [] => .error .other
  | (t, _) :: r =>
    if p t then
      match inf t with
      | .ok v => .ok v
      | .error .value => inferFirst inf p r
      | .error e => .error e
    else inferFirst inf p r

/-- a value as written to its page, paging.nim:256-331.  `writeNumpyUnicode` (numpy.nim:364-372) pads the text to the width of the page; for a longer
text the length of the padding is negative, hence huge as an unsigned number: this never ends and is modelled by `Err.overflow`. -/
def writeValue (inf : DType → List Char → Except Err InfVal) (p : PageType) (r : Rank) (width : Nat) (s : List Char) : Except Err InfVal :=
  match p with
  | .unicode => if width < s.length then .error .overflow else .ok (.str s)
  | .int => inferFirst (fun t => inf t s) DType.isInt r
  | .float => inferFirst (fun t => inf t s) DType.isFloat r
  | _ => inferFirst (fun t => inf t s) (fun _ => true) r

/-- one page of one column imported with `guess_datatypes = True`, paging.nim: `collectPageInfo`, `dumpPageHeader`, `dumpPageBody` -/
def typedPage (inf : DType → List Char → Except Err InfVal) (values : List (List Char)) : Except Err (List InfVal) := do
  let x ← rankLoop inf newRank 1 values
  let p ← pageType x.1
  values.mapM (writeValue inf p.1 p.2 x.2)

end Tablite
