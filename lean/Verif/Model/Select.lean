import Verif.Model.Table
import Verif.Spec.Grouping
/-!
# `column_select`: `tablite/nimlite.py:218-317` and `nimlite/funcs/column_selector/`

The conversions of single values, casters.nim, are an argument.  A page is its kind and its values; page files, progress bars and the processes the
pages are distributed to are left out.  The text of a reject reason is represented by the requested column and the value it rejects.
-/

namespace Tablite

/-- `KindObjectND`, pytypes.nim -/
inductive SelKind | bool | int | float | str | date | time | datetime | none
  deriving DecidableEq, Repr

/-- the values of a page, their kinds, and the casters, casters.nim:122-243.  `conv k v` is `none` where the code raises ValueError.  That a value
of kind `k` is converted to `k` unchanged is casters.nim:124, 135, 146, 158, 170, 179, 187; None is `uncastable()`, casters.nim:211. -/
structure SelOps (α : Type) where
  kindOf : α → SelKind
  emptyText : α
  noneVal : α
  conv : SelKind → α → Option α
  kind_empty : kindOf emptyText = .str
  kind_none : ∀ v, kindOf v = .none ↔ v = noneVal
  conv_same : ∀ v, kindOf v ≠ .none → conv (kindOf v) v = some v
  conv_none : ∀ k, conv k noneVal = none

/-- a page: `kind = none` is an object page, otherwise all values have that kind -/
structure SelPage (α : Type) where
  kind : Option SelKind
  vals : List α

/-- what one entry of `cols` asks for, `DesiredColumnInfo`, infos.nim:10-13; `type = none` if no type was given -/
structure SelReq (ν : Type) where
  orig : ν
  type : SelKind
  allowEmpty : Bool

/-- `Mask`, mask.nim:1-4 -/
inductive Mask | invalid | unused | valid
  deriving DecidableEq, Repr

/-! ## `unusedMaskSearch` -/

/-- the loop `while i < len`, mask.nim:19-35; `fuel` bounds the number of steps -/
def unusedLoop (step : Nat) (arr : List Mask) : Nat → Nat → Nat
  | 0, _ => 0
  | fuel + 1, i =>
    if i < arr.length then
      let next := min (i + step) arr.length
      if arr.getD (next - 1) .unused ≠ .unused then unusedLoop step arr fuel next
      else match (List.range' i (next - i)).find? fun j => arr.getD j .unused = .unused with
        | some j => j
        | none => unusedLoop step arr fuel next
    else 0

/-- `unusedMaskSearch`, mask.nim:6-37; the code has `stepSize = 50_000`.  `arr[^1]` of an empty mask is an error. -/
def unusedSearch (step : Nat) (arr : List Mask) : Except Err Nat :=
  match arr.getLast? with
  | none => .error .index
  | some l =>
    if l ≠ .unused then .ok arr.length
    else if arr.getD 0 .unused = .unused then .ok 0
    else .ok (unusedLoop step arr (arr.length + 1) 0)

section
variable {ν α : Type} [DecidableEq ν] [DecidableEq α]

/-! ## which columns need no conversion -/

/-- `getPageTypes`, numpy.nim:893-913 -/
def selPageTypes (ops : SelOps α) (p : SelPage α) : List SelKind :=
  match p.kind with
  | some k => [k]
  | none => firstOccs (p.vals.map ops.kindOf)

/-- the checks on `colDtypes` once None is dealt with, collectinfo.nim:207-219 -/
def selSameType (r : SelReq ν) : List SelKind → Bool
  | [] => true
  | [k] => if k ≠ r.type then false else if k = .str ∧ r.allowEmpty = false then false else true
  | _ => false

/-- `isCorrectType[desiredName]`, collectinfo.nim:194-221 -/
def selCorrect (ops : SelOps α) (r : SelReq ν) (pages : List (SelPage α)) : Bool :=
  let ts := firstOccs (pages.flatMap (selPageTypes ops))
  if SelKind.none ∈ ts then
    if r.allowEmpty = false then false
    else if r.type = .str then false
    else selSameType r (ts.erase .none)
  else selSameType r ts

/-! ## one page -/

/-- a reject reason: the requested column and the value -/
abbrev SelReason (ν α : Type) := ν × α

/-- a value that counts as empty in string and object pages, makepage.nim:158-197 -/
def selIsEmpty (ops : SelOps α) (v : α) : Bool := decide (v = ops.emptyText) || decide (v = ops.noneVal)

/-- `addEmpty`, makepage.nim:136-143: the result is a string page or, as empties are allowed, an object page -/
def selEmptyOut (ops : SelOps α) (r : SelReq ν) : α := if r.type = .str then ops.emptyText else ops.noneVal

/-- one row of `makePage`, makepage.nim:152-231; `dflt` stands for the unset value of the buffer, `tests` tells that the page is a string or object
page.  (Object pages without strings and None skip the test; they have no empty values.) -/
def selCell (ops : SelOps α) (dflt : α) (name : ν) (r : SelReq ν) (tests : Bool) (x : α × Mask × Option (SelReason ν α)) :
    α × Mask × Option (SelReason ν α) :=
  if x.2.1 = .invalid then (dflt, x.2.1, x.2.2)
  else if tests ∧ selIsEmpty ops x.1 then
    if r.allowEmpty = false then (dflt, .invalid, some (name, x.1)) else (selEmptyOut ops r, .valid, x.2.2)
  else match ops.conv r.type x.1 with
    | some w => (w, .valid, x.2.2)
    | none => (dflt, .invalid, some (name, x.1))

/-- the pages returned unchanged by the casters of their own kind, pagecasters.nim:123-144 -/
def selAsIs (r : SelReq ν) (p : SelPage α) : Bool :=
  decide (p.kind = some r.type) && (decide (r.type ≠ .str) || r.allowEmpty)

/-- the mask and the reasons, `newSeq[Mask](pageSize)`, `newSeq[string](pageSize)` -/
abbrev SelMask (ν α : Type) := List (Mask × Option (SelReason ν α))

/-- `convertBasicPage`, pagecasters.nim:146-155: the new page, mask and reasons -/
def selConvert (ops : SelOps α) (dflt : α) (name : ν) (r : SelReq ν) (p : SelPage α) (mask : SelMask ν α) : Except Err (List α × SelMask ν α) :=
  if r.type = .none then .error .other
  else if selAsIs r p then .ok (p.vals, mask)
  else if mask.length < p.vals.length then .error .index
  else
    let rows := (p.vals.zip mask).map (selCell ops dflt name r (decide (p.kind = none ∨ p.kind = some .str)))
    .ok (rows.map (·.1), rows.map (·.2) ++ mask.drop p.vals.length)

/-- a row of a column that needs no conversion, sliceconv.nim:88-93 -/
def selMark (m : Mask × Option (SelReason ν α)) : Mask × Option (SelReason ν α) := if m.1 = .invalid then m else (.valid, m.2)

/-- one desired column, sliceconv.nim:74-132 -/
def selColumn (ops : SelOps α) (dflt : α) (correct : Bool) (name : ν) (r : SelReq ν) (p : SelPage α) (mask : SelMask ν α) :
    Except Err (List α × SelMask ν α) :=
  if correct then
    if mask.length < p.vals.length then .error .index
    else .ok (p.vals, (mask.take p.vals.length).map selMark ++ mask.drop p.vals.length)
  else selConvert ops dflt name r p mask

/-- a desired column: its name, request and whether it needs no conversion -/
structure SelCol (ν : Type) where
  name : ν
  req : SelReq ν
  correct : Bool

/-- the page of a column -/
def selLookup (page : List (ν × SelPage α)) (a : ν) : Except Err (SelPage α) :=
  match dGet a page with
  | some p => .ok p
  | none => .error .key

/-- the loop over `desiredColumnMap`, sliceconv.nim:74-132 -/
def selColumns (ops : SelOps α) (dflt : α) (page : List (ν × SelPage α)) : List (SelCol ν) → SelMask ν α → Except Err (List (List α) × SelMask ν α)
  | [], mask => .ok ([], mask)
  | c :: cs, mask =>
    (selLookup page c.req.orig).bind fun p =>
      (selColumn ops dflt c.correct c.name c.req p mask).bind fun x =>
        (selColumns ops dflt page cs x.2).bind fun y => .ok (x.1 :: y.1, y.2)

/-- `castData[indices]` unless all rows are wanted, sliceconv.nim:24-29 -/
def selSlice (indices : List Nat) (data : List α) : Except Err (List α) :=
  if data.length ≠ indices.length then indices.mapM fun i => match data[i]? with
    | some v => .ok v
    | none => .error .index
  else .ok data

/-- `finalizeSlice`, sliceconv.nim:18-33: no pages if there are no rows -/
def selFinalize (indices : List Nat) (datas : List (List α)) : Except Err (List (Option (List α))) :=
  if indices = [] then .ok (datas.map fun _ => none)
  else datas.mapM fun d => (selSlice indices d).bind fun p => .ok (some p)

/-- what `doSliceConvert` returns: the page of every desired column, of every original column and of the reject reasons -/
structure SelOut (ν α : Type) where
  pass : List (Option (List α))
  fail : List (Option (List α))
  reasons : List (Option (SelReason ν α))

/-- `doSliceConvert`, sliceconv.nim:41-169 -/
def selPage (ops : SelOps α) (dflt : α) (step ps : Nat) (cols : List (SelCol ν)) (page : List (ν × SelPage α)) : Except Err (SelOut ν α) :=
  (selColumns ops dflt page cols (List.replicate ps (.unused, none))).bind fun x =>
    (unusedSearch step (x.2.map (·.1))).bind fun n =>
      let mask := (x.2.take n).zipIdx
      let valid := (mask.filter fun m => m.1.1 ≠ .invalid).map (·.2)
      let invalid := mask.filter fun m => ¬ m.1.1 ≠ .invalid
      (selFinalize valid x.1).bind fun pass =>
        (selFinalize (invalid.map (·.2)) (page.map (·.2.vals))).bind fun fail =>
          .ok ⟨pass, fail, invalid.map (·.1.2)⟩

/-! ## the table -/

/-- the names of the desired columns, collectinfo.nim:106-120: `collisions` counts the names met so far; `mk` adds `"_" & $i` -/
def selNames (mk : ν → Nat → ν) : List (ν × Nat) → List (ν × SelReq ν) → List (ν × SelReq ν)
  | _, [] => []
  | coll, (base, r) :: rest =>
    match dGet base coll with
    | some n => (mk base n, r) :: selNames mk (dUpd 0 base (fun n => n + 1) coll) rest
    | none => (base, r) :: selNames mk (coll ++ [(base, 1)]) rest

/-- `desiredColumnMap[nameOut] = …` for all entries: a repeated name replaces the entry in place -/
def selDesired (l : List (ν × SelReq ν)) : List (ν × SelReq ν) := l.foldl (fun d e => dUpd e.2 e.1 (fun _ => e.2) d) []

/-- page `k` of every column, nimlite.py:206-215 -/
def selRow (t : List (ν × List (SelPage α))) (k : Nat) : Except Err (List (ν × SelPage α)) :=
  t.mapM fun c => match c.2[k]? with
    | some p => .ok (c.1, p)
    | none => .error .index

/-- the passed and the failed table; `reasons` is the column of reject reasons -/
structure SelResult (ν α : Type) where
  pass : Tbl ν α
  fail : Tbl ν α
  reasons : Pages (Option (SelReason ν α))

/-- the pages of column `j` -/
def selGather (outs : List (List (Option (List α)))) (j : Nat) : Pages α := outs.filterMap fun o => (o[j]?).join

/-- `T(columns)` with the columns of the original table, nimlite.py:243-257 -/
def selShare (t : List (ν × List (SelPage α))) (c : SelCol ν) : Except Err (ν × Pages α) :=
  match dGet c.req.orig t with
  | some pages => .ok (c.name, pages.map (·.vals))
  | none => .error .key

/-- one entry of `desiredColumnMap` with `isCorrectType` -/
def selCol (ops : SelOps α) (t : List (ν × List (SelPage α))) (d : ν × SelReq ν) : Except Err (SelCol ν) :=
  match dGet d.2.orig t with
  | some pages => .ok ⟨d.1, d.2, selCorrect ops d.2 pages⟩
  | none => .error .key

/-- number of values and number of pages, collectinfo.nim:152-163 -/
def selLayout (c : ν × List (SelPage α)) : Nat × Nat := ((c.2.map fun p => p.vals.length).sum, c.2.length)

/-- `column_select`, nimlite.py:218-317, for entries whose names were already worked out -/
def columnSelectNamed (ops : SelOps α) (dflt : α) (step ps : Nat) (t : List (ν × List (SelPage α))) (desired : List (ν × SelReq ν)) :
    Except Err (SelResult ν α) :=
  match t.map selLayout with
  | [] => .error .index
  | l :: ls =>
    if ∃ x ∈ ls, x ≠ l then .error .other
    else (desired.mapM (selCol ops t)).bind fun cols =>
      if cols.all (·.correct) then
        (cols.mapM (selShare t)).bind fun pass => .ok ⟨pass, t.map fun c => (c.1, []), []⟩
      else
        ((List.range l.2).mapM fun k => (selRow t k).bind (selPage ops dflt step ps cols)).bind fun outs =>
          .ok ⟨cols.zipIdx.map fun c => (c.1.name, selGather (outs.map (·.pass)) c.2),
            t.zipIdx.map fun c => (c.1.1, selGather (outs.map (·.fail)) c.2),
            (outs.map (·.reasons)).filter (· ≠ [])⟩

end

/-- one entry of `cols` -/
structure SelEntry where
  column : List Char
  rename : Option (List Char)
  type : SelKind
  allowEmpty : Bool

/-- `str.strip()`; `ws` tells the whitespace characters -/
def pyStrip (ws : Char → Bool) (s : List Char) : List Char := ((s.dropWhile ws).reverse.dropWhile ws).reverse

/-- the name asked for, collectinfo.nim:92-106; a `rename` that is not a string counts as absent -/
def selBase (ws : Char → Bool) (e : SelEntry) : Except Err (List Char × SelReq (List Char)) :=
  let r : SelReq (List Char) := ⟨e.column, e.type, e.allowEmpty⟩
  match e.rename with
  | none => .ok (e.column, r)
  | some [] => .ok (e.column, r)
  | some name => if pyStrip ws name = [] then .error .value else .ok (pyStrip ws name, r)

/-- `nameOut & "_" & $i` -/
def selSuffix (base : List Char) (i : Nat) : List Char := base ++ '_' :: Nat.toDigits 10 i

/-- `column_select`, nimlite.py:218-317 -/
def columnSelect {α : Type} [DecidableEq α] (ops : SelOps α) (ws : Char → Bool) (dflt : α) (step ps : Nat) (t : List (List Char × List (SelPage α)))
    (entries : List SelEntry) : Except Err (SelResult (List Char) α) :=
  (entries.mapM (selBase ws)).bind fun cols => columnSelectNamed ops dflt step ps t (selDesired (selNames selSuffix [] cols))

end Tablite
