import Verif.Model.Npy
/-!
# Rows of a page: `page[indices]` in the native code, `nimlite/numpy.nim:245-317`

Used by `filter` (funcs/filter.nim:225) and `column_select` (funcs/column_selector/sliceconv.nim:27).
-/

namespace Tablite

/-- the elements at the indices (numpy.nim:299-303); the code does not check the indices, which is an error here -/
def pickIdx {β : Type} (idx : List Nat) (l : List β) : Except Err (List β) := idx.mapM fun i => match l[i]? with | some x => .ok x | none => .error .index

/-- `maxStringLen` (nimlite/utils.nim:65-71): the longest text in code points, at least one -/
def maxRunes (ts : List PyText) : Nat := ts.foldl (fun a t => max a t.length) 1

/-- `newNDArray` of texts (numpy.nim:1259-1263, nimlite/utils.nim:56-63); `toRunes` is strict here -/
def textPage (bs : List (List Nat)) : Except Err NPage :=
  (bs.mapM utf8Decode).bind fun ts => .ok (.str (maxRunes ts) (ts.map fun t => t ++ List.replicate (maxRunes ts - t.length) 0))

/-- the page of objects after the rows were taken (numpy.nim:267-297): objects of one kind become a typed page, None and times stay objects -/
def narrow (vs : List ObjV) : Except Err NPage :=
  match activeKinds vs with
  | [.bool] => (vs.mapM asBool).map .bool
  | [.int] => (vs.mapM asInt).map (.int 8)
  | [.float] => (vs.mapM asFloat).map (.float 8)
  | [.str] => (vs.mapM asStr).bind textPage
  | [.date] => (vs.mapM asDate).map .date
  | [.datetime] => (vs.mapM asDatetime).map .datetime
  | _ => .ok (.object vs)

/-- `page[indices]` (numpy.nim:245-317) -/
def npageTake (idx : List Nat) : NPage → Except Err NPage
  | .bool l => (pickIdx idx l).map .bool
  | .int size l => (pickIdx idx l).map (.int size)
  | .float size l => (pickIdx idx l).map (.float size)
  | .str size l => (pickIdx idx l).map (.str size)
  | .date l => (pickIdx idx l).map .date
  | .datetime l => (pickIdx idx l).map .datetime
  | .object vs => (pickIdx idx vs).bind narrow

end Tablite
