import Verif.Model.Paging
/-!
# `nimlite/numpy.nim`: repagination

A page file is the list of its values; boxing a typed value into an object (numpy.nim:1195-1211) is the identity on values.  The cache
`lastPage` only saves reading a file twice and is left out.
-/

namespace Tablite

/-- the variables of `calcRepaginationSteps`, numpy.nim:1141-1146 -/
structure RepState where
  steps : List (List (Nat × Nat × Nat))
  stepIndex : Nat
  offset : Nat
  pgIndex : Nat
  consumed : Nat
  pageConsumed : Nat
deriving DecidableEq, Repr

/-- the loop body, numpy.nim:1149-1167.  Indices out of range are an error.  `pgSize - consumed` is never negative (proved as part of the
invariant), so natural subtraction loses nothing. -/
def repStep (shapes : List Nat) (ps len : Nat) (s : RepState) : Except Err RepState :=
  match s.steps[s.stepIndex]?, shapes[s.pgIndex]? with
  | some _, some pgSize =>
    let pageLeftover := ps - s.pageConsumed
    let needsToConsume := min (len - s.offset) pageLeftover
    let n := min needsToConsume (pgSize - s.consumed)
    let steps := s.steps.modify s.stepIndex fun l => l ++ [(s.pgIndex, s.consumed, s.consumed + n)]
    let consumed := s.consumed + n
    let pageConsumed := s.pageConsumed + n
    .ok { steps := steps,
          stepIndex := if pageConsumed = ps then s.stepIndex + 1 else s.stepIndex,
          offset := s.offset + n,
          pgIndex := if consumed = pgSize then s.pgIndex + 1 else s.pgIndex,
          consumed := if consumed = pgSize then 0 else consumed,
          pageConsumed := if pageConsumed = ps then 0 else pageConsumed }
  | _, _ => .error .index

/-- `while offset < colLen`, numpy.nim:1148; `fuel` bounds the number of rounds, running out of it is an error -/
def repLoop (shapes : List Nat) (ps len : Nat) : Nat → RepState → Except Err RepState
  | 0, s => if s.offset < len then .error .other else .ok s
  | fuel + 1, s => if s.offset < len then (repStep shapes ps len s).bind (repLoop shapes ps len fuel) else .ok s

/-- `calcRepaginationSteps`, numpy.nim:1129-1169.  The float ceiling is exact here; page size 0 is an error. -/
def calcRepaginationSteps (shapes : List Nat) (ps : Nat) : Except Err (List (List (Nat × Nat × Nat))) :=
  if ps = 0 then .error .zeroDivision
  else
    let len := shapes.sum
    (repLoop shapes ps len (len + shapes.length)
      ⟨List.replicate ((len + ps - 1) / ps) [], 0, 0, 0, 0, 0⟩).bind fun s => .ok s.steps

/-- the values `startOffset ..< endOffset` of a page, numpy.nim:1195-1211 -/
def readStep {α} (pages : Pages α) (x : Nat × Nat × Nat) : Except Err (List α) :=
  match pages[x.1]? with
  | some p => if x.2.2 ≤ p.length ∨ x.2.2 ≤ x.2.1 then .ok ((p.take x.2.2).drop x.2.1) else .error .index
  | none => .error .index

/-- one new page, numpy.nim:1213-1241: the buffer holds `ps` values, writing beyond it is an error -/
def repPage {α} (pages : Pages α) (ps : Nat) (steps : List (Nat × Nat × Nat)) : Except Err (List α) :=
  (steps.mapM (readStep pages)).bind fun l => if l.flatten.length ≤ ps then .ok l.flatten else .error .index

/-- `repaginate`, numpy.nim:1171-1243, libnimlite.nim:22-26 -/
def repaginate {α} (ps : Nat) (pages : Pages α) : Except Err (Pages α) :=
  if pages.isEmpty then .ok []
  else (calcRepaginationSteps (pages.map List.length) ps).bind fun steps => steps.mapM (repPage pages ps)

end Tablite
