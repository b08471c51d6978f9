import Verif.Model.Table
/-!
# `tablite/merge.py` `where`, and `utils.unique_name`
-/

namespace Tablite

section
variable {ν α : Type} [DecidableEq ν]

/-- the loop `while True: name = f"{desired}_{i}"; if name not in names: return; i += 1` of `unique_name`, utils.py:41-52.
`mk i` is the name with suffix `i`; the search starts at `i` and is given fuel (`C47` shows the fuel suffices). -/
def uniqueNameLoop (mk : Nat → ν) (names : List ν) : Nat → Nat → ν
  | 0, i => mk i
  | fuel + 1, i => if mk i ∈ names then uniqueNameLoop mk names fuel (i + 1) else mk i

/-- `unique_name(desired, names)`, utils.py:41-52 -/
def uniqueName (mk : ν → Nat → ν) (desired : ν) (names : List ν) : ν :=
  if desired ∈ names then uniqueNameLoop (mk desired) names (names.length + 1) 1 else desired

/-- `del T[name]`; KeyError if missing -/
def tblDel (t : Tbl ν α) (x : ν) : Except Err (Tbl ν α) :=
  if x ∈ t.map (·.1) then .ok (t.filter fun c => c.1 ≠ x) else .error .key

/-- `T[name] = column`: an existing name keeps its place -/
def tblSet (t : Tbl ν α) (x : ν) (p : Pages α) : Tbl ν α := dUpd [] x (fun _ => p) t

/-- the page loop of `where`, merge.py:32-36.  `criteria` is not sliced. -/
def whereLoop (ps : Nat) (crit : List Bool) (l r : Pages α) : Except Err (Pages α) :=
  (pageSteps ps crit.length).foldlM (fun new se => do
    let lv ← getSlice l { start := some (se.1 : Int), stop := some (se.2 : Int) }
    let rv ← getSlice r { start := some (se.1 : Int), stop := some (se.2 : Int) }
    let vals ← npWhere crit lv rv
    .ok (extend ps new vals)) []

/-- `where`, merge.py:7-50 -/
def tblWhere (ps : Nat) (mk : ν → Nat → ν) (t : Tbl ν α) (crit : List Bool) (left right new : ν) : Except Err (Tbl ν α) := do
  let uq := uniqueName mk new (t.map (·.1))
  let t := tblSet t uq []
  match dGet left t, dGet right t with
  | some l, some r =>
    let col ← whereLoop ps crit l r
    let t := tblSet t uq col
    if new = right then
      let t ← tblDel (tblSet t right col) uq
      tblDel t left
    else if new = left then
      let t ← tblDel (tblSet t left col) uq
      tblDel t right
    else
      let t ← tblDel (tblSet t new col) left
      tblDel t right
  | _, _ => .error .key

end

end Tablite
