import Verif.Model.TableObj
/-!
# Bytes on disk: `Table.nbytes` (`tablite/base.py:1134-1149`)

A page object is its identity and the path of its file: `SimplePage` has a hash of the path (base.py:118-119) and no `__eq__`, so that two objects with the same path are different keys of a dictionary.
Such objects come from unpickling (`__setstate__`, base.py:84-92).  `stat` is the size of a file, FileNotFoundError (`Err.other`) if there is none.
-/

namespace Tablite

/-- a page object (base.py:67-77): the object and the path of its file -/
structure PageObj (η : Type) where
  obj : Nat
  file : η
deriving DecidableEq

/-- a table with its page objects -/
abbrev RTbl (ν η : Type) := List (ν × List (PageObj η))

section
variable {ν η : Type} [DecidableEq η]

/-- `for page in set(column.pages): real[page] = page.path.stat().st_size`, base.py:1144-1145 -/
def statPages (stat : η → Except Err Nat) : List (PageObj η × Nat) → List (PageObj η) → Except Err (List (PageObj η × Nat))
  | real, [] => .ok real
  | real, p :: ps => (stat p.file).bind fun n => statPages stat (dSet p n real) ps

/-- `for page in column.pages: total += real[page]`, base.py:1146-1147 -/
def addPages (real : List (PageObj η × Nat)) : Nat → List (PageObj η) → Except Err Nat
  | total, [] => .ok total
  | total, p :: ps =>
    match dGet p real with
    | none => .error .key
    | some n => addPages real (total + n) ps

/-- the loop over the columns, base.py:1143-1147.  `ord` is the iteration order of `set(column.pages)`. -/
def nbytesLoop (stat : η → Except Err Nat) (ord : List (PageObj η) → List (PageObj η)) : List (PageObj η × Nat) → Nat → RTbl ν η → Except Err (List (PageObj η × Nat) × Nat)
  | real, total, [] => .ok (real, total)
  | real, total, c :: cs => (statPages stat real (ord c.2)).bind fun real => (addPages real total c.2).bind fun total => nbytesLoop stat ord real total cs

/-- `nbytes`, base.py:1134-1149 -/
def nbytes (stat : η → Except Err Nat) (ord : List (PageObj η) → List (PageObj η)) (t : RTbl ν η) : Except Err (Nat × Nat) :=
  (nbytesLoop stat ord [] 0 t).bind fun r => .ok ((r.1.map (·.2)).sum, r.2)

omit [DecidableEq η] in
/-- `__imul__` and `__mul__`, base.py:1464-1491 with 805-822: the page objects are repeated -/
def rMul (t : RTbl ν η) (n : Int) : Except Err (RTbl ν η) :=
  if n > 0 then .ok (t.map fun c => (c.1, (List.replicate n.toNat c.2).flatten)) else .error .type

/-- `__iadd__`, base.py:1493-1520: `column.pages.extend(other_col.pages[:])` -/
def rIAdd [DecidableEq ν] (t o : RTbl ν η) : Except Err (RTbl ν η) :=
  if t.all (fun c => (dGet c.1 o).isSome) then
    if o.all (fun c => (dGet c.1 t).isSome) then .ok (t.map fun c => (c.1, c.2 ++ (dGet c.1 o).getD []))
    else .error .value
  else .error .value

/-- `pickle.loads(pickle.dumps(t))`, base.py:84-92: new objects for the same files; objects of one pickle stay the same.  `fresh` is the new identity. -/
def rUnpickle (fresh : Nat → Nat) (t : RTbl ν η) : RTbl ν η := t.map fun c => (c.1, c.2.map fun p => { p with obj := fresh p.obj })

end

end Tablite
