import Verif.Model.OrdDict
/-!
# Life time of page files: `tablite/base.py` class `SimplePage` (67-155) and `Page.__init__` (159-196)

The state of one process: the files on disk, the class dictionary `SimplePage.refcounts`, the id counter `SimplePage.ids`, the `SimplePage` objects
that are alive in this process and the columns holding references to them.  `P` are paths, `D` contents of a page file, `Δ` directories.
`mk dir n` is the path `dir/pages/{pid}-{n}.npy`; `owns` tells whether a path lies in the directory of this process (base.py:121-124).
An object carries, beside its path, the data it was created for; the code does not store this, it is only used to state the theorems.
-/

namespace Tablite

section
variable {P D Δ : Type} [DecidableEq P]

/-- process state -/
structure Proc (P D : Type) where
  files : List (P × D) := []
  refcounts : List (P × Nat) := []
  nextId : Nat := 1
  objs : List (Nat × (P × D)) := []
  nextObj : Nat := 0
  cols : List (List Nat) := []

/-- `path.unlink(True)` / `del d[path]` on association lists -/
def dDel {κ β : Type} [DecidableEq κ] (k : κ) (d : List (κ × β)) : List (κ × β) := d.filter fun e => e.1 ≠ k

/-- the loop of `SimplePage.next_id`, base.py:94-105: the first unused number `n` with no file at `mk dir n`; returns the number.  The loop is
given fuel; `nextIdLoop_fresh` shows that one more than the number of files is enough. -/
def nextIdLoop (mk : Nat → P) (files : List (P × D)) : Nat → Nat → Nat
  | 0, n => n
  | fuel + 1, n => if (dGet (mk n) files).isSome then nextIdLoop mk files fuel (n + 1) else n

/-- `_incr_refcount`, base.py:79-82 -/
def incrRef (owns : P → Bool) (p : P) (rc : List (P × Nat)) : List (P × Nat) :=
  if owns p then dUpd 0 p (· + 1) rc else rc

/-- a new object with its reference count: `SimplePage.__init__` (base.py:72-77) and `__setstate__` (84-92) -/
def Proc.newObj (owns : P → Bool) (s : Proc P D) (p : P) (d : D) : Proc P D :=
  { s with refcounts := incrRef owns p s.refcounts, objs := s.objs ++ [(s.nextObj, (p, d))], nextObj := s.nextObj + 1 }

/-- `SimplePage.__del__`, base.py:126-146, with `autocleanup = True` -/
def Proc.del (owns : P → Bool) (s : Proc P D) (p : P) : Proc P D :=
  if !owns p then s
  else
    let refcount := max ((dGet p s.refcounts).getD 0 - 1) 0
    let rc := dUpd 0 p (fun _ => refcount) s.refcounts
    if refcount > 0 then { s with refcounts := rc }
    else { s with files := dDel p s.files, refcounts := dDel p rc }

/-- what can happen -/
inductive Ev (P D Δ : Type) where
  /-- `SimplePage.next_id(dir)` alone: Nim code asks for a name and writes the file later -/
  | reserve (dir : Δ)
  /-- `Page(dir, array)`, base.py:159-196: take an id, count the reference, write the file -/
  | create (dir : Δ) (d : D)
  /-- other code writes a page file: Nim code of this process or a worker process -/
  | write (p : P) (d : D)
  /-- another process removes a file that is not ours -/
  | foreignRemove (p : P)
  /-- `SimplePage(id, path, …)` for a file that exists, or a page arriving by unpickling -/
  | adopt (p : P)
  /-- a new column, or an existing column, now holds exactly these page objects: construction, copy, extension, deletion, assignment -/
  | newCol (ids : List Nat)
  | setCol (c : Nat) (ids : List Nat)
  /-- garbage collection of an object to which no column refers -/
  | collect (o : Nat)

/-- one step; `none` if the event cannot happen in this state -/
def Proc.step (mk : Δ → Nat → P) (owns : P → Bool) (s : Proc P D) : Ev P D Δ → Option (Proc P D)
  | .reserve dir => some { s with nextId := nextIdLoop (mk dir) s.files (s.files.length + 1) s.nextId + 1 }
  | .create dir d =>
    let n := nextIdLoop (mk dir) s.files (s.files.length + 1) s.nextId
    let s' := { s with nextId := n + 1 }.newObj owns (mk dir n) d
    some { s' with files := dUpd d (mk dir n) (fun _ => d) s'.files }
  | .write p d => if (dGet p s.files).isSome then none else some { s with files := s.files ++ [(p, d)] }
  | .foreignRemove p => if owns p then none else some { s with files := dDel p s.files }
  | .adopt p =>
    match dGet p s.files with
    | none => none
    | some d => some (s.newObj owns p d)
  | .newCol ids => if ids.all fun o => (dGet o s.objs).isSome then some { s with cols := s.cols ++ [ids] } else none
  | .setCol c ids => if ids.all fun o => (dGet o s.objs).isSome then some { s with cols := s.cols.set c ids } else none
  | .collect o =>
    match dGet o s.objs with
    | none => none
    | some (p, _) => if s.cols.any fun c => o ∈ c then none else some ({ s with objs := dDel o s.objs }.del owns p)

/-- a history -/
def Proc.run (mk : Δ → Nat → P) (owns : P → Bool) (s : Proc P D) : List (Ev P D Δ) → Option (Proc P D)
  | [] => some s
  | e :: es =>
    match s.step mk owns e with
    | none => none
    | some s' => s'.run mk owns es

end

end Tablite
