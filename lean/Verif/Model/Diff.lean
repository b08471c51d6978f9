import Verif.Model.Reshape
/-!
# `tablite/diff.py`

`difflib.SequenceMatcher(None, t1, t2).get_opcodes()` is Python's library: the opcodes are an argument of the model, what is assumed about
them is said where it is used.  The marks "-", "+", "=" and "r" are values `mark _`.  The clearing of the cache, diff.py:80-83, never happens:
`len(...) > PAGE_SIZE == 0` asks for page size 0.
-/

namespace Tablite

/-- the tags of opcodes -/
inductive DiffTag where
  | insert | delete | equal | replace
deriving DecidableEq, Repr

/-- `tag, i1, i2, j1, j2` -/
structure Opcode where
  tag : DiffTag
  a1 : Nat
  b1 : Nat
  a2 : Nat
  b2 : Nat
deriving DecidableEq, Repr

/-- the marks of the two last columns -/
inductive Mark where
  | minus | plus | same | repl
deriving DecidableEq, Repr

section
variable {ν α : Type} [DecidableEq ν]

/-- `zip(*rows)`: the columns of the rows, as many as the shortest row has values -/
def zipStar (nul : α) (rows : List (List α)) : List (List α) :=
  match rows with
  | [] => []
  | r :: rest => (List.range (rest.foldl (fun n x => min n x.length) r.length)).map fun j => (r :: rest).map fun x => x.getD j nul

/-- one branch, e.g. diff.py:52-56: the rows `rows[a:b]` under the names `columns`, and `b - a` marks -/
def diffEmit (nul : α) (columns : List ν) (first second : ν) (m1 m2 : α) (rows : List (List α)) (a b : Nat) (news : List (ν × List α)) : List (ν × List α) :=
  let news := (columns.zip (zipStar nul ((rows.take b).drop a))).foldl (fun d p => newsExtend p.1 p.2 d) news
  newsExtend second (List.replicate (b - a) m2) (newsExtend first (List.replicate (b - a) m1) news)

/-- the loop body, diff.py:51-77 -/
def diffStep (nul : α) (mark : Mark → α) (columns : List ν) (first second : ν) (t1 t2 : List (List α)) (news : List (ν × List α)) (o : Opcode) : List (ν × List α) :=
  match o.tag with
  | .insert => diffEmit nul columns first second (mark .minus) (mark .plus) t2 o.a2 o.b2 news
  | .delete => diffEmit nul columns first second (mark .plus) (mark .minus) t1 o.a1 o.b1 news
  | .equal => diffEmit nul columns first second (mark .same) (mark .same) t2 o.a2 o.b2 news
  | .replace => diffEmit nul columns first second (mark .repl) (mark .repl) t2 o.a2 o.b2 news

/-- `list(T)`: Python reads `T[0]`, `T[1]`, … until IndexError, base.py:1205-1261, that is until the shortest column ends -/
def tblIter (nul : α) (t : Tbl ν α) : List (List α) :=
  match t with
  | [] => []
  | c :: rest => (List.range (rest.foldl (fun n d => min n (colLen d.2)) (colLen c.2))).map fun i => (c :: rest).map fun d => (colIter d.2).getD i nul

/-- `t1 = T[columns]` and what follows, diff.py:32-41: the rows compared are those of the whole table.  No name is an IndexError. -/
def diffRows (nul : α) (t : Tbl ν α) (columns : List ν) : Except Err (List (List α)) :=
  match columns with
  | [] => .error .index
  | [_] => .ok (tblIter nul t)
  | _ => tblRows nul t

/-- `diff`, diff.py:8-88.  `opcodes t1 t2` is the outcome of difflib, `npArr` what `np.array` does to a list, `n1` and `n2` are "1st" and "2nd". -/
def diff (ps : Nat) (mk : ν → Nat → ν) (npArr : List α → List α) (opcodes : List (List α) → List (List α) → List Opcode) (nul : α) (mark : Mark → α) (n1 n2 : ν)
    (t o : Tbl ν α) (columns : Option (List ν)) : Except Err (Tbl ν α) :=
  let cols := columns.getD ((t.map (·.1)).filter fun x => x ∈ o.map (·.1))
  if ¬ cols.all (fun x => x ∈ t.map (·.1) ∧ x ∈ o.map (·.1)) then .error .value
  else do
    let t1 ← diffRows nul t cols
    let t2 ← diffRows nul o cols
    let first := uniqueName mk n1 cols
    let second := uniqueName mk n2 cols
    let new : Tbl ν α := (cols ++ [first, second]).foldl (fun t x => tblSet t x []) []
    let news := new.map fun c => (c.1, ([] : List α))
    let news := (opcodes t1 t2).foldl (diffStep nul mark cols first second t1 t2) news
    .ok (flush ps npArr (new, news)).1

end

end Tablite
