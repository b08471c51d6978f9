import Verif.Model.Filter
/-!
# Filtering by the text of an expression: `redux.py:12-32, 383-393` with `expression_interpreter`, `utils.py:55-81`

Python's compiler and evaluation are parameters.  The code decides by a substring search which columns are arguments of the compiled function.
-/

namespace Tablite

/-- `x in text` for texts -/
def isIn (x text : List Char) : Bool := (List.range (text.length + 1)).any fun i => x.isPrefixOf (text.drop i)

/-- a compiled expression: `run` evaluates it with the given local names, `names` are the names it looks up (builtins included; these are found
only if not local); nothing else influences the result -/
structure PyExpr (α : Type) where
  names : List (List Char)
  run : (List Char → Option α) → Except Err α
  local_ : ∀ env env', (∀ x ∈ names, env x = env' x) → run env = run env'

section
variable {α : Type}

/-- `[i for i in T.columns if i in expression]`, redux.py:31 and utils.py:74 -/
def reqColumns (t : Tbl (List Char) α) (text : List Char) : Tbl (List Char) α := t.filter fun c => isIn c.1 text

/-- `expression_interpreter`, utils.py:74-80: `def f({req_columns}): return {expression}` is compiled.  A parameter that is no identifier is a
syntax error, which redux.py:28-29 turns into ValueError; `parse` is Python's parser for the expression. -/
def compileExpr (isIdent : List Char → Bool) (parse : List Char → Option (PyExpr α)) (params : List (List Char)) (text : List Char) : Except Err (PyExpr α) :=
  if params.all isIdent then
    match parse text with
    | some e => .ok e
    | none => .error .value
  else .error .value

/-- `bool(_f(*r))`, redux.py:32: the parameters are bound to the values of the row by position -/
def exprRow (truthy : α → Except Err Bool) (e : PyExpr α) (params : List (List Char)) (row : List α) : Except Err Bool := do
  let v ← e.run fun x => dGet x (params.zip row)
  truthy v

/-- `T[req_columns].rows`, redux.py:32: no name at all is an IndexError (`keys[0]`, base.py:1233); for a single name `T[...]` is a Column
(base.py:1249-1256), which has no attribute `rows`; otherwise a table with these columns (base.py:1263-1266) -/
def reqRows (nul : α) (req : Tbl (List Char) α) : Except Err (List (List α)) :=
  match req with
  | [] => .error .index
  | [_] => .error .attribute
  | _ => tblRows nul req

/-- `_filter_using_expression`, redux.py:12-32; also `Table.expression`, core.py:330-341 -/
def exprMask (isIdent : List Char → Bool) (parse : List Char → Option (PyExpr α)) (truthy : α → Except Err Bool) (nul : α) (t : Tbl (List Char) α) (text : List Char) :
    Except Err (List Bool) := do
  let req := reqColumns t text
  let e ← compileExpr isIdent parse (req.map (·.1)) text
  let rows ← reqRows nul req
  rows.mapM (exprRow truthy e (req.map (·.1)))

/-- `filter` with a text, redux.py:383-393: two copies of an empty table -/
def exprFilter (isIdent : List Char → Bool) (parse : List Char → Option (PyExpr α)) (truthy : α → Except Err Bool) (ps : Nat) (nul : α) (t : Tbl (List Char) α)
    (text : List Char) : Except Err (Tbl (List Char) α × Tbl (List Char) α) :=
  if tblLen t = 0 then .ok (t, t) else do
    let mask ← exprMask isIdent parse truthy nul t text
    compressBoth ps t mask

end

end Tablite
