import Verif.Model.Guess

/-! `DataTypes.guess_types` (tablite/datatypes.py:455-480): the types of values and how often they are found. -/
namespace Tablite

/-- an object given to `Rank`: a type, or a list of types -/
inductive RankItem where
  | one (t : GT)
  | many (ts : List GT)
deriving DecidableEq

/-- the key of an item in the dictionary of `Rank.__init__` (datatypes.py:731): lists cannot be hashed -/
def RankItem.key : RankItem → Except Err RankItem
  | .one t => .ok (.one t)
  | .many _ => .error .type

/-- `Rank(*items)` (datatypes.py:730-733) -/
def rankNew (items : List RankItem) : Except Err (PyRank RankItem) := (items.mapM RankItem.key).bind fun ks => .ok (PyRank.new ks)

/-- `DataTypes.infer(value, item)` (datatypes.py:506-517): a list is no key of `matched_types` -/
def inferItem {O : Type} (R : GuessRt O) (v : PV O) : RankItem → Except Err (PV O)
  | .one t => pyInfer R v t
  | .many _ => (pyInNones R v).bind fun b => if b then .ok .none else .error .type

/-- the loop over the values (datatypes.py:466-477): the counts in the order in which the types were found -/
def countTypes {O : Type} (R : GuessRt O) : List (RankItem × Nat) → PyRank RankItem → List (PV O) → Except Err (List (RankItem × Nat))
  | d, _, [] => .ok d
  | d, s, v :: vs => (guessOne (inferItem R v) s.list).bind fun c => match c with
    | none => countTypes R d s vs
    | some (t, _) => (s.match t).bind fun s' => countTypes R (dUpd 0 t (· + 1) d) s' vs

/-- `guess_types` for the given items of `Rank` (datatypes.py:463-480); `share k n` is `round(k / n, 3)` -/
def guessTypesWith {O : Type} (items : List RankItem) (R : GuessRt O) (share : Nat → Nat → Dbl) (values : List (PV O)) : Except Err (List (RankItem × Dbl)) :=
  (rankNew items).bind fun s => (countTypes R [] s values).bind fun d =>
    if values = [] then .error .zeroDivision
    else if d = [] then .ok [(.one .str, share values.length values.length)]
    else .ok (d.map fun x => (x.1, share x.2 values.length))

/-- `DataTypes.guess_types(*values)` (datatypes.py:464): `Rank(DataTypes.types[:])` is called with the list as its only item -/
def guessTypes {O : Type} (R : GuessRt O) (share : Nat → Nat → Dbl) (values : List (PV O)) : Except Err (List (RankItem × Dbl)) :=
  guessTypesWith [.many GT.types] R share values

end Tablite
