/-!
# Insertion-ordered dictionaries

Python `dict`/`defaultdict` (and Nim `OrderedTable`) as association lists in insertion order.  Key equality is decidable equality of the
model's key type; hashing is not modelled (a dictionary behaves as if hashing were perfect).
-/

namespace Tablite

/-- `d[k] = f(d.get(k, init))`: an existing key keeps its place, a new key goes last. -/
def dUpd {κ β} [DecidableEq κ] (init : β) (k : κ) (f : β → β) : List (κ × β) → List (κ × β)
  | [] => [(k, f init)]
  | (k', b) :: t => if k' = k then (k', f b) :: t else (k', b) :: dUpd init k f t

/-- `d.get(k)` -/
def dGet {κ β} [DecidableEq κ] (k : κ) : List (κ × β) → Option β
  | [] => none
  | (k', b) :: t => if k' = k then some b else dGet k t

/-- a loop that files every element under its key -/
def dGroup {α κ β} [DecidableEq κ] (key : α → κ) (init : β) (f : α → β → β) (xs : List α) : List (κ × β) :=
  xs.foldl (fun d x => dUpd init (key x) (f x) d) []

end Tablite
