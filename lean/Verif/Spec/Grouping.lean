/-!
# Spec vocabulary for grouping: distinct values in first-occurrence order
Independent of the code.
-/

namespace Tablite

/-- the distinct elements of a list, in the order of their first occurrence -/
def firstOccs {κ} [DecidableEq κ] : List κ → List κ
  | [] => []
  | a :: t => a :: (firstOccs t).filter (fun b => b ≠ a)

/-- the positions (ascending) at which `p` holds, counting from `i` -/
def positionsFrom {α} (p : α → Bool) : Nat → List α → List Nat
  | _, [] => []
  | i, a :: t => if p a then i :: positionsFrom p (i + 1) t else positionsFrom p (i + 1) t

end Tablite
