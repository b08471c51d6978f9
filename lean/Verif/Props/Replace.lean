import Verif.Model.Replace
import Verif.Props.ColumnWrite
import Verif.Props.TableOps
import Mathlib.Logic.Function.Iterate
import Mathlib.Data.List.Nodup
/-!
# C104: replacing values in columns of a table
-/

namespace Tablite

variable {ν α : Type} [DecidableEq ν] [DecidableEq α]

/-- spec: a value through the mapping -/
def mapped (mapping : List (α × α)) (x : α) : α := match mapping.find? (fun kv => kv.1 = x) with | some kv => kv.2 | none => x

/-- spec: the columns that are meant -/
def meant (t : Tbl ν α) : ReplaceCols ν → List ν
  | .all => t.map (·.1)
  | .one n => [n]
  | .many ns => ns

/-- each column is mapped as many times as it is named -/
theorem C104_count (mapping : List (α × α)) (t : Tbl ν α) (ns : List ν) :
    tview (ns.foldl (replaceIn mapping) t) = (tview t).map fun c => (c.1, c.2.map (Nat.iterate (mapped mapping) (ns.count c.1))) := by
  induction ns generalizing t with
  | nil =>
    rw [List.foldl_nil]
    conv_lhs => rw [← List.map_id (tview t)]
    refine List.map_congr_left fun c _ => ?_
    simp
  | cons n ns ih =>
    rw [List.foldl_cons, ih]
    unfold replaceIn tview
    simp only [List.map_map]
    refine List.map_congr_left fun c _ => ?_
    simp only [Function.comp]
    by_cases h : c.1 = n
    · rw [if_pos h]
      dsimp only
      rw [C14_replace, h, List.count_cons_self, List.map_map]
      rfl
    · rw [if_neg h, List.count_cons_of_ne (fun e => h e.symm)]

/-- the full claim: the named columns are mapped, the others stay; a name that is not a column is refused and nothing changes -/
def C104_statement : Prop := ∀ (mapping : List (Nat × Nat)) (columns : ReplaceCols Nat) (t : Tbl Nat Nat), (t.map (·.1)).Nodup → (mapping.map (·.1)).Nodup →
  if ∀ n ∈ meant t columns, n ∈ t.map (·.1) then
    (tblReplace mapping columns t).2 = none ∧ tview (tblReplace mapping columns t).1 = (tview t).map fun c => if c.1 ∈ meant t columns then (c.1, c.2.map (mapped mapping)) else c
  else (tblReplace mapping columns t).2 ≠ none ∧ tview (tblReplace mapping columns t).1 = tview t

/-- **C104**, partial: this holds if no column is named twice. -/
theorem C104_partial (mapping : List (α × α)) (columns : ReplaceCols ν) (t : Tbl ν α) (hn : (t.map (·.1)).Nodup) (hc : (meant t columns).Nodup) :
    if ∀ n ∈ meant t columns, n ∈ t.map (·.1) then
      (tblReplace mapping columns t).2 = none ∧ tview (tblReplace mapping columns t).1 = (tview t).map fun c => if c.1 ∈ meant t columns then (c.1, c.2.map (mapped mapping)) else c
    else (tblReplace mapping columns t).2 ≠ none ∧ tview (tblReplace mapping columns t).1 = tview t := by
  have key : ∀ ns : List ν, ns.Nodup → tview (ns.foldl (replaceIn mapping) t) = (tview t).map fun c => if c.1 ∈ ns then (c.1, c.2.map (mapped mapping)) else c := by
    intro ns hns
    rw [C104_count]
    refine List.map_congr_left fun c _ => ?_
    by_cases h : c.1 ∈ ns
    · rw [if_pos h, List.count_eq_one_of_mem hns h]; rfl
    · rw [if_neg h, List.count_eq_zero_of_not_mem h]; simp
  unfold tblReplace
  cases columns with
  | all =>
    rw [if_pos (show ∀ n ∈ meant t .all, n ∈ t.map (·.1) from fun n h => h)]
    exact ⟨rfl, key _ hn⟩
  | one n =>
    by_cases h : n ∈ t.map (·.1)
    · rw [if_pos (by intro m hm; rw [List.mem_singleton.1 hm]; exact h)]
      simp only [replaceNames, if_pos h]
      exact ⟨trivial, key [n] (by simp)⟩
    · rw [if_neg (fun hx => h (hx n (by simp [meant])))]
      simp only [replaceNames, if_neg h]
      exact ⟨by simp, trivial⟩
  | many ns =>
    by_cases h : ∀ n ∈ ns, n ∈ t.map (·.1)
    · rw [if_pos (show ∀ n ∈ meant t (.many ns), n ∈ t.map (·.1) from h)]
      have h' : (ns.all fun n => decide (n ∈ t.map (·.1))) = true := by simpa [List.all_eq_true] using h
      simp only [replaceNames, if_pos h']
      exact ⟨trivial, key ns hc⟩
    · rw [if_neg (show ¬ ∀ n ∈ meant t (.many ns), n ∈ t.map (·.1) from h)]
      have h' : ¬ (ns.all fun n => decide (n ∈ t.map (·.1))) = true := by simpa [List.all_eq_true] using h
      simp only [replaceNames, if_neg h']
      exact ⟨by simp, trivial⟩

/-- a column named twice is mapped twice: 1 becomes 2 and then 3 -/
theorem C104_fails : ¬ C104_statement := by
  intro h
  have := h [(1, 2), (2, 3)] (.many [0, 0]) [(0, [[1]])] (by decide) (by decide)
  rw [if_pos (by decide)] at this
  exact absurd this.2 (by decide)

/-- two of three columns, in two pages -/
example : (tblReplace [(1, 2), (2, 1)] (.many [0, 2]) [(0, [[1], [2, 3]]), (1, [[1, 2, 3]]), (2, [[5, 1, 1]])]).1 = [((0 : Nat), [[(2 : Nat)], [1, 3]]), (1, [[1, 2, 3]]), (2, [[5, 2, 2]])] := by decide
example : (meant [((0 : Nat), [[(1 : Nat)], [2, 3]]), (1, [[1, 2, 3]]), (2, [[5, 1, 1]])] (.many [0, 2])).Nodup := by decide

end Tablite
