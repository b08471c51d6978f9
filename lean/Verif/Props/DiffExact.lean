import Verif.Props.Diff
/-!
# C61: exactly which rows of the first table are lost
-/

namespace Tablite
set_option linter.unusedSectionVars false

section
variable {ν α : Type} [DecidableEq ν] [DecidableEq α]

/-- the rows of the first table that are in no replaced block -/
def unreplacedRows (t1 : List (List α)) (ops : List Opcode) : List (List α) :=
  ops.flatMap fun o => if o.tag = .replace then [] else (t1.take o.b1).drop o.a1

/-- the number of rows of the first table in replaced blocks -/
def replacedCount (ops : List Opcode) : Nat := (ops.map fun o => if o.tag = .replace then o.b1 - o.a1 else 0).sum

theorem Covers.unreplaced {R : List α → List α → Prop} (hR : ∀ r, R r r) {t1 t2 : List (List α)} {i j : Nat} {ops : List Opcode} (h : Covers R t1 t2 i j ops) :
    List.Forall₂ R (unreplacedRows t1 ops) (((ops.flatMap (outOf t1 t2)).filter fun r => decide (r.2.1 = .plus ∨ r.2.1 = .same)).map (·.1)) := by
  unfold unreplacedRows
  induction h with
  | done => simp
  | insert i j j' ops h h' rest ih =>
    rw [List.flatMap_cons, List.flatMap_cons, List.filter_append, List.map_append]
    have := filter_marks (fun m => decide (m.1 = .plus ∨ m.1 = .same)) ((t2.take j').drop j) (.minus, .plus)
    simp only [outOf]
    rw [if_neg (by decide)] at this
    rw [this, List.nil_append, if_neg (by decide)]
    have e : (t1.take i).drop i = [] := by simp
    rw [e, List.nil_append]
    exact ih
  | delete i i' j ops h h' rest ih =>
    rw [List.flatMap_cons, List.flatMap_cons, List.filter_append, List.map_append]
    have := filter_marks (fun m => decide (m.1 = .plus ∨ m.1 = .same)) ((t1.take i').drop i) (.plus, .minus)
    simp only [outOf]
    rw [if_pos (by decide)] at this
    rw [this, if_neg (by decide)]
    exact List.rel_append (List.forall₂_same.2 fun x _ => hR x) ih
  | equal i i' j j' ops h h1 h' h2 heq rest ih =>
    rw [List.flatMap_cons, List.flatMap_cons, List.filter_append, List.map_append]
    have := filter_marks (fun m => decide (m.1 = .plus ∨ m.1 = .same)) ((t2.take j').drop j) (.same, .same)
    simp only [outOf]
    rw [if_pos (by decide)] at this
    rw [this, if_neg (by decide)]
    exact List.rel_append heq ih
  | replace i i' j j' ops h h1 h' h2 rest ih =>
    rw [List.flatMap_cons, List.flatMap_cons, List.filter_append, List.map_append]
    have := filter_marks (fun m => decide (m.1 = .plus ∨ m.1 = .same)) ((t2.take j').drop j) (.repl, .repl)
    simp only [outOf]
    rw [if_neg (by decide)] at this
    rw [this, if_pos trivial]
    exact ih

theorem Covers.count {R : List α → List α → Prop} {t1 t2 : List (List α)} {i j : Nat} {ops : List Opcode} (h : Covers R t1 t2 i j ops) :
    (unreplacedRows t1 ops).length + replacedCount ops + i = t1.length := by
  unfold unreplacedRows replacedCount
  induction h with
  | done => simp
  | insert i j j' ops h h' rest ih =>
    rw [List.flatMap_cons, List.map_cons, List.sum_cons, List.length_append, if_neg nofun, if_neg nofun]
    simp only [List.length_drop, List.length_take]
    omega
  | delete i i' j ops h h' rest ih =>
    rw [List.flatMap_cons, List.map_cons, List.sum_cons, List.length_append, if_neg nofun, if_neg nofun]
    simp only [List.length_drop, List.length_take]
    omega
  | equal i i' j j' ops h h1 h' h2 heq rest ih =>
    rw [List.flatMap_cons, List.map_cons, List.sum_cons, List.length_append, if_neg nofun, if_neg nofun]
    simp only [List.length_drop, List.length_take]
    omega
  | replace i i' j j' ops h h1 h' h2 rest ih =>
    rw [List.flatMap_cons, List.map_cons, List.sum_cons, List.length_append, if_pos rfl, if_pos rfl]
    simp only [List.length_nil]
    omega

theorem Covers.all_unreplaced {R : List α → List α → Prop} {t1 t2 : List (List α)} {i j : Nat} {ops : List Opcode} (h : Covers R t1 t2 i j ops)
    (h0 : replacedCount ops = 0) : unreplacedRows t1 ops = t1.drop i := by
  unfold unreplacedRows
  unfold replacedCount at h0
  induction h with
  | done => simp
  | insert i j j' ops h h' rest ih =>
    rw [List.map_cons, List.sum_cons, if_neg nofun, Nat.zero_add] at h0
    rw [List.flatMap_cons, if_neg nofun, ih h0]
    simp
  | delete i i' j ops h h' rest ih =>
    rw [List.map_cons, List.sum_cons, if_neg nofun, Nat.zero_add] at h0
    rw [List.flatMap_cons, if_neg nofun, ih h0]
    exact slice_drop t1 _ _ h
  | equal i i' j j' ops h h1 h' h2 heq rest ih =>
    rw [List.map_cons, List.sum_cons, if_neg nofun, Nat.zero_add] at h0
    rw [List.flatMap_cons, if_neg nofun, ih h0]
    exact slice_drop t1 _ _ h
  | replace i i' j j' ops h h1 h' h2 rest ih =>
    rw [List.map_cons, List.sum_cons, if_pos rfl] at h0
    dsimp only at h0
    rw [List.flatMap_cons, if_pos rfl, ih (by omega), List.nil_append, show i' = i by omega]

/-- **C61, exactly**, for two tables with the same columns and values numpy leaves alone:
the rows marked "+" or "=" in the first column of marks are, in order and up to the equality difflib used, the rows of the first table outside the blocks
difflib calls replaced; as many rows of the first table are missing as these blocks have.  So the first table can be read off its marks if and only if
no row of it is in a replaced block. -/
theorem C61_exact (R : List α → List α → Prop) (hR : ∀ r, R r r) (ps : Nat) (hps : 0 < ps) (mk : ν → Nat → ν) (hmk : ∀ d a b, mk d a = mk d b → a = b)
    (npArr : List α → List α)
    (opcodes : List (List α) → List (List α) → List Opcode) (nul : α) (mark : Mark → α) (n1 n2 : ν) (t o : Tbl ν α) (n m : Nat) (cols : List ν)
    (ht : t.map (·.1) = cols) (ho : o.map (·.1) = cols) (hnd : cols.Nodup) (hne : cols ≠ []) (hrt : Rect t n) (hro : Rect o m)
    (hn : uniqueName mk n1 cols ≠ uniqueName mk n2 cols)
    (hops : Covers R (tupleRows nul t n) (tupleRows nul o m) 0 0 (opcodes (tupleRows nul t n) (tupleRows nul o m)))
    (hnp : ∀ x ∈ cols, ∀ l : List α, (∀ v ∈ l, (∃ i < n, v = cell nul t x i) ∨ ∃ i < m, v = cell nul o x i) → npArr l = l)
    (hnpm : ∀ l : List Mark, npArr (l.map mark) = l.map mark)
    (columns : Option (List ν)) (hcol : columns = none ∨ columns = some cols) :
    ∃ t' O, diff ps mk npArr opcodes nul mark n1 n2 t o columns = .ok t' ∧
      tview t' = markedView nul mark cols (uniqueName mk n1 cols) (uniqueName mk n2 cols) O ∧
      List.Forall₂ R (unreplacedRows (tupleRows nul t n) (opcodes (tupleRows nul t n) (tupleRows nul o m)))
        ((O.filter fun r => decide (r.2.1 = .plus ∨ r.2.1 = .same)).map (·.1)) ∧
      (O.filter fun r => decide (r.2.1 = .plus ∨ r.2.1 = .same)).length + replacedCount (opcodes (tupleRows nul t n) (tupleRows nul o m)) = n ∧
      (List.Forall₂ R (tupleRows nul t n) ((O.filter fun r => decide (r.2.1 = .plus ∨ r.2.1 = .same)).map (·.1)) ↔
        ∀ op ∈ opcodes (tupleRows nul t n) (tupleRows nul o m), op.tag = .replace → op.b1 ≤ op.a1) := by
  obtain ⟨t', h1, h2⟩ := diff_ok R ps hps mk hmk npArr opcodes nul mark n1 n2 t o n m cols ht ho hnd hne hrt hro hn hops hnp hnpm columns hcol
  have hu := hops.unreplaced hR
  have hc := hops.count
  have hn' : (tupleRows nul t n).length = n := by simp [tupleRows]
  rw [hn', Nat.add_zero] at hc
  have hlen := hu.length_eq
  rw [List.length_map] at hlen
  refine ⟨t', _, h1, h2, hu, by omega, ?_⟩
  have hz : replacedCount (opcodes (tupleRows nul t n) (tupleRows nul o m)) = 0 ↔
      ∀ op ∈ opcodes (tupleRows nul t n) (tupleRows nul o m), op.tag = .replace → op.b1 ≤ op.a1 := by
    unfold replacedCount
    generalize opcodes (tupleRows nul t n) (tupleRows nul o m) = ops
    induction ops with
    | nil => simp
    | cons op ops ih =>
      rw [List.map_cons, List.sum_cons, List.forall_mem_cons, ← ih]
      split
      · rename_i he; simp [he]; omega
      · rename_i he; simp [he]
  rw [← hz]
  constructor
  · intro hf
    have := hf.length_eq
    rw [List.length_map, hn'] at this
    omega
  · intro h0
    have e := hops.all_unreplaced h0
    rw [List.drop_zero] at e
    rw [e] at hu
    exact hu

end

/-- one row deleted, one replaced by two, one kept: the row marked "r" is missing -/
example : Covers (· = ·) [[GVal.int 1], [.int 2], [.int 3]] [[.int 7], [.int 8], [.int 3]] 0 0
    [⟨.delete, 0, 1, 0, 0⟩, ⟨.replace, 1, 2, 0, 2⟩, ⟨.equal, 2, 3, 2, 3⟩] ∧
    unreplacedRows [[GVal.int 1], [.int 2], [.int 3]] [⟨.delete, 0, 1, 0, 0⟩, ⟨.replace, 1, 2, 0, 2⟩, ⟨.equal, 2, 3, 2, 3⟩] = [[.int 1], [.int 3]] ∧
    replacedCount [⟨.delete, 0, 1, 0, 0⟩, ⟨.replace, 1, 2, 0, 2⟩, ⟨.equal, 2, 3, 2, 3⟩] = 1 :=
  ⟨.delete 0 1 0 _ (by decide) (by decide) (.replace 1 2 0 2 _ (by decide) (by decide) (by decide) (by decide)
    (.equal 2 3 2 3 _ (by decide) (by decide) (by decide) (by decide) (.cons rfl .nil) .done)), rfl, rfl⟩

end Tablite
