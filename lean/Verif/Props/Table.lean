import Verif.Lemmas.Table
import Verif.Props.ColumnWrite
/-!
# Tables: C09 (tables), C15 rows, C16 row slices, C17 stack, C18 equality, C19 index, C49 page steps
-/

namespace Tablite

set_option linter.unusedSectionVars false

section
variable {ν α : Type} [DecidableEq ν]

/-! ## C49 page steps -/

/-- C49: the steps cover `0 … n-1` exactly once and in order, none is longer than the page size, none is empty unless `n = 0`, and there is
at least one. -/
theorem C49_page_steps (ps n : Nat) (hps : 0 < ps) :
    ((pageSteps ps n).flatMap fun se => List.range' se.1 (se.2 - se.1)) = List.range n ∧
    (∀ se ∈ pageSteps ps n, se.1 ≤ se.2 ∧ se.2 ≤ n ∧ se.2 ≤ se.1 + ps ∧ (0 < n → se.1 < se.2)) ∧
    pageSteps ps n ≠ [] := by
  have h := pageStepsLoop_spec ps n hps (n / ps + 1) 0 (by omega) (div_succ_mul _ _ hps)
  refine ⟨?_, ?_, h.2.2⟩
  · rw [List.range_eq_range']
    simpa [pageSteps] using h.1
  · intro se hse
    exact h.2.1 se hse

/-- C49: cutting any list at the page steps and joining the pieces gives the list back. -/
theorem C49_page_steps_cut {β : Type} (ps : Nat) (hps : 0 < ps) (l : List β) :
    ((pageSteps ps l.length).map fun se => (l.take se.2).drop se.1).flatten = l := pageSteps_slices ps hps l

example : pageSteps 3 7 = [(0, 3), (3, 6), (6, 7)] ∧ pageSteps 3 6 = [(0, 3), (3, 6)] ∧ pageSteps 3 0 = [(0, 0)] := by decide

/-! ## C15 rows -/

/-- C15: `len(table)` is the length of the longest column. -/
theorem C15_len (t : Tbl ν α) : (∀ c ∈ t, (colIter c.2).length ≤ tblLen t) ∧ (t ≠ [] → ∃ c ∈ t, (colIter c.2).length = tblLen t) := by
  have e : ∀ c : ν × Pages α, (colIter c.2).length = colLen c.2 := by
    intro c; rw [colLen_eq, colIter_eq]
  simp only [e]
  refine ⟨fun c hc => colLen_le_tblLen t c hc, ?_⟩
  intro hne
  rcases foldl_max_mem (t.map fun c => colLen c.2) 0 with h | h
  · obtain ⟨c, hc⟩ := List.exists_mem_of_ne_nil t hne
    have h1 := colLen_le_tblLen t c hc
    have h2 : tblLen t = 0 := h
    exact ⟨c, hc, by omega⟩
  · obtain ⟨c, hc, e2⟩ := List.mem_map.1 h
    exact ⟨c, hc, e2⟩

/-- C15: row iteration never fails; it yields `len(table)` rows; row `i` holds for each column, in column order, its `i`-th value, or None
where the column is shorter. -/
theorem C15_rows (nul : α) (t : Tbl ν α) :
    tblRows nul t = .ok ((List.range (tblLen t)).map fun i => t.map fun c => (colIter c.2).getD i nul) := by
  unfold tblRows
  dsimp only
  rw [rowsLoop_ok nul]
  · congr 1
    apply List.map_congr_left
    intro i hi
    rw [List.map_map]
    apply List.map_congr_left
    intro c hc
    simp only [Function.comp]
    have h1 := colLen_le_tblLen t c hc
    rw [List.mem_range] at hi
    rw [colLen_eq, ← colIter_eq] at *
    simp only [List.getD_eq_getElem?_getD, List.getElem?_append]
    split
    · rfl
    · rename_i h
      rw [List.getElem?_eq_none (by omega : (colIter c.2).length ≤ i), List.getElem?_replicate]
      rw [if_pos (by omega)]
      rfl
  · intro g hg
    obtain ⟨c, hc, rfl⟩ := List.mem_map.1 hg
    have h1 := colLen_le_tblLen t c hc
    rw [colLen_eq, ← colIter_eq] at *
    simp; omega

example : tblRows 0 [("a", [[1, 2], [3]]), ("b", [[], [4]])] = .ok [[1, 4], [2, 0], [3, 0]] := by decide

/-! ## C16 table row slices -/

theorem sliceCol_ok (ps : Nat) (hps : 0 < ps) (pages : Pages α) (s : PySlice) (hk : 0 < s.stepOr1 ∨ s.stepOr1 = -1) :
    ∃ q, sliceCol ps pages s = .ok q ∧ colIter q = pySlice (colIter pages) s := by
  have h := sliceCol_values ps hps pages s
  rw [C02_slice_read_partial pages s hk] at h
  cases e : sliceCol ps pages s with
  | error x => rw [e] at h; cases h
  | ok q =>
    rw [e] at h
    injection h with h
    exact ⟨q, rfl, h⟩

/-- C16 (partial): `table[a:b:k]` has the same columns in the same order and each is the list slice of that column, for every step > 0 and
step -1.  Missing: other negative steps, where columns themselves do not follow list slicing (`C02_fails`). -/
theorem C16_slice_partial (ps : Nat) (hps : 0 < ps) (t : Tbl ν α) (s : PySlice) (hk : 0 < s.stepOr1 ∨ s.stepOr1 = -1) :
    ∃ t', tblSlice ps t s = .ok t' ∧
      t'.map (fun c => (c.1, colIter c.2)) = t.map fun c => (c.1, pySlice (colIter c.2) s) := by
  unfold tblSlice
  induction t with
  | nil => exact ⟨[], rfl, rfl⟩
  | cons c u ih =>
    obtain ⟨t', h1, h2⟩ := ih
    obtain ⟨q, q1, q2⟩ := sliceCol_ok ps hps c.2 s hk
    refine ⟨(c.1, q) :: t', ?_, ?_⟩
    · rw [List.mapM_cons, q1, h1]
      rfl
    · simp only [List.map_cons, h2, q2]

theorem pySlice_rowslice (l : List α) (i : Int) (hi : i ≠ -1) :
    (match pySlice l { start := some i, stop := some (i + 1) } with | [] => Except.error Err.index | v :: _ => .ok v) = pyIndex l i := by
  have hone : ∀ j : Int, 0 ≤ j → j < l.length → ∀ s : PySlice, s.indices l.length = (j, j + 1, 1) →
      pySlice l s = (getI? l j).toList := by
    intro j h0 hl s hs
    have := pySlice_single l h0
    rw [← this]
    unfold pySlice
    rw [hs, indices_explicit (by omega) h0 (by omega) (by omega) (by omega)]
  have hnil : ∀ (a b : Int), b ≤ a → ∀ s : PySlice, s.indices l.length = (a, b, 1) → pySlice l s = [] := by
    intro a b h s hs
    unfold pySlice
    rw [hs]
    simp only
    rw [rangeList_nil_pos (by omega) h]
    rfl
  unfold pyIndex
  dsimp only
  have hind : ({ start := some i, stop := some (i + 1) } : PySlice).indices l.length =
      (adjustBound l.length 0 l.length i, adjustBound l.length 0 l.length (i + 1), 1) := rfl
  by_cases hneg : i < 0
  · rw [if_pos hneg]
    by_cases hr : -(l.length : Int) ≤ i
    · have e : ({ start := some i, stop := some (i + 1) } : PySlice).indices l.length = (i + l.length, i + l.length + 1, 1) := by
        rw [hind]
        unfold adjustBound
        rw [if_pos hneg, if_pos (show i + 1 < 0 by omega)]
        rw [if_neg (by omega), if_neg (by omega)]
        congr 2
        omega
      rw [hone (i + l.length) (by omega) (by omega) _ e, Int.add_comm (l.length : Int) i]
      rw [getI?_of_nonneg _ (by omega)]
      have hlt : (i + l.length).toNat < l.length := by omega
      rw [List.getElem?_eq_getElem hlt]
      simp only [Option.toList]
    · have e : ({ start := some i, stop := some (i + 1) } : PySlice).indices l.length = (0, 0, 1) := by
        rw [hind]
        unfold adjustBound
        rw [if_pos hneg, if_pos (show i + 1 < 0 by omega)]
        rw [if_pos (by omega)]
        by_cases h : i + 1 + (l.length : Int) < 0
        · rw [if_pos h]
        · rw [if_neg h]; congr 2; omega
      rw [hnil 0 0 (by omega) _ e, getI?_eq_none _ (by omega)]
  · rw [if_neg hneg]
    by_cases hr : i < l.length
    · have e : ({ start := some i, stop := some (i + 1) } : PySlice).indices l.length = (i, i + 1, 1) := by
        rw [hind]
        unfold adjustBound
        rw [if_neg hneg, if_neg (show ¬ i + 1 < 0 by omega), if_neg (by omega), if_neg (by omega)]
      rw [hone i (by omega) hr _ e, getI?_of_nonneg _ (by omega)]
      have hlt : i.toNat < l.length := by omega
      rw [List.getElem?_eq_getElem hlt]
      simp only [Option.toList]
    · have e : ({ start := some i, stop := some (i + 1) } : PySlice).indices l.length = ((l.length : Int), (l.length : Int), 1) := by
        rw [hind]
        unfold adjustBound
        rw [if_neg hneg, if_neg (show ¬ i + 1 < 0 by omega)]
        rw [if_pos (show i + 1 > l.length by omega)]
        by_cases h : i > l.length
        · rw [if_pos h]
        · rw [if_neg h]; congr 1; omega
      rw [hnil (l.length : Int) (l.length : Int) (by omega) _ e, getI?_eq_none _ (by omega)]

/-- C16 (partial): for every `i ≠ -1`, `table[i]` is the tuple of `column[i]` for all columns (an IndexError if that is out of range). -/
theorem C16_row_partial (t : Tbl ν α) (i : Int) (hi : i ≠ -1) :
    tblRow t i = t.mapM fun c => pyIndex (colIter c.2) i := by
  unfold tblRow
  apply mapM_congr'
  intro c _
  rw [C02_slice_read_partial _ _ (by simp [PySlice.stepOr1])]
  simp only [bind, Except.bind]
  exact pySlice_rowslice _ i hi

/-- C16 (partial): in a rectangular table, `table[i]` is row `i` of `table.rows` for `0 ≤ i < n`, and row `n + i` for `-n ≤ i < -1`. -/
theorem C16_row_is_row_partial (nul : α) (t : Tbl ν α) (n : Nat) (hr : Rect t n) (i : Int) (hi : i ≠ -1) (h1 : -(n : Int) ≤ i) (h2 : i < n) :
    tblRow t i = .ok (t.map fun c => (colIter c.2).getD (if i < 0 then i + n else i).toNat nul) := by
  rw [C16_row_partial t i hi]
  apply mapM_ok
  intro c hc
  have hl := hr c hc
  rw [colLen_eq, ← colIter_eq] at hl
  unfold pyIndex
  dsimp only
  rw [hl, Int.add_comm (n : Int) i]
  generalize hj : (if i < 0 then i + (n : Int) else i) = j
  have hj0 : 0 ≤ j ∧ j < n := by
    rw [← hj]; split <;> omega
  have hlt : j.toNat < (colIter c.2).length := by omega
  rw [getI?_of_nonneg _ hj0.1, List.getElem?_eq_getElem hlt]
  simp [List.getD_eq_getElem?_getD, List.getElem?_eq_getElem hlt]

/-- C16 fails: `table[-1]` raises IndexError for every table with at least one column. -/
theorem C16_last_row_raises (t : Tbl ν α) (hne : t ≠ []) : tblRow t (-1) = .error .index := by
  unfold tblRow
  apply mapM_error _ _ _ hne
  intro c _
  rw [C02_slice_read_partial _ _ (by simp [PySlice.stepOr1])]
  have : pySlice (colIter c.2) { start := some (-1), stop := some (-1 + 1) } = [] := by
    generalize colIter c.2 = l
    have hind : ({ start := some (-1), stop := some (-1 + 1) } : PySlice).indices l.length =
        (adjustBound l.length 0 l.length (-1), adjustBound l.length 0 l.length (-1 + 1), 1) := rfl
    unfold pySlice
    rw [hind]
    simp only
    rw [rangeList_nil_pos (by omega)]
    · rfl
    · unfold adjustBound
      (repeat' split) <;> omega
  rw [this]
  rfl

/-- C16 in full for rows -/
def C16_statement : Prop :=
  ∀ (ν α : Type) (t : Tbl ν α) (i : Int), tblRow t i = t.mapM fun c => pyIndex (colIter c.2) i

theorem C16_fails : ¬ C16_statement := by
  intro h
  have := h String Nat [("a", [[1, 2]])] (-1)
  revert this
  decide

example : tblRow [("a", [[1, 2], [3]]), ("b", [[4, 5, 6]])] 2 = .ok [3, 6] ∧ tblRow [("a", [[1, 2], [3]]), ("b", [[4, 5, 6]])] (-3) = .ok [1, 4] ∧
    tblRow [("a", [[1, 2], [3]]), ("b", [[4, 5, 6]])] 3 = .error .index := by decide
example : tblSlice 2 [("a", [[1, 2], [3]]), ("b", [[4], [5, 6]])] { start := some 1 } = .ok [("a", [[2], [3]]), ("b", [[5, 6]])] := by decide

/-! ## C09 for tables -/

/-- C09: `t * n` repeats every column `n` times; a non-positive `n` is refused. -/
theorem C09_table_repeat (t : Tbl ν α) (n : Int) :
    (0 < n → ∃ t', tblIMul t n = .ok t' ∧
      t'.map (fun c => (c.1, colIter c.2)) = t.map fun c => (c.1, (List.replicate n.toNat (colIter c.2)).flatten)) ∧
    (n ≤ 0 → tblIMul t n = .error .type) := by
  constructor
  · intro hn
    unfold tblIMul
    rw [if_pos hn]
    induction t with
    | nil => exact ⟨[], rfl, rfl⟩
    | cons c u ih =>
      obtain ⟨t', h1, h2⟩ := ih
      obtain ⟨q, q1, q2⟩ : ∃ q, colIMul c.2 n = .ok q ∧ colIter q = (List.replicate n.toNat (colIter c.2)).flatten := by
        have h := C09_repeat c.2 n
        rw [if_pos hn] at h
        cases e : colIMul c.2 n with
        | error x => rw [e] at h; cases h
        | ok q => rw [e] at h; injection h with h; exact ⟨q, rfl, h⟩
      refine ⟨(c.1, q) :: t', ?_, ?_⟩
      · rw [List.mapM_cons, q1, h1]; rfl
      · simp only [List.map_cons, h2, q2]
  · intro hn
    unfold tblIMul
    rw [if_neg (by omega)]

/-- C09: `t1 + t2` (and `+=`) is refused with ValueError unless both have the same column names; otherwise every column is followed by the
values of the column of the same name. -/
theorem C09_table_add (t o : Tbl ν α) (ho : TblWF o) :
    ((∀ x, x ∈ t.map (·.1) ↔ x ∈ o.map (·.1)) → ∃ t', tblIAdd t o = .ok t' ∧ t'.map (·.1) = t.map (·.1) ∧
      ∀ (j : Nat) (c d : ν × Pages α), t[j]? = some c → d ∈ o → d.1 = c.1 → ∃ e, t'[j]? = some e ∧ e.1 = c.1 ∧ colIter e.2 = colIter c.2 ++ colIter d.2) ∧
    (¬ (∀ x, x ∈ t.map (·.1) ↔ x ∈ o.map (·.1)) → tblIAdd t o = .error .value) := by
  unfold tblIAdd
  constructor
  · intro h
    rw [if_pos, if_pos]
    · refine ⟨t.map fun c => (c.1, c.2 ++ (dGet c.1 o).getD []), ?_, ?_, ?_⟩
      · apply mapM_ok
        intro c hc
        have : (dGet c.1 o).isSome = true := by
          rw [dGet_isSome, ← h]; exact List.mem_map.2 ⟨c, hc, rfl⟩
        cases e : dGet c.1 o with
        | none => rw [e] at this; cases this
        | some p => simp
      · rw [List.map_map]; rfl
      · intro j c d hj hd hdc
        refine ⟨(c.1, c.2 ++ (dGet c.1 o).getD []), by rw [List.getElem?_map, hj]; rfl, rfl, ?_⟩
        have := dGet_of_mem o ho d hd
        rw [hdc] at this
        simp only [this, Option.getD_some]
        rw [colIter_eq, colIter_eq, colIter_eq, List.flatten_append]
    · rw [List.all_eq_true]
      intro c hc
      rw [dGet_isSome, h]; exact List.mem_map.2 ⟨c, hc, rfl⟩
    · rw [List.all_eq_true]
      intro c hc
      rw [dGet_isSome, ← h]; exact List.mem_map.2 ⟨c, hc, rfl⟩
  · intro h
    split
    · rename_i h1
      split
      · rename_i h2
        exfalso
        apply h
        rw [List.all_eq_true] at h1 h2
        intro x
        constructor
        · intro hx
          obtain ⟨c, hc, rfl⟩ := List.mem_map.1 hx
          have := h1 c hc
          rwa [dGet_isSome] at this
        · intro hx
          obtain ⟨c, hc, rfl⟩ := List.mem_map.1 hx
          have := h2 c hc
          rwa [dGet_isSome] at this
      · rfl
    · rfl

example : tblIAdd [("a", [[1]]), ("b", [[2]])] [("b", [[3], [4]]), ("a", [[5]])] = .ok [("a", [[1], [5]]), ("b", [[2], [3], [4]])] ∧
    tblIAdd [("a", [[1]])] [("a", [[1]]), ("b", [[2]])] = .error .value := by decide

/-! ## C18 table equality -/

/-- page identities come from one store -/
def TblCoherent (t o : List (ν × RCol α)) : Prop := ∀ c ∈ t, ∀ d ∈ o, Coherent c.2 d.2

/-- Spec: same set of column names and equal values under each name -/
def SameTable (t o : List (ν × RCol α)) : Prop :=
  (∀ x, x ∈ t.map (·.1) ↔ x ∈ o.map (·.1)) ∧ ∀ c ∈ t, ∀ d ∈ o, c.1 = d.1 → colIter c.2.pages = colIter d.2.pages

/-- C18 (partial): for tables with at least one row `t1 == t2` holds exactly when both have the same column names and equal columns,
whatever the layouts and the order of the columns.  Missing: tables without rows, which always compare equal (`C18_fails`); NaN values
(`C10_fails`). -/
theorem C18_eq_partial [DecidableEq α] (t o : List (ν × RCol α)) (ho : (o.map (·.1)).Nodup) (hco : TblCoherent t o)
    (hrows : (∃ c ∈ t, colIter c.2.pages ≠ []) ∨ ∃ c ∈ o, colIter c.2.pages ≠ []) :
    tblEq (fun a b => decide (a = b)) t o = true ↔ SameTable t o := by
  have hlen0 : ∀ t : List (ν × RCol α), (∃ c ∈ t, colIter c.2.pages ≠ []) → (t.map fun c => colLen c.2.pages).foldl max 0 ≠ 0 := by
    rintro t ⟨c, hc, hne⟩ h
    have := (foldl_max_ge (t.map fun c => colLen c.2.pages) 0).2 _ (List.mem_map.2 ⟨c, hc, rfl⟩)
    rw [h, colLen_eq, ← colIter_eq] at this
    apply hne
    exact List.length_eq_zero_iff.1 (by omega)
  have hle : ∀ t o : List (ν × RCol α), (∀ c ∈ t, ∃ d ∈ o, colLen c.2.pages = colLen d.2.pages) →
      (t.map fun c => colLen c.2.pages).foldl max 0 ≤ (o.map fun c => colLen c.2.pages).foldl max 0 := by
    intro t o h
    rcases foldl_max_mem (t.map fun c => colLen c.2.pages) 0 with e | e
    · omega
    · obtain ⟨c, hc, e2⟩ := List.mem_map.1 e
      obtain ⟨d, hd, e3⟩ := h c hc
      have := (foldl_max_ge (o.map fun c => colLen c.2.pages) 0).2 _ (List.mem_map.2 ⟨d, hd, rfl⟩)
      omega
  have hname : (t.all (fun c => (dGet c.1 o).isSome) ∧ o.all (fun c => (dGet c.1 t).isSome)) ↔ ∀ x, x ∈ t.map (·.1) ↔ x ∈ o.map (·.1) := by
    simp only [List.all_eq_true, dGet_isSome]
    constructor
    · rintro ⟨h1, h2⟩ x
      constructor
      · intro hx; obtain ⟨c, hc, rfl⟩ := List.mem_map.1 hx; exact h1 c hc
      · intro hx; obtain ⟨c, hc, rfl⟩ := List.mem_map.1 hx; exact h2 c hc
    · intro h
      exact ⟨fun c hc => (h _).1 (List.mem_map.2 ⟨c, hc, rfl⟩), fun c hc => (h _).2 (List.mem_map.2 ⟨c, hc, rfl⟩)⟩
  unfold tblEq SameTable
  dsimp only
  constructor
  · intro h
    split at h
    · cases h
    · rename_i hl
      split at h
      · rename_i h0
        rcases hrows with hr | hr
        · exact absurd h0 (hlen0 t hr)
        · exact absurd (by omega) (hlen0 o hr)
      · split at h
        · cases h
        · rename_i hn
          have hn' := hname.1 (Classical.not_not.1 hn)
          refine ⟨hn', ?_⟩
          intro c hc d hd hcd
          rw [List.all_eq_true] at h
          have := h c hc
          have hg := dGet_of_mem o ho d hd
          rw [hcd, hg] at this
          simp only at this
          rw [C10_eq_lawful_partial _ _ (hco c hc d hd)] at this
          simpa using this
  · rintro ⟨h1, h2⟩
    have hget : ∀ c ∈ t, ∃ d ∈ o, d.1 = c.1 := by
      intro c hc
      obtain ⟨d, hd, e⟩ := List.mem_map.1 ((h1 c.1).1 (List.mem_map.2 ⟨c, hc, rfl⟩))
      exact ⟨d, hd, e⟩
    have hget' : ∀ d ∈ o, ∃ c ∈ t, c.1 = d.1 := by
      intro d hd
      obtain ⟨c, hc, e⟩ := List.mem_map.1 ((h1 d.1).2 (List.mem_map.2 ⟨d, hd, rfl⟩))
      exact ⟨c, hc, e⟩
    have hcl : ∀ c ∈ t, ∀ d ∈ o, c.1 = d.1 → colLen c.2.pages = colLen d.2.pages := by
      intro c hc d hd e
      rw [colLen_eq, colLen_eq, ← colIter_eq, ← colIter_eq, h2 c hc d hd e]
    have hl : (t.map fun c => colLen c.2.pages).foldl max 0 = (o.map fun c => colLen c.2.pages).foldl max 0 := by
      apply Nat.le_antisymm
      · apply hle
        intro c hc
        obtain ⟨d, hd, e⟩ := hget c hc
        exact ⟨d, hd, hcl c hc d hd e.symm⟩
      · apply hle
        intro d hd
        obtain ⟨c, hc, e⟩ := hget' d hd
        exact ⟨c, hc, (hcl c hc d hd e).symm⟩
    have h0 : (t.map fun c => colLen c.2.pages).foldl max 0 ≠ 0 := by
      rcases hrows with hr | hr
      · exact hlen0 t hr
      · rw [hl]; exact hlen0 o hr
    rw [if_neg (by simpa using hl), if_neg h0, if_neg (fun hn => hn (hname.2 h1))]
    rw [List.all_eq_true]
    intro c hc
    obtain ⟨d, hd, e⟩ := hget c hc
    have hg := dGet_of_mem o ho d hd
    rw [e] at hg
    simp only [hg]
    rw [C10_eq_lawful_partial _ _ (hco c hc d hd)]
    simpa using h2 c hc d hd e.symm

/-- C18 in full -/
def C18_statement : Prop :=
  ∀ (ν α : Type) [DecidableEq ν] [DecidableEq α] (t o : List (ν × RCol α)), (t.map (·.1)).Nodup → (o.map (·.1)).Nodup → TblCoherent t o →
    (tblEq (fun a b => decide (a = b)) t o = true ↔ SameTable t o)

/-- C18 fails: two tables without rows compare equal although their columns differ. -/
theorem C18_fails : ¬ C18_statement := by
  intro h
  have := (h String Nat [("a", [])] [("b", [])] (by decide) (by decide) (by
    intro c hc d hd r hr
    simp only [List.mem_singleton] at hc
    subst hc; cases hr)).1 (by decide)
  have := (this.1 "a").1 (by decide)
  revert this
  decide

example : tblEq (fun a b => decide (a = b)) ([("a", [⟨0, [1, 2]⟩]), ("b", [⟨1, [3]⟩, ⟨2, [4]⟩])] : List (String × RCol Nat))
    [("b", [⟨3, [3, 4]⟩]), ("a", [⟨0, [1, 2]⟩])] = true := by decide

/-! ## C19 multi-column index -/

/-- the value of column `a` in row `i` -/
def cell (nul : α) (t : Tbl ν α) (a : ν) (i : Nat) : α := ((dGet a t).elim [] colIter).getD i nul

/-- the key tuples of all rows -/
def keyRows (nul : α) (t : Tbl ν α) (args : List ν) (n : Nat) : List (List α) := (List.range n).map fun i => args.map fun a => cell nul t a i

theorem tblPick_ok (t : Tbl ν α) (args : List ν) (h : ∀ a ∈ args, a ∈ t.map (·.1)) :
    tblPick t args = .ok (args.map fun a => (dGet a t).elim [] colIter) := by
  unfold tblPick
  apply mapM_ok
  intro a ha
  have := (dGet_isSome a t).2 (h a ha)
  cases e : dGet a t with
  | none => rw [e] at this; cases this
  | some p => rfl

theorem zipRows_pick (nul : α) (t : Tbl ν α) (n : Nat) (hr : Rect t n) (args : List ν) (hne : args ≠ []) (h : ∀ a ∈ args, a ∈ t.map (·.1)) :
    zipRows (tblLen t) (args.map fun a => (dGet a t).elim [] colIter) = keyRows nul t args n := by
  have htne : t ≠ [] := by
    intro e; subst e
    obtain ⟨a, ha⟩ := List.exists_mem_of_ne_nil args hne
    simpa using h a ha
  rw [tblLen_rect t n hr htne, zipRows_ok nul n _ (by simpa using hne)]
  · unfold keyRows
    apply List.map_congr_left
    intro i _
    rw [List.map_map]
    rfl
  · intro g hg
    obtain ⟨a, ha, rfl⟩ := List.mem_map.1 hg
    have := (dGet_isSome a t).2 (h a ha)
    cases e : dGet a t with
    | none => rw [e] at this; cases this
    | some p =>
      have := hr _ (dGet_mem a t p e)
      simp only [Option.elim]
      rw [colIter_eq, ← colLen_eq]
      exact this

/-- C19: `table.index(cols)` lists the key tuples that occur, in first-occurrence order, each with the ascending list of exactly the rows
that have this key. -/
theorem C19_index [DecidableEq α] (nul : α) (t : Tbl ν α) (n : Nat) (hr : Rect t n) (args : List ν) (hne : args ≠ [])
    (h : ∀ a ∈ args, a ∈ t.map (·.1)) :
    tblIndex t args = .ok ((firstOccs (keyRows nul t args n)).map fun k =>
      (k, positionsFrom (fun x => decide (x = k)) 0 (keyRows nul t args n))) := by
  unfold tblIndex
  rw [tblPick_ok t args h]
  simp only [bind, Except.bind]
  rw [zipRows_pick nul t n hr args hne h]
  congr 1
  rw [dGroup_eq]
  have : (keyRows nul t args n).zipIdx.map (fun x => x.1) = keyRows nul t args n := by simp
  rw [this]
  apply List.map_congr_left
  intro v _
  rw [foldl_snoc, List.nil_append, positionsFrom_eq_zipIdx (fun x => decide (x = v))]

/-- C19: every row number occurs exactly once in the whole index, under its own key: the index is a partition of the rows. -/
theorem C19_partition [DecidableEq α] (nul : α) (t : Tbl ν α) (n : Nat) (hr : Rect t n) (args : List ν) (hne : args ≠ [])
    (h : ∀ a ∈ args, a ∈ t.map (·.1)) :
    ∃ d, tblIndex t args = .ok d ∧ (d.map (·.1)).Nodup ∧ (∀ e ∈ d, e.2.Pairwise (· < ·) ∧ e.2 ≠ []) ∧
      ∀ i, i < n → ∃ e ∈ d, i ∈ e.2 ∧ e.1 = args.map (fun a => cell nul t a i) ∧ ∀ e' ∈ d, i ∈ e'.2 → e' = e := by
  refine ⟨_, C19_index nul t n hr args hne h, ?_, ?_, ?_⟩
  · rw [List.map_map]
    exact (List.map_id _).symm ▸ nodup_firstOccs _
  · intro e he
    obtain ⟨k, hk, rfl⟩ := List.mem_map.1 he
    refine ⟨positionsFrom_sorted _ _ _, ?_⟩
    rw [mem_firstOccs] at hk
    obtain ⟨i, hi, e⟩ := List.getElem_of_mem hk
    intro hnil
    have : i ∈ positionsFrom (fun x => decide (x = k)) 0 (keyRows nul t args n) := by
      rw [mem_positionsFrom]
      exact ⟨k, by omega, by rw [Nat.sub_zero, List.getElem?_eq_getElem hi, e], by simp⟩
    simp only at hnil
    rw [hnil] at this
    cases this
  · intro i hi
    have hget : (keyRows nul t args n)[i]? = some (args.map fun a => cell nul t a i) := by
      unfold keyRows
      rw [List.getElem?_map, List.getElem?_range hi]
      rfl
    refine ⟨_, List.mem_map.2 ⟨_, mem_firstOccs.2 (List.mem_of_getElem? hget), rfl⟩, ?_, rfl, ?_⟩
    · rw [mem_positionsFrom]
      exact ⟨_, by omega, by simpa using hget, by simp⟩
    · intro e' he' hi'
      obtain ⟨k, hk, rfl⟩ := List.mem_map.1 he'
      rw [mem_positionsFrom] at hi'
      obtain ⟨a, _, h2, h3⟩ := hi'
      rw [Nat.sub_zero, hget] at h2
      injection h2 with h2
      subst h2
      simp only [decide_eq_true_eq] at h3
      rw [h3]

/-- C19: an unknown column name raises KeyError. -/
theorem C19_unknown [DecidableEq α] (t : Tbl ν α) (pre post : List ν) (a : ν) (hp : ∀ x ∈ pre, x ∈ t.map (·.1)) (ha : a ∉ t.map (·.1)) :
    tblIndex t (pre ++ a :: post) = .error .key := by
  have : tblPick t (pre ++ a :: post) = .error .key := by
    unfold tblPick
    induction pre with
    | nil =>
      rw [List.nil_append, List.mapM_cons, (dGet_none a t).2 ha]
      rfl
    | cons x u ih =>
      have hx := (dGet_isSome x t).2 (hp x (by simp))
      rw [List.cons_append, List.mapM_cons, ih (fun y hy => hp y (by simp [hy]))]
      cases e : dGet x t with
      | none => rw [e] at hx; cases hx
      | some p => rfl
  unfold tblIndex
  rw [this]
  rfl

example : tblIndex [("a", [["x", "y"], ["x"]]), ("b", [["1", "2", "1"]])] ["b", "a"] = .ok [(["1", "x"], [0, 2]), (["2", "y"], [1])] := by decide

end

end Tablite
