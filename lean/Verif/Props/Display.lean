import Verif.Model.Display
import Verif.Props.ColumnRead
import Verif.Props.Reindex
import Verif.Lemmas.Table
import Mathlib.Data.List.Nodup
/-!
# C96: display of tables
-/

namespace Tablite

section
variable {α : Type}

/-! ## slices and rows -/

/-- the positions of a slice lie within the list -/
theorem indices_inside (s : PySlice) (n : Nat) (hs : s.step ≠ some 0) (i : Int) (hi : i ∈ rangeList (s.indices n).1 (s.indices n).2.1 (s.indices n).2.2) : 0 ≤ i ∧ i < n := by
  rw [indices_step] at hi
  have h0 : s.stepOr1 ≠ 0 := by
    unfold PySlice.stepOr1
    cases h : s.step with
    | none => simp
    | some k =>
      rw [Option.getD_some]
      rintro rfl
      exact hs h
  rcases Int.lt_or_gt_of_ne h0 with hk | hk
  · obtain ⟨h1, h2, h3, h4⟩ := indices_neg s n hk
    have := (mem_rangeList_neg hk).1 hi
    omega
  · obtain ⟨h1, h2, h3, h4⟩ := indices_pos s n hk
    have := (mem_rangeList_pos hk).1 hi
    omega

theorem filterMap_all {β γ : Type} (f : β → Option γ) (g : β → γ) (l : List β) (h : ∀ x ∈ l, f x = some (g x)) : l.filterMap f = l.map g := by
  induction l with
  | nil => rfl
  | cons a t ih =>
    rw [List.filterMap_cons, h a List.mem_cons_self, List.map_cons, ih fun x hx => h x (List.mem_cons_of_mem _ hx)]

/-- spec: the value of a column in a row; rows the column does not have are filled -/
def rowValue (blanks : α) (p : Pages α) (i : Nat) : α := ((colIter p)[i]?).getD blanks

theorem padColumn_get (blanks : α) (n : Nat) (p : Pages α) (i : Nat) (hi : i < n) : (padColumn blanks n p)[i]? = some (rowValue blanks p i) := by
  unfold padColumn rowValue
  by_cases h : i < (colIter p).length
  · rw [List.getElem?_append_left h, List.getElem?_eq_getElem h, Option.getD_some]
  · have hl : (colIter p).length = colLen p := by rw [colLen_eq, colIter_eq]
    rw [List.getElem?_append_right (by omega), List.getElem?_replicate, if_pos (by omega), List.getElem?_eq_none (l := colIter p) (by omega), Option.getD_none]

/-- positions in a padded column -/
theorem padColumn_length (blanks : α) (n : Nat) (p : Pages α) (h : colLen p ≤ n) : (padColumn blanks n p).length = n := by
  have hl : (colIter p).length = colLen p := by rw [colLen_eq, colIter_eq]
  unfold padColumn
  rw [List.length_append, List.length_replicate]
  omega

theorem pySlice_padded (blanks : α) (n : Nat) (p : Pages α) (h : colLen p ≤ n) (s : PySlice) (hs : s.step ≠ some 0) :
    pySlice (padColumn blanks n p) s = (rangeList (s.indices n).1 (s.indices n).2.1 (s.indices n).2.2).map fun i => rowValue blanks p i.toNat := by
  unfold pySlice
  rw [padColumn_length blanks n p h]
  apply filterMap_all
  intro i hi
  obtain ⟨h0, h1⟩ := indices_inside s n hs i hi
  rw [getI?_of_nonneg _ h0, padColumn_get _ _ _ _ (by omega)]

/-- filing under new names appends -/
theorem foldl_dSet_new {β γ : Type} (k : β → List Char) (v : β → γ) (l : List β) : ∀ pre : List (List Char × γ), (l.map k).Nodup → (∀ x ∈ l, k x ∉ pre.map (·.1)) →
    l.foldl (fun d c => dSet (k c) (v c) d) pre = pre ++ l.map fun c => (k c, v c) := by
  induction l with
  | nil => intro pre _ _; simp
  | cons a t ih =>
    intro pre hn hp
    rw [List.map_cons, List.nodup_cons] at hn
    have e : dSet (k a) (v a) pre = pre ++ [(k a, v a)] := by
      have hfresh : k a ∉ pre.map (·.1) := hp a List.mem_cons_self
      clear hn hp ih
      unfold dSet
      induction pre with
      | nil => rfl
      | cons b r ih =>
        rw [List.map_cons, List.mem_cons, not_or] at hfresh
        rw [dUpd, if_neg (fun h => hfresh.1 h.symm), ih hfresh.2]
        rfl
    rw [List.foldl_cons, e, ih _ hn.2]
    · simp
    · intro x hx
      rw [List.map_append, List.mem_append, not_or]
      refine ⟨hp x (List.mem_cons_of_mem _ hx), ?_⟩
      rw [List.map_cons, List.map_nil, List.mem_singleton]
      intro he
      have he' : k x = k a := he
      exact hn.1 (he' ▸ List.mem_map_of_mem hx)

/-! ## the name of the column of row numbers -/

/-- **C96** (name of the row numbers).  It is `#`, `~`, `*`, `##`, … or `*****`, the first that is not the name of a column. -/
theorem C96_tag (cols : List (List Char)) (h : ∃ t ∈ rowTags, t ∉ cols) : ∃ pre post, rowTags = pre ++ pickTag cols :: post ∧ pickTag cols ∉ cols ∧ ∀ t ∈ pre, t ∈ cols := by
  obtain ⟨t, ht, hc⟩ := h
  cases hf : rowTags.find? fun t => decide (t ∉ cols) with
  | none =>
    have := List.find?_eq_none.1 hf t ht
    simp only [decide_eq_true_eq] at this
    exact absurd hc this
  | some x =>
    have hp : pickTag cols = x := by rw [pickTag, hf, Option.getD_some]
    obtain ⟨h1, pre, post, h2, h3⟩ := List.find?_eq_some_iff_append.1 hf
    rw [hp]
    refine ⟨pre, post, h2, by simpa using h1, ?_⟩
    intro t ht
    have := h3 t ht
    simpa using this

/-- the candidates, and that there are fifteen of them -/
theorem rowTags_eq : rowTags = ["#", "~", "*", "##", "~~", "**", "###", "~~~", "***", "####", "~~~~", "****", "#####", "~~~~~", "*****"].map String.toList := by decide +kernel

/-- **C96** (name of the row numbers).  With fewer than fifteen columns it never hides a column. -/
theorem C96_tag_free (cols : List (List Char)) (h : cols.length < 15) : pickTag cols ∉ cols := by
  by_cases hx : ∃ t ∈ rowTags, t ∉ cols
  · obtain ⟨_, _, _, h2, _⟩ := C96_tag cols hx
    exact h2
  · exfalso
    push Not at hx
    have hn : rowTags.Nodup := by decide +kernel
    have : rowTags.length ≤ cols.length := (List.subperm_of_subset hn hx).length_le
    rw [rowTags_eq] at this
    simp at this
    omega

/-- the claim for the row numbers in full: the name is never that of a column -/
def C96_tag_statement : Prop := ∀ cols : List (List Char), cols.Nodup → pickTag cols ∉ cols

/-- **C96** (row numbers, the claim in full is false): if all fifteen names are taken, the row numbers are filed under `*` and then replaced by the column `*`. -/
theorem C96_tag_fails : ¬ C96_tag_statement := by
  intro h
  exact h rowTags (by decide +kernel) (by decide +kernel)

/-! ## the rows shown -/

/-- **C96** (rows of a slice).  With a slice, or for at most twenty rows, the display has the row numbers and every column in order; the row numbered `i` shows the
value of row `i` of each column, and `blanks` in the rows that a shorter column does not have. -/
theorem C96_slice (num : Nat → List Char) (width : Nat → Nat) (t : Tbl (List Char) α) (hn : (t.map (·.1)).Nodup) (hfree : ∃ x ∈ rowTags, x ∉ t.map (·.1))
    (slice : Option PySlice) (blanks : α) (s : PySlice) (hsl : slice = some s ∨ (slice = none ∧ tblLen t ≤ 20 ∧ s = {})) (hs : s.step ≠ some 0) :
    ∃ tag, tag ∉ t.map (·.1) ∧ displayData num width t slice blanks =
      .ok ((tag, (rangeList (s.indices (tblLen t)).1 (s.indices (tblLen t)).2.1 (s.indices (tblLen t)).2.2).map fun i => .text (padLeft 2 (num i.toNat))) ::
        t.map fun c => (c.1, (rangeList (s.indices (tblLen t)).1 (s.indices (tblLen t)).2.1 (s.indices (tblLen t)).2.2).map fun i => .val (rowValue blanks c.2 i.toNat))) := by
  have hfree' : pickTag (t.map (·.1)) ∉ t.map (·.1) := by
    obtain ⟨_, _, _, h2, _⟩ := C96_tag _ hfree
    exact h2
  have key : ∀ s : PySlice, s.step ≠ some 0 → sliceDict num blanks (pickTag (t.map (·.1))) t s =
      .ok ((pickTag (t.map (·.1)), (rangeList (s.indices (tblLen t)).1 (s.indices (tblLen t)).2.1 (s.indices (tblLen t)).2.2).map fun i => .text (padLeft 2 (num i.toNat))) ::
        t.map fun c => (c.1, (rangeList (s.indices (tblLen t)).1 (s.indices (tblLen t)).2.1 (s.indices (tblLen t)).2.2).map fun i => .val (rowValue blanks c.2 i.toNat))) := by
    intro s hs
    unfold sliceDict
    rw [if_neg hs]
    dsimp only
    rw [foldl_dSet_new (fun c : List Char × Pages α => c.1) _ t _ hn]
    · rw [List.singleton_append]
      congr 2
      apply List.map_congr_left
      intro c hc
      rw [pySlice_padded blanks (tblLen t) c.2 (colLen_le_tblLen t c hc) s hs, List.map_map]
      rfl
    · intro c hc
      rw [List.map_cons, List.map_nil, List.mem_singleton]
      intro he
      have he' : c.1 = pickTag (t.map (·.1)) := he
      exact hfree' (he' ▸ List.mem_map_of_mem (f := (·.1)) hc)
  refine ⟨pickTag (t.map (·.1)), hfree', ?_⟩
  unfold displayData
  rcases hsl with rfl | ⟨rfl, h20, rfl⟩
  · exact key s hs
  · rw [shownSlice, if_pos h20]
    dsimp only
    rw [key _ (by decide)]
    have e : ({ start := some 0, stop := some 20, step := some 1 } : PySlice).indices (tblLen t) = ({} : PySlice).indices (tblLen t) := by
      simp only [PySlice.indices, PySlice.stepOr1, Option.getD_some, Option.getD_none, adjustBound]
      simp
      omega
    rw [e]

/-- a step of 0 raises -/
theorem C96_slice_zero (num : Nat → List Char) (width : Nat → Nat) (t : Tbl (List Char) α) (s : PySlice) (hs : s.step = some 0) (blanks : α) :
    displayData num width t (some s) blanks = .error .value := by
  unfold displayData
  rw [shownSlice]
  dsimp only
  rw [sliceDict, if_pos hs]

/-- spec: the cells that stand for a column of a table with `n` rows, `n > 20`: the first seven rows, dots, and the last seven -/
def cutCells (blanks : α) (n : Nat) (p : Pages α) : List (DCell α) :=
  (List.range 7).map (fun i => .val (rowValue blanks p i)) ++ .text "...".toList :: (List.range' (n - 7) 7).map fun i => .val (rowValue blanks p i)

theorem pySlice_stop (l : List α) (k : Nat) : pySlice l { stop := some (k : Int) } = l.take k := by
  have h := pySlice_nat l 0 k (Nat.zero_le _)
  rw [List.drop_zero] at h
  rw [← h]
  unfold pySlice
  have : ({ stop := some (k : Int) } : PySlice).indices l.length = ({ start := some ((0 : Nat) : Int), stop := some (k : Int) } : PySlice).indices l.length := by
    simp only [PySlice.indices, PySlice.stepOr1, Option.getD_none, adjustBound]
    simp
    omega
  rw [this]

theorem pySlice_start (l : List α) (k : Nat) : pySlice l { start := some (k : Int) } = l.drop k := by
  have h := pySlice_nat l k (max k l.length) (by omega)
  rw [List.take_of_length_le (by omega)] at h
  rw [← h]
  unfold pySlice
  have : ({ start := some (k : Int) } : PySlice).indices l.length = ({ start := some (k : Int), stop := some ((max k l.length : Nat) : Int) } : PySlice).indices l.length := by
    simp only [PySlice.indices, PySlice.stepOr1, Option.getD_none, adjustBound]
    simp only [Int.reduceNeg, Int.reduceLT, if_false, Prod.mk.injEq, and_true, true_and]
    have h1 : ¬ (((max k l.length : Nat) : Int) < 0) := by omega
    rw [if_neg h1]
    split <;> omega
  rw [this]

theorem pySlice_last (l : List α) (k : Nat) (hk : 0 < k) : pySlice l { start := some (-(k : Int)) } = l.drop (l.length - k) := by
  rw [← pySlice_start]
  unfold pySlice
  have : ({ start := some (-(k : Int)) } : PySlice).indices l.length = ({ start := some ((l.length - k : Nat) : Int) } : PySlice).indices l.length := by
    simp only [PySlice.indices, PySlice.stepOr1, Option.getD_none, adjustBound]
    simp only [Int.reduceNeg, Int.reduceLT, if_false, Prod.mk.injEq, and_true]
    repeat' split
    all_goals omega
  rw [this]

/-- the first rows of a column, filled -/
theorem take_filled (blanks : α) (p : Pages α) (k : Nat) : ((colIter p).take k ++ List.replicate k blanks).take k = (List.range k).map (rowValue blanks p) := by
  apply List.ext_getElem?
  intro i
  rw [List.getElem?_take]
  by_cases hi : i < k
  · rw [if_pos hi, List.getElem?_map, List.getElem?_range hi, Option.map_some]
    unfold rowValue
    by_cases h : i < (colIter p).length
    · rw [List.getElem?_append_left (by rw [List.length_take]; omega), List.getElem?_take, if_pos hi, List.getElem?_eq_getElem h]; rfl
    · rw [List.getElem?_append_right (by rw [List.length_take]; omega), List.getElem?_replicate, if_pos (by rw [List.length_take]; omega), List.getElem?_eq_none (by omega)]; rfl
  · rw [if_neg hi, List.getElem?_eq_none (by simpa using hi)]

theorem drop_rows (blanks : α) (p : Pages α) (k : Nat) (hk : k ≤ (colIter p).length) :
    (colIter p).drop k = (List.range' k ((colIter p).length - k)).map (rowValue blanks p) := by
  apply List.ext_getElem?
  intro i
  rw [List.getElem?_drop, List.getElem?_map]
  by_cases hi : k + i < (colIter p).length
  · rw [List.getElem?_range' (by omega), Option.map_some, List.getElem?_eq_getElem hi]
    unfold rowValue
    rw [Nat.one_mul, List.getElem?_eq_getElem hi, Option.getD_some]
  · rw [List.getElem?_eq_none (by omega), List.getElem?_eq_none (by rw [List.length_range']; omega), Option.map_none]

/-- the cells of a column in the abbreviated view: right if the column is complete, or ends before the last seven rows -/
theorem cutColumn_ok (blanks : α) (n : Nat) (hn : 20 < n) (p : Pages α) (h : colLen p = n ∨ colLen p + 7 ≤ n) : cutColumn blanks n p = .ok (cutCells blanks n p) := by
  have hl : (colIter p).length = colLen p := by rw [colLen_eq, colIter_eq]
  have h7 : getSlice p { stop := some 7 } = .ok ((colIter p).take 7) := by
    rw [C02_slice_read_partial p _ (Or.inl (by decide))]
    exact congrArg _ (pySlice_stop (colIter p) 7)
  unfold cutColumn cutCells
  by_cases hc : colLen p = n
  · rw [if_pos hc, h7]
    have ht : getSlice p { start := some (-7) } = .ok ((colIter p).drop (n - 7)) := by
      rw [C02_slice_read_partial p _ (Or.inl (by decide)), ← hc, ← hl]
      exact congrArg _ (pySlice_last (colIter p) 7 (by decide))
    rw [ht]
    dsimp only [bind, Except.bind]
    have e1 : (colIter p).take 7 = (List.range 7).map (rowValue blanks p) := by
      rw [← take_filled, List.take_append_of_le_length (by rw [List.length_take]; omega), List.take_take, Nat.min_self]
    have e2 : (colIter p).drop (n - 7) = (List.range' (n - 7) 7).map (rowValue blanks p) := by
      rw [drop_rows blanks p (n - 7) (by omega)]
      congr 2
      omega
    rw [e1, e2, List.map_map, List.map_map]
    rfl
  · have hs : colLen p + 7 ≤ n := by omega
    rw [if_neg hc, h7]
    have ht : getSlice p { start := some ((n : Int) - 7) } = .ok [] := by
      rw [C02_slice_read_partial p { start := some ((n : Int) - 7) } (Or.inl Int.one_pos)]
      have : ((n : Int) - 7) = ((n - 7 : Nat) : Int) := by omega
      rw [this, pySlice_start, List.drop_eq_nil_of_le (by omega)]
    rw [ht]
    dsimp only [bind, Except.bind]
    have e1 : pySlice ((colIter p).take 7 ++ List.replicate 7 blanks) { stop := some 7 } = (List.range 7).map (rowValue blanks p) := by
      rw [← take_filled]
      exact pySlice_stop _ 7
    have e2 : pySlice ([] ++ List.replicate 7 blanks) { start := some (-7) } = (List.range' (n - 7) 7).map (rowValue blanks p) := by
      rw [show pySlice ([] ++ List.replicate 7 blanks) { start := some (-7) } = _ from pySlice_last _ 7 (by decide)]
      rw [List.nil_append, List.length_replicate, Nat.sub_self, List.drop_zero]
      apply List.ext_getElem
      · simp
      · intro i h1 h2
        rw [List.getElem_replicate, List.getElem_map, List.getElem_range']
        unfold rowValue
        rw [List.getElem?_eq_none (by omega), Option.getD_none]
    rw [e1, e2, List.map_map, List.map_map]
    rfl

/-- the tail of a column that ends within the last seven rows is not shown at all -/
theorem cutColumn_short (blanks : α) (n : Nat) (hn : 20 < n) (p : Pages α) (h1 : n < colLen p + 7) (h2 : colLen p < n) :
    cutColumn blanks n p = .ok ((List.range 7).map (fun i => .val (rowValue blanks p i)) ++ .text "...".toList :: List.replicate 7 (.val blanks)) := by
  have hl : (colIter p).length = colLen p := by rw [colLen_eq, colIter_eq]
  have h7 : getSlice p { stop := some 7 } = .ok ((colIter p).take 7) := by
    rw [C02_slice_read_partial p _ (Or.inl (by decide))]
    exact congrArg _ (pySlice_stop (colIter p) 7)
  have ht : getSlice p { start := some ((n : Int) - 7) } = .ok ((colIter p).drop (n - 7)) := by
    rw [C02_slice_read_partial p { start := some ((n : Int) - 7) } (Or.inl Int.one_pos)]
    have : ((n : Int) - 7) = ((n - 7 : Nat) : Int) := by omega
    rw [this, pySlice_start]
  unfold cutColumn
  rw [if_neg (by omega), h7, ht]
  dsimp only [bind, Except.bind]
  have e1 : pySlice ((colIter p).take 7 ++ List.replicate 7 blanks) { stop := some 7 } = (List.range 7).map (rowValue blanks p) := by
    rw [← take_filled]
    exact pySlice_stop _ 7
  have e2 : pySlice ((colIter p).drop (n - 7) ++ List.replicate 7 blanks) { start := some (-7) } = List.replicate 7 blanks := by
    rw [show pySlice ((colIter p).drop (n - 7) ++ List.replicate 7 blanks) { start := some (-7) } = _ from pySlice_last _ 7 (by decide)]
    rw [List.length_append, List.length_replicate, Nat.add_sub_cancel, List.drop_left]
  rw [e1, e2, List.map_map, List.map_replicate]
  rfl

theorem cutLoop_ok (blanks : α) (n : Nat) (f : Pages α → List (DCell α)) (t : Tbl (List Char) α) (h : ∀ c ∈ t, cutColumn blanks n c.2 = .ok (f c.2)) :
    ∀ d, cutLoop blanks n d t = .ok (t.foldl (fun d c => dSet c.1 (f c.2) d) d) := by
  induction t with
  | nil => intro d; rfl
  | cons c t ih =>
    intro d
    rw [cutLoop, h c List.mem_cons_self]
    exact ih (fun x hx => h x (List.mem_cons_of_mem _ hx)) _

/-- the claim for long tables in full: rows 0 to 6 and the last seven rows are shown, and the row numbered `i` shows the value of row `i`, or `blanks` where the column has none -/
def C96_long_statement : Prop :=
  ∀ (num : Nat → List Char) (width : Nat → Nat) (t : Tbl (List Char) Nat) (blanks : Nat), (t.map (·.1)).Nodup → (∃ x ∈ rowTags, x ∉ t.map (·.1)) → 20 < tblLen t →
    ∃ tag rowNo, displayData num width t none blanks = .ok ((tag, rowNo) :: t.map fun c => (c.1, cutCells blanks (tblLen t) c.2))

/-- **C96** (long tables, the claim in full is false): of a column that is one row shorter than the table, the last values are shown as blanks. -/
theorem C96_long_fails : ¬ C96_long_statement := by
  intro h
  obtain ⟨tag, rowNo, h1⟩ := h (fun _ => []) (fun _ => 0) [("a".toList, [List.range 21]), ("b".toList, [List.range 20])] 99 (by decide) ⟨"#".toList, by decide +kernel, by decide⟩ (by decide)
  have hd : displayData (fun _ => []) (fun _ => 0) [("a".toList, [List.range 21]), ("b".toList, [List.range 20])] none 99 =
      .ok [("#".toList, (List.range 7).map (fun _ => .text []) ++ .text "...".toList :: List.replicate 7 (.text [])),
        ("a".toList, (List.range 7).map DCell.val ++ .text "...".toList :: [14, 15, 16, 17, 18, 19, 20].map DCell.val),
        ("b".toList, (List.range 7).map DCell.val ++ .text "...".toList :: List.replicate 7 (.val 99))] := by decide +kernel
  rw [hd] at h1
  have h2 := congrArg (fun r : Except Err (List (List Char × List (DCell Nat))) => match r with | Except.ok l => (l.map Prod.snd)[2]? | .error _ => none) h1
  simp only [List.map_cons, List.map_nil, List.getElem?_cons_succ, List.getElem?_cons_zero, Option.some.injEq] at h2
  exact absurd h2 (by decide +kernel)

/-- **C96** (long tables, what holds): the claim is true if every column has all the rows, or none of the last seven. -/
theorem C96_long_partial (num : Nat → List Char) (width : Nat → Nat) (t : Tbl (List Char) α) (blanks : α) (hn : (t.map (·.1)).Nodup) (hfree : ∃ x ∈ rowTags, x ∉ t.map (·.1))
    (hlong : 20 < tblLen t) (hcols : ∀ c ∈ t, colLen c.2 = tblLen t ∨ colLen c.2 + 7 ≤ tblLen t) :
    ∃ tag, tag ∉ t.map (·.1) ∧ displayData num width t none blanks =
      .ok ((tag, (List.range 7).map (fun i => .text (padLeft (width (tblLen t)) (num i))) ++ .text "...".toList ::
          (List.range' (tblLen t - 7) 7).map fun i => .text (padLeft (width (tblLen t)) (num i))) :: t.map fun c => (c.1, cutCells blanks (tblLen t) c.2)) := by
  have hfree' : pickTag (t.map (·.1)) ∉ t.map (·.1) := by
    obtain ⟨_, _, _, h2, _⟩ := C96_tag _ hfree
    exact h2
  refine ⟨pickTag (t.map (·.1)), hfree', ?_⟩
  unfold displayData
  rw [shownSlice, if_neg (by omega)]
  dsimp only
  unfold cutDict
  dsimp only
  rw [cutLoop_ok blanks (tblLen t) (cutCells blanks (tblLen t)) t fun c hc => cutColumn_ok blanks (tblLen t) hlong c.2 (hcols c hc)]
  rw [foldl_dSet_new (fun c : List Char × Pages α => c.1) _ t _ hn]
  · rfl
  · intro c hc
    rw [List.map_cons, List.map_nil, List.mem_singleton]
    intro he
    have he' : c.1 = pickTag (t.map (·.1)) := he
    exact hfree' (he' ▸ List.mem_map_of_mem (f := (·.1)) hc)

/-! ## the labels of the types -/

/-- **C96** (labels).  With `dtype`, every column gets one more cell on top; it says `row` over the row numbers, and over a column it says `empty` if there are no values, the name of
the type if all values are of one type, and `mixed` otherwise. -/
theorem C96_types (ops : DOps α) (t : Tbl (List Char) α) (hn : (t.map (·.1)).Nodup) (tag : List Char) (htag : tag ∉ t.map (·.1)) (rowNo : List (DCell α)) (f : Pages α → List (DCell α)) :
    ∃ label : Pages α → List Char,
      addTypes ops t ((tag, rowNo) :: t.map fun c => (c.1, f c.2)) = (tag, .text "row".toList :: rowNo) :: t.map (fun c => (c.1, .text (label c.2) :: f c.2)) ∧
      ∀ p, (colIter p = [] → label p = "empty".toList) ∧ (∀ a ∈ colIter p, (∀ b ∈ colIter p, ops.typeName b = ops.typeName a) → label p = ops.typeName a) ∧
        (∀ a ∈ colIter p, ∀ b ∈ colIter p, ops.typeName a ≠ ops.typeName b → label p = "mixed".toList) := by
  refine ⟨typeLabel ops, ?_, ?_⟩
  · unfold addTypes
    rw [List.map_cons, List.map_map]
    congr 1
    · dsimp only
      rw [(dGet_none tag t).2 htag]
      rfl
    · apply List.map_congr_left
      intro c hc
      simp only [Function.comp]
      rw [dGet_of_mem t hn c hc]
      rfl
  · intro p
    unfold typeLabel
    refine ⟨?_, ?_, ?_⟩
    · intro h
      rw [h]
      rfl
    · intro a ha hall
      have h1 : ∀ x ∈ (colIter p).map ops.typeName, x = ops.typeName a := by
        intro x hx
        obtain ⟨b, hb, rfl⟩ := List.mem_map.1 hx
        exact hall b hb
      have h2 : ops.typeName a ∈ (colIter p).map ops.typeName := List.mem_map_of_mem ha
      generalize (colIter p).map ops.typeName = l at h1 h2
      match l, h1, h2 with
      | [], _, h2 => exact absurd h2 List.not_mem_nil
      | x :: r, h1, _ =>
        have e1 := h1 x List.mem_cons_self
        have e2 : r.filter (fun b => !b == x) = [] := by
          rw [List.filter_eq_nil_iff]
          intro y hy
          rw [h1 y (List.mem_cons_of_mem _ hy), e1]
          simp
        rw [List.eraseDups_cons, e2]
        exact e1
    · intro a ha b hb hab
      have hm : ∀ x, x ∈ ((colIter p).map ops.typeName).eraseDups ↔ x ∈ (colIter p).map ops.typeName := fun x => List.mem_eraseDups
      have h1 := (hm _).2 (List.mem_map_of_mem (f := ops.typeName) ha)
      have h2 := (hm _).2 (List.mem_map_of_mem (f := ops.typeName) hb)
      generalize ((colIter p).map ops.typeName).eraseDups = l at h1 h2
      match l, h1, h2 with
      | [], h1, _ => exact absurd h1 List.not_mem_nil
      | [x], h1, h2 =>
        rw [List.mem_singleton] at h1 h2
        exact absurd (h1.trans h2.symm) hab
      | x :: y :: r, _, _ => rfl

/-! ## the picture -/

theorem padBoth_length (w : Nat) (t : List Char) : (padBoth w t).length = max w t.length := by
  unfold padBoth
  simp only [List.length_append, List.length_replicate]
  split <;> omega

theorem padLeft_length (w : Nat) (t : List Char) : (padLeft w t).length = max w t.length := by
  unfold padLeft
  rw [List.length_append, List.length_replicate]
  omega

theorem padRight_length (w : Nat) (t : List Char) : (padRight w t).length = max w t.length := by
  unfold padRight
  rw [List.length_append, List.length_replicate]
  omega

/-- spec: a text without the blanks at its ends -/
def trimBlanks (t : List Char) : List Char := ((t.dropWhile (· == ' ')).reverse.dropWhile (· == ' ')).reverse

theorem dropWhile_replicate (k : Nat) (t : List Char) : (List.replicate k ' ' ++ t).dropWhile (· == ' ') = t.dropWhile (· == ' ') := by
  induction k with
  | zero => rfl
  | succ k ih =>
    rw [List.replicate_succ, List.cons_append, List.dropWhile_cons]
    exact ih

/-- blanks around a text do not matter -/
theorem trim_pad (j k : Nat) (t : List Char) : trimBlanks (List.replicate j ' ' ++ t ++ List.replicate k ' ') = trimBlanks t := by
  unfold trimBlanks
  rw [List.append_assoc, dropWhile_replicate, List.dropWhile_append]
  have hz : (List.replicate k ' ').dropWhile (· == ' ') = [] := by
    have := dropWhile_replicate k []
    rwa [List.append_nil] at this
  by_cases h : (t.dropWhile (· == ' ')).isEmpty
  · rw [if_pos h, hz, List.isEmpty_iff.1 h]
  · rw [if_neg h, List.reverse_append, List.reverse_replicate, dropWhile_replicate]

theorem trim_padBoth (w : Nat) (t : List Char) : trimBlanks (padBoth w t) = trimBlanks t := trim_pad _ _ t

theorem trim_padLeft (w : Nat) (t : List Char) : trimBlanks (padLeft w t) = trimBlanks t := by
  have := trim_pad (w - t.length) 0 t
  rwa [List.replicate_zero, List.append_nil] at this

theorem trim_padRight (w : Nat) (t : List Char) : trimBlanks (padRight w t) = trimBlanks t := trim_pad 0 (w - t.length) t

/-- spec: what a cell says: None is shown as `blanks`, everything else as its text -/
def shownText (ops : DOps α) (blanks : α) : DCell α → List Char
  | .text t => t
  | .val a => if ops.isNone a then ops.str blanks else ops.str a

theorem trim_adjust (ops : DOps α) (blanks : α) (w : Nat) (v : DCell α) : trimBlanks (adjustCell ops blanks w v) = trimBlanks (shownText ops blanks v) := by
  cases v with
  | text t => exact trim_padRight w t
  | val a =>
    unfold adjustCell shownText
    dsimp only
    split
    · exact trim_padRight _ _
    · split
      · exact trim_padRight _ _
      · exact trim_padLeft _ _

theorem le_asciiWidth (ops : DOps α) (c : List Char × List (DCell α)) : c.1.length ≤ asciiWidth ops c ∧ ∀ v ∈ c.2, (cellText ops v).length ≤ asciiWidth ops c := by
  unfold asciiWidth
  refine ⟨(foldl_max_ge _ _).2 _ ?_, fun v hv => (foldl_max_ge _ _).2 _ ?_⟩
  · exact List.mem_map_of_mem (List.mem_append_right _ (List.mem_singleton.2 rfl))
  · exact List.mem_map_of_mem (List.mem_append_left _ (List.mem_map_of_mem hv))

/-- the fill value is no longer than the text of a None that it stands for -/
def BlanksFit (ops : DOps α) (blanks : α) : Prop := ∀ a, ops.isNone a = true → (ops.str blanks).length ≤ (ops.str a).length

theorem adjust_length (ops : DOps α) (blanks : α) (hb : BlanksFit ops blanks) (w : Nat) (v : DCell α) (h : (cellText ops v).length ≤ w) : (adjustCell ops blanks w v).length = w := by
  cases v with
  | text t =>
    rw [adjustCell, padRight_length]
    have : (cellText ops (.text t)).length = t.length := rfl
    omega
  | val a =>
    have e : (cellText ops (.val a)).length = (ops.str a).length := rfl
    unfold adjustCell
    dsimp only
    split
    · rename_i hn
      have := hb a hn
      rw [padRight_length]
      omega
    · split
      · rw [padRight_length]; omega
      · rw [padLeft_length]; omega

/-- the cells of a column as shown -/
def asciiCells (ops : DOps α) (blanks : α) (dtype : Bool) (c : List Char × List (DCell α)) : List (List Char) :=
  (if dtype then centerLabel ops (asciiWidth ops c) c.2 else c.2).map (adjustCell ops blanks (asciiWidth ops c))

theorem centerLabel_length (ops : DOps α) (w : Nat) (l : List (DCell α)) : (centerLabel ops w l).length = l.length := by
  cases l <;> rfl

theorem asciiCells_length (ops : DOps α) (blanks : α) (dtype : Bool) (c : List Char × List (DCell α)) : (asciiCells ops blanks dtype c).length = c.2.length := by
  unfold asciiCells
  rw [List.length_map]
  split
  · exact centerLabel_length _ _ _
  · rfl

theorem asciiCells_width (ops : DOps α) (blanks : α) (hb : BlanksFit ops blanks) (dtype : Bool) (c : List Char × List (DCell α)) :
    ∀ x ∈ asciiCells ops blanks dtype c, x.length = asciiWidth ops c := by
  obtain ⟨-, h2⟩ := le_asciiWidth ops c
  intro x hx
  unfold asciiCells at hx
  obtain ⟨v, hv, rfl⟩ := List.mem_map.1 hx
  apply adjust_length ops blanks hb
  split at hv
  · cases hc : c.2 with
    | nil => rw [hc] at hv; exact absurd hv List.not_mem_nil
    | cons a r =>
      rw [hc, centerLabel, List.mem_cons] at hv
      rcases hv with rfl | hv
      · have := h2 a (by rw [hc]; exact List.mem_cons_self)
        rw [cellText, padBoth_length]
        omega
      · exact h2 v (by rw [hc]; exact List.mem_cons_of_mem _ hv)
  · exact h2 v hv

/-- what the cells say -/
theorem asciiCells_text (ops : DOps α) (blanks : α) (dtype : Bool) (c : List Char × List (DCell α)) (hd : dtype = true → ∀ v, c.2.head? = some v → ∃ t, v = .text t) :
    (asciiCells ops blanks dtype c).map trimBlanks = c.2.map fun v => trimBlanks (shownText ops blanks v) := by
  unfold asciiCells
  rw [List.map_map]
  cases dtype with
  | false =>
    apply List.map_congr_left
    intro v _
    exact trim_adjust ops blanks _ v
  | true =>
    rw [if_pos rfl]
    cases hc : c.2 with
    | nil => rfl
    | cons v r =>
      obtain ⟨t, rfl⟩ := hd rfl v (by rw [hc]; rfl)
      rw [centerLabel, List.map_cons, List.map_cons]
      congr 1
      · simp only [Function.comp]
        rw [trim_adjust]
        exact trim_padBoth _ t
      · apply List.map_congr_left
        intro v _
        exact trim_adjust ops blanks _ v

/-- `dict_to_rows` of columns of `m` cells -/
theorem dictToRows_ok {β : Type} (d : List (List Char × List β)) (hd : d ≠ []) (m : Nat) (hm : ∀ c ∈ d, c.2.length = m) :
    ∃ rows, dictToRows d = .ok (d.map (·.1), rows) ∧ rows.length = m ∧ ∀ (i : Nat) (row : List β), rows[i]? = some row → row.map some = d.map fun c => c.2[i]? := by
  have hmax : (d.map fun c => c.2.length).foldl max 0 = m := by
    apply Nat.le_antisymm
    · rcases foldl_max_mem (d.map fun c => c.2.length) 0 with h | h
      · omega
      · obtain ⟨c, hc, he⟩ := List.mem_map.1 h
        rw [← he]
        exact Nat.le_of_eq (hm c hc)
    · obtain ⟨c, hc⟩ := List.exists_mem_of_ne_nil d hd
      have := (foldl_max_ge (d.map fun c => c.2.length) 0).2 _ (List.mem_map_of_mem hc)
      rw [hm c hc] at this
      exact this
  have hrow : ∀ i ∈ List.range m, ∃ r, dictRow d i = .ok r ∧ r.map some = d.map fun c => c.2[i]? := by
    intro i hi
    rw [List.mem_range] at hi
    clear hmax hd
    unfold dictRow
    induction d with
    | nil => exact ⟨[], rfl, rfl⟩
    | cons c d ih =>
      obtain ⟨r, h1, h2⟩ := ih fun x hx => hm x (List.mem_cons_of_mem _ hx)
      have hlt : i < c.2.length := by rw [hm c List.mem_cons_self]; exact hi
      refine ⟨c.2[i] :: r, ?_, ?_⟩
      · rw [List.mapM_cons, List.getElem?_eq_getElem hlt, h1]
        rfl
      · rw [List.map_cons, List.map_cons, h2, List.getElem?_eq_getElem hlt]
  unfold dictToRows
  rw [if_neg hd, hmax]
  have hall : ∀ l : List Nat, (∀ i ∈ l, ∃ r, dictRow d i = .ok r ∧ r.map some = d.map fun c => c.2[i]?) →
      ∃ rows, l.mapM (dictRow d) = .ok rows ∧ rows.length = l.length ∧ ∀ (k : Nat) (row : List β), rows[k]? = some row → ∃ i, l[k]? = some i ∧ row.map some = d.map fun c => c.2[i]? := by
    intro l
    induction l with
    | nil => intro _; exact ⟨[], rfl, rfl, fun k row h => by simp at h⟩
    | cons i l ih =>
      intro h
      obtain ⟨r, h1, h2⟩ := h i List.mem_cons_self
      obtain ⟨rows, h3, h4, h5⟩ := ih fun x hx => h x (List.mem_cons_of_mem _ hx)
      refine ⟨r :: rows, ?_, by rw [List.length_cons, List.length_cons, h4], ?_⟩
      · rw [List.mapM_cons, h1, h3]
        rfl
      · intro k row hk
        cases k with
        | zero =>
          rw [List.getElem?_cons_zero, Option.some.injEq] at hk
          exact ⟨i, rfl, hk ▸ h2⟩
        | succ k =>
          rw [List.getElem?_cons_succ] at hk
          obtain ⟨j, hj, h6⟩ := h5 k row hk
          exact ⟨j, by rw [List.getElem?_cons_succ]; exact hj, h6⟩
  obtain ⟨rows, h1, h2, h3⟩ := hall (List.range m) hrow
  refine ⟨rows, ?_, by rw [h2, List.length_range], ?_⟩
  · rw [h1]
    rfl
  · intro i row hr
    obtain ⟨j, hj, h4⟩ := h3 i row hr
    have hi : i < m := by
      have := (List.getElem?_eq_some_iff.1 hr).1
      rw [h2, List.length_range] at this
      exact this
    rw [List.getElem?_range hi, Option.some.injEq] at hj
    rw [hj]
    exact h4

theorem frameLine_length (a : Char) (cells : List (List Char)) : (frameLine a cells).length = 1 + (cells.map List.length).sum + (cells.length - 1) + 1 := by
  unfold frameLine
  rw [List.length_append, List.length_cons, List.length_singleton]
  have : (List.intersperse [a] cells).flatten.length = (cells.map List.length).sum + (cells.length - 1) := by
    induction cells with
    | nil => rfl
    | cons c t ih =>
      cases t with
      | nil => simp
      | cons d r =>
        rw [List.intersperse_cons_cons, List.flatten_cons, List.flatten_cons, List.length_append, List.length_append, ih]
        simp only [List.length_cons, List.map_cons, List.sum_cons, List.length_nil]
        omega
  omega

theorem mem_dSet {γ : Type} (k : List Char) (v : γ) (d : List (List Char × γ)) (c : List Char × γ) (hc : c ∈ dSet k v d) : c = (k, v) ∨ c ∈ d := by
  unfold dSet at hc
  induction d with
  | nil =>
    rw [dUpd, List.mem_singleton] at hc
    exact Or.inl hc
  | cons b r ih =>
    rw [dUpd] at hc
    split at hc
    · rename_i h
      rw [List.mem_cons] at hc
      rcases hc with rfl | hc
      · exact Or.inl (by rw [← h])
      · exact Or.inr (List.mem_cons_of_mem _ hc)
    · rw [List.mem_cons] at hc
      rcases hc with rfl | hc
      · exact Or.inr List.mem_cons_self
      · exact (ih hc).imp id (List.mem_cons_of_mem _)

/-- filing under centred names keeps: every column has `m` cells, each as wide as the name -/
theorem asciiCols_grid (ops : DOps α) (blanks : α) (hb : BlanksFit ops blanks) (dtype : Bool) (m : Nat) (d : List (List Char × List (DCell α))) (hm : ∀ c ∈ d, c.2.length = m) :
    ∀ c ∈ asciiCols ops blanks dtype d, c.2.length = m ∧ ∀ x ∈ c.2, x.length = c.1.length := by
  unfold asciiCols
  have key : ∀ (l : List (List Char × List (DCell α))) (acc : List (List Char × List (List Char))), (∀ c ∈ l, c.2.length = m) →
      (∀ c ∈ acc, c.2.length = m ∧ ∀ x ∈ c.2, x.length = c.1.length) →
      ∀ c ∈ l.foldl (fun acc c => dSet (padBoth (asciiWidth ops c) c.1) (asciiCells ops blanks dtype c) acc) acc, c.2.length = m ∧ ∀ x ∈ c.2, x.length = c.1.length := by
    intro l
    induction l with
    | nil => intro acc _ h; exact h
    | cons a l ih =>
      intro acc hl hacc
      rw [List.foldl_cons]
      apply ih _ fun c hc => hl c (List.mem_cons_of_mem _ hc)
      intro c hc
      rcases mem_dSet _ _ _ _ hc with h | h
      · rw [h]
        refine ⟨?_, ?_⟩
        · rw [asciiCells_length]
          exact hl a List.mem_cons_self
        · intro x hx
          have := (le_asciiWidth ops a).1
          rw [asciiCells_width ops blanks hb dtype a x hx, padBoth_length]
          omega
      · exact hacc c h
  exact key d [] hm fun c hc => absurd hc List.not_mem_nil

theorem foldl_dSet_all {β γ : Type} (k : β → List Char) (v : β → γ) (P : γ → Prop) (l : List β) (hl : ∀ c ∈ l, P (v c)) : ∀ pre : List (List Char × γ), (∀ c ∈ pre, P c.2) →
    ∀ c ∈ l.foldl (fun d c => dSet (k c) (v c) d) pre, P c.2 := by
  induction l with
  | nil => intro pre h; exact h
  | cons a l ih =>
    intro pre h
    rw [List.foldl_cons]
    apply ih (fun c hc => hl c (List.mem_cons_of_mem _ hc))
    intro c hc
    rcases mem_dSet _ _ _ _ hc with h1 | h1
    · rw [h1]; exact hl a List.mem_cons_self
    · exact h c h1

theorem dSet_ne_nil {γ : Type} (k : List Char) (v : γ) (d : List (List Char × γ)) : dSet k v d ≠ [] := by
  unfold dSet
  cases d with
  | nil => simp [dUpd]
  | cons b r => rw [dUpd]; split <;> simp

theorem foldl_dSet_ne_nil {β γ : Type} (k : β → List Char) (v : β → γ) (l : List β) : ∀ pre : List (List Char × γ), pre ≠ [] → l.foldl (fun d c => dSet (k c) (v c) d) pre ≠ [] := by
  induction l with
  | nil => intro pre h; exact h
  | cons a l ih =>
    intro pre h
    rw [List.foldl_cons]
    exact ih _ (dSet_ne_nil _ _ _)

/-- the cells shown of a column of a long table -/
def cutShown (blanks : α) (n : Nat) (p : Pages α) : List (DCell α) :=
  if colLen p = n ∨ colLen p + 7 ≤ n then cutCells blanks n p
  else (List.range 7).map (fun i => .val (rowValue blanks p i)) ++ .text "...".toList :: List.replicate 7 (.val blanks)

theorem cutColumn_eq (blanks : α) (n : Nat) (hn : 20 < n) (p : Pages α) (h : colLen p ≤ n) : cutColumn blanks n p = .ok (cutShown blanks n p) := by
  unfold cutShown
  split
  · rename_i hc
    exact cutColumn_ok blanks n hn p hc
  · rename_i hc
    exact cutColumn_short blanks n hn p (by omega) (by omega)

theorem cutShown_length (blanks : α) (n : Nat) (p : Pages α) : (cutShown blanks n p).length = 15 := by
  unfold cutShown cutCells
  split <;> simp

/-- `display_dict` raises only for a step of 0; all columns it makes have the same number of cells -/
theorem displayData_even (num : Nat → List Char) (width : Nat → Nat) (t : Tbl (List Char) α) (slice : Option PySlice) (hs : ∀ s, slice = some s → s.step ≠ some 0) (blanks : α) :
    ∃ d m, displayData num width t slice blanks = .ok d ∧ d ≠ [] ∧ ∀ c ∈ d, c.2.length = m := by
  have key : ∀ (tag : List Char) (s : PySlice), s.step ≠ some 0 → ∃ d m, sliceDict num blanks tag t s = .ok d ∧ d ≠ [] ∧ ∀ c ∈ d, c.2.length = m := by
    intro tag s h0
    unfold sliceDict
    rw [if_neg h0]
    refine ⟨_, (rangeList (s.indices (tblLen t)).1 (s.indices (tblLen t)).2.1 (s.indices (tblLen t)).2.2).length, rfl, foldl_dSet_ne_nil (fun c : List Char × Pages α => c.1) _ t _ (by simp), ?_⟩
    apply foldl_dSet_all (fun c : List Char × Pages α => c.1) _ (fun l : List (DCell α) => l.length = _) t
    · intro c hc
      rw [List.length_map, pySlice_padded blanks (tblLen t) c.2 (colLen_le_tblLen t c hc) s h0, List.length_map]
    · intro c hc
      rw [List.mem_singleton] at hc
      rw [hc, List.length_map]
  unfold displayData
  cases slice with
  | some s => exact key _ s (hs s rfl)
  | none =>
    rw [shownSlice]
    by_cases h20 : tblLen t ≤ 20
    · rw [if_pos h20]
      exact key _ _ (by decide)
    · rw [if_neg h20]
      dsimp only
      unfold cutDict
      dsimp only
      rw [cutLoop_ok blanks (tblLen t) (cutShown blanks (tblLen t)) t fun c hc => cutColumn_eq blanks (tblLen t) (by omega) c.2 (colLen_le_tblLen t c hc)]
      refine ⟨_, 15, rfl, foldl_dSet_ne_nil (fun c : List Char × Pages α => c.1) _ t _ (by simp), ?_⟩
      apply foldl_dSet_all (fun c : List Char × Pages α => c.1) _ (fun l : List (DCell α) => l.length = 15) t
      · intro c _
        exact cutShown_length _ _ _
      · intro c hc
        rw [List.mem_singleton] at hc
        rw [hc]
        simp

theorem displayDict_even (ops : DOps α) (num : Nat → List Char) (width : Nat → Nat) (t : Tbl (List Char) α) (slice : Option PySlice) (hs : ∀ s, slice = some s → s.step ≠ some 0) (blanks : α)
    (dtype : Bool) : ∃ d m, displayDict ops num width t slice blanks dtype = .ok d ∧ d ≠ [] ∧ (∀ c ∈ d, c.2.length = m) ∧
      (dtype = true → 0 < m ∧ ∀ c ∈ d, ∀ v, c.2.head? = some v → ∃ x, v = .text x) := by
  obtain ⟨d, m, h1, h2, h3⟩ := displayData_even num width t slice hs blanks
  unfold displayDict
  rw [h1]
  dsimp only [bind, Except.bind]
  cases dtype with
  | false => exact ⟨d, m, rfl, h2, h3, fun h => absurd h (by decide)⟩
  | true =>
    refine ⟨addTypes ops t d, m + 1, rfl, ?_, ?_, ?_⟩
    · unfold addTypes
      simpa using h2
    · intro c hc
      obtain ⟨x, hx, rfl⟩ := List.mem_map.1 hc
      rw [List.length_cons, h3 x hx]
    · intro _
      refine ⟨Nat.succ_pos _, ?_⟩
      intro c hc v hv
      obtain ⟨x, hx, rfl⟩ := List.mem_map.1 hc
      rw [List.head?_cons, Option.some.injEq] at hv
      exact ⟨_, hv.symm⟩

/-- the claim for the frame in full: all lines of the picture are of the same length -/
def C96_grid_statement : Prop :=
  ∀ (ops : DOps Nat) (num : Nat → List Char) (width : Nat → Nat) (t : Tbl (List Char) Nat) (slice : Option PySlice) (blanks : Nat) (dtype : Bool) (r : List (List Char) × Bool),
    toAscii ops num width t slice blanks dtype = .ok r → ∃ w, ∀ line ∈ r.1, line.length = w

/-- operations of an example: 0 is None, 1 is the text `missing`, other numbers are numbers -/
def exOps : DOps Nat where
  str := fun n => if n = 0 then "None".toList else if n = 1 then "missing".toList else Nat.toDigits 10 n
  isNone := fun n => n == 0
  isText := fun n => n == 1
  typeName := fun n => if n = 0 then "NoneType".toList else if n = 1 then "str".toList else "int".toList

/-- **C96** (frame, the claim in full is false): a fill value longer than `None` breaks the frame, since the width is that of `None`. -/
theorem C96_grid_fails : ¬ C96_grid_statement := by
  intro h
  obtain ⟨w, hw⟩ := h exOps (fun n => Nat.toDigits 10 n) (fun _ => 2) [("a".toList, [[0, 5]])] none 1 false
    (["+==+====+", "|# | a  |", "+--+----+", "| 0|missing|", "| 1|   5|", "+==+====+"].map String.toList, false) (by decide +kernel)
  have h1 := hw "+==+====+".toList (by decide +kernel)
  have h2 := hw "| 0|missing|".toList (by decide +kernel)
  rw [← h2] at h1
  exact absurd h1 (by decide +kernel)

/-- **C96** (frame, what holds): if the fill value is no longer than the text of None, all lines of the picture are of the same length; there are four lines besides the rows. -/
theorem C96_grid_partial (ops : DOps α) (num : Nat → List Char) (width : Nat → Nat) (t : Tbl (List Char) α) (slice : Option PySlice) (hs : ∀ s, slice = some s → s.step ≠ some 0) (blanks : α)
    (dtype : Bool) (hb : BlanksFit ops blanks) :
    ∃ d m lines warn w, displayDict ops num width t slice blanks dtype = .ok d ∧ (∀ c ∈ d, c.2.length = m) ∧ toAscii ops num width t slice blanks dtype = .ok (lines, warn) ∧
      lines.length = m + 4 ∧ ∀ line ∈ lines, line.length = w := by
  obtain ⟨d, m, h1, h2, h3, -⟩ := displayDict_even ops num width t slice hs blanks dtype
  have hg := asciiCols_grid ops blanks hb dtype m d h3
  have hne : asciiCols ops blanks dtype d ≠ [] := by
    obtain ⟨c, d', rfl⟩ := List.exists_cons_of_ne_nil h2
    exact foldl_dSet_ne_nil _ _ d' _ (dSet_ne_nil _ _ _)
  obtain ⟨rows, r1, r2, r3⟩ := dictToRows_ok _ hne m fun c hc => (hg c hc).1
  have hrow : ∀ row ∈ rows, row.map List.length = (asciiCols ops blanks dtype d).map fun c => c.1.length := by
    intro row hr
    obtain ⟨i, hi, he⟩ := List.mem_iff_getElem.1 hr
    have hh := r3 i row (by rw [List.getElem?_eq_getElem hi, he])
    have hg' := hg
    clear r1 r3 hne hg
    generalize asciiCols ops blanks dtype d = cols at hh hg'
    clear he hr
    induction cols generalizing row with
    | nil =>
      rw [List.map_nil, List.map_eq_nil_iff] at hh
      rw [hh]
      rfl
    | cons c cols ih =>
      cases row with
      | nil => simp at hh
      | cons x row =>
        rw [List.map_cons, List.map_cons, List.cons.injEq] at hh
        rw [List.map_cons, List.map_cons, ih row hh.2 fun c hc => hg' c (List.mem_cons_of_mem _ hc)]
        rw [(hg' c List.mem_cons_self).2 x (List.mem_of_getElem? hh.1.symm)]
  have hlen : ∀ row ∈ rows, row.length = (asciiCols ops blanks dtype d).length := by
    intro row hr
    have := congrArg List.length (hrow row hr)
    rwa [List.length_map, List.length_map] at this
  refine ⟨d, m, asciiLines dtype ((asciiCols ops blanks dtype d).map (·.1)) rows, decide ((t.map fun c => colLen c.2).eraseDups.length ≠ 1), 1 + ((asciiCols ops blanks dtype d).map fun c => c.1.length).sum + ((asciiCols ops blanks dtype d).length - 1) + 1, h1, h3, ?_, ?_, ?_⟩
  · unfold toAscii
    rw [h1]
    dsimp only [bind, Except.bind]
    rw [r1]
  · unfold asciiLines
    simp only [List.length_append, List.length_cons, List.length_nil, List.length_map, List.length_take, List.length_drop]
    split <;> omega
  · have hrule : ∀ c : Char, (ruleLine c ((asciiCols ops blanks dtype d).map (·.1))).length =
        1 + ((asciiCols ops blanks dtype d).map fun c => c.1.length).sum + ((asciiCols ops blanks dtype d).length - 1) + 1 := by
      intro c
      unfold ruleLine
      rw [frameLine_length, List.length_map, List.length_map, List.map_map, List.map_map]
      congr 4
      apply List.map_congr_left
      intro x _
      simp
    have hr : ∀ row ∈ rows, (frameLine '|' row).length = 1 + ((asciiCols ops blanks dtype d).map fun c => c.1.length).sum + ((asciiCols ops blanks dtype d).length - 1) + 1 := by
      intro row hrw
      rw [frameLine_length, hrow row hrw, hlen row hrw]
    intro line hl
    unfold asciiLines at hl
    simp only [List.mem_append, List.mem_cons, List.not_mem_nil, or_false, List.mem_map] at hl
    rcases hl with ((((rfl | rfl) | ⟨row, hm, rfl⟩) | rfl) | ⟨row, hm, rfl⟩) | rfl
    · exact hrule _
    · rw [frameLine_length, List.length_map, List.map_map]
      rfl
    · exact hr row (List.mem_of_mem_take hm)
    · exact hrule _
    · exact hr row (List.mem_of_mem_drop hm)
    · exact hrule _

/-! ## what the picture says -/

/-- the claim in full: the picture has a heading for every column of the display, in order -/
def C96_columns_statement : Prop :=
  ∀ (ops : DOps Nat) (blanks : Nat) (d : List (List Char × List (DCell Nat))), (d.map (·.1)).Nodup →
    (asciiCols ops blanks false d).map (fun c => trimBlanks c.1) = d.map fun c => trimBlanks c.1

/-- **C96** (columns of the picture, the claim in full is false): centred names are used as keys; with `a` three places wide, a column named `a` between blanks replaces it. -/
theorem C96_columns_fails : ¬ C96_columns_statement := by
  intro h
  have := h exOps 0 [("a".toList, [.val 123]), (" a ".toList, [.val 456])] (by decide)
  exact absurd this (by decide +kernel)

/-- **C96** (the picture): if the names differ in more than blanks at their ends, the picture has the names of the display in the order of its columns, and below them each row with the
text of each cell, `blanks` in place of None. -/
theorem C96_columns_partial (ops : DOps α) (num : Nat → List Char) (width : Nat → Nat) (t : Tbl (List Char) α) (slice : Option PySlice) (blanks : α) (dtype : Bool)
    (hs : ∀ s, slice = some s → s.step ≠ some 0) (d : List (List Char × List (DCell α))) (hd : displayDict ops num width t slice blanks dtype = .ok d)
    (hn : (d.map fun c => trimBlanks c.1).Nodup) :
    ∃ names rows warn, toAscii ops num width t slice blanks dtype = .ok (asciiLines dtype names rows, warn) ∧
      names.map trimBlanks = d.map (fun c => trimBlanks c.1) ∧ (∀ c ∈ d, c.2.length = rows.length) ∧
      ∀ (i : Nat) (row : List (List Char)), rows[i]? = some row → row.map (fun x => some (trimBlanks x)) = d.map fun c => (c.2[i]?).map fun v => trimBlanks (shownText ops blanks v) := by
  obtain ⟨d', m, h1, h2, h3, h4⟩ := displayDict_even ops num width t slice hs blanks dtype
  rw [hd, Except.ok.injEq] at h1
  subst h1
  have hcols : asciiCols ops blanks dtype d = d.map fun c => (padBoth (asciiWidth ops c) c.1, asciiCells ops blanks dtype c) := by
    have := foldl_dSet_new (fun c : List Char × List (DCell α) => padBoth (asciiWidth ops c) c.1) (fun c => asciiCells ops blanks dtype c) d [] ?_ fun x _ h => absurd h List.not_mem_nil
    · rw [List.nil_append] at this
      exact this
    · have e : (d.map fun c => padBoth (asciiWidth ops c) c.1).map trimBlanks = d.map fun c => trimBlanks c.1 := by
        rw [List.map_map]
        apply List.map_congr_left
        intro c _
        exact trim_padBoth _ _
      exact List.Nodup.of_map trimBlanks (e ▸ hn)
  obtain ⟨rows, r1, r2, r3⟩ := dictToRows_ok (asciiCols ops blanks dtype d) (by rw [hcols]; simpa using h2) m (by
    rw [hcols]
    intro c hc
    obtain ⟨x, hx, rfl⟩ := List.mem_map.1 hc
    exact (asciiCells_length ops blanks dtype x).trans (h3 x hx))
  refine ⟨(asciiCols ops blanks dtype d).map (·.1), rows, decide ((t.map fun c => colLen c.2).eraseDups.length ≠ 1), ?_, ?_, ?_, ?_⟩
  · unfold toAscii
    rw [hd]
    dsimp only [bind, Except.bind]
    rw [r1]
  · rw [hcols, List.map_map, List.map_map]
    apply List.map_congr_left
    intro c _
    exact trim_padBoth _ _
  · intro c hc
    rw [r2, h3 c hc]
  · intro i row hr
    have := congrArg (List.map (Option.map trimBlanks)) (r3 i row hr)
    rw [hcols, List.map_map, List.map_map, List.map_map] at this
    have e : row.map (fun x => some (trimBlanks x)) = row.map (Option.map trimBlanks ∘ some) := rfl
    rw [e, this]
    apply List.map_congr_left
    intro c hc
    simp only [Function.comp]
    rw [← List.getElem?_map, asciiCells_text ops blanks dtype c (fun hdt => (h4 hdt).2 c hc), List.getElem?_map]

/-- **C96** (warning).  The picture ends with a warning unless all columns have the same number of rows. -/
theorem C96_warning (ops : DOps α) (num : Nat → List Char) (width : Nat → Nat) (t : Tbl (List Char) α) (ht : t ≠ []) (slice : Option PySlice) (blanks : α) (dtype : Bool)
    (lines : List (List Char)) (warn : Bool) (h : toAscii ops num width t slice blanks dtype = .ok (lines, warn)) : warn = false ↔ ∃ n, ∀ c ∈ t, colLen c.2 = n := by
  unfold toAscii at h
  cases hd : displayDict ops num width t slice blanks dtype with
  | error e => rw [hd] at h; exact absurd h (by simp [bind, Except.bind])
  | ok d =>
    rw [hd] at h
    dsimp only [bind, Except.bind] at h
    cases hr : dictToRows (asciiCols ops blanks dtype d) with
    | error e => rw [hr] at h; exact absurd h (by simp)
    | ok r =>
      rw [hr] at h
      simp only [Except.ok.injEq, Prod.mk.injEq] at h
      rw [← h.2, decide_eq_false_iff_not, not_not]
      constructor
      · intro h1
        obtain ⟨x, hx⟩ := List.length_eq_one_iff.1 h1
        refine ⟨x, ?_⟩
        intro c hc
        have : colLen c.2 ∈ (t.map fun c => colLen c.2).eraseDups := List.mem_eraseDups.2 (List.mem_map_of_mem hc)
        rw [hx] at this
        exact List.mem_singleton.1 this
      · rintro ⟨n, hn⟩
        obtain ⟨c, t', rfl⟩ := List.exists_cons_of_ne_nil ht
        rw [List.map_cons, List.eraseDups_cons, List.length_cons]
        have : (t'.map fun c => colLen c.2).filter (fun b => !b == colLen c.2) = [] := by
          rw [List.filter_eq_nil_iff]
          intro y hy
          obtain ⟨c', hc', rfl⟩ := List.mem_map.1 hy
          rw [hn c' (List.mem_cons_of_mem _ hc'), hn c List.mem_cons_self]
          simp
        rw [this]
        rfl

/-! ## cases that meet the hypotheses -/

/-- a table with a None, a text, and columns of different lengths -/
def exTable : Tbl (List Char) Nat := [("a".toList, [[0, 5], [123456]]), ("#".toList, [[1]])]

example : toAscii exOps (fun n => Nat.toDigits 10 n) (fun _ => 2) exTable none 0 true = .ok (["+===+======+=======+", "| ~ |  a   |   #   |", "|row|mixed |  str  |", "+---+------+-------+",
    "| 0 |None  |missing|", "| 1 |     5|None   |", "| 2 |123456|None   |", "+===+======+=======+"].map String.toList, true) := by decide +kernel

example : BlanksFit exOps 0 := fun a ha => by
  have : a = 0 := of_decide_eq_true ha
  subst this
  exact Nat.le_refl _

example : (exTable.map (·.1)).Nodup ∧ (∃ x ∈ rowTags, x ∉ exTable.map (·.1)) ∧ tblLen exTable ≤ 20 := ⟨by decide, ⟨"~".toList, by decide +kernel, by decide⟩, by decide⟩

example : 20 < tblLen [("a".toList, [List.range 30]), ("b".toList, [List.range 9])] ∧
    ∀ c ∈ [("a".toList, [List.range 30]), ("b".toList, [List.range 9])], colLen c.2 = 30 ∨ colLen c.2 + 7 ≤ 30 := by decide

end

end Tablite
