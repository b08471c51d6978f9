import Verif.Props.Exact2
import Verif.Props.Filter
import Verif.Props.Reshape
import Verif.Props.Replace
import Verif.Props.SaveLoad
import Verif.Props.Tracker
import Mathlib.Data.List.Perm.Subperm
/-!
# Exactly when: C16, C21, C29, C58, C99, C104

More properties that the code has only in part, with the exact condition.
-/

namespace Tablite

section

variable {ν α κ β : Type} [DecidableEq ν]

/-! ## C16 -/

theorem pyIndex_error (l : List α) (i : Int) (e : Err) (h : pyIndex l i = .error e) : e = .index := by
  unfold pyIndex at h
  dsimp only at h
  split at h
  · cases h
  · injection h with h
    exact h.symm

theorem mapM_pyIndex_last (t : Tbl ν α) : (t.mapM fun c => pyIndex (colIter c.2) (-1)) = .error .index ↔ ∃ c ∈ t, colIter c.2 = [] := by
  induction t with
  | nil => simp [List.mapM_nil, pure, Except.pure]
  | cons c u ih =>
    rw [List.mapM_cons]
    by_cases hc : colIter c.2 = []
    · have e : pyIndex (colIter c.2) (-1) = .error .index := by rw [hc]; rfl
      simp only [e, bind, Except.bind]
      simp [hc]
    · have hp : 0 < (colIter c.2).length := List.length_pos_iff.2 hc
      have e : ∃ v, pyIndex (colIter c.2) (-1) = .ok v := by
        unfold pyIndex getI?
        dsimp only
        simp only [show (-1 : Int) < 0 by decide, if_true, show ¬ ((colIter c.2).length : Int) + -1 < 0 by omega, if_false]
        rw [List.getElem?_eq_getElem (by omega)]
        exact ⟨_, rfl⟩
      obtain ⟨v, e⟩ := e
      simp only [e, bind, Except.bind]
      simp only [List.mem_cons, exists_eq_or_imp, hc, false_or, ← ih]
      cases (u.mapM fun c => pyIndex (colIter c.2) (-1)) with
      | error x => simp
      | ok x => simp [pure, Except.pure]

/-- **C16** (exact, rows).  `table[i]` does what lists do exactly when `i` is not -1, or the table has no columns, or some column has no values. -/
theorem C16_row_exact (t : Tbl ν α) (i : Int) :
    (tblRow t i = t.mapM fun c => pyIndex (colIter c.2) i) ↔ i ≠ -1 ∨ t = [] ∨ ∃ c ∈ t, colIter c.2 = [] := by
  constructor
  · intro h
    by_cases hi : i = -1
    · right
      by_cases ht : t = []
      · exact Or.inl ht
      · subst hi
        rw [C16_last_row_raises t ht] at h
        exact Or.inr ((mapM_pyIndex_last t).1 h.symm)
    · exact Or.inl hi
  · rintro (h | rfl | h)
    · exact C16_row_partial t i h
    · rfl
    · by_cases hi : i = -1
      · subst hi
        rw [C16_last_row_raises t (by rintro rfl; simp at h)]
        exact ((mapM_pyIndex_last t).2 h).symm
      · exact C16_row_partial t i hi

/-- **C16** (exact, slices).  `table[a:b:k]` is the list slice of every column exactly when each column is read that way: for every step that is positive or -1, and for other
negative steps if each column has at most one value in the range. -/
theorem C16_slice_exact (ps : Nat) (hps : 0 < ps) (t : Tbl ν α) (s : PySlice) (hk : s.stepOr1 < 0) :
    (∃ t', tblSlice ps t s = .ok t' ∧ tview t' = (tview t).map fun c => (c.1, pySlice c.2 s)) ↔
      s.stepOr1 = -1 ∨ ∀ c ∈ t, (s.indices (colLen c.2)).1 ≤ (s.indices (colLen c.2)).2.1 + 1 := by
  have key : (∃ t', tblSlice ps t s = .ok t' ∧ tview t' = (tview t).map fun c => (c.1, pySlice c.2 s)) ↔
      ∀ c ∈ t, getSlice c.2 s = .ok (pySlice (colIter c.2) s) := by
    unfold tblSlice
    induction t with
    | nil => simp [List.mapM_nil, pure, Except.pure, tview]
    | cons c u ih =>
      rw [List.forall_mem_cons, ← ih, List.mapM_cons, ← sliceCol_values ps hps c.2 s]
      cases h1 : sliceCol ps c.2 s with
      | error x => simp [bind, Except.bind, Except.map]
      | ok q =>
        cases h2 : (u.mapM fun c => do Except.ok (c.1, ← sliceCol ps c.2 s)) with
        | error x => simp [bind, Except.bind]
        | ok r => simp [bind, Except.bind, pure, Except.pure, Except.map, tview]
  rw [key]
  constructor
  · intro h
    by_cases h1 : s.stepOr1 = -1
    · exact Or.inl h1
    · right
      intro c hc
      rcases (C02_exact c.2 s hk).1 (h c hc) with h | h
      · exact absurd h h1
      · exact h
  · rintro (h | h) c hc
    · exact (C02_exact c.2 s hk).2 (Or.inl h)
    · exact (C02_exact c.2 s hk).2 (Or.inr (h c hc))

/-! ## C21 -/

/-- **C21** (exact).  A saved table is read back as it was exactly when some column has a page. -/
theorem C21_exact {η : Type} [DecidableEq η] (ps : Nat) (hps : 0 < ps) (yml : η) (ord : List (η × List α) → List (η × List α))
    (hord : ∀ l x, x ∈ ord l ↔ x ∈ l) (t : NTbl ν η α) (h : t.Ok yml) :
    (∃ z r, tblSave yml ord t = .ok z ∧ tblLoad ps yml z = .ok r ∧ tview r = t.view ∧ ∀ c ∈ r, ∀ p ∈ c.2, p.length ≤ ps) ↔ ∃ c ∈ t, c.2 ≠ [] := by
  constructor
  · rintro ⟨z, r, hz, -⟩
    by_contra hc
    push Not at hc
    rw [C21_no_pages_fails yml ord t hc] at hz
    cases hz
  · exact C21_partial ps hps yml ord hord t h

/-! ## C29 -/

/-- **C29** (exact).  For expressions over existing columns, `filter` splits the rows exactly when there are none or some expression names a column. -/
theorem C29_exact (nul : α) (cmp : κ → α → α → Bool) (ps : Nat) (hps : 0 < ps) (all : Bool) (t : Tbl ν α) (n : Nat) (ht : Rect t n)
    (hne : t ≠ []) (es : List (FExpr ν α κ)) (hcols : ∀ e ∈ es, ∀ x, e.left = .col x ∨ e.right = .col x → x ∈ t.map (·.1)) :
    (∃ p f, tblFilter nul cmp ps all t es = .ok (p, f) ∧
      tview p = rowsOf nul t ((List.range n).filter fun i => rowHolds nul cmp all es t i) ∧
      tview f = rowsOf nul t ((List.range n).filter fun i => !rowHolds nul cmp all es t i)) ↔
    n = 0 ∨ ∃ e ∈ es, ∃ x, e.left = .col x ∨ e.right = .col x := by
  constructor
  · rintro ⟨p, f, h1, -, h3⟩
    by_contra hc
    push Not at hc
    obtain ⟨hn, hc⟩ := hc
    unfold tblFilter at h1
    rw [tblLen_rect t n ht hne, if_neg hn] at h1
    by_cases h0 : es = []
    · rw [if_pos h0] at h1
      injection h1 with h1
      injection h1 with _ h1
      rw [← h1] at h3
      have := congrArg List.length h3
      simp [tview, rowsOf] at this
      exact hne (List.length_eq_zero_iff.1 this.symm)
    rw [if_neg h0] at h1
    split at h1
    · cases h1
    split at h1
    · cases h1
    have : exprCols es = [] := by
      by_contra hx
      obtain ⟨x, hx⟩ := List.exists_mem_of_ne_nil _ hx
      obtain ⟨e, he, h⟩ := (mem_exprCols es x).1 hx
      rcases h with h | h
      · exact (hc e he x).1 h
      · exact (hc e he x).2 h
    rw [if_pos this] at h1
    cases h1
  · rintro (rfl | h)
    · have : tview t = rowsOf nul t [] := by
        unfold tview rowsOf
        apply List.map_congr_left
        intro c hc
        have h := ht c hc
        rw [colLen_eq, ← colIter_eq] at h
        simp [List.length_eq_zero_iff.1 h]
      refine ⟨t, t, ?_, by simpa using this, by simpa using this⟩
      unfold tblFilter
      rw [tblLen_rect t 0 ht hne, if_pos rfl]
    · exact C29_filter_partial nul cmp ps hps all t n ht hne es h hcols

/-! ## C58 -/

theorem names_tblSet (t : Tbl ν α) (x : ν) (p : Pages α) : (tblSet t x p).map (·.1) = if x ∈ t.map (·.1) then t.map (·.1) else t.map (·.1) ++ [x] := by
  unfold tblSet
  induction t with
  | nil => simp [dUpd]
  | cons a t ih =>
    obtain ⟨b, d⟩ := a
    rw [dUpd]
    by_cases e : b = x
    · rw [if_pos e]
      simp [e]
    · rw [if_neg e, List.map_cons, ih]
      have : ¬ x = b := fun h => e h.symm
      simp only [List.map_cons, List.mem_cons, this, false_or]
      split <;> simp

theorem mem_setCol (t : Tbl ν α) (x : ν) (p : Pages α) (c : ν × Pages α) (h : c ∈ tblSet t x p) : c.2 = p ∨ c ∈ t := by
  unfold tblSet at h
  induction t with
  | nil =>
    simp only [dUpd, List.mem_singleton] at h
    exact Or.inl (by rw [h])
  | cons a t ih =>
    obtain ⟨b, d⟩ := a
    rw [dUpd] at h
    split at h
    · rcases List.mem_cons.1 h with h | h
      · exact Or.inl (by rw [h])
      · exact Or.inr (by simp [h])
    · rcases List.mem_cons.1 h with h | h
      · exact Or.inr (by simp [h])
      · rcases ih h with h | h
        · exact Or.inl h
        · exact Or.inr (by simp [h])

/-- columns of one length, set one after the other: all have that length, and there is one for each name -/
theorem setCols_props (ps : Nat) (hps : 0 < ps) (m : Nat) (cols : List (ν × List α)) (h : ∀ c ∈ cols, c.2.length = m) (t : Tbl ν α) (ht : Rect t m) (hw : TblWF t) :
    Rect (cols.foldl (fun t c => tblSet t c.1 (paginate ps c.2)) t) m ∧ TblWF (cols.foldl (fun t c => tblSet t c.1 (paginate ps c.2)) t) ∧
    (∀ x, x ∈ (cols.foldl (fun t c => tblSet t c.1 (paginate ps c.2)) t).map (·.1) → x ∈ t.map (·.1) ∨ x ∈ cols.map (·.1)) ∧
    t.map (·.1) <+: (cols.foldl (fun t c => tblSet t c.1 (paginate ps c.2)) t).map (·.1) := by
  induction cols generalizing t with
  | nil => exact ⟨ht, hw, fun x hx => Or.inl hx, List.prefix_refl _⟩
  | cons c cols ih =>
    rw [List.foldl_cons]
    have hp : colLen (paginate ps c.2) = m := by rw [colLen_eq, ← colIter_eq, colIter_paginate ps hps, h c (by simp)]
    obtain ⟨h1, h2, h3, h4⟩ := ih (fun c hc => h c (by simp [hc])) (tblSet t c.1 (paginate ps c.2))
      (fun d hd => by
        rcases mem_setCol _ _ _ _ hd with e | e
        · rw [e]; exact hp
        · exact ht d e)
      (by
        unfold TblWF
        rw [names_tblSet]
        split
        · exact hw
        · rename_i hx
          exact List.Nodup.append hw (by simp) (by simpa using hx))
    refine ⟨h1, h2, fun x hx => ?_, ?_⟩
    · rcases h3 x hx with h | h
      · rw [names_tblSet] at h
        split at h
        · exact Or.inl h
        · rcases List.mem_append.1 h with h | h
          · exact Or.inl h
          · right
            simp [List.mem_singleton.1 h]
      · exact Or.inr (by simp only [List.map_cons, List.mem_cons]; exact Or.inr h)
    · refine List.IsPrefix.trans ?_ h4
      rw [names_tblSet]
      split
      · exact List.prefix_refl _
      · exact List.prefix_append _ _

end

section

variable {V : Type} [DecidableEq V]

/-- the shape of a transposed table: one row for each column but the first, and one column for each different value among the first header and the first column -/
theorem transpose_shape (ps : Nat) (hps : 0 < ps) (nul : V) (c0 : V × Pages V) (rest : Tbl V V) (n : Nat) (hr : Rect (c0 :: rest) n) :
    ∃ t', transpose ps nul (c0 :: rest) = .ok t' ∧ Rect t' rest.length ∧ TblWF t' ∧ t' ≠ [] ∧ ∀ x ∈ t'.map (·.1), x ∈ c0.1 :: colIter c0.2 := by
  have hl0 : (colIter c0.2).length = n := by
    have := hr c0 (by simp)
    rw [colLen_eq] at this
    rw [colIter_eq]
    exact this
  have e : ((List.range n).map fun i => (c0 :: rest).map fun c => (colIter c.2).getD i nul) =
      ((List.range n).map fun i => ((colIter c0.2).getD i nul, rest.map fun c => (colIter c.2).getD i nul)).map fun r => r.1 :: r.2 := by
    rw [List.map_map]
    rfl
  have hn : (((List.range n).map fun i => ((colIter c0.2).getD i nul, rest.map fun c => (colIter c.2).getD i nul)).map (·.1)) = colIter c0.2 := by
    rw [List.map_map]
    have := getD_range nul (colIter c0.2)
    rw [hl0] at this
    exact this
  obtain ⟨h1, h2, h3, h4⟩ := setCols_props ps hps rest.length ((List.range n).map fun i => ((colIter c0.2).getD i nul, rest.map fun c => (colIter c.2).getD i nul))
    (by intro c hc; obtain ⟨i, _, rfl⟩ := List.mem_map.1 hc; simp) (tblSet [] c0.1 (paginate ps (rest.map (·.1))))
    (by
      intro d hd
      simp only [tblSet, dUpd, List.mem_singleton] at hd
      subst hd
      rw [colLen_eq, ← colIter_eq, colIter_paginate ps hps, List.length_map])
    (by simp [TblWF, tblSet, dUpd])
  refine ⟨_, ?_, h1, h2, ?_, ?_⟩
  · unfold transpose
    dsimp only
    rw [C15_rows, tblLen_rect _ n hr (by simp), e]
    simp only [bind, Except.bind]
    exact transpose_fold ps _ _
  · intro hx
    rw [hx] at h4
    simp [tblSet, dUpd] at h4
  · intro x hx
    rcases h3 x hx with h | h
    · simp only [tblSet, dUpd, List.map_cons, List.map_nil, List.mem_singleton] at h
      simp [h]
    · rw [hn] at h
      simp [h]

/-- **C58** (exact).  Transposing a table with distinct headers twice gives it back exactly when the values of the first column are distinct and none is its own header. -/
theorem C58_exact (ps : Nat) (hps : 0 < ps) (nul : V) (t : Tbl V V) (n : Nat) (ht : TblWF t) (hr : Rect t n) :
    (∃ t' t'', transpose ps nul t = .ok t' ∧ transpose ps nul t' = .ok t'' ∧ tview t'' = tview t) ↔ ∀ c ∈ t.head?, (c.1 :: colIter c.2).Nodup := by
  constructor
  · rintro ⟨t', t'', h1, h2, h3⟩
    cases t with
    | nil => simp
    | cons c0 rest =>
      intro c hc
      simp only [List.head?_cons, Option.mem_def, Option.some.injEq] at hc
      subst hc
      obtain ⟨u', e1, r1, w1, n1, m1⟩ := transpose_shape ps hps nul c0 rest n hr
      rw [e1] at h1
      injection h1 with h1
      subst h1
      cases u' with
      | nil => exact absurd rfl n1
      | cons d us =>
        obtain ⟨u'', e2, r2, w2, n2, m2⟩ := transpose_shape ps hps nul d us rest.length r1
        rw [e2] at h2
        injection h2 with h2
        subst h2
        have hl0 : (colIter c0.2).length = n := (tview_rect _ n).1 hr (c0.1, colIter c0.2) (by simp [tview])
        have hus : us.length = n := by
          have h4 := (tview_rect _ us.length).1 r2 (c0.1, colIter c0.2) (by rw [h3]; simp [tview])
          exact h4.symm.trans hl0
        have sp := List.subperm_of_subset w1 m1
        have pp := sp.perm_of_length_le (by simp [hl0, hus])
        exact pp.nodup_iff.1 w1
  · exact C58_partial ps hps nul t n ht hr

end

section

variable {β : Type}

/-! ## C99 -/

/-- **C99** (exact).  The page files are right exactly when some file may be open or nothing is written. -/
theorem C99_exact (limit : Nat) (old : List (List β)) (ws : List (Nat × β)) (hw : ∀ w ∈ ws, w.1 < old.length) :
    trackerRun limit old ws = .ok ((List.range old.length).map fun i => writtenTo i ws) ↔ 1 ≤ limit ∨ ws = [] := by
  constructor
  · intro h
    by_contra hc
    push Not at hc
    obtain ⟨h0, hne⟩ := hc
    have h0 : limit = 0 := by omega
    subst h0
    cases ws with
    | nil => exact hne rfl
    | cons w ws =>
      have hl := hw w (by simp)
      unfold trackerRun newTracker at h
      rw [if_neg (by omega), List.foldlM_cons] at h
      simp only [trackerWrite, trackerGet, bind, Except.bind, if_true] at h
      cases h
  · rintro (h | rfl)
    · exact (C99_partial limit h old ws hw).1
    · have e2 : (newTracker limit old).files = old.map fun _ => [] := by
        unfold newTracker
        split <;> rfl
      unfold trackerRun
      simp only [List.foldlM_nil, pure, Except.pure, bind, Except.bind]
      have e : (trackerClose (newTracker limit old)).files = (newTracker limit old).files := rfl
      rw [e, e2]
      congr 1
      apply List.ext_getElem (by simp)
      intro i h1 h2
      simp [writtenTo]

end

section

variable {ν α : Type} [DecidableEq ν] [DecidableEq α]

/-! ## C104 -/

/-- **C104** (exact).  For existing columns, `replace` maps each of them once exactly when every value of a column that is named `k` times has the same image under the mapping
applied once and `k` times. -/
theorem C104_exact (mapping : List (α × α)) (ns : List ν) (t : Tbl ν α) (hc : ∀ n ∈ ns, n ∈ t.map (·.1)) :
    ((tblReplace mapping (.many ns) t).2 = none ∧
      tview (tblReplace mapping (.many ns) t).1 = (tview t).map fun c => if c.1 ∈ ns then (c.1, c.2.map (mapped mapping)) else c) ↔
    ∀ c ∈ tview t, c.1 ∈ ns → ∀ v ∈ c.2, (mapped mapping)^[ns.count c.1] v = mapped mapping v := by
  have h' : (ns.all fun n => decide (n ∈ t.map (·.1))) = true := by simpa [List.all_eq_true] using hc
  unfold tblReplace
  simp only [replaceNames, if_pos h']
  rw [C104_count]
  simp only [true_and]
  rw [List.map_inj_left]
  constructor
  · intro h c hm hx v hv
    have := h c hm
    rw [if_pos hx] at this
    simp only [Prod.mk.injEq, true_and, List.map_inj_left] at this
    exact this v hv
  · intro h c hm
    by_cases hx : c.1 ∈ ns
    · rw [if_pos hx]
      simp only [Prod.mk.injEq, true_and, List.map_inj_left]
      exact h c hm hx
    · rw [if_neg hx, List.count_eq_zero_of_not_mem hx]
      simp

end

/-! ### the conditions can be met and missed -/

/-- rows: index -1 of a table with an empty column is an error in both -/
example : tblRow [("a", [[1, 2]]), ("b", [])] (-1) = .error .index ∧ ([("a", [[1, 2]]), ("b", [])].mapM fun c => pyIndex (colIter c.2) (-1)) = .error .index := by decide

/-- slices: `[0:5:-2]` is empty, `[3:2:-2]` has one value, `[3:0:-2]` has two and is wrong -/
example : (tblSlice 2 [("a", [[1, 2], [3, 4]])] { start := some 3, stop := some 2, step := some (-2) } = .ok [("a", [[4]])]) ∧
    (tblSlice 2 [("a", [[1, 2], [3, 4]])] { start := some 3, stop := some 0, step := some (-2) }).map tview ≠ .ok [("a", pySlice [1, 2, 3, 4] { start := some 3, stop := some 0, step := some (-2) })] := by
  decide

/-- transpose: a first column of distinct values, and one that repeats a value -/
example : (∀ c ∈ [(0, [[1, 2]]), (5, [[6, 7]])].head?, (c.1 :: colIter c.2).Nodup) ∧ ¬ ∀ c ∈ [(0, [[1, 1]]), (5, [[6, 7]])].head?, (c.1 :: colIter c.2).Nodup := by decide

/-- replace: a column named twice, with a mapping that maps its values to themselves the second time -/
example : (∀ c ∈ tview [("a", [[1, 5], [2]])], c.1 ∈ ["a", "a"] → ∀ v ∈ c.2, (mapped [(1, 2), (5, 7)])^[["a", "a"].count c.1] v = mapped [(1, 2), (5, 7)] v) ∧
    (tblReplace [(1, 2), (5, 7)] (.many ["a", "a"]) [("a", [[1, 5], [2]])]).1 = [("a", [[2, 7], [2]])] := by decide

end Tablite
