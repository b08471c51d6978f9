import Verif.Lemmas.Paging
/-!
# C01 construction, C02 slice reads, C03 integer reads
-/

namespace Tablite

/-! ## C01 -/

/-- C01: `list(Column(values)) == values` and every stored page holds between 1 and `ps` values. -/
theorem C01_construct {α} (ps : Nat) (hps : 0 < ps) (values : List α) :
    colIter (extend ps [] values) = values ∧
    (∀ p ∈ extend ps [] values, 1 ≤ p.length ∧ p.length ≤ ps) := by
  refine ⟨?_, ?_⟩
  · rw [colIter_eq]; simp [extend, paginate_flatten hps]
  · intro p hp
    have := paginate_sizes hps values p (by simpa [extend] using hp)
    omega

/-- C01, histories: any sequence of `extend` calls yields the concatenation of the data, all pages bounded. -/
theorem C01_extend_history {α} (ps : Nat) (hps : 0 < ps) (pages : Pages α) (calls : List (List α))
    (hb : ∀ p ∈ pages, 1 ≤ p.length ∧ p.length ≤ ps) :
    let final := calls.foldl (extend ps) pages
    colIter final = colIter pages ++ calls.flatten ∧
    colLen final = colLen pages + (calls.map List.length).sum ∧
    (∀ p ∈ final, 1 ≤ p.length ∧ p.length ≤ ps) := by
  induction calls generalizing pages with
  | nil => simpa using hb
  | cons c t ih =>
    simp only [List.foldl_cons]
    have hb' : ∀ p ∈ extend ps pages c, 1 ≤ p.length ∧ p.length ≤ ps := by
      intro p hp
      simp only [extend, List.mem_append] at hp
      rcases hp with hp | hp
      · exact hb p hp
      · have := paginate_sizes hps c p hp; omega
    obtain ⟨h1, h2, h3⟩ := ih (extend ps pages c) hb'
    refine ⟨?_, ?_, h3⟩
    · rw [h1, colIter_eq, colIter_eq]
      simp [extend, paginate_flatten hps]
    · rw [h2, colLen_eq, colLen_eq]
      simp [extend, paginate_flatten hps]
      omega

/-- C01: only the last page of a freshly built column may be shorter than the page size; the number of pages is `ceil(len/ps)`. -/
theorem C01_full_pages {α} (ps : Nat) (hps : 0 < ps) (values : List α) :
    (paginate ps values).length = (values.length + ps - 1) / ps ∧
    ∀ i, i + 1 < (paginate ps values).length → ((paginate ps values)[i]?).map List.length = some ps := by
  have hlen : (paginate ps values).length = (values.length + ps - 1) / ps := paginateLoop_length _ _ _ _
  refine ⟨hlen, ?_⟩
  intro i hi
  rw [hlen] at hi
  apply paginateLoop_full _ _ _ _ _ (by omega)
  have h1 := Nat.div_add_mod (values.length + ps - 1) ps
  generalize (values.length + ps - 1) / ps = q at *
  have h2 := Nat.mod_lt (values.length + ps - 1) hps
  have h3 : (i + 1 + 1) * ps ≤ q * ps := Nat.mul_le_mul_right _ (by omega)
  rw [Nat.succ_mul] at h3
  rw [Nat.mul_comm] at h1
  omega

example : colIter (extend 3 [] [1,2,3,4,5,6,7]) = [1,2,3,4,5,6,7] ∧ extend 3 [] [1,2,3,4,5,6,7] = [[1,2,3],[4,5,6],[7]] := by decide
example : ∀ p ∈ ([[1,2],[3]] : Pages Nat), 1 ≤ p.length ∧ p.length ≤ 3 := by decide

/-! ## C02 -/

/-- C02 (full statement): for every page layout and slice, reading the slice gives what the list slice gives. -/
def C02_statement : Prop :=
  ∀ (α : Type) (pages : Pages α) (s : PySlice), s.step ≠ some 0 →
    getSlice pages s = .ok (pySlice (colIter pages) s)

/-- exact result of a read with a positive step -/
theorem getSlice_pos {α} (pages : Pages α) (s : PySlice) (hk : 0 < s.stepOr1) :
    getSlice pages s = .ok (pySlice pages.flatten s) := by
  have hs0 : s.step ≠ some 0 := by
    intro h; simp [PySlice.stepOr1, h] at hk
  have hrev : isReversed s = false := by
    unfold isReversed
    cases h : s.step with
    | none => rfl
    | some k => simp [PySlice.stepOr1, h] at hk; simp [hk]
  unfold getSlice getpages
  rw [if_neg hs0]
  simp only [hrev, Bool.false_eq_true, if_false]
  obtain ⟨fr, h1, h2⟩ := getpagesLoop_spec false
    ⟨(s.indices (colLen pages)).1, (s.indices (colLen pages)).2.1, (s.indices (colLen pages)).2.2⟩
    (by simp) (by intro _; exact hk) 0 pages
  have hidx := indices_pos s (colLen pages) hk
  simp only [bind, Except.bind]
  rw [h1]
  simp only [h2]
  have hflip : ∀ a b k : Int, 0 < k → flipRange ⟨a, b, k⟩ = ⟨a, b, k⟩ := by
    intro a b k h; unfold flipRange; rw [if_neg (by simp; omega)]
  rw [hflip _ _ _ (by exact hk)]
  unfold pySlice
  rw [colLen_eq] at *
  simp only [PyRange.toList]
  congr 1
  have e : ∀ (l : List Int), (∀ x ∈ l, 0 ≤ x) → l.filter (fun x => decide (0 ≤ x)) = l := by
    intro l h; rw [List.filter_eq_self]; intro x hx; simpa using h x hx
  rw [e]
  · simp
  · intro x hx
    rw [mem_rangeList_pos (by exact hk)] at hx
    omega

/-- exact result of a read with a negative step: the code always walks backwards one by one. -/
theorem getSlice_neg {α} (pages : Pages α) (s : PySlice) (hk : s.stepOr1 < 0) :
    getSlice pages s = .ok (
      (rangeList (s.indices pages.flatten.length).1 (s.indices pages.flatten.length).2.1 (-1)).filterMap
        (getI? pages.flatten)) := by
  have hs0 : s.step ≠ some 0 := by
    intro h; simp [PySlice.stepOr1, h] at hk
  have hrev : isReversed s = true := by
    unfold isReversed
    cases h : s.step with
    | none => simp [PySlice.stepOr1, h] at hk
    | some k => simp [PySlice.stepOr1, h] at hk; simp; omega
  unfold getSlice getpages
  rw [if_neg hs0]
  simp only [hrev, if_true]
  obtain ⟨fr, h1, h2⟩ := getpagesLoop_spec true
    ⟨(s.indices (colLen pages)).1, (s.indices (colLen pages)).2.1, (s.indices (colLen pages)).2.2⟩
    (by intro _; exact hk) (by simp) 0 pages
  have hidx := indices_neg s (colLen pages) hk
  simp only [bind, Except.bind]
  rw [h1]
  simp only
  have hfl : (fr.reverse.map List.reverse).flatten = fr.flatten.reverse := by
    rw [List.reverse_flatten, List.map_reverse]
  rw [hfl, h2]
  have hflip : ∀ a b k : Int, k < 0 → flipRange ⟨a, b, k⟩ = ⟨b + 1, a + 1, 1⟩ := by
    intro a b k h; unfold flipRange; rw [if_pos (by simp; omega)]
  rw [hflip _ _ _ (by exact hk)]
  rw [colLen_eq] at *
  simp only [PyRange.toList]
  congr 1
  have e : ∀ (l : List Int), (∀ x ∈ l, 0 ≤ x) → l.filter (fun x => decide (0 ≤ x)) = l := by
    intro l h; rw [List.filter_eq_self]; intro x hx; simpa using h x hx
  rw [e, rangeList_neg_one, ← List.filterMap_reverse]
  · simp
  · intro x hx
    rw [mem_rangeList_pos (by omega)] at hx
    omega

/-- C02 (partial): slice reads agree with list slices for every page layout and every slice whose step is absent, positive or -1.
Missing: steps below -1, where the code is wrong (`C02_fails`). -/
theorem C02_slice_read_partial {α} (pages : Pages α) (s : PySlice) (hk : 0 < s.stepOr1 ∨ s.stepOr1 = -1) :
    getSlice pages s = .ok (pySlice (colIter pages) s) := by
  rw [colIter_eq]
  rcases hk with hk | hk
  · exact getSlice_pos pages s hk
  · rw [getSlice_neg pages s (by omega)]
    unfold pySlice
    simp only [indices_step, hk]

/-- C02: a step `-k` with `k ≥ 2` is silently treated as `-1` (all layouts, all bounds): the code returns the whole
backwards stretch. -/
theorem C02_negative_step_ignored {α} (pages : Pages α) (s : PySlice) (hk : s.stepOr1 < 0) :
    getSlice pages s = .ok ((pySlice (colIter pages) { s with step := some (-1) })) := by
  rw [getSlice_neg pages s hk, colIter_eq]
  unfold pySlice PySlice.indices
  simp only [PySlice.stepOr1] at *
  simp [hk]

/-- C02: the result never depends on how the values are split into pages. -/
theorem C02_layout_independent {α} (p q : Pages α) (h : colIter p = colIter q) (s : PySlice) :
    getSlice p s = getSlice q s := by
  rw [colIter_eq, colIter_eq] at h
  rcases Int.lt_trichotomy s.stepOr1 0 with hk | hk | hk
  · rw [getSlice_neg p s hk, getSlice_neg q s hk, h]
  · have : s.step = some 0 := by
      unfold PySlice.stepOr1 at hk
      cases hs : s.step with
      | none => simp [hs] at hk
      | some k => simp [hs] at hk; simp [hk]
    simp [getSlice, getpages, this]
  · rw [getSlice_pos p s hk, getSlice_pos q s hk, h]

/-- C02 does not hold of the code: `Column([0..5])[::-2]` is `[5,4,3,2,1,0]` instead of `[5,3,1]`. -/
theorem C02_fails : ¬ C02_statement := by
  intro h
  have := h Nat [[0,1,2,3,4,5]] { step := some (-2) } (by decide)
  revert this
  decide

example : getSlice [[0,1,2],[],[3,4],[5,6,7]] { start := some 1, stop := some (-1), step := some 2 } = .ok [1,3,5] := by decide
example : getSlice [[0,1,2],[],[3,4],[5,6,7]] { start := some (-2), stop := some 1, step := some (-1) } = .ok [6,5,4,3,2] := by decide
example : 0 < ({ start := some 1, stop := some (-1), step := some 2 } : PySlice).stepOr1 := by decide

/-! ## C03 -/

/-- C03 (full statement). -/
def C03_statement : Prop :=
  ∀ (α : Type) (pages : Pages α) (i : Int), getInt pages i = pyIndex (colIter pages) i

theorem pySlice_single {α} (l : List α) {i : Int} (h0 : 0 ≤ i) :
    pySlice l { start := some i, stop := some (i + 1), step := some 1 } = (getI? l i).toList := by
  unfold pySlice
  by_cases hi : i < l.length
  · rw [indices_explicit (by omega) h0 (by omega) (by omega) (by omega)]
    have : rangeList i (i + 1) 1 = [i] := by
      apply eq_of_sorted_mem (rangeList_sorted (by omega)) (by simp)
      intro x; rw [mem_rangeList_pos (by omega)]
      simp only [List.mem_singleton]
      constructor
      · omega
      · intro h; exact ⟨by omega, by omega, Int.one_dvd _⟩
    simp only [this, List.filterMap_cons, List.filterMap_nil]
    cases getI? l i <;> rfl
  · have hn : getI? l i = none := getI?_eq_none l (by omega)
    rw [hn]
    have hi1 : ¬ i < 0 := by omega
    have hi2 : ¬ i + 1 < 0 := by omega
    have hi3 : i + 1 > l.length := by omega
    simp only [PySlice.indices, PySlice.stepOr1, Option.getD_some, adjustBound, hi1, hi2, if_false]
    simp only [show ¬ (1:Int) < 0 by omega, if_false, hi3, if_true]
    rw [rangeList_nil_pos (by omega)]
    · rfl
    · split <;> omega

/-- C03 (partial): for every index `i ≥ -len-1`, and every `i < -2*len`, reading `column[i]` is list indexing:
the value for `-len ≤ i < len`, IndexError otherwise.  Missing: `-2*len ≤ i ≤ -len-2`, where the code wraps around twice
(`C03_double_wrap`). -/
theorem C03_int_read_partial {α} (pages : Pages α) (i : Int)
    (h : -(colLen pages : Int) - 1 ≤ i ∨ i < -2 * (colLen pages : Int)) :
    getInt pages i = pyIndex (colIter pages) i := by
  unfold getInt pyIndex
  dsimp only
  rw [getSlice_pos _ _ (by simp [PySlice.stepOr1])]
  rw [colLen_eq] at *
  rw [colIter_eq]
  generalize pages.flatten = l at *
  simp only [bind, Except.bind]
  generalize hj : (if i < 0 then (l.length : Int) + i else i) = j
  by_cases h0 : 0 ≤ j
  · rw [pySlice_single l h0]
    cases getI? l j <;> rfl
  · have hn : getI? l j = none := getI?_eq_none l (by omega)
    rw [hn]
    have : pySlice l { start := some j, stop := some (j + 1), step := some 1 } = [] := by
      unfold pySlice
      simp only [PySlice.indices, PySlice.stepOr1, Option.getD_some, adjustBound, show ¬ (1:Int) < 0 by omega, if_false]
      rw [rangeList_nil_pos (by omega)]
      · rfl
      · have : i < 0 := by
          apply Classical.byContradiction
          intro hc; rw [if_neg hc] at hj; omega
        rw [if_pos this] at hj
        rcases h with h | h
        · have : j = -1 := by omega
          subst this
          simp only [show ¬ (-1 : Int) + 1 < 0 by omega, show (-1 : Int) < 0 by omega, if_true, if_false]
          repeat' split
          all_goals omega
        · repeat' split
          all_goals omega
    rw [this]

/-- C03: the wrong range exactly: for `-2*len ≤ i ≤ -len-2` the code returns element `i + 2*len` instead of raising IndexError. -/
theorem C03_double_wrap {α} (pages : Pages α) (i : Int)
    (h1 : -2 * (colLen pages : Int) ≤ i) (h2 : i ≤ -(colLen pages : Int) - 2) :
    pyIndex (colIter pages) i = .error .index ∧
    ∃ v, getI? (colIter pages) (i + 2 * colLen pages) = some v ∧ getInt pages i = .ok v := by
  unfold getInt pyIndex
  dsimp only
  rw [getSlice_pos _ _ (by simp [PySlice.stepOr1])]
  rw [colLen_eq] at *
  rw [colIter_eq]
  generalize pages.flatten = l at *
  simp only [bind, Except.bind]
  have hi : i < 0 := by omega
  rw [if_pos hi]
  rw [getI?_eq_none l (by omega : (l.length : Int) + i < 0 ∨ _)]
  refine ⟨rfl, ?_⟩
  have hlt : (i + 2 * (l.length : Int)).toNat < l.length := by omega
  refine ⟨l[(i + 2 * (l.length : Int)).toNat], ?_, ?_⟩
  · rw [getI?_of_nonneg _ (by omega), List.getElem?_eq_getElem hlt]
  · have : pySlice l { start := some ((l.length : Int) + i), stop := some ((l.length : Int) + i + 1), step := some 1 } =
        pySlice l { start := some (i + 2 * (l.length : Int)), stop := some (i + 2 * (l.length : Int) + 1), step := some 1 } := by
      unfold pySlice
      rw [indices_explicit (a := i + 2 * (l.length : Int)) (b := i + 2 * (l.length : Int) + 1) (by omega) (by omega) (by omega) (by omega) (by omega)]
      simp only [PySlice.indices, PySlice.stepOr1, Option.getD_some, adjustBound, show ¬ (1:Int) < 0 by omega, if_false]
      rw [if_pos (by omega), if_neg (by omega), if_pos (by omega), if_neg (by omega)]
      congr 2 <;> omega
    rw [this, pySlice_single l (by omega), getI?_of_nonneg _ (by omega), List.getElem?_eq_getElem hlt]
    rfl

/-- C03 does not hold of the code: `Column([7,8,9])[-5]` returns 8. -/
theorem C03_fails : ¬ C03_statement := by
  intro h
  have := h Nat [[7,8],[9]] (-5)
  revert this
  decide

example : getInt [[7,8],[],[9]] (-1) = .ok 9 ∧ getInt [[7,8],[],[9]] 3 = .error .index ∧ getInt [[7,8],[],[9]] (-4) = .error .index := by decide

end Tablite
