import Verif.Lemmas.ColumnWrite
import Verif.Props.ColumnRead
/-!
# C04 integer assignment, C05/C06 slice assignment, C07 deletion, C09 repetition/concatenation, C14 remove_all/replace
-/

namespace Tablite

/-! ## C04 -/

/-- C04: integer assignment is list item assignment for every layout and integer (IndexError included), and keeps all page lengths. -/
theorem C04_int_assign {α} (pages : Pages α) (i : Int) (v : α) :
    (setInt pages i v).map colIter = pySetIndex (colIter pages) i v ∧
    (∀ p, setInt pages i v = .ok p → p.map List.length = pages.map List.length) := by
  unfold setInt pySetIndex
  rw [colIter_eq, colLen_eq]
  dsimp only
  generalize hk : (if i < 0 then (pages.flatten.length : Int) + i else i) = key
  by_cases h : 0 ≤ key ∧ key < pages.flatten.length
  · rw [if_pos h, if_pos h]
    refine ⟨?_, ?_⟩
    · simp only [Except.map, colIter_eq]
      rw [setIntLoop_flatten _ _ _ _ h.1 (by omega)]
      simp
    · intro p hp
      injection hp with hp
      rw [← hp, setIntLoop_lengths]
  · rw [if_neg h, if_neg h]
    exact ⟨rfl, by intro p hp; cases hp⟩

/-- C04, read back: after `column[i] = v`, position `i` reads `v` and any other position reads as before. -/
theorem C04_read_back {α} (pages p' : Pages α) (i : Nat) (v : α) (h : setInt pages i v = .ok p') :
    getInt p' i = .ok v ∧ ∀ j : Nat, j ≠ i → getInt p' j = getInt pages j := by
  have h0 := (C04_int_assign pages i v).1
  rw [h] at h0
  simp only [Except.map, pySetIndex, show ¬ (i : Int) < 0 by omega, if_false] at h0
  have hin : 0 ≤ (i : Int) ∧ (i : Int) < (colIter pages).length := by
    by_cases hc : 0 ≤ (i : Int) ∧ (i : Int) < (colIter pages).length
    · exact hc
    · rw [if_neg hc] at h0; cases h0
  rw [if_pos hin] at h0
  injection h0 with h0
  simp only [Int.toNat_natCast] at h0
  refine ⟨?_, ?_⟩
  · rw [C03_int_read_partial p' i (by omega), h0]
    simp only [pyIndex, show ¬ (i : Int) < 0 by omega, if_false, getI?, Int.toNat_natCast]
    rw [List.getElem?_set_self (by omega)]
  · intro j hj
    rw [C03_int_read_partial p' j (by omega), C03_int_read_partial pages j (by omega), h0]
    simp only [pyIndex, show ¬ (j : Int) < 0 by omega, if_false, getI?, Int.toNat_natCast]
    rw [List.getElem?_set_ne (by omega)]

example : setInt [[1,2],[],[3,4]] (-2) 9 = .ok [[1,2],[],[9,4]] ∧ setInt [[1,2],[],[3,4]] 4 9 = .error .index := by decide

/-! ## C05 -/

/-- C05 (full statement): contiguous slice assignment is list slice assignment. -/
def C05_statement : Prop :=
  ∀ (α : Type) (ps : Nat) (pages : Pages α) (s : PySlice) (v : List α), 0 < ps → (s.step = none ∨ s.step = some 1) →
    (setSlice ps pages s v).map colIter = .ok (pySetSlice (colIter pages) s.start s.stop v)

/-- C05: `column[a:b] = values` is list slice assignment for every layout and all integers `a`, `b`; every page of the result is
an old page or holds 1..ps values. -/
theorem C05_insert {α} (ps : Nat) (hps : 0 < ps) (pages : Pages α) (a b : Int) (v : List α) :
    colIter (setInsert ps pages a b v) = pySetSlice (colIter pages) (some a) (some b) v ∧
    (∀ p ∈ setInsert ps pages a b v, p ∈ pages ∨ (1 ≤ p.length ∧ p.length ≤ ps)) := by
  rw [colIter_eq, colIter_eq]
  unfold setInsert pySetSlice
  have hidx := indices_pos { start := some a, stop := some b } (colLen pages) (by simp [PySlice.stepOr1])
  rw [colLen_eq] at *
  revert hidx
  generalize ({ start := some a, stop := some b } : PySlice).indices pages.flatten.length = x
  obtain ⟨ks, ke0, k⟩ := x
  intro hidx
  dsimp only at *
  have hmax : max ks ke0 = (if ks > ke0 then ks else ke0) := by split <;> omega
  rw [hmax]
  generalize hke : (if ks > ke0 then ks else ke0) = ke
  have hle : ks ≤ ke := by rw [← hke]; split <;> omega
  obtain ⟨h1, h2, h3, h4⟩ := setInsertLoop_head ks ke 0 pages {} (by omega) hle rfl rfl rfl
  simp only [Int.sub_zero, List.flatten_nil, List.nil_append] at h1 h2
  refine ⟨?_, ?_⟩
  · simp only [List.flatten_append, paginate_flatten hps]
    rw [← h1, ← h2]
    simp only [List.append_assoc]
  · intro p hp
    simp only [List.mem_append] at hp
    rcases hp with (hp | hp) | hp
    · rcases h4 p hp with h | h
      · simp at h
      · left; exact h
    · right; have := paginate_sizes hps _ p hp; omega
    · left; exact h3 p hp

/-- C05: `column[:] = values` replaces everything. -/
theorem C05_replace_all {α} (ps : Nat) (hps : 0 < ps) (pages : Pages α) (v : List α) :
    colIter (setReplaceAll ps pages v) = pySetSlice (colIter pages) none none v ∧
    (∀ p ∈ setReplaceAll ps pages v, 1 ≤ p.length ∧ p.length ≤ ps) := by
  refine ⟨?_, ?_⟩
  · rw [colIter_eq, colIter_eq]
    simp [setReplaceAll, extend, paginate_flatten hps, pySetSlice, PySlice.indices, PySlice.stepOr1]
  · intro p hp
    have := paginate_sizes hps v p (by simpa [setReplaceAll, extend] using hp)
    omega

/-- C05 (partial): `column[a:] = values` for `a ≥ 0` is list slice assignment. Negative `a`: see `C05_extend_negative`. -/
theorem C05_extend_partial {α} (ps : Nat) (hps : 0 < ps) (pages : Pages α) (a : Int) (ha : 0 ≤ a) (v : List α) :
    colIter (setExtend ps pages a v) = pySetSlice (colIter pages) (some a) none v ∧
    (a < colLen pages → ∀ p ∈ setExtend ps pages a v, p ∈ pages ∨ (1 ≤ p.length ∧ p.length ≤ ps)) := by
  rw [colIter_eq, colIter_eq, colLen_eq]
  have hna : ¬ a < 0 := by omega
  refine ⟨?_, ?_⟩
  · simp only [pySetSlice, PySlice.indices, PySlice.stepOr1, Option.getD_none, adjustBound, hna, if_false,
      show ¬ (1 : Int) < 0 by omega]
    by_cases h : a < pages.flatten.length
    · rw [setExtend, setExtendLoop_found ps hps a v [] 0 pages ha (by omega)]
      rw [if_neg (by omega), List.drop_eq_nil_of_le (by omega)]
      simp
    · rw [setExtend, setExtendLoop_notfound ps a v [] 0 pages (by omega)]
      rw [List.drop_eq_nil_of_le (by split <;> omega), List.take_of_length_le (by split <;> omega)]
      simp
  · intro h p hp
    rcases setExtendLoop_sizes ps hps a v [] 0 pages ha (by omega) p hp with h | h | h
    · simp at h
    · left; exact h
    · right; exact h

/-- C05: `column[a:] = values` with `a < 0` appends instead of replacing the tail (every layout, every negative `a`). -/
theorem C05_extend_negative {α} (ps : Nat) (pages : Pages α) (a : Int) (ha : a < 0) (v : List α) :
    colIter (setExtend ps pages a v) = colIter pages ++ v := by
  rw [colIter_eq, colIter_eq, setExtend, setExtendLoop_notfound ps a v [] 0 pages (by omega)]
  simp

/-- C05: `column[a:] = values` with `a ≥ len` stores all values in one page, however many there are. -/
theorem C05_extend_unpaginated {α} (ps : Nat) (pages : Pages α) (a : Int) (ha : (colLen pages : Int) ≤ a) (v : List α) :
    setExtend ps pages a v = pages ++ [v] := by
  rw [colLen_eq] at ha
  rw [setExtend, setExtendLoop_notfound ps a v [] 0 pages (by omega)]
  simp

/-- C05 (partial): `column[:b] = values` for `b ≤ len` (and a non-empty column if `b < 0`) is list slice assignment.
`b > len`: see `C05_prextend_beyond`. -/
theorem C05_prextend_partial {α} (ps : Nat) (hps : 0 < ps) (pages : Pages α) (b : Int)
    (hb : b ≤ colLen pages) (hne : b < 0 → 0 < colLen pages) (v : List α) :
    colIter (setPrextend ps pages b v) = pySetSlice (colIter pages) none (some b) v ∧
    (∀ p ∈ setPrextend ps pages b v, p ∈ pages ∨ (1 ≤ p.length ∧ p.length ≤ ps)) := by
  rw [colIter_eq, colIter_eq]
  rw [colLen_eq] at *
  unfold setPrextend
  rw [colLen_eq]
  by_cases he : b = pages.flatten.length
  · rw [if_pos he]
    subst he
    refine ⟨?_, ?_⟩
    · simp [extend, paginate_flatten hps, pySetSlice, PySlice.indices, PySlice.stepOr1, adjustBound]
      omega
    · intro p hp
      right
      have := paginate_sizes hps v p (by simpa [extend] using hp)
      omega
  · rw [if_neg he]
    have hidx : (({ stop := some b } : PySlice).indices pages.flatten.length) =
        (0, if b < 0 then (if b + pages.flatten.length < 0 then 0 else b + pages.flatten.length) else b, 1) := by
      simp only [PySlice.indices, PySlice.stepOr1, Option.getD_none, show ¬ (1 : Int) < 0 by omega, if_false, adjustBound]
      congr 2
      split
      · rfl
      · rw [if_neg (by omega)]
    unfold pySetSlice
    rw [hidx]
    dsimp only
    generalize hst : (if b < 0 then (if b < 0 then (if b + (pages.flatten.length : Int) < 0 then 0 else b + pages.flatten.length) else b) else b) = st
    have hst' : (if b < 0 then (if b + (pages.flatten.length : Int) < 0 then 0 else b + pages.flatten.length) else b) = st := by
      rw [← hst]; split <;> rfl
    rw [hst']
    have hr : 0 ≤ st ∧ st < pages.flatten.length := by
      rw [← hst']
      repeat' split
      all_goals omega
    obtain ⟨r, h1, h2, h3⟩ := setPrextendLoop_found ps hps st v 0 pages hr.1 (by omega)
    rw [h1]
    refine ⟨?_, h3⟩
    rw [h2]
    simp [show max 0 st = st by omega]

/-- C05: `column[:b] = values` with `b > len` does nothing at all. -/
theorem C05_prextend_beyond {α} (ps : Nat) (pages : Pages α) (b : Int) (hb : (colLen pages : Int) < b) (v : List α) :
    setPrextend ps pages b v = pages := by
  unfold setPrextend
  rw [if_neg (by omega), if_neg (by omega)]
  dsimp only
  rw [colLen_eq] at hb
  rw [setPrextendLoop_notfound ps b v 0 pages (by omega)]

/-- C05 (partial): all contiguous forms together. Missing: `column[a:] = v` with `a < 0` (appends), `column[:b] = v` with `b > len`
or with `b < 0` on an empty column (no effect). -/
theorem C05_slice_assign_partial {α} (ps : Nat) (hps : 0 < ps) (pages : Pages α) (s : PySlice) (v : List α)
    (hstep : s.step = none ∨ s.step = some 1)
    (hext : ∀ a, s.start = some a → s.stop = none → 0 ≤ a)
    (hpre : ∀ b, s.stop = some b → s.start = none → b ≤ colLen pages ∧ (b < 0 → 0 < colLen pages)) :
    (setSlice ps pages s v).map colIter = .ok (pySetSlice (colIter pages) s.start s.stop v) := by
  unfold setSlice
  rw [if_pos hstep]
  cases h1 : s.start with
  | none =>
    cases h2 : s.stop with
    | none => simp only [Except.map]; rw [(C05_replace_all ps hps pages v).1]
    | some b =>
      have := hpre b h2 h1
      simp only [Except.map]; rw [(C05_prextend_partial ps hps pages b this.1 this.2 v).1]
  | some a =>
    cases h2 : s.stop with
    | none => simp only [Except.map]; rw [(C05_extend_partial ps hps pages a (hext a h1 h2) v).1]
    | some b => simp only [Except.map]; rw [(C05_insert ps hps pages a b v).1]

/-- C05 fails: `c = Column([1,2,3]); c[-1:] = [9]` gives `[1,2,3,9]` (list: `[1,2,9]`). -/
theorem C05_fails : ¬ C05_statement := by
  intro h
  have := h Nat 2 [[1,2],[3]] { start := some (-1) } [9] (by decide) (by decide)
  revert this
  decide

/-- C05 fails also for `c[:9] = [7]` on a column of three values: nothing happens. -/
theorem C05_fails_prextend : ∃ (pages : Pages Nat) (b : Int) (v : List Nat),
    colIter (setPrextend 2 pages b v) ≠ pySetSlice (colIter pages) none (some b) v :=
  ⟨[[1,2],[3]], 9, [7], by decide⟩

example : setSlice 2 [[1,2],[3,4],[5]] { start := some 1, stop := some (-2) } [7,8,9] = .ok [[1,7],[8,9],[4],[5]] := by decide
example : setSlice 2 [[1,2],[3,4],[5]] { start := some 4, stop := some 1 } [7] = .ok [[1,2],[3,4],[7,5]] := by decide

/-! ## C06 -/

/-- C06 (full statement): extended slice assignment is list extended slice assignment. -/
def C06_statement : Prop :=
  ∀ (α : Type) (ps : Nat) (pages : Pages α) (s : PySlice) (v : List α), 0 < ps → s.step ≠ none → s.step ≠ some 1 → s.step ≠ some 0 →
    (setUpdate ps pages s v).map colIter = pySetStride (colIter pages) s v

/-- layouts in which the positions of a strided slice sit where `_setitem_update` looks for them: the start position is on page `p`,
and the stop position is (a) on the same page, (b) on the directly following page, or (c) the column's end and `p` is the last page. -/
inductive StrideOk {α} (pages : Pages α) (ks ke : Int) : Prop
  | same (pre : Pages α) (p : List α) (rest : Pages α) (e : pages = pre ++ p :: rest)
      (h1 : (pre.flatten.length : Int) ≤ ks) (h2 : ks < pre.flatten.length + p.length)
      (h3 : (pre.flatten.length : Int) - 1 ≤ ke) (h4 : ke < pre.flatten.length + p.length)
  | next (pre : Pages α) (p q : List α) (rest : Pages α) (e : pages = pre ++ p :: q :: rest)
      (h1 : (pre.flatten.length : Int) ≤ ks) (h2 : ks < pre.flatten.length + p.length)
      (h3 : (pre.flatten.length : Int) + p.length ≤ ke) (h4 : ke < pre.flatten.length + p.length + q.length)
  | last (pre : Pages α) (p : List α) (e : pages = pre ++ [p])
      (h1 : (pre.flatten.length : Int) ≤ ks) (h2 : ks < pre.flatten.length + p.length)
      (h3 : ke = pre.flatten.length + p.length)

/-- what the page classification yields under `StrideOk` -/
theorem setUpdateLoop_ok {α} (pages : Pages α) (ks ke : Int) (h : StrideOk pages ks ke) :
    ∃ pre C T, setUpdateLoop ks ke 0 pages {} = { head := pre, changed := C, tail := T, startsOn := some (pre.flatten.length : Int) } ∧
      pages = pre ++ C ++ T ∧ C ≠ [] ∧ (pre.flatten.length : Int) ≤ ks ∧ ks < pre.flatten.length + C.flatten.length ∧
      (pre.flatten.length : Int) - 1 ≤ ke ∧ ke ≤ pre.flatten.length + C.flatten.length := by
  cases h with
  | same pre p rest e h1 h2 h3 h4 =>
    have hl : ([p] : Pages α).flatten.length = p.length := by simp
    refine ⟨pre, [p], rest, ?_, by simp [e], by simp, h1, by omega, by omega, by omega⟩
    rw [e, setUpdateLoop_prefix _ _ _ _ _ _ (by omega) rfl]
    simp only [Int.zero_add, List.nil_append]
    generalize (pre.flatten.length : Int) = L at *
    have c1 : ¬ (L + (p.length : Int) ≤ ks) := by omega
    simp only [setUpdateLoop, c1, h1, h2, false_and, if_false, and_self, if_true, List.nil_append]
    rw [setUpdateLoop_suffix _ _ _ _ _ (by omega) (by omega)]
    simp
  | next pre p q rest e h1 h2 h3 h4 =>
    have hl : ([p, q] : Pages α).flatten.length = p.length + q.length := by simp
    refine ⟨pre, [p, q], rest, ?_, by simp [e], by simp, h1, by omega, by omega, by omega⟩
    rw [e, setUpdateLoop_prefix _ _ _ _ _ _ (by omega) rfl]
    simp only [Int.zero_add, List.nil_append]
    generalize (pre.flatten.length : Int) = L at *
    have c1 : ¬ (L + (p.length : Int) ≤ ks) := by omega
    simp only [setUpdateLoop, c1, h1, h2, h3, h4, false_and, and_false, if_false, and_self, if_true, List.nil_append, List.cons_ne_nil]
    rw [setUpdateLoop_suffix _ _ _ _ _ (by omega) (by omega)]
    simp
  | last pre p e h1 h2 h3 =>
    have hl : ([p] : Pages α).flatten.length = p.length := by simp
    refine ⟨pre, [p], [], ?_, by simp [e], by simp, h1, by omega, by omega, by omega⟩
    rw [e, setUpdateLoop_prefix _ _ _ _ _ _ (by omega) rfl]
    simp only [Int.zero_add, List.nil_append]
    generalize (pre.flatten.length : Int) = L at *
    have c1 : ¬ (L + (p.length : Int) ≤ ks) := by omega
    simp only [setUpdateLoop, c1, h1, h2, false_and, if_false, and_self, if_true, List.nil_append]

theorem rangeList_bounds {a b k x : Int} (hk : k ≠ 0) (h : x ∈ rangeList a b k) :
    (0 < k ∧ a ≤ x ∧ x < b) ∨ (k < 0 ∧ b < x ∧ x ≤ a) := by
  rcases Int.lt_or_gt_of_ne hk with h0 | h0
  · right; have := (mem_rangeList_neg h0).1 h; omega
  · left; have := (mem_rangeList_pos h0).1 h; omega

/-- C06 (partial): under `StrideOk`, a value list not longer than the slice is written position by position; with equal length this
is exactly the Python result. A longer value list raises ValueError in every layout. Missing: slices spanning three or more pages,
slices ending at the column's end from an earlier page, and negative steps across pages — there the code misplaces pages or raises
(`C06_fails`, `C06_fails_whole_column`). -/
theorem C06_stride_partial {α} (ps : Nat) (hps : 0 < ps) (pages : Pages α) (s : PySlice) (v : List α) (hs : s.step ≠ some 0)
    (hok : StrideOk pages (s.indices (colLen pages)).1 (s.indices (colLen pages)).2.1)
    (hlen : v.length ≤ (rangeList (s.indices (colLen pages)).1 (s.indices (colLen pages)).2.1 s.stepOr1).length) :
    (setUpdate ps pages s v).map colIter = .ok (setMany (colIter pages)
      (rangeList (s.indices (colLen pages)).1 (s.indices (colLen pages)).2.1 s.stepOr1) v) ∧
    (v.length = (rangeList (s.indices (colLen pages)).1 (s.indices (colLen pages)).2.1 s.stepOr1).length →
      (setUpdate ps pages s v).map colIter = pySetStride (colIter pages) s v) := by
  have hk : s.stepOr1 ≠ 0 := by
    intro h
    apply hs
    unfold PySlice.stepOr1 at h
    cases hh : s.step with
    | none => simp [hh] at h
    | some k => simp [hh] at h; simp [h]
  have main : (setUpdate ps pages s v).map colIter = .ok (setMany (colIter pages)
      (rangeList (s.indices (colLen pages)).1 (s.indices (colLen pages)).2.1 s.stepOr1) v) := by
    unfold setUpdate
    rw [if_neg hs]
    have hstep : (s.indices (colLen pages)).2.2 = s.stepOr1 := rfl
    revert hok hlen hstep
    generalize s.indices (colLen pages) = x
    obtain ⟨ks, ke, k⟩ := x
    intro hok hlen hstep
    dsimp only at *
    subst hstep
    obtain ⟨pre, C, T, e1, e2, e3, e4, e5, e6, e7⟩ := setUpdateLoop_ok pages ks ke hok
    rw [if_neg (by omega), e1]
    dsimp only
    rw [if_neg e3]
    obtain ⟨new', w1, w2, w3⟩ := setMany_append_mid pre.flatten C.flatten T.flatten (rangeList ks ke s.stepOr1) v (by
      intro i hi
      rcases rangeList_bounds hk hi with ⟨_, h1, h2⟩ | ⟨_, h1, h2⟩ <;> omega)
    rw [w1]
    simp only [bind, Except.bind, Except.map]
    rw [colIter_eq, colIter_eq]
    congr 1
    simp only [List.flatten_append, paginate_flatten hps, e2]
    exact w2
  refine ⟨main, ?_⟩
  intro heq
  rw [main]
  unfold pySetStride
  rw [colLen_eq] at *
  rw [colIter_eq] at *
  have hstep : (s.indices pages.flatten.length).2.2 = s.stepOr1 := rfl
  dsimp only
  rw [hstep, if_pos heq]

/-- C06: too many values raise ValueError in every layout (as for lists). -/
theorem C06_too_long {α} (ps : Nat) (pages : Pages α) (s : PySlice) (v : List α) (hs : s.step ≠ some 0)
    (hlen : (rangeList (s.indices (colLen pages)).1 (s.indices (colLen pages)).2.1 s.stepOr1).length < v.length) :
    setUpdate ps pages s v = .error .value ∧ pySetStride (colIter pages) s v = .error .value := by
  constructor
  · unfold setUpdate
    rw [if_neg hs]
    have hstep : (s.indices (colLen pages)).2.2 = s.stepOr1 := rfl
    dsimp only
    rw [hstep, if_pos hlen]
  · unfold pySetStride
    rw [colLen_eq] at hlen
    rw [colIter_eq]
    have hstep : (s.indices pages.flatten.length).2.2 = s.stepOr1 := rfl
    dsimp only
    rw [hstep, if_neg (by intro h; rw [h] at hlen; exact absurd hlen (Nat.lt_irrefl _))]

/-- C06 fails: with pages `[0,1] [2,3] [4,5]`, `c[0:5:2] = [7,8,9]` moves the middle page to the end. -/
theorem C06_fails : ¬ C06_statement := by
  intro h
  have := h Nat 2 [[0,1],[2,3],[4,5]] { start := some 0, stop := some 5, step := some 2 } [7,8,9] (by decide) (by decide) (by decide) (by decide)
  revert this
  decide

/-- C06 fails: `c[::2] = values` raises IndexError as soon as the column has two pages. -/
theorem C06_fails_whole_column :
    setUpdate 2 [[0,1],[2,3]] { step := some 2 } [7,8] = .error .index ∧
    pySetStride (colIter [[0,1],[2,3]]) { step := some 2 } [7,8] = .ok [7,1,8,3] := by decide

/-- C06 fails: a value list shorter than the slice is accepted (lists raise ValueError). -/
theorem C06_fails_short :
    (setUpdate 2 [[0,1]] { step := some (-1) } [7]).map colIter = .ok [0,7] ∧
    pySetStride (colIter [[0,1]]) { step := some (-1) } [7] = .error .value := by decide

example : StrideOk [[0,1],[2,3,4],[5,6],[7]] 2 6 := .next [[0,1]] [2,3,4] [5,6] [[7]] rfl (by decide) (by decide) (by decide) (by decide)
example : (setUpdate 3 [[0,1],[2,3,4],[5,6],[7]] { start := some 2, stop := some 6, step := some 2 } [8,9]).map colIter = .ok [0,1,8,3,9,5,6,7] := by decide

/-! ## C07 -/

/-- C07 (full statement for integers). -/
def C07_int_statement : Prop :=
  ∀ (α : Type) (pages : Pages α) (i : Int), (delInt i 0 pages).map colIter = pyDelIndex (colIter pages) i
/-- C07 (full statement for slices). -/
def C07_slice_statement : Prop :=
  ∀ (α : Type) (ps : Nat) (pages : Pages α) (s : PySlice), 0 < ps → s.step ≠ some 0 →
    (delSlice ps pages s).map colIter = .ok (pyDelSlice (colIter pages) s)

theorem delInt_skip {α} (key s : Int) (pages : Pages α) (h : key < s ∨ s + pages.flatten.length ≤ key) :
    delInt key s pages = .ok pages := by
  induction pages generalizing s with
  | nil => rfl
  | cons p t ih =>
    simp only [List.flatten_cons, List.length_append] at h
    simp only [delInt]
    rw [if_neg (by omega), ih _ (by omega)]
    rfl

/-- C07 (partial): deleting a position on the first page is list deletion. Missing: positions on later pages
(`C07_fails_int`), negative and out-of-range positions (silently ignored, `C07_int_silent`). -/
theorem C07_del_int_partial {α} (p : List α) (rest : Pages α) (i : Nat) (h : i < p.length) :
    (delInt i 0 (p :: rest)).map colIter = pyDelIndex (colIter (p :: rest)) i := by
  simp only [delInt]
  rw [if_pos (by omega), if_pos (by omega), delInt_skip _ _ _ (by omega)]
  simp only [bind, Except.bind, Except.map, pyDelIndex, colIter_eq, List.flatten_cons]
  simp only [show ¬ (i : Int) < 0 by omega, if_false]
  rw [if_pos (by rw [List.length_append]; omega)]
  simp only [Int.toNat_natCast]
  rw [List.eraseIdx_append_of_lt_length h]

/-- C07: negative or too large integers never raise and never delete anything. -/
theorem C07_int_silent {α} (pages : Pages α) (i : Int) (h : i < 0 ∨ (colLen pages : Int) ≤ i) :
    delInt i 0 pages = .ok pages := by
  rw [colLen_eq] at h
  exact delInt_skip _ _ _ (by omega)

/-- C07 fails: with pages `[0] [1,2,3]`, `del c[1]` deletes the value at position 2. -/
theorem C07_fails_int : ¬ C07_int_statement := by
  intro h
  have := h Nat [[0],[1,2,3]] 1
  revert this
  decide

/-- C07 fails: `del c[-1]` has no effect. -/
theorem C07_fails_int_negative : delInt (-1) 0 [[0,1,2]] = .ok [[0,1,2]] ∧ pyDelIndex (colIter [[0,1,2]]) (-1) = .ok [0,1] := by decide

/-- deleting from the front part of an append -/
theorem npDelete_append {α} (N T : List α) (idx : List Int) (h : ∀ i ∈ idx, 0 ≤ i ∧ i < N.length) :
    ∃ N', npDelete N idx = .ok N' ∧
      N' ++ T = (((N ++ T).zipIdx.filter fun p => !(idx.contains (p.2 : Int))).map (·.1)) := by
  unfold npDelete
  rw [if_pos]
  · refine ⟨_, rfl, ?_⟩
    rw [List.zipIdx_append, List.filter_append, List.map_append]
    congr 1
    · congr 1
      apply List.filter_congr
      intro p hp
      have hp2 := List.snd_lt_of_mem_zipIdx hp
      congr 1
      rw [Bool.eq_iff_iff, List.any_eq_true, List.contains_iff_mem]
      constructor
      · rintro ⟨i, hi, hc⟩
        have := h i hi
        simp only [Bool.or_eq_true, beq_iff_eq] at hc
        rcases hc with hc | hc
        · rw [← hc]; exact hi
        · omega
      · intro hm
        exact ⟨_, hm, by simp⟩
    · rw [List.filter_eq_self.2]
      · simp
      · intro p hp
        have := List.le_snd_of_mem_zipIdx hp
        simp only [Bool.not_eq_true', ← Bool.not_eq_true, List.contains_iff_mem]
        intro hm
        have := h _ hm
        omega
  · rw [List.all_eq_true]
    intro i hi
    have := h i hi
    simp only [decide_eq_true_eq]
    omega

/-- layouts in which `_del_by_slice` deletes correctly: the slice starts on the first page, and stops on that page, on the second page,
or at the end of a column of at most two pages. -/
inductive DelOk {α} (pages : Pages α) (ks ke : Int) : Prop
  | same (p : List α) (rest : Pages α) (e : pages = p :: rest) (h1 : 0 ≤ ks) (h2 : ks < p.length) (h3 : 0 ≤ ke) (h4 : ke < p.length)
  | next (p q : List α) (rest : Pages α) (e : pages = p :: q :: rest) (h1 : 0 ≤ ks) (h2 : ks < p.length)
      (h3 : (p.length : Int) ≤ ke) (h4 : ke < p.length + q.length)
  | last1 (p : List α) (e : pages = [p]) (h1 : 0 ≤ ks) (h2 : ks < p.length) (h3 : ke = p.length)
  | last2 (p q : List α) (e : pages = [p, q]) (h1 : 0 ≤ ks) (h2 : ks < p.length) (h3 : ke = p.length + q.length)

theorem delSliceLoop_ok {α} (pages : Pages α) (ks ke : Int) (h : DelOk pages ks ke) :
    ∃ C T, delSliceLoop ks ke 0 pages {} = { head := [], changed := C, tail := T, startsOn := some 0 } ∧
      pages = C ++ T ∧ C ≠ [] ∧ 0 ≤ ks ∧ ks < C.flatten.length ∧ 0 ≤ ke ∧ ke ≤ C.flatten.length := by
  cases h with
  | same p rest e h1 h2 h3 h4 =>
    refine ⟨[p], rest, ?_, by simp [e], by simp, h1, by simpa using h2, h3, by simp; omega⟩
    rw [e]
    simp only [delSliceLoop]
    rw [if_neg (by omega), if_pos (by omega), delSliceLoop_suffix _ _ _ _ _ (by omega) (by omega) (by simp)]
    simp
  | next p q rest e h1 h2 h3 h4 =>
    refine ⟨[p, q], rest, ?_, by simp [e], by simp, h1, by simp; omega, by omega, by simp; omega⟩
    rw [e]
    simp only [delSliceLoop]
    have c1 : ¬ (ke < 0 ∧ True) := by omega
    have c2 : 0 ≤ ks ∧ ks < 0 + (p.length : Int) := by omega
    have c3 : ¬ (0 + (p.length : Int) ≤ ks ∧ ks < 0 + (p.length : Int) + q.length) := by omega
    have c4 : 0 + (p.length : Int) ≤ ke ∧ ke ≤ 0 + (p.length : Int) + q.length := by omega
    simp only [c1, c2, c3, c4, if_true, if_false, List.nil_append, and_false, List.cons_ne_nil, and_self]
    rw [delSliceLoop_suffix _ _ _ _ _ (by omega) (by omega) (by simp)]
    simp
  | last1 p e h1 h2 h3 =>
    refine ⟨[p], [], ?_, by simp [e], by simp, h1, by simpa using h2, by omega, by simp; omega⟩
    rw [e]
    simp only [delSliceLoop]
    rw [if_neg (by omega), if_pos (by omega)]
    simp
  | last2 p q e h1 h2 h3 =>
    refine ⟨[p, q], [], ?_, by simp [e], by simp, h1, by simp; omega, by omega, by simp; omega⟩
    rw [e]
    simp only [delSliceLoop]
    have c1 : ¬ (ke < 0 ∧ True) := by omega
    have c2 : 0 ≤ ks ∧ ks < 0 + (p.length : Int) := by omega
    have c3 : ¬ (0 + (p.length : Int) ≤ ks ∧ ks < 0 + (p.length : Int) + q.length) := by omega
    have c4 : 0 + (p.length : Int) ≤ ke ∧ ke ≤ 0 + (p.length : Int) + q.length := by omega
    simp only [c1, c2, c3, c4, if_true, if_false, List.nil_append, and_false, List.cons_ne_nil, and_self]
    simp

/-- C07 (partial): slice deletion (any non-zero step) is list deletion under `DelOk`. Missing: all slices that start on a later page or
reach beyond the second page; there the code reorders pages or raises (`C07_fails_slice`). -/
theorem C07_del_slice_partial {α} (ps : Nat) (hps : 0 < ps) (pages : Pages α) (s : PySlice) (hs : s.step ≠ some 0)
    (hok : DelOk pages (s.indices (colLen pages)).1 (s.indices (colLen pages)).2.1) :
    (delSlice ps pages s).map colIter = .ok (pyDelSlice (colIter pages) s) := by
  have hk : s.stepOr1 ≠ 0 := by
    intro h
    apply hs
    unfold PySlice.stepOr1 at h
    cases hh : s.step with
    | none => simp [hh] at h
    | some k => simp [hh] at h; simp [h]
  unfold delSlice pyDelSlice
  rw [if_neg hs]
  have hstep : (s.indices (colLen pages)).2.2 = s.stepOr1 := rfl
  have hlen : (colIter pages).length = colLen pages := by rw [colIter_eq, colLen_eq]
  rw [hlen]
  revert hok hstep
  generalize s.indices (colLen pages) = x
  obtain ⟨ks, ke, k⟩ := x
  intro hok hstep
  dsimp only at *
  subst hstep
  obtain ⟨C, T, e1, e2, e3, e4, e5, e6, e7⟩ := delSliceLoop_ok pages ks ke hok
  rw [e1]
  dsimp only
  rw [if_neg e3]
  have hmap : (rangeList ks ke s.stepOr1).map (fun x => x - 0) = rangeList ks ke s.stepOr1 := by simp
  rw [hmap]
  obtain ⟨N', n1, n2⟩ := npDelete_append C.flatten T.flatten (rangeList ks ke s.stepOr1) (by
    intro i hi
    rcases rangeList_bounds hk hi with ⟨_, h1, h2⟩ | ⟨_, h1, h2⟩ <;> omega)
  rw [n1]
  simp only [bind, Except.bind, Except.map]
  congr 1
  rw [colIter_eq, colIter_eq, e2]
  simp only [List.nil_append, List.flatten_append, paginate_flatten hps]
  exact n2

/-- C07 fails: with pages `[0,1] [2,3]`, `del c[2:3]` leaves `[3,0,1]`. -/
theorem C07_fails_slice : ¬ C07_slice_statement := by
  intro h
  have := h Nat 2 [[0,1],[2,3]] { start := some 2, stop := some 3 } (by decide) (by decide)
  revert this
  decide

/-- C07 fails: `del c[::-1]` raises ValueError for every column. -/
theorem C07_fails_reverse {α} (ps : Nat) (pages : Pages α) : delSlice ps pages { step := some (-1) } = .error .value := by
  have hloop : ∀ (s : Int) (pages : Pages α) (acc : UpdAcc α), 0 ≤ s → acc.changed = [] →
      ∀ ks, (delSliceLoop ks (-1) s pages acc).changed = [] := by
    intro s pages
    induction pages generalizing s with
    | nil => intro acc _ h _; exact h
    | cons p t ih =>
      intro acc h0 h ks
      simp only [delSliceLoop]
      rw [if_pos ⟨by omega, h⟩]
      exact ih (s + p.length) { acc with head := acc.head ++ [p] } (by omega) h ks
  unfold delSlice
  rw [if_neg (by simp)]
  have hidx : (({ step := some (-1) } : PySlice).indices (colLen pages)) = ((colLen pages : Int) - 1, -1, -1) := by
    simp [PySlice.indices, PySlice.stepOr1]
  rw [hidx]
  dsimp only
  rw [if_pos (hloop 0 pages {} (by omega) rfl _)]

example : DelOk [[0,1,2],[3,4],[5]] 1 4 := .next [0,1,2] [3,4] [[5]] rfl (by decide) (by decide) (by decide) (by decide)
example : (delSlice 3 [[0,1,2],[3,4],[5]] { start := some 1, stop := some 4, step := some 2 }).map colIter = .ok [0,2,4,5] := by decide

/-! ## C09 (columns) -/

/-- C09: `column * n` / `column *= n` for `n ≥ 1` is list repetition, other `n` raise TypeError. -/
theorem C09_repeat {α} (pages : Pages α) (n : Int) :
    (colIMul pages n).map colIter = if 0 < n then .ok (List.replicate n.toNat (colIter pages)).flatten else .error .type := by
  unfold colIMul
  by_cases h : n > 0
  · rw [if_pos h, if_pos h]
    simp only [Except.map, colIter_eq]
    congr 1
    generalize n.toNat = m
    induction m with
    | zero => rfl
    | succ m ih => simp [List.replicate_succ, ih]
  · rw [if_neg h, if_neg h]; rfl

/-- C09: `column += other` appends, for lists and columns; both sides' values are kept in order. -/
theorem C09_iadd {α} (ps : Nat) (hps : 0 < ps) (pages other : Pages α) (v : List α) :
    colIter (colIAddList ps pages v) = colIter pages ++ v ∧
    colIter (colIAddCol pages other) = colIter pages ++ colIter other := by
  simp [colIter_eq, colIAddList, colIAddCol, extend, extendCol, paginate_flatten hps]

example : colIMul [[1,2],[3]] 2 = .ok [[1,2],[3],[1,2],[3]] := by decide

/-! ## C14 -/

/-- C14: `remove_all(values)` keeps exactly the other values in order. -/
theorem C14_remove_all {α} [DecidableEq α] (pages : Pages α) (values : List α) :
    colIter (removeAll pages values) = (colIter pages).filter (fun x => !values.contains x) := by
  rw [colIter_eq, colIter_eq]
  unfold removeAll
  induction pages with
  | nil => rfl
  | cons p t ih =>
    simp only [List.map_cons, List.flatten_cons, ih, List.filter_append]
    congr 1
    have hkeep : ∀ p : List α, (((p.map fun x => decide (x ∈ values)).map not).zip p).filterMap (fun q => if q.1 then some q.2 else none)
        = p.filter (fun x => !values.contains x) := by
      intro p
      induction p with
      | nil => rfl
      | cons a u ih => 
        simp only [List.map_cons, List.zip_cons_cons, List.filterMap_cons, List.filter_cons]
        by_cases ha : a ∈ values <;> simp [ha]
        all_goals (simpa using ih)
    split
    · exact hkeep p
    · rename_i hno
      symm
      rw [List.filter_eq_self]
      intro x hx
      simp only [List.any_eq_true, not_exists, not_and, List.mem_map, id] at hno
      have := hno (decide (x ∈ values)) ⟨x, hx, rfl⟩
      simpa using this

/-- C14: `replace(mapping)` maps each listed value through the mapping and leaves every other value unchanged, position by position. -/
theorem C14_replace {α} [DecidableEq α] (pages : Pages α) (mapping : List (α × α)) :
    colIter (replaceVals pages mapping) =
      (colIter pages).map (fun x => match mapping.find? (fun kv => kv.1 = x) with | some kv => kv.2 | none => x) := by
  have hl : ∀ x, (mapping.lookup x).getD x = (match mapping.find? (fun kv => kv.1 = x) with | some kv => kv.2 | none => x) := by
    intro x
    induction mapping with
    | nil => rfl
    | cons a m ih =>
      obtain ⟨k, v⟩ := a
      simp only [List.lookup_cons, List.find?_cons]
      by_cases h : k = x
      · subst h; simp
      · have : (x == k) = false := by simp; exact fun e => h e.symm
        simp [h, this]
        simpa using ih
  rw [colIter_eq, colIter_eq]
  unfold replaceVals
  induction pages with
  | nil => rfl
  | cons p t ih =>
    simp only [List.map_cons, List.flatten_cons, ih, List.map_append]
    congr 1
    split
    · apply List.map_congr_left
      intro x _
      exact hl x
    · rename_i hno
      symm
      conv => rhs; rw [← List.map_id p]
      apply List.map_congr_left
      intro x hx
      have hnone : mapping.find? (fun kv => decide (kv.1 = x)) = none := by
        rw [List.find?_eq_none]
        intro kv hkv hc
        apply hno
        rw [List.any_eq_true]
        refine ⟨x, hx, ?_⟩
        rw [List.contains_iff_mem, List.mem_map]
        exact ⟨kv, hkv, by simpa using hc⟩
      rw [hnone]; rfl

example : removeAll [[1,2,1],[3],[1]] [1,9] = [[2],[3],[]] := by decide
example : replaceVals [[1,2],[3,1]] [(1,10),(2,20)] = [[10,20],[3,10]] := by decide

end Tablite
