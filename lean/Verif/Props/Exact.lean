import Verif.Props.StrideExact
import Verif.Props.Reindex
import Verif.Props.GroupByAcc
import Verif.Props.Misc
/-!
# Exactly when: C02, C03, C05, C35, C53, C62, C63, C65

For properties that the code has only in part, the partial theorems give conditions under which it does the right thing.  Here the conditions are shown to be the weakest: the code
is right if *and only if* they hold.
-/

namespace Tablite

/-! ## C02 -/

theorem filterMap_getI?_length {α} (l : List α) (is : List Int) (h : ∀ i ∈ is, 0 ≤ i ∧ i < l.length) : (is.filterMap (getI? l)).length = is.length := by
  induction is with
  | nil => rfl
  | cons i t ih =>
    have hi := h i (by simp)
    have : getI? l i = some (l[i.toNat]'(by omega)) := by rw [getI?_of_nonneg l hi.1, List.getElem?_eq_getElem]
    rw [List.filterMap_cons, this]
    simp only [List.length_cons]
    rw [ih (fun j hj => h j (by simp [hj]))]

theorem rangeList_two_neg {a b k : Int} (hk : k < -1) (h : b + 1 < a) : (rangeList a b k).length < (rangeList a b (-1)).length := by
  rw [rangeList_length, rangeList_length]
  have h1 : rangeLen a b (-1) = (a - b).toNat := by
    unfold rangeLen
    rw [if_neg (by omega), if_pos (by omega), neg_neg, Int.ediv_one]
    congr 1
    omega
  have h2 : ¬ (a - b).toNat - 1 < rangeLen a b k := by
    rw [lt_rangeLen_neg (by omega)]
    have hm : (((a - b).toNat - 1 : Nat) : Int) = a - b - 1 := by omega
    rw [hm]
    have hk2 : 0 ≤ (a - b - 1) * (-2 - k) := by
      by_cases hk' : k = -2
      · subst hk'; omega
      · exact mul_nonneg (by omega) (by omega)
    have e : (a - b - 1) * k = -(2 * (a - b - 1)) - (a - b - 1) * (-2 - k) := by ring
    rw [e]
    omega
  omega

/-- **C02** exactly when: with a negative step, `column[a:b:k]` is the list slice if and only if the step is -1 or the slice has at most one value.  (For all other steps it always is,
`C02_slice_read_partial`.) -/
theorem C02_exact {α} (pages : Pages α) (s : PySlice) (hk : s.stepOr1 < 0) :
    getSlice pages s = .ok (pySlice (colIter pages) s) ↔ s.stepOr1 = -1 ∨ (s.indices (colLen pages)).1 ≤ (s.indices (colLen pages)).2.1 + 1 := by
  rw [getSlice_neg pages s hk, colIter_eq, colLen_eq]
  unfold pySlice
  have hn := indices_neg s pages.flatten.length hk
  have hst := indices_step s pages.flatten.length
  revert hn hst
  generalize s.indices pages.flatten.length = x
  obtain ⟨a, b, k⟩ := x
  intro hn hst
  dsimp only at *
  subst hst
  rw [Except.ok.injEq]
  constructor
  · intro h
    by_contra hc
    rw [not_or] at hc
    have := congrArg List.length h
    rw [filterMap_getI?_length _ _ (fun i hi => by
        rw [mem_rangeList_neg (by omega)] at hi
        omega), filterMap_getI?_length _ _ (fun i hi => by
        rw [mem_rangeList_neg (by omega)] at hi
        omega)] at this
    have h2 := rangeList_two_neg (a := a) (b := b) (k := s.stepOr1) (by omega) (by omega)
    omega
  · rintro (h | h)
    · rw [h]
    · congr 1
      by_cases h' : a ≤ b
      · rw [rangeList_nil_neg (by omega) h', rangeList_nil_neg (by omega) h']
      · have hone : ∀ k : Int, k < 0 → rangeList a b k = [a] := by
          intro k hk
          have hl : rangeLen a b k = 1 := by
            have h0 : 0 < rangeLen a b k := (lt_rangeLen_neg hk 0).2 (by omega)
            have h1 : ¬ 1 < rangeLen a b k := by rw [lt_rangeLen_neg hk]; push_cast; omega
            omega
          unfold rangeList
          rw [hl]
          simp
        rw [hone _ hk, hone _ (by omega)]

example : getSlice [[0,1],[2,3]] { start := some 2, stop := some 1, step := some (-3) } = .ok [2] := by decide

/-! ## C03 -/

/-- **C03** exactly when: reading `column[i]` is list indexing if and only if `i` is not in `-2*len .. -len-2` -/
theorem C03_exact {α} (pages : Pages α) (i : Int) :
    getInt pages i = pyIndex (colIter pages) i ↔ ¬ (-2 * (colLen pages : Int) ≤ i ∧ i ≤ -(colLen pages : Int) - 2) := by
  constructor
  · rintro h ⟨h1, h2⟩
    obtain ⟨e, v, -, e2⟩ := C03_double_wrap pages i h1 h2
    rw [e, e2] at h
    cases h
  · intro h
    exact C03_int_read_partial pages i (by omega)

example : ¬ (-2 * (colLen [[7,8],[9]] : Int) ≤ (-4) ∧ (-4 : Int) ≤ -(colLen [[7,8],[9]] : Int) - 2) := by decide

/-! ## C05 -/

/-- **C05** exactly when: `column[a:b] = v` is list slice assignment if and only if: if only the start is given, it is not negative or the column is empty; if only the stop is given, it
is not beyond the end and not negative for an empty column, unless `v` is what the column holds already -/
theorem C05_exact {α} (ps : Nat) (hps : 0 < ps) (pages : Pages α) (s : PySlice) (v : List α) (hstep : s.step = none ∨ s.step = some 1) :
    (setSlice ps pages s v).map colIter = .ok (pySetSlice (colIter pages) s.start s.stop v) ↔
      (∀ a, s.start = some a → s.stop = none → 0 ≤ a ∨ colLen pages = 0) ∧
      (∀ b, s.stop = some b → s.start = none → (b ≤ colLen pages ∧ (b < 0 → 0 < colLen pages)) ∨ v = colIter pages) := by
  have hlen : (colIter pages).length = colLen pages := by rw [colIter_eq, colLen_eq]
  obtain ⟨st, sp, sk⟩ := s
  dsimp only at hstep ⊢
  cases st with
  | none =>
    cases sp with
    | none =>
      refine ⟨fun _ => ⟨by simp, by simp⟩, fun _ => C05_slice_assign_partial ps hps pages _ v hstep (by simp) (by simp)⟩
    | some b =>
      by_cases hc : b ≤ colLen pages ∧ (b < 0 → 0 < colLen pages)
      · refine ⟨fun _ => ⟨by simp, by rintro b' hb -; cases hb; exact .inl hc⟩, fun _ => C05_slice_assign_partial ps hps pages _ v hstep (by simp) (by simpa using hc)⟩
      · have hun : setPrextend ps pages b v = pages := by
          by_cases h1 : (colLen pages : Int) < b
          · exact C05_prextend_beyond ps pages b h1 v
          · have h0 : colLen pages = 0 := by omega
            have hb : b < 0 := by omega
            unfold setPrextend
            rw [if_neg (by omega)]
            dsimp only
            rw [setPrextendLoop_notfound ps _ v 0 pages (by
              rw [colLen_eq] at h0
              right
              rw [if_pos hb, h0]
              simp only [PySlice.indices, PySlice.stepOr1, adjustBound]
              split <;> simp <;> omega)]
        have hexp : pySetSlice (colIter pages) none (some b) v = v := by
          unfold pySetSlice
          rw [hlen]
          simp only [PySlice.indices, PySlice.stepOr1, Option.getD_none, adjustBound]
          have hd : (colIter pages).drop (max (0 : Int) (if b < 0 then (if b + (colLen pages : Int) < 0 then 0 else b + colLen pages) else if b > (colLen pages : Int) then (colLen pages : Int) else b)).toNat = [] := by
            apply List.drop_eq_nil_of_le
            rw [hlen]
            split <;> [split; split] <;> omega
          simp only [show ¬ (1 : Int) < 0 by omega, if_false]
          rw [hd]
          simp
        simp only [setSlice, hstep, if_true, Except.map, hun, hexp, Except.ok.injEq]
        constructor
        · intro h; exact ⟨by simp, fun _ _ _ => .inr h.symm⟩
        · rintro ⟨-, h⟩
          rcases h b rfl trivial with h | h
          · exact absurd h hc
          · exact h.symm
  | some a =>
    cases sp with
    | some b => refine ⟨fun _ => ⟨by simp, by simp⟩, fun _ => C05_slice_assign_partial ps hps pages _ v hstep (by simp) (by simp)⟩
    | none =>
      by_cases ha : 0 ≤ a
      · refine ⟨fun _ => ⟨by simp [ha], by simp⟩, fun _ => C05_slice_assign_partial ps hps pages _ v hstep (by simpa using ha) (by simp)⟩
      · have hexp : pySetSlice (colIter pages) (some a) none v = (colIter pages).take (max 0 (a + colLen pages)).toNat ++ v := by
          unfold pySetSlice
          rw [hlen]
          simp only [PySlice.indices, PySlice.stepOr1, Option.getD_none, adjustBound, show ¬ (1 : Int) < 0 by omega, if_false, show a < 0 by omega, if_true]
          rw [List.drop_eq_nil_of_le (by rw [hlen]; split <;> omega), List.append_nil]
          congr 3
          split <;> omega
        simp only [setSlice, hstep, if_true, Except.map, C05_extend_negative ps pages a (by omega) v, hexp, Except.ok.injEq]
        constructor
        · intro h
          have := congrArg List.length h
          simp only [List.length_append, List.length_take, hlen] at this
          refine ⟨fun _ _ _ => .inr (by omega), by simp⟩
        · rintro ⟨h, -⟩
          rcases h a rfl trivial with h | h
          · exact absurd h ha
          · rw [List.eq_nil_of_length_eq_zero (hlen.trans h)]
            simp

example : (setSlice 2 [[1,2],[3]] { stop := some 9 } [1,2,3]).map colIter = .ok [1,2,3] := by decide

/-! ## C53 -/

/-- **C53** exactly when: rounding up gives the smallest multiple at or above `v` if and only if `v` is 0 or no multiple -/
theorem C53_up_exact (v m : Rat) (hm : 0 < m) :
    (∃ hi, dtRound v m (some true) = .ok hi ∧ (∃ k : Int, hi = k * m) ∧ v ≤ hi ∧ hi - m < v) ↔ v = 0 ∨ ¬ ∃ k : Int, v = k * m := by
  obtain ⟨lo, hi, cl, h1, h2, h3, h4, h5, h6, h7, h8, h9, h10, h11⟩ := C53_partial v m hm
  constructor
  · rintro ⟨hi', e, -, h, h'⟩
    rw [h2] at e
    cases e
    by_cases hv : v = 0
    · exact .inl hv
    · right
      rintro ⟨k, hk⟩
      obtain ⟨j, hj⟩ := h6
      have hlt := h8 hv
      have : ((k : Rat) < j) := by
        have : (k : Rat) * m < j * m := by rw [← hk, ← hj]; exact hlt
        exact lt_of_mul_lt_mul_right this hm.le
      have hkj : k < j := by exact_mod_cast this
      have hkj' : ((k : Rat) + 1) ≤ j := by exact_mod_cast hkj
      have := mul_le_mul_of_nonneg_right hkj' hm.le
      rw [hj, hk] at h'
      linarith
  · intro h
    refine ⟨hi, h2, h6, h7.1, ?_⟩
    rcases h with h | h
    · rw [h9 h, h]; linarith
    · rcases lt_or_eq_of_le h7.2 with h' | h'
      · exact h'
      · exfalso
        obtain ⟨j, hj⟩ := h6
        exact h ⟨j - 1, by rw [← h', hj]; push_cast; ring⟩

/-- **C53** exactly when: rounding without direction gives the closest multiple, halves up, if and only if `v` is not half-way between two multiples -/
theorem C53_near_exact (v m : Rat) (hm : 0 < m) :
    (∃ cl, dtRound v m none = .ok cl ∧ (∃ k : Int, cl = k * m) ∧ cl - m / 2 ≤ v ∧ v < cl + m / 2) ↔ ¬ ∃ k : Int, v = k * m + m / 2 := by
  obtain ⟨lo, hi, cl, h1, h2, h3, h4, h5, h6, h7, h8, h9, h10, h11⟩ := C53_partial v m hm
  constructor
  · rintro ⟨cl', e, -, h, h'⟩ ⟨k, hk⟩
    rw [h3] at e
    cases e
    obtain ⟨j, hj⟩ := h10
    have h11a := h11.1
    rw [hj, hk] at h' h11a
    have a1 : (k : Rat) * m < j * m := by linarith
    have a2 : (j : Rat) * m < (k + 1) * m := by linarith
    have b1 : (k : Rat) < j := lt_of_mul_lt_mul_right a1 hm.le
    have b2 : (j : Rat) < k + 1 := lt_of_mul_lt_mul_right a2 hm.le
    have c1 : k < j := by exact_mod_cast b1
    have c2 : j < k + 1 := by exact_mod_cast b2
    omega
  · intro h
    refine ⟨cl, h3, h10, h11.1.le, ?_⟩
    rcases lt_or_eq_of_le h11.2 with h' | h'
    · exact h'
    · exfalso
      obtain ⟨j, hj⟩ := h10
      exact h ⟨j, by rw [h', hj]⟩

/-! ## C65 -/

theorem insertionSort_head {le : GVal × Nat → GVal × Nat → Prop} [DecidableRel le] [Std.Total le] [IsTrans _ le] (h : List (GVal × Nat)) (hne : h ≠ []) :
    ∃ x t, h.insertionSort le = x :: t ∧ x ∈ h ∧ ∀ y ∈ h, y = x ∨ le x y := by
  have hp := List.pairwise_insertionSort le h
  have hperm := List.perm_insertionSort le h
  cases e : h.insertionSort le with
  | nil => rw [e] at hperm; exact absurd hperm.nil_eq.symm hne
  | cons x t =>
    rw [e] at hp hperm
    rw [List.pairwise_cons] at hp
    refine ⟨x, t, rfl, hperm.mem_iff.1 (by simp), fun y hy => ?_⟩
    have := hperm.mem_iff.2 hy
    rcases List.mem_cons.1 this with h' | h'
    · exact .inl h'
    · exact .inr (hp.1 y h')

/-- what the mode is: a most frequent value among those that are no text; only if there are none, a most frequent text -/
theorem C65_effect (sqrt : Rat → Rat) (l : List GVal) (hne : l ≠ []) :
    ∃ v, accRun sqrt .mode l = .ok v ∧ v ∈ l ∧ (v.isStr = true → ∀ x ∈ l, x.isStr = true) ∧ ∀ x ∈ l, x.isStr = v.isStr → timesIn l x ≤ timesIn l v := by
  obtain ⟨s, e1, e2⟩ := hist_run .mode (Or.inr rfl) l
  have hv : accRun sqrt .mode l = accValue sqrt .mode s := by unfold accRun; rw [e1]; rfl
  rw [hv]
  have hmem : ∀ e : GVal × Nat, e ∈ s.hist ↔ e.1 ∈ l ∧ e.2 = timesIn l e.1 := by
    intro e
    rw [e2, List.mem_map]
    constructor
    · rintro ⟨k, hk, rfl⟩; exact ⟨mem_firstOccs.1 hk, rfl⟩
    · rintro ⟨h, h'⟩; exact ⟨e.1, mem_firstOccs.2 h, by rw [← h']⟩
  by_cases hex : ∃ x ∈ l, x.isStr = false
  · obtain ⟨x, hx, hx'⟩ := hex
    obtain ⟨y, t, q1, q2, q3⟩ := insertionSort_head (le := fun a b => cmpMode a b = true) (s.hist.filter fun x => !x.1.isStr)
      (List.ne_nil_of_mem (List.mem_filter.2 ⟨(hmem (x, timesIn l x)).2 ⟨hx, rfl⟩, by simp [hx']⟩))
    rw [List.mem_filter, hmem] at q2
    have hys : y.1.isStr = false := by simpa using q2.2
    refine ⟨y.1, by simp only [accValue, sortedMode, q1, List.cons_append], q2.1.1, by simp [hys], fun z hz hz' => ?_⟩
    rcases q3 (z, timesIn l z) (List.mem_filter.2 ⟨(hmem _).2 ⟨hz, rfl⟩, by simp [hz', hys]⟩) with h | h
    · rw [← h]
    · unfold cmpMode at h
      simp only [Bool.or_eq_true, Bool.and_eq_true, decide_eq_true_eq] at h
      have := q2.1.2
      omega
  · have hall : ∀ x ∈ l, x.isStr = true := by
      intro x hx
      by_contra hc
      exact hex ⟨x, hx, by simpa using hc⟩
    obtain ⟨x, hx⟩ := List.exists_mem_of_ne_nil l hne
    obtain ⟨y, t, q1, q2, q3⟩ := insertionSort_head (le := fun a b => cmpModeText a b = true) (s.hist.filter fun x => x.1.isStr)
      (List.ne_nil_of_mem (List.mem_filter.2 ⟨(hmem (x, timesIn l x)).2 ⟨hx, rfl⟩, by simp [hall x hx]⟩))
    rw [List.mem_filter, hmem] at q2
    have hnil : (s.hist.filter fun x => !x.1.isStr) = [] := by
      rw [List.filter_eq_nil_iff]
      intro e he
      simp [hall e.1 ((hmem e).1 he).1]
    refine ⟨y.1, by simp only [accValue, sortedMode, hnil, List.insertionSort_nil, List.nil_append, q1], q2.1.1, fun _ => hall, fun z hz hz' => ?_⟩
    rcases q3 (z, timesIn l z) (List.mem_filter.2 ⟨(hmem _).2 ⟨hz, rfl⟩, by simp [hall z hz]⟩) with h | h
    · rw [← h]
    · unfold cmpModeText at h
      simp only [Bool.or_eq_true, Bool.and_eq_true, decide_eq_true_eq] at h
      have := q2.1.2
      omega

/-- **C65** exactly when: the mode is a most frequent value if and only if all values are text or some value that is no text is a most frequent one -/
theorem C65_exact (sqrt : Rat → Rat) (l : List GVal) (hne : l ≠ []) :
    (∃ v, accRun sqrt .mode l = .ok v ∧ v ∈ l ∧ ∀ x ∈ l, timesIn l x ≤ timesIn l v) ↔
      (∀ x ∈ l, x.isStr = true) ∨ ∃ n ∈ l, n.isStr = false ∧ ∀ x ∈ l, timesIn l x ≤ timesIn l n := by
  obtain ⟨v, h1, h2, h3, h4⟩ := C65_effect sqrt l hne
  constructor
  · rintro ⟨w, e, hw, hmax⟩
    rw [h1] at e
    cases e
    cases hs : v.isStr with
    | true => exact .inl (h3 hs)
    | false => exact .inr ⟨v, h2, hs, hmax⟩
  · rintro (h | ⟨n, hn, hs, hmax⟩)
    · exact ⟨v, h1, h2, fun x hx => h4 x hx (by rw [h x hx, h v h2])⟩
    · refine ⟨v, h1, h2, fun x hx => (hmax x hx).trans (h4 n hn ?_)⟩
      cases hv : v.isStr with
      | false => exact hs
      | true => rw [h3 hv n hn] at hs; cases hs

example : ∃ n ∈ [GVal.str "a", .int 1, .int 1, .str "a"], n.isStr = false ∧ ∀ x ∈ [GVal.str "a", .int 1, .int 1, .str "a"], timesIn [GVal.str "a", .int 1, .int 1, .str "a"] x ≤ timesIn [GVal.str "a", .int 1, .int 1, .str "a"] n := by decide

/-! ## C35 -/

/-- the key at the middle, the keys before it -/
theorem median_split (N : Nat) (h : List (GVal × Nat)) (total : Nat) (ht : total ≤ N / 2) (hs : N / 2 < total + (h.map (·.2)).sum) :
    ∃ h1 k v h2, h = h1 ++ (k, v) :: h2 ∧ total + (h1.map (·.2)).sum ≤ N / 2 ∧ N / 2 < total + (h1.map (·.2)).sum + v ∧
      medianOdd ((N : Rat) / 2) total h = some k ∧
      ∀ b, medianEven ((N : Rat) / 2) total b h = match (match h1.getLast? with | some e => some e.1 | none => b) with
        | none => .error .attribute
        | some a => match a.num?, k.num? with
          | .ok x, .ok y => .ok (some (.float ((x + y) / 2)))
          | _, _ => .error .value := by
  induction h generalizing total with
  | nil => simp at hs; omega
  | cons e t ih =>
    obtain ⟨k, v⟩ := e
    by_cases hc : N / 2 < total + v
    · refine ⟨[], k, v, t, rfl, by simpa using ht, by simpa using hc, ?_, ?_⟩
      · simp only [medianOdd, mid_iff]; rw [if_pos hc]
      · intro b; simp only [medianEven, mid_iff]; rw [if_pos hc]; rfl
    · rw [List.map_cons, List.sum_cons] at hs
      obtain ⟨h1, k', v', h2, i1, i2, i3, i4, i5⟩ := ih (total + v) (by omega) (by omega)
      refine ⟨(k, v) :: h1, k', v', h2, by rw [i1]; rfl, ?_, ?_, ?_, ?_⟩
      · simp only [List.map_cons, List.sum_cons]; omega
      · simp only [List.map_cons, List.sum_cons]; omega
      · simp only [medianOdd, mid_iff]; rw [if_neg hc]; exact i4
      · intro b
        simp only [medianEven, mid_iff]
        rw [if_neg hc, i5 (some k)]
        cases hh : h1 with
        | nil => rfl
        | cons e1 t1 =>
          have hg : ((k, v) :: e1 :: t1).getLast? = (e1 :: t1).getLast? := by simp [List.getLast?_cons_cons]
          rw [hg]
          have : (e1 :: t1).getLast? = some ((e1 :: t1).getLast (by simp)) := List.getLast?_eq_some_getLast (by simp)
          rw [this]

theorem writeOut_append (a b : List (GVal × Nat)) : writeOut (a ++ b) = writeOut a ++ writeOut b := by
  unfold writeOut; rw [List.flatMap_append]

/-- **C35** exactly when: let `s` be the numbers in ascending order.  The median of a group is right if and only if: the number of *different* values is odd exactly when the two middle
values (for an odd number of values: the one middle value, twice) are equal.  Values that are the same number have the same type here. -/
theorem C35_exact (sqrt : Rat → Rat) (l : List GVal) (qs : List Rat) (h : IsNums l qs) (hne : l ≠ []) (hinj : ∀ x ∈ l, ∀ y ∈ l, x.toFloat = y.toFloat → x = y)
    (s : List Rat) (hs : s.Perm qs) (hso : s.Pairwise (· ≤ ·)) :
    (∃ v m, accRun sqrt .median l = .ok v ∧ IsNum v m ∧ IsMedian qs m) ↔ ((firstOccs l).length % 2 = 1 ↔ s[(s.length - 1) / 2]? = s[s.length / 2]?) := by
  obtain ⟨st, e1, e2⟩ := hist_run .median (Or.inl rfl) l
  have hrun : accRun sqrt .median l = accValue sqrt .median st := by unfold accRun; rw [e1]; rfl
  have hlen := List.Forall₂.length_eq h
  have hsl : s.length = l.length := by rw [hs.length_eq, hlen]
  have hnum : ∀ e ∈ st.hist, IsNum e.1 e.1.toFloat := by
    intro e he
    rw [e2, List.mem_map] at he
    obtain ⟨k, hk, rfl⟩ := he
    exact h.mem k (mem_firstOccs.1 hk)
  obtain ⟨p1, p2⟩ := sortedHist_num st.hist hnum
  have hW : (writeOut (sortedHist st.hist)).Perm l := (writeOut_perm p1).trans (by rw [e2]; exact writeOut_hist l)
  have hsort := writeOut_sorted _ p2
  have hperm : ((writeOut (sortedHist st.hist)).map GVal.toFloat).Perm qs := by rw [← h.values]; exact hW.map _
  have hsW : s = (writeOut (sortedHist st.hist)).map GVal.toFloat :=
    List.Perm.eq_of_pairwise (fun a b _ _ h h' => le_antisymm h h') hso hsort (hs.trans hperm.symm)
  have hN : (st.hist.map (·.2)).sum = l.length := by
    rw [← writeOut_length, e2]; exact (writeOut_hist l).length_eq
  have hN' : ((sortedHist st.hist).map (·.2)).sum = l.length := by rw [← writeOut_length]; exact hW.length_eq
  have hpos : 0 < l.length := List.length_pos_iff.2 hne
  -- the keys are different numbers, each occurs
  have hkeys : ((sortedHist st.hist).map (·.1)).Nodup := by
    have : ((sortedHist st.hist).map (·.1)).Perm (firstOccs l) := by
      refine (p1.map _).trans ?_
      rw [e2, List.map_map]
      exact List.Perm.of_eq (List.map_id' _)
    exact this.nodup_iff.2 (nodup_firstOccs l)
  have hposc : ∀ e ∈ sortedHist st.hist, 0 < e.2 ∧ e.1 ∈ l := by
    intro e he
    have := p1.mem_iff.1 he
    rw [e2, List.mem_map] at this
    obtain ⟨k, hk, rfl⟩ := this
    have hk' := mem_firstOccs.1 hk
    refine ⟨?_, hk'⟩
    show 0 < timesIn l k
    unfold timesIn
    exact List.length_pos_of_mem (List.mem_filter.2 ⟨hk', by simp⟩)
  obtain ⟨h1, k, v, h2, i1, i2, i3, i4, i5⟩ := median_split l.length (sortedHist st.hist) 0 (Nat.zero_le _) (by rw [hN']; omega)
  simp only [Nat.zero_add] at i2 i3
  have hkn : IsNum k k.toFloat := hnum (k, v) (p1.mem_iff.1 (by rw [i1]; simp))
  -- the values at the middle
  have hw : writeOut (sortedHist st.hist) = writeOut h1 ++ (List.replicate v k ++ writeOut h2) := by
    rw [i1, writeOut_append]; rfl
  have hw1 : (writeOut h1).length = (h1.map (·.2)).sum := writeOut_length h1
  have hmid : s[s.length / 2]? = some k.toFloat := by
    rw [hsl, hsW, List.getElem?_map, hw, List.getElem?_append_right (by omega), List.getElem?_append_left (by simp; omega), List.getElem?_replicate, if_pos (by omega)]
    rfl
  have hbefore : ∀ j, (h1.map (·.2)).sum ≤ j → j ≤ l.length / 2 → s[j]? = some k.toFloat := by
    intro j hj hj'
    rw [hsW, List.getElem?_map, hw, List.getElem?_append_right (by omega), List.getElem?_append_left (by simp; omega), List.getElem?_replicate, if_pos (by omega)]
    rfl
  have hlast : ∀ e, h1.getLast? = some e → e.1.toFloat < k.toFloat ∧ IsNum e.1 e.1.toFloat ∧ (l.length / 2 = (h1.map (·.2)).sum → s[l.length / 2 - 1]? = some e.1.toFloat) := by
    intro e he
    obtain ⟨h0, rfl⟩ := List.getLast?_eq_some_iff.1 he
    have hem : e ∈ sortedHist st.hist := by rw [i1]; simp
    have hkm : (k, v) ∈ sortedHist st.hist := by rw [i1]; simp
    have hle : e.1.toFloat ≤ k.toFloat := by
      rw [i1, List.pairwise_append] at p2
      exact p2.2.2 e (by simp) (k, v) (by simp)
    have hne' : e.1 ≠ k := by
      rw [i1, List.map_append, List.nodup_append] at hkeys
      exact hkeys.2.2 e.1 (by simp) k (by simp)
    refine ⟨lt_of_le_of_ne hle fun hc => hne' (hinj _ (hposc e hem).2 _ (hposc _ hkm).2 hc), hnum e (p1.mem_iff.1 hem), fun hj => ?_⟩
    have hpe := (hposc e hem).1
    have hsum : ((h0 ++ [e]).map (·.2)).sum = (h0.map (·.2)).sum + e.2 := by simp
    rw [hsum] at hj
    have hw0 : (writeOut h0).length = (h0.map (·.2)).sum := writeOut_length h0
    have hwe : writeOut [e] = List.replicate e.2 e.1 := by simp [writeOut]
    rw [hsW, List.getElem?_map, hw, writeOut_append, hwe, List.append_assoc, List.getElem?_append_right (by omega), List.getElem?_append_left (by simp; omega), List.getElem?_replicate, if_pos (by omega)]
    rfl
  -- what is the right median
  have hmed : ∀ m, IsMedian qs m ↔ ∃ a, s[(s.length - 1) / 2]? = some a ∧ m = (a + k.toFloat) / 2 := by
    intro m
    have huniq : ∀ s' : List Rat, s'.Perm qs → s'.Pairwise (· ≤ ·) → s' = s := fun s' h1 h2 =>
      List.Perm.eq_of_pairwise (fun a b _ _ h h' => le_antisymm h h') h2 hso (h1.trans hs.symm)
    have hql : qs.length = s.length := hs.length_eq.symm
    constructor
    · rintro ⟨s', q1, q2, q3⟩
      rw [huniq s' q1 q2, hql] at q3
      by_cases ho : s.length % 2 = 1
      · rw [if_pos ho, hmid] at q3
        injection q3 with q3
        refine ⟨k.toFloat, ?_, by rw [← q3]; ring⟩
        rw [show (s.length - 1) / 2 = s.length / 2 by omega]
        exact hmid
      · rw [if_neg ho] at q3
        obtain ⟨a, b, f1, f2, f3⟩ := q3
        rw [hmid] at f2
        injection f2 with f2
        refine ⟨a, ?_, by rw [f3, f2]⟩
        rw [show (s.length - 1) / 2 = s.length / 2 - 1 by omega]
        exact f1
    · rintro ⟨a, f1, f2⟩
      refine ⟨s, hs, hso, ?_⟩
      rw [hql]
      by_cases ho : s.length % 2 = 1
      · rw [if_pos ho]
        rw [show (s.length - 1) / 2 = s.length / 2 by omega, hmid] at f1
        injection f1 with f1
        rw [hmid, f2, ← f1]
        congr 1
        ring
      · rw [if_neg ho]
        rw [show (s.length - 1) / 2 = s.length / 2 - 1 by omega] at f1
        exact ⟨a, k.toFloat, f1, hmid, f2⟩
  obtain ⟨a, ha⟩ : ∃ a, s[(s.length - 1) / 2]? = some a := ⟨_, List.getElem?_eq_getElem (by omega)⟩
  have hmeda : ∀ m, IsMedian qs m ↔ m = (a + k.toFloat) / 2 := by
    intro m
    rw [hmed]
    constructor
    · rintro ⟨b, hb, rfl⟩
      rw [ha] at hb
      cases hb
      rfl
    · intro hm; exact ⟨a, ha, hm⟩
  rw [ha, hmid, Option.some.injEq, hrun]
  have hhl : st.hist.length = (firstOccs l).length := by rw [e2, List.length_map]
  by_cases hodd : (firstOccs l).length % 2 = 1
  · have hval : accValue sqrt .median st = .ok k := by
      simp only [accValue]
      have : medianValue st.hist = .ok (some k) := by
        unfold medianValue
        dsimp only
        rw [hN]
        split
        · rename_i k' v' hh
          have hperm1 := p1
          rw [i1, hh, List.perm_singleton] at hperm1
          cases h1 with
          | nil => simp only [List.nil_append, List.cons.injEq, Prod.mk.injEq] at hperm1; rw [hperm1.1.1]
          | cons x y => simp at hperm1
        · rw [if_neg (by omega), i4]
      rw [this]
    rw [hval]
    simp only [hodd, true_iff]
    constructor
    · rintro ⟨w, m, e, hw, hm⟩
      cases e
      rw [hmeda] at hm
      have : k.toFloat = m := hw.parity.2.2
      rw [hm] at this
      linarith
    · intro hak
      exact ⟨k, k.toFloat, rfl, hkn, by rw [hmeda, hak]; ring⟩
  · have hval : accValue sqrt .median st = match h1.getLast? with
        | none => .error .attribute
        | some e => .ok (.float ((e.1.toFloat + k.toFloat) / 2)) := by
      simp only [accValue]
      have : medianValue st.hist = medianEven ((l.length : Rat) / 2) 0 none (sortedHist st.hist) := by
        unfold medianValue
        dsimp only
        rw [hN]
        split
        · rename_i k' v' hh
          rw [hh] at hhl
          simp only [List.length_singleton] at hhl
          omega
        · rw [if_pos (by omega)]
      rw [this, i5 none]
      cases hg : h1.getLast? with
      | none => rfl
      | some e => simp only [(hlast e hg).2.1.num, hkn.num]
    rw [hval]
    simp only [hodd, false_iff]
    cases hg : h1.getLast? with
    | none =>
      rw [List.getLast?_eq_none_iff] at hg
      subst hg
      constructor
      · rintro ⟨w, m, e, -⟩; cases e
      · intro hc
        exfalso
        have := hbefore ((s.length - 1) / 2) (by simp) (by omega)
        rw [ha] at this
        injection this with this
        exact hc this
    | some e =>
      obtain ⟨g1, g2, g3⟩ := hlast e hg
      have hiff : (∃ w m, (Except.ok (GVal.float ((e.1.toFloat + k.toFloat) / 2)) : Except Err GVal) = .ok w ∧ IsNum w m ∧ IsMedian qs m) ↔ e.1.toFloat = a := by
        constructor
        · rintro ⟨w, m, e', hw, hm⟩
          cases e'
          rw [hmeda] at hm
          have : (e.1.toFloat + k.toFloat) / 2 = m := hw.parity.2.2
          rw [hm] at this
          linarith
        · intro h'
          exact ⟨_, _, rfl, Or.inl rfl, by rw [hmeda, h']⟩
      rw [hiff]
      by_cases hb : (h1.map (·.2)).sum ≤ (s.length - 1) / 2
      · have := hbefore ((s.length - 1) / 2) hb (by omega)
        rw [ha] at this
        injection this with this
        constructor
        · intro h'; rw [h', this] at g1; exact absurd g1 (lt_irrefl _)
        · intro hc; exact absurd this hc
      · have hev : (s.length - 1) / 2 = l.length / 2 - 1 := by omega
        have := g3 (by omega)
        rw [← hev, ha] at this
        injection this with this
        constructor
        · intro _ hc; rw [this] at hc; rw [hc] at g1; exact absurd g1 (lt_irrefl _)
        · intro _; exact this.symm

/-- 1, 2, 2, 3: three different values, the middle ones equal; right -/
example : accRun id .median [.int 1, .int 2, .int 2, .int 3] = .ok (.int 2) := by decide +kernel

/-! ## C62, C63 -/

section
variable {α : Type}

theorem npWhere_length (mask : List Bool) (x y r : List α) (h : npWhere mask x y = .ok r) (hm : 0 < mask.length) (hx : 0 < x.length) (hy : 0 < y.length) :
    r.length = max mask.length (max x.length y.length) := by
  unfold npWhere bcast at h
  have hst : ∀ {β : Type} (l : List β) (n : Nat), 0 < l.length → (stretch l n).length = n := by
    intro β l n hl
    unfold stretch
    split
    · assumption
    · cases l with
      | nil => simp at hl
      | cons a t => simp
  simp only [bind, Except.bind] at h
  split at h
  · cases h
  · rename_i n hn
    split at h
    · cases h
    · rename_i n' hn'
      injection h with h
      rw [← h, List.length_zipWith, List.length_zip, hst _ _ hm, hst _ _ hx, hst _ _ hy]
      have e1 : n = max mask.length x.length := by
        split at hn
        · injection hn with hn; omega
        · split at hn
          · injection hn with hn; omega
          · split at hn
            · injection hn with hn; omega
            · cases hn
      have e2 : n' = max n y.length := by
        split at hn'
        · injection hn' with hn'; omega
        · split at hn'
          · injection hn' with hn'; omega
          · split at hn'
            · injection hn' with hn'; omega
            · cases hn'
      omega

theorem foldlM_extend_length {β : Type} (ps : Nat) (hps : 0 < ps) (steps : List β) (f : β → Except Err (List α)) (g : β → Nat) (h : ∀ s ∈ steps, ∀ r, f s = .ok r → r.length = g s)
    (init q : Pages α) (hq : steps.foldlM (fun new s => do let v ← f s; Except.ok (extend ps new v)) init = .ok q) :
    (colIter q).length = (colIter init).length + (steps.map g).sum := by
  induction steps generalizing init with
  | nil => cases hq; simp
  | cons a t ih =>
    rw [List.foldlM_cons] at hq
    cases hf : f a with
    | error e => rw [hf] at hq; cases hq
    | ok v =>
      rw [hf] at hq
      have := ih (fun s hs => h s (by simp [hs])) _ hq
      rw [this, colIter_extend ps hps, List.length_append, h a (by simp) v hf, List.map_cons, List.sum_cons]
      omega

/-- the steps of a page: each begins before it ends, they follow each other to the end -/
theorem pageSteps_bounds (ps n : Nat) (hps : 0 < ps) (hn : 0 < n) : ∀ se ∈ pageSteps ps n, se.1 < se.2 ∧ se.2 ≤ n ∧ se.2 ≤ se.1 + ps := by
  unfold pageSteps
  have : ∀ k e, e < n → ∀ se ∈ pageStepsLoop ps n k e, se.1 < se.2 ∧ se.2 ≤ n ∧ se.2 ≤ se.1 + ps := by
    intro k
    induction k with
    | zero => intro e _ se hse; simp [pageStepsLoop] at hse
    | succ k ih =>
      intro e he se hse
      simp only [pageStepsLoop, List.mem_cons] at hse
      rcases hse with rfl | hse
      · dsimp only; omega
      · split at hse
        · simp at hse
        · exact ih _ (by omega) se hse
  exact this _ 0 hn

theorem sum_steps (ps n : Nat) (hps : 0 < ps) : ((pageSteps ps n).map fun se => min se.2 n - se.1).sum = n := by
  have := congrArg List.length (pageSteps_slices ps hps (List.replicate n ()))
  rw [List.length_replicate, List.length_flatten, List.map_map] at this
  refine Eq.trans ?_ this
  congr 1
  apply List.map_congr_left
  intro se _
  simp

/-- **C63** exactly when: the column computed by `where` has the chosen values if and only if the table fits one page -/
theorem C63_exact (ps : Nat) (hps : 0 < ps) (nul : α) (crit : List Bool) (l r : Pages α) (hl : colLen l = crit.length) (hr : colLen r = crit.length) :
    (∃ q, whereLoop ps crit l r = .ok q ∧ colIter q = chosen nul crit (colIter l) (colIter r)) ↔ crit.length ≤ ps := by
  constructor
  · rintro ⟨q, h1, h2⟩
    by_contra hc
    have hn : 0 < crit.length := by omega
    have hll : (colIter l).length = crit.length := by rw [colIter_eq, ← colLen_eq]; exact hl
    have hrl : (colIter r).length = crit.length := by rw [colIter_eq, ← colLen_eq]; exact hr
    have hlen : (colIter q).length = crit.length := by
      obtain ⟨q', hq', hq''⟩ := whereLoop_ok crit.length (by omega) nul crit l r (le_refl _) hl hr
      rw [h2, ← hq'']
      have := foldlM_extend_length crit.length (by omega) (pageSteps crit.length crit.length) (fun se => do
          let lv ← getSlice l { start := some (se.1 : Int), stop := some (se.2 : Int) }
          let rv ← getSlice r { start := some (se.1 : Int), stop := some (se.2 : Int) }
          npWhere crit lv rv) (fun _ => crit.length) (by
        intro se hse v hv
        rw [pageSteps_small _ _ (le_refl _), List.mem_singleton] at hse
        subst hse
        simp only [getSlice_nat _ 0 crit.length (by omega), bind, Except.bind] at hv
        have := npWhere_length _ _ _ _ hv hn (by simp [hll]; omega) (by simp [hrl]; omega)
        simp only [List.drop_zero, List.length_take, hll, hrl] at this
        omega) [] q' (by
        unfold whereLoop at hq'
        rw [← hq']
        congr 1
        funext new se
        cases getSlice l { start := some (se.1 : Int), stop := some (se.2 : Int) } with
        | error e => rfl
        | ok a => cases getSlice r { start := some (se.1 : Int), stop := some (se.2 : Int) } with
          | error e => rfl
          | ok b => rfl)
      rw [this, pageSteps_small _ _ (le_refl _)]
      simp [colIter]
    have hb := pageSteps_bounds ps crit.length hps hn
    have := foldlM_extend_length ps hps (pageSteps ps crit.length) (fun se => do
          let lv ← getSlice l { start := some (se.1 : Int), stop := some (se.2 : Int) }
          let rv ← getSlice r { start := some (se.1 : Int), stop := some (se.2 : Int) }
          npWhere crit lv rv) (fun _ => crit.length) (by
        intro se hse v hv
        have hse' := hb se hse
        simp only [getSlice_nat _ se.1 se.2 (by omega), bind, Except.bind] at hv
        have := npWhere_length _ _ _ _ hv hn (by simp [hll]; omega) (by simp [hrl]; omega)
        simp only [List.length_drop, List.length_take, hll, hrl] at this
        omega) [] q (by
        unfold whereLoop at h1
        rw [← h1]
        congr 1
        funext new se
        cases getSlice l { start := some (se.1 : Int), stop := some (se.2 : Int) } with
        | error e => rfl
        | ok a => cases getSlice r { start := some (se.1 : Int), stop := some (se.2 : Int) } with
          | error e => rfl
          | ok b => rfl)
    have h2s : 2 ≤ (pageSteps ps crit.length).length := by
      have hs := sum_steps ps crit.length hps
      by_contra hc2
      have : (pageSteps ps crit.length).length = 0 ∨ (pageSteps ps crit.length).length = 1 := by omega
      rcases this with h0 | h0
      · rw [List.eq_nil_of_length_eq_zero h0] at hs
        simp at hs
        omega
      · obtain ⟨se, hse⟩ := List.length_eq_one_iff.1 h0
        rw [hse] at hs hb
        have := hb se (by simp)
        simp only [List.map_cons, List.map_nil, List.sum_cons, List.sum_nil] at hs
        omega
    rw [hlen] at this
    have hz : (colIter ([] : Pages α)).length = 0 := rfl
    rw [hz, Nat.zero_add, List.map_const', List.sum_replicate_nat] at this
    have := Nat.mul_le_mul_right crit.length h2s
    omega
  · intro h
    exact whereLoop_ok ps hps nul crit l r h hl hr

example : (whereLoop 3 [true, false, true] [[1, 2], [3]] [[4, 5, 6]]).map colIter = .ok [1, 5, 3] := by decide

/-- **C62** exactly when, for a column without empty pages: `reindex` gives the values at the row numbers, None at -1, if and only if there is no -1 among them or they fit one page -/
theorem C62_exact (ps : Nat) (hps : 0 < ps) (nul : α) (pages : Pages α) (index : List Int) (hv : ∀ i ∈ index, i = -1 ∨ (0 ≤ i ∧ i < colLen pages)) (hp : ∀ p ∈ pages, p ≠ []) :
    (∃ q, reindexCol ps nul pages index = .ok q ∧ colIter q = index.map (pick nul (colIter pages))) ↔ (-1 ∈ index → index.length ≤ ps) := by
  constructor
  · rintro ⟨q, h1, h2⟩ hm
    by_contra hc
    have hn : 0 < index.length := by omega
    have hb := pageSteps_bounds ps index.length hps hn
    have hlen := foldlM_extend_length ps hps (pageSteps ps index.length) (fun se => reindexChunk nul pages index.length ((index.take se.2).drop se.1))
      (fun se => if -1 ∈ (index.take se.2).drop se.1 then index.length else min se.2 index.length - se.1) (by
        intro se hse v hv'
        have hse' := hb se hse
        unfold reindexChunk at hv'
        rw [getByIndices_ok pages _ (fun _ => hp)] at hv'
        simp only [bind, Except.bind] at hv'
        split at hv'
        · rename_i hany
          simp only [List.any_map, List.any_eq_true, Function.comp, id_eq, decide_eq_true_eq] at hany
          obtain ⟨x, hx, rfl⟩ := hany
          rw [if_pos hx]
          have := npWhere_length _ _ _ _ hv' (by simp; omega) (by simp; omega) (by simp; omega)
          simp only [List.length_map, List.length_drop, List.length_take, List.length_replicate] at this
          omega
        · rename_i hany
          rw [if_neg (by
            intro hx
            apply hany
            simp only [List.any_map, List.any_eq_true, Function.comp, id_eq, decide_eq_true_eq]
            exact ⟨_, hx, rfl⟩)]
          injection hv' with hv'
          rw [← hv']
          simp) [] q h1
    rw [h2, List.length_map] at hlen
    have hz : (colIter ([] : Pages α)).length = 0 := rfl
    rw [hz, Nat.zero_add] at hlen
    have hs := sum_steps ps index.length hps
    -- some step has the -1
    have hex : ∃ se ∈ pageSteps ps index.length, -1 ∈ (index.take se.2).drop se.1 := by
      rw [← pageSteps_slices ps hps index, List.mem_flatten] at hm
      obtain ⟨c, hc1, hc2⟩ := hm
      obtain ⟨se, hse, rfl⟩ := List.mem_map.1 hc1
      exact ⟨se, hse, hc2⟩
    obtain ⟨se, hse, hin⟩ := hex
    have hse' := hb se hse
    obtain ⟨X, Y, hXY⟩ := List.append_of_mem hse
    rw [hXY] at hlen hs
    have hle : ∀ Z : List (Nat × Nat), (Z.map fun se => min se.2 index.length - se.1).sum ≤ (Z.map fun se => if -1 ∈ (index.take se.2).drop se.1 then index.length else min se.2 index.length - se.1).sum := by
      intro Z
      induction Z with
      | nil => simp
      | cons z t ih =>
        simp only [List.map_cons, List.sum_cons]
        have : min z.2 index.length - z.1 ≤ if -1 ∈ (index.take z.2).drop z.1 then index.length else min z.2 index.length - z.1 := by split <;> omega
        omega
    have hX := hle X
    have hY := hle Y
    simp only [List.map_append, List.map_cons, List.sum_append, List.sum_cons, if_pos hin] at hlen hs
    omega
  · intro h
    exact reindexCol_ok ps hps nul pages index hv (fun hm => ⟨h hm, hp⟩)

example : ∀ p ∈ [[5, 6], [7]], p ≠ ([] : List Nat) := by decide

end

end Tablite
