import Verif.Spec.PySlice
/-! Lemmas about Python ranges and sorted lists. -/

namespace Tablite

theorem eq_of_sorted_mem {l₁ l₂ : List Int} (h₁ : l₁.Pairwise (· < ·)) (h₂ : l₂.Pairwise (· < ·))
    (h : ∀ x, x ∈ l₁ ↔ x ∈ l₂) : l₁ = l₂ := by
  induction l₁ generalizing l₂ with
  | nil =>
    cases l₂ with
    | nil => rfl
    | cons b t => exact absurd ((h b).2 (by simp)) (by simp)
  | cons a t ih =>
    cases l₂ with
    | nil => exact absurd ((h a).1 (by simp)) (by simp)
    | cons b u =>
      rw [List.pairwise_cons] at h₁ h₂
      have hab : a = b := by
        have ha := (h a).1 (by simp)
        have hb := (h b).2 (by simp)
        rcases List.mem_cons.1 ha with e | m
        · exact e
        · rcases List.mem_cons.1 hb with e | m'
          · exact e.symm
          · have := h₁.1 b m'; have := h₂.1 a m; omega
      subst hab
      congr 1
      apply ih h₁.2 h₂.2
      intro x
      have hx := h x
      simp only [List.mem_cons] at hx
      constructor
      · intro m
        rcases hx.1 (Or.inr m) with e | m'
        · have := h₁.1 x m; omega
        · exact m'
      · intro m
        rcases hx.2 (Or.inr m) with e | m'
        · have := h₂.1 x m; omega
        · exact m'

theorem rangeList_length (a b k : Int) : (rangeList a b k).length = rangeLen a b k := by
  simp [rangeList]

theorem lt_ceil_iff {x k : Int} (hk : 0 < k) (i : Nat) :
    i < ((x + k - 1) / k).toNat ↔ (i : Int) * k < x := by
  have h := Int.mul_ediv_add_emod (x + k - 1) k
  have h1 := Int.emod_nonneg (x + k - 1) (by omega : k ≠ 0)
  have h2 := Int.emod_lt_of_pos (x + k - 1) hk
  generalize (x + k - 1) / k = q at *
  generalize (x + k - 1) % k = r at *
  constructor
  · intro hi
    have : (i : Int) + 1 ≤ q := by omega
    have := Int.mul_le_mul_of_nonneg_left this (by omega : (0:Int) ≤ k)
    rw [Int.mul_add, Int.mul_comm k i] at this
    omega
  · intro hi
    have : (i : Int) < q := by
      apply Int.lt_of_not_ge
      intro hge
      have := Int.mul_le_mul_of_nonneg_left hge (by omega : (0:Int) ≤ k)
      rw [Int.mul_comm k i] at this
      omega
    omega

theorem lt_rangeLen_pos {a b k : Int} (hk : 0 < k) (i : Nat) :
    i < rangeLen a b k ↔ a + (i : Int) * k < b := by
  unfold rangeLen
  rw [if_pos (by omega), lt_ceil_iff hk]
  omega

theorem lt_rangeLen_neg {a b k : Int} (hk : k < 0) (i : Nat) :
    i < rangeLen a b k ↔ b < a + (i : Int) * k := by
  unfold rangeLen
  rw [if_neg (by omega), if_pos (by omega), lt_ceil_iff (by omega)]
  rw [Int.mul_neg]
  omega

theorem mem_rangeList_pos {a b k x : Int} (hk : 0 < k) :
    x ∈ rangeList a b k ↔ a ≤ x ∧ x < b ∧ k ∣ x - a := by
  simp only [rangeList, List.mem_map, List.mem_range]
  constructor
  · rintro ⟨i, hi, rfl⟩
    rw [lt_rangeLen_pos hk] at hi
    have : 0 ≤ (i : Int) * k := Int.mul_nonneg (by omega) (by omega)
    refine ⟨by omega, hi, ?_⟩
    exact ⟨i, by rw [Int.mul_comm]; omega⟩
  · rintro ⟨h1, h2, c, hc⟩
    have hc0 : 0 ≤ c := by
      apply Int.le_of_not_gt
      intro hneg
      have : k * c < 0 := Int.mul_neg_of_pos_of_neg hk hneg
      omega
    refine ⟨c.toNat, ?_, ?_⟩
    · rw [lt_rangeLen_pos hk, Int.toNat_of_nonneg hc0, Int.mul_comm]; omega
    · rw [Int.toNat_of_nonneg hc0, Int.mul_comm]; omega

theorem mem_rangeList_neg {a b k x : Int} (hk : k < 0) :
    x ∈ rangeList a b k ↔ b < x ∧ x ≤ a ∧ k ∣ x - a := by
  simp only [rangeList, List.mem_map, List.mem_range]
  constructor
  · rintro ⟨i, hi, rfl⟩
    rw [lt_rangeLen_neg hk] at hi
    have : 0 ≤ (i : Int) * (-k) := Int.mul_nonneg (by omega) (by omega)
    rw [Int.mul_neg] at this
    refine ⟨by omega, by omega, ?_⟩
    exact ⟨i, by rw [Int.mul_comm]; omega⟩
  · rintro ⟨h1, h2, c, hc⟩
    have hc0 : 0 ≤ c := by
      apply Int.le_of_not_gt
      intro hneg
      have : 0 < k * c := Int.mul_pos_of_neg_of_neg hk hneg
      omega
    refine ⟨c.toNat, ?_, ?_⟩
    · rw [lt_rangeLen_neg hk, Int.toNat_of_nonneg hc0, Int.mul_comm]; omega
    · rw [Int.toNat_of_nonneg hc0, Int.mul_comm]; omega

theorem rangeList_sorted {a b k : Int} (hk : 0 < k) : (rangeList a b k).Pairwise (· < ·) := by
  unfold rangeList
  rw [List.pairwise_map]
  refine List.Pairwise.imp ?_ List.pairwise_lt_range
  intro i j hij
  have := Int.mul_lt_mul_of_pos_right (by omega : (i : Int) < j) hk
  omega

theorem rangeList_sorted_neg {a b k : Int} (hk : k < 0) : (rangeList a b k).Pairwise (· > ·) := by
  unfold rangeList
  rw [List.pairwise_map]
  refine List.Pairwise.imp ?_ List.pairwise_lt_range
  intro i j hij
  have := Int.mul_lt_mul_of_pos_right (by omega : (i : Int) < j) (by omega : 0 < -k)
  simp only [Int.mul_neg] at this
  omega

/-- a descending range is the reverse of the ascending range over the same positions when the step is `-1` -/
theorem rangeList_neg_one (a b : Int) : rangeList a b (-1) = (rangeList (b + 1) (a + 1) 1).reverse := by
  have h : (rangeList a b (-1)).reverse = rangeList (b + 1) (a + 1) 1 := by
    apply eq_of_sorted_mem
    · rw [List.pairwise_reverse]
      exact rangeList_sorted_neg (by omega)
    · exact rangeList_sorted (by omega)
    · intro x
      rw [List.mem_reverse, mem_rangeList_neg (by omega), mem_rangeList_pos (by omega)]
      constructor
      · rintro ⟨h1, h2, -⟩; exact ⟨by omega, by omega, Int.one_dvd _⟩
      · rintro ⟨h1, h2, -⟩; exact ⟨by omega, by omega, by rw [Int.neg_dvd]; exact Int.one_dvd _⟩
  rw [← h, List.reverse_reverse]

theorem rangeList_shift (a b k s : Int) (hk : 0 < k) :
    rangeList (a - s) (b - s) k = (rangeList a b k).map (· - s) := by
  apply eq_of_sorted_mem (rangeList_sorted hk)
  · rw [List.pairwise_map]
    exact (rangeList_sorted hk).imp (by intro x y h; omega)
  · intro x
    rw [mem_rangeList_pos hk, List.mem_map]
    constructor
    · rintro ⟨h1, h2, h3⟩
      refine ⟨x + s, (mem_rangeList_pos hk).2 ⟨by omega, by omega, ?_⟩, by omega⟩
      have : x + s - a = x - (a - s) := by omega
      rwa [this]
    · rintro ⟨y, hy, rfl⟩
      obtain ⟨h1, h2, h3⟩ := (mem_rangeList_pos hk).1 hy
      refine ⟨by omega, by omega, ?_⟩
      have : y - s - (a - s) = y - a := by omega
      rwa [this]

theorem rangeList_nil_pos {a b k : Int} (hk : 0 < k) (h : b ≤ a) : rangeList a b k = [] := by
  apply List.eq_nil_iff_forall_not_mem.2
  intro x hx
  have := (mem_rangeList_pos hk).1 hx
  omega

theorem rangeList_nil_neg {a b k : Int} (hk : k < 0) (h : a ≤ b) : rangeList a b k = [] := by
  apply List.eq_nil_iff_forall_not_mem.2
  intro x hx
  have := (mem_rangeList_neg hk).1 hx
  omega

theorem rangeLen_eq_zero_pos {a b k : Int} (hk : 0 < k) : rangeLen a b k = 0 ↔ b ≤ a := by
  have := lt_rangeLen_pos (a := a) (b := b) hk 0
  simp only [Int.natCast_zero, Int.zero_mul, Int.add_zero] at this
  omega

/-- splitting an ascending list at a pivot -/
theorem sorted_filter_append {l : List Int} (h : l.Pairwise (· < ·)) (m : Int) :
    l.filter (fun x => decide (x < m)) ++ l.filter (fun x => decide (m ≤ x)) = l := by
  induction l with
  | nil => rfl
  | cons a t ih =>
    rw [List.pairwise_cons] at h
    by_cases ha : a < m
    · have hb : ¬ m ≤ a := by omega
      simp only [List.filter_cons, ha, decide_true, if_true, hb, decide_false, Bool.false_eq_true, if_false, List.cons_append]
      rw [ih h.2]
    · have hb : m ≤ a := by omega
      have hlt : t.filter (fun x => decide (x < m)) = [] := by
        rw [List.filter_eq_nil_iff]
        intro x hx
        have := h.1 x hx
        simp; omega
      have hge : t.filter (fun x => decide (m ≤ x)) = t := by
        rw [List.filter_eq_self]
        intro x hx
        have := h.1 x hx
        simp; omega
      simp [ha, hb, hlt, hge]

/-- `slice.indices` yields bounds inside the list for a positive step -/
theorem indices_pos (s : PySlice) (n : Nat) (hk : 0 < s.stepOr1) :
    0 ≤ (s.indices n).1 ∧ (s.indices n).1 ≤ n ∧ 0 ≤ (s.indices n).2.1 ∧ (s.indices n).2.1 ≤ n := by
  have h0 : ¬ s.stepOr1 < 0 := by omega
  unfold PySlice.indices
  simp only [h0, if_false]
  refine ⟨?_, ?_, ?_, ?_⟩ <;> (split <;> (try unfold adjustBound) <;> (repeat' split) <;> omega)

/-- `slice.indices` yields bounds in `[-1, n-1]` for a negative step -/
theorem indices_neg (s : PySlice) (n : Nat) (hk : s.stepOr1 < 0) :
    -1 ≤ (s.indices n).1 ∧ (s.indices n).1 ≤ (n : Int) - 1 ∧ -1 ≤ (s.indices n).2.1 ∧ (s.indices n).2.1 ≤ (n : Int) - 1 := by
  unfold PySlice.indices
  simp only [hk, if_true]
  refine ⟨?_, ?_, ?_, ?_⟩ <;> (split <;> (try unfold adjustBound) <;> (repeat' split) <;> omega)

theorem indices_step (s : PySlice) (n : Nat) : (s.indices n).2.2 = s.stepOr1 := rfl

/-- non-negative in-range explicit bounds are used as they are -/
theorem indices_explicit {a b k : Int} {n : Nat} (hk : 0 < k) (ha : 0 ≤ a) (han : a ≤ n) (hb : 0 ≤ b) (hbn : b ≤ n) :
    ({ start := some a, stop := some b, step := some k } : PySlice).indices n = (a, b, k) := by
  have h0 : ¬ k < 0 := by omega
  simp only [PySlice.indices, PySlice.stepOr1, Option.getD_some, h0, if_false, adjustBound]
  have : ¬ a < 0 := by omega
  have : ¬ b < 0 := by omega
  have : ¬ a > n := by omega
  have : ¬ b > n := by omega
  simp [*]

theorem getI?_of_nonneg {α} (l : List α) {i : Int} (h : 0 ≤ i) : getI? l i = l[i.toNat]? := by
  simp [getI?, show ¬ i < 0 by omega]

theorem getI?_eq_none {α} (l : List α) {i : Int} (h : i < 0 ∨ (l.length : Int) ≤ i) : getI? l i = none := by
  unfold getI?
  split
  · rfl
  · rw [List.getElem?_eq_none]; omega

theorem getI?_append_left {α} (l m : List α) {i : Int} (h : i < l.length) : getI? (l ++ m) i = getI? l i := by
  unfold getI?
  split
  · rfl
  · rw [List.getElem?_append_left]; omega

theorem getI?_append_right {α} (l m : List α) {i : Int} (h : (l.length : Int) ≤ i) :
    getI? (l ++ m) i = getI? m (i - l.length) := by
  unfold getI?
  rw [if_neg (by omega), if_neg (by omega), List.getElem?_append_right (by omega)]
  congr 1
  omega

theorem filterMap_congr' {α β} {f g : α → Option β} {l : List α} (h : ∀ x ∈ l, f x = g x) :
    l.filterMap f = l.filterMap g := by
  induction l with
  | nil => rfl
  | cons a t ih =>
    simp only [List.filterMap_cons, h a (by simp)]
    rw [ih fun x hx => h x (by simp [hx])]

/-- reading positions `0 … n-1` gives the list -/
theorem filterMap_getI?_rangeList {α} (l : List α) (s : Int) :
    (rangeList s (s + l.length) 1).filterMap (fun x => getI? l (x - s)) = l := by
  have hlen : rangeLen s (s + l.length) 1 = l.length := by
    unfold rangeLen; simp; omega
  unfold rangeList
  rw [hlen, List.filterMap_map]
  have : (List.range l.length).filterMap ((fun x => getI? l (x - s)) ∘ fun (i : Nat) => s + (i : Int) * 1)
      = (List.range l.length).filterMap (fun i => l[i]?) := by
    apply filterMap_congr'
    intro i hi
    simp only [Function.comp]
    rw [getI?_of_nonneg _ (by omega)]
    congr 1
    omega
  rw [this]
  apply List.ext_getElem?
  intro i
  have key : (List.range l.length).filterMap (fun i => l[i]?) = l := by
    conv => rhs; rw [← List.map_id l]
    induction l with
    | nil => rfl
    | cons a t ih =>
      simp only [List.length_cons, List.range_succ_eq_map, List.filterMap_cons, List.filterMap_map]
      simp
      have := ih (by unfold rangeLen; simp; omega) (by
        apply filterMap_congr'
        intro i hi
        simp only [Function.comp]
        rw [getI?_of_nonneg _ (by omega)]
        congr 1
        omega)
      simpa [Function.comp_def] using this
  rw [key]

end Tablite
