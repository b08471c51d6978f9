import Verif.Props.Intercept
/-!
# C77: exactly which ranges have the right intersection
-/

namespace Tablite

theorem int_lcm_dvd (p q x : Int) : ((Int.lcm p q : Nat) : Int) ∣ x ↔ p ∣ x ∧ q ∣ x := by
  constructor
  · intro h
    exact ⟨(Int.dvd_lcm_left p q).trans h, (Int.dvd_lcm_right p q).trans h⟩
  · rintro ⟨h1, h2⟩
    exact Int.coe_lcm_dvd h1 h2

/-- the search for the first common number, whatever step the code gives the result -/
theorem intercept_search {A B : PyRange} (hA : 1 < A.step) (hB : 1 < B.step) (hne : A.step ≠ B.step) :
    (intercept A B = .ok .empty ∧ ∀ x, ¬ (x ∈ A.toList ∧ x ∈ B.toList)) ∨
    ∃ n, intercept A B = .ok ⟨n, min A.stop B.stop, if Int.gcd A.step B.step ≠ 1 then max A.step B.step else A.step * B.step⟩ ∧
      n < min A.stop B.stop ∧
      ∀ x, x ∈ rangeList n (min A.stop B.stop) (Int.lcm A.step B.step) ↔ x ∈ A.toList ∧ x ∈ B.toList := by
  obtain ⟨a, c, p⟩ := A
  obtain ⟨b, d, q⟩ := B
  dsimp only at hA hB hne ⊢
  have hA' : 0 < p := by omega
  have hB' : 0 < q := by omega
  have hfa : flipRange ⟨a, c, p⟩ = ⟨a, c, p⟩ := by rw [flipRange, if_neg (by dsimp only; omega)]
  have hfb : flipRange ⟨b, d, q⟩ = ⟨b, d, q⟩ := by rw [flipRange, if_neg (by dsimp only; omega)]
  rw [intercept, hfa, hfb]
  simp only [PyRange.toList, PyRange.len, mem_rangeList_pos hA', mem_rangeList_pos hB']
  split
  · rename_i h0
    rw [rangeLen_eq_zero_pos hA'] at h0
    exact .inl ⟨rfl, fun x => by omega⟩
  split
  · rename_i h0
    rw [rangeLen_eq_zero_pos hB'] at h0
    exact .inl ⟨rfl, fun x => by omega⟩
  split
  · exact .inl ⟨rfl, fun x => by omega⟩
  split
  · exact .inl ⟨rfl, fun x => by omega⟩
  have hs : (if a ≤ b then b else a) = max a b := by split <;> omega
  have hm : (if c ≤ d then c else d) = min c d := by split <;> omega
  rw [hs, hm]
  have key : ∀ x, ((a ≤ x ∧ x < c ∧ p ∣ x - a) ∧ (b ≤ x ∧ x < d ∧ q ∣ x - b)) ↔
      (max a b ≤ x ∧ p ∣ x - a) ∧ (max a b ≤ x ∧ q ∣ x - b) ∧ x < min c d := fun x => by
    constructor
    · rintro ⟨⟨h1, h2, h3⟩, h4, h5, h6⟩; exact ⟨⟨by omega, h3⟩, ⟨by omega, h6⟩, by omega⟩
    · rintro ⟨⟨h1, h3⟩, ⟨h4, h6⟩, h5⟩; exact ⟨⟨by omega, by omega, h3⟩, by omega, by omega, h6⟩
  simp only [key]
  have ka := fun x => ceilStart (a := a) (s := max a b) hA' x
  have kb := fun x => ceilStart (a := b) (s := max a b) hB' x
  simp only [ka, kb]
  generalize hu : ceilDiv (max a b - a) p * p + a = u at *
  generalize hv : ceilDiv (max a b - b) q * q + b = v at *
  generalize min c d = e
  rw [if_neg (by omega)]
  try rw [if_neg hne]
  have hl := int_lcm_dvd p q
  have hk : 0 < ((Int.lcm p q : Nat) : Int) := by
    have := Int.lcm_pos (m := p) (n := q) (by omega) (by omega)
    omega
  generalize ((Int.lcm p q : Nat) : Int) = k at *
  by_cases hpq : p < q
  · simp only [if_pos hpq]
    have := fun x => search_mem (a := u) (b := v) (e := e) hA' hk hl x
    rcases hs : interceptSearch v q (rangeList u e p) with _ | n
    · simp only [hs] at this
      exact .inl ⟨rfl, fun x hx => mem_empty x ((this x).2 hx)⟩
    · simp only [hs] at this
      have hn := (interceptSearch_some (rangeList_sorted hA') hs).1
      rw [mem_rangeList_pos hA'] at hn
      exact .inr ⟨n, rfl, hn.2.1, this⟩
  · simp only [if_neg hpq]
    have := fun x => search_mem (a := v) (b := u) (e := e) (k := k) (q := p) hB' hk (fun x => by rw [hl x]; exact and_comm) x
    rcases hs : interceptSearch u p (rangeList v e q) with _ | n
    · simp only [hs] at this
      exact .inl ⟨rfl, fun x hx => mem_empty x ((this x).2 ⟨hx.2.1, hx.1, hx.2.2⟩)⟩
    · simp only [hs] at this
      have hn := (interceptSearch_some (rangeList_sorted hB') hs).1
      rw [mem_rangeList_pos hB'] at hn
      refine .inr ⟨n, rfl, hn.2.1, fun x => (this x).trans ?_⟩
      constructor <;> rintro ⟨h1, h2, h3⟩ <;> exact ⟨h2, h1, h3⟩

/-- equal steps raise only when there is a common number -/
theorem equal_steps_common {A B : PyRange} (hk : 1 < A.step) (hB : B.step = A.step) (h : intercept A B = .error .unbound) :
    ∃ x, x ∈ A.toList ∧ x ∈ B.toList := by
  obtain ⟨a, c, p⟩ := A
  obtain ⟨b, d, q⟩ := B
  dsimp only at hk hB
  subst hB
  have hq : 0 < q := by omega
  have hfa : flipRange ⟨a, c, q⟩ = ⟨a, c, q⟩ := by rw [flipRange, if_neg (by dsimp only; omega)]
  have hfb : flipRange ⟨b, d, q⟩ = ⟨b, d, q⟩ := by rw [flipRange, if_neg (by dsimp only; omega)]
  rw [intercept, hfa, hfb] at h
  simp only [PyRange.toList, PyRange.len, mem_rangeList_pos hq] at h ⊢
  split at h
  · cases h
  rename_i h1
  split at h
  · cases h
  rename_i h2
  rw [rangeLen_eq_zero_pos hq] at h1 h2
  split at h
  · cases h
  split at h
  · cases h
  rw [if_neg (by omega), if_pos True.intro] at h
  split at h
  · cases h
  rename_i h5
  have h5 : (max a b - min a b) % q = 0 := by by_contra hc; exact h5 hc
  have hd := Int.dvd_of_emod_eq_zero h5
  refine ⟨max a b, ⟨by omega, by omega, ?_⟩, by omega, by omega, ?_⟩
  · rcases le_total a b with hab | hab
    · rwa [min_eq_left hab] at hd
    · rw [max_eq_left hab]; simp
  · rcases le_total a b with hab | hab
    · rw [max_eq_right hab]; simp
    · rwa [min_eq_right hab] at hd

/-- two common numbers differ by a multiple of both steps -/
theorem common_lt {p q x y : Int} {a b : Int} (h1 : 0 < p) (h2 : 0 < q) (hx : p ∣ x - a ∧ q ∣ x - b) (hy : p ∣ y - a ∧ q ∣ y - b)
    (hlt : x < y) : x + max p q ≤ y := by
  have e1 : p ∣ y - x := by
    have := Int.dvd_sub hy.1 hx.1
    rwa [show y - a - (x - a) = y - x by omega] at this
  have e2 : q ∣ y - x := by
    have := Int.dvd_sub hy.2 hx.2
    rwa [show y - b - (x - b) = y - x by omega] at this
  have := Int.le_of_dvd (by omega) e1
  have := Int.le_of_dvd (by omega) e2
  omega

theorem exact_pos {A B : PyRange} (hA : 0 < A.step) (hB : 0 < B.step) :
    Intersection A B ↔ StepsOk A.step B.step ∨ (A.step = B.step ∧ ∀ x, ¬ (x ∈ A.toList ∧ x ∈ B.toList)) ∨
      (A.step ≠ B.step ∧ ∀ x, x ∈ A.toList → x ∈ B.toList → min A.stop B.stop ≤ x + max A.step B.step) := by
  constructor
  · rintro ⟨r, hr, -, hmem⟩
    by_cases hok : StepsOk A.step B.step
    · exact .inl hok
    right
    have hp : 1 < A.step := by
      by_contra h; exact hok (.inl (by omega))
    have hq : 1 < B.step := by
      by_contra h; exact hok (.inr (.inl (by omega)))
    by_cases heq : A.step = B.step
    · left
      refine ⟨heq, ?_⟩
      rcases C77_equal_steps A B A.step hp rfl heq.symm with h | h
      · exact h.2
      · rw [h] at hr; cases hr
    · right
      refine ⟨heq, fun x hx hy => ?_⟩
      have hg : Int.gcd A.step B.step ≠ 1 := fun h => hok (.inr (.inr ⟨heq, .inl h⟩))
      rcases intercept_search hp hq heq with h | ⟨n, h1, h2, h3⟩
      · exact absurd ⟨hx, hy⟩ (h.2 x)
      · by_contra hlt
        rw [if_pos hg] at h1
        rw [h1] at hr
        cases hr
        have hm : 0 < max A.step B.step := by omega
        have hxr := (hmem x).2 ⟨hx, hy⟩
        simp only [PyRange.toList] at hxr
        rw [mem_rangeList_pos hm] at hxr
        have hnext : x + max A.step B.step ∈ A.toList ∧ x + max A.step B.step ∈ B.toList := by
          refine (hmem _).1 ?_
          simp only [PyRange.toList]
          rw [mem_rangeList_pos hm]
          refine ⟨by omega, by omega, ?_⟩
          have := Int.dvd_add hxr.2.2 (Int.dvd_refl (max A.step B.step))
          rwa [show x - n + max A.step B.step = x + max A.step B.step - n by omega] at this
        simp only [PyRange.toList] at hnext hx hy
        rw [mem_rangeList_pos hA] at hx hnext
        rw [mem_rangeList_pos hB] at hy hnext
        have d1 := Int.dvd_sub hnext.1.2.2 hx.2.2
        have d2 := Int.dvd_sub hnext.2.2.2 hy.2.2
        rw [show x + max A.step B.step - A.start - (x - A.start) = max A.step B.step by omega] at d1
        rw [show x + max A.step B.step - B.start - (x - B.start) = max A.step B.step by omega] at d2
        rcases le_total A.step B.step with hab | hab
        · rw [max_eq_right hab] at d1
          exact hok (.inr (.inr ⟨heq, .inr (.inl d1)⟩))
        · rw [max_eq_left hab] at d2
          exact hok (.inr (.inr ⟨heq, .inr (.inr d2)⟩))
  · rintro (h | ⟨heq, h⟩ | ⟨heq, h⟩)
    · obtain ⟨r, h1, h2, h3⟩ := intercept_pos hA hB h
      exact ⟨r, h1, rangeList_sorted h2, h3⟩
    · by_cases hok : StepsOk A.step B.step
      · obtain ⟨r, h1, h2, h3⟩ := intercept_pos hA hB hok
        exact ⟨r, h1, rangeList_sorted h2, h3⟩
      have hp : 1 < A.step := by
        by_contra h; exact hok (.inl (by omega))
      rcases C77_equal_steps A B A.step hp rfl heq.symm with h' | h'
      · refine ⟨_, h'.1, rangeList_sorted (by decide), fun x => ⟨fun hx => absurd hx (mem_empty x), fun hx => absurd hx (h x)⟩⟩
      · obtain ⟨x, hx⟩ := equal_steps_common hp heq.symm h'
        exact absurd hx (h x)
    · by_cases hok : StepsOk A.step B.step
      · obtain ⟨r, h1, h2, h3⟩ := intercept_pos hA hB hok
        exact ⟨r, h1, rangeList_sorted h2, h3⟩
      have hp : 1 < A.step := by
        by_contra h; exact hok (.inl (by omega))
      have hq : 1 < B.step := by
        by_contra h; exact hok (.inr (.inl (by omega)))
      rcases intercept_search hp hq heq with h' | ⟨n, h1, h2, h3⟩
      · exact ⟨_, h'.1, rangeList_sorted (by decide), fun x => ⟨fun hx => absurd hx (mem_empty x), fun hx => absurd hx (h'.2 x)⟩⟩
      · have hg : Int.gcd A.step B.step ≠ 1 := fun h => hok (.inr (.inr ⟨heq, .inl h⟩))
        rw [if_pos hg] at h1
        have hm : 0 < max A.step B.step := by omega
        have hk : 0 < ((Int.lcm A.step B.step : Nat) : Int) := by
          have := Int.lcm_pos (m := A.step) (n := B.step) (by omega) (by omega)
          omega
        have hn := (h3 n).1 (by rw [mem_rangeList_pos hk]; exact ⟨by omega, h2, by simp⟩)
        have hlim := h n hn.1 hn.2
        refine ⟨_, h1, rangeList_sorted hm, fun x => ?_⟩
        simp only [PyRange.toList]
        rw [mem_rangeList_pos hm]
        constructor
        · rintro ⟨h4, h5, h6⟩
          have : x = n := by
            by_contra hne
            have := Int.le_of_dvd (by omega) h6
            omega
          subst this
          exact hn
        · intro hx
          have hx' := (h3 x).2 hx
          rw [mem_rangeList_pos hk] at hx'
          have : x = n := by
            by_contra hne
            obtain ⟨hxa, hxb⟩ := hx
            obtain ⟨hna, hnb⟩ := hn
            simp only [PyRange.toList] at hxa hxb hna hnb
            rw [mem_rangeList_pos hA] at hxa hna
            rw [mem_rangeList_pos hB] at hxb hnb
            have := common_lt hA hB ⟨hna.2.2, hnb.2.2⟩ ⟨hxa.2.2, hxb.2.2⟩ (by omega)
            omega
          subst this
          exact ⟨by omega, h2, by simp⟩

/-- the bound of the numbers of a range: `stop`, or one above `start` for descending ranges -/
def upperEnd (A : PyRange) : Int := if A.step < 0 then A.start + 1 else A.stop

/-- **C77, exactly**: for ranges that are ascending or descend by 1, `range_intercept` is right if and only if
* one of the steps is 1, or the steps differ and have no common factor or one divides the other; or
* the steps are equal and the ranges have no number in common; or
* the steps differ, and the ranges have at most one number in common: after a common number there is no room for the larger of the steps. -/
theorem C77_exact (A B : PyRange) (hA : RangeOk A) (hB : RangeOk B) :
    Intersection A B ↔ StepsOk A.step.natAbs B.step.natAbs ∨
      (A.step.natAbs = B.step.natAbs ∧ ∀ x, ¬ (x ∈ A.toList ∧ x ∈ B.toList)) ∨
      (A.step.natAbs ≠ B.step.natAbs ∧ ∀ x, x ∈ A.toList → x ∈ B.toList →
        min (upperEnd A) (upperEnd B) ≤ x + max (A.step.natAbs : Int) B.step.natAbs) := by
  have hu : ∀ {C : PyRange}, RangeOk C → (flipRange C).stop = upperEnd C := by
    intro C hC
    unfold flipRange upperEnd
    rcases hC with h | h
    · rw [if_neg (by omega), if_neg (by omega)]
    · rw [if_pos (by omega), if_pos (by omega)]
  have hI : Intersection A B ↔ Intersection (flipRange A) (flipRange B) := by
    unfold Intersection
    simp only [intercept_flips, mem_flipRange hA, mem_flipRange hB]
  rw [hI, exact_pos (flipRange_step_pos A) (flipRange_step_pos B), flipRange_step hA, flipRange_step hB, hu hA, hu hB]
  simp only [mem_flipRange hA, mem_flipRange hB]
  norm_cast

/-- **C77, exactly**, when one of the ranges descends by more than 1: the code takes every number between the ends of such a range for a number of it,
so the result is right if and only if no number is in both ranges only by that mistake -/
theorem C77_exact_descending (A B : PyRange) (hA0 : A.step ≠ 0) (hB0 : B.step ≠ 0) (h : A.step < -1 ∨ B.step < -1) :
    Intersection A B ↔ ∀ x, (if A.step < 0 then A.stop < x ∧ x ≤ A.start else x ∈ A.toList) →
      (if B.step < 0 then B.stop < x ∧ x ≤ B.start else x ∈ B.toList) → x ∈ A.toList ∧ x ∈ B.toList := by
  have hm : ∀ (C : PyRange) (x : Int), C.step ≠ 0 → (x ∈ (flipRange C).toList ↔ if C.step < 0 then C.stop < x ∧ x ≤ C.start else x ∈ C.toList) := by
    intro C x h0
    unfold flipRange
    by_cases hC : C.step < 0
    · rw [if_pos (by omega), if_pos hC]
      simp only [PyRange.toList]
      rw [mem_rangeList_pos (by decide)]
      constructor
      · rintro ⟨h1, h2, _⟩; omega
      · rintro ⟨h1, h2⟩; exact ⟨by omega, by omega, by simp⟩
    · rw [if_neg (by omega), if_neg hC]
  have hsub : ∀ (C : PyRange) (x : Int), C.step ≠ 0 → x ∈ C.toList → x ∈ (flipRange C).toList := by
    intro C x h0 hx
    rw [hm C x h0]
    split
    · rename_i hC
      simp only [PyRange.toList] at hx
      rw [mem_rangeList_neg hC] at hx
      omega
    · exact hx
  have hok : StepsOk (flipRange A).step (flipRange B).step := by
    rcases h with h | h
    · left; unfold flipRange; rw [if_pos (by omega)]
    · right; left; unfold flipRange; rw [if_pos (by omega)]
  obtain ⟨r, h1, h2, h3⟩ := intercept_pos (flipRange_step_pos A) (flipRange_step_pos B) hok
  rw [intercept_flips] at h1
  simp only [← hm _ _ hA0, ← hm _ _ hB0]
  constructor
  · rintro ⟨r', h1', -, h3'⟩ x hx hy
    rw [h1] at h1'
    cases h1'
    exact (h3' x).1 ((h3 x).2 ⟨hx, hy⟩)
  · intro hall
    exact ⟨r, h1, rangeList_sorted h2, fun x => ⟨fun hx => hall x ((h3 x).1 hx).1 ((h3 x).1 hx).2, fun hx => (h3 x).2 ⟨hsub A x hA0 hx.1, hsub B x hB0 hx.2⟩⟩⟩

/-- steps 4 and 6, with no room for a second number -/
example : RangeOk ⟨0, 6, 4⟩ ∧ RangeOk ⟨0, 20, 6⟩ ∧ Intersection ⟨0, 6, 4⟩ ⟨0, 20, 6⟩ :=
  ⟨.inl (by decide), .inl (by decide), (C77_exact _ _ (.inl (by decide)) (.inl (by decide))).2 (.inr (.inr ⟨by decide, by
    intro x hx hy
    simp only [PyRange.toList] at hx hy
    rw [mem_rangeList_pos (by decide)] at hx hy
    simp only [upperEnd]
    norm_num
    omega⟩))⟩

/-- a range that descends by 2 beside one number of it -/
example : Intersection ⟨10, 0, -2⟩ ⟨4, 5, 1⟩ :=
  (C77_exact_descending _ _ (by decide) (by decide) (.inl (by decide))).2 (by
    intro x h1 h2
    simp only [PyRange.toList] at h2
    norm_num at h1 h2
    rw [mem_rangeList_pos (by decide)] at h2
    have : x = 4 := by omega
    subst this
    decide)

end Tablite
