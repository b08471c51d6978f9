import Verif.Lemmas.Paging
import Mathlib.Tactic.Linarith
import Mathlib.Algebra.GCDMonoid.Nat
/-!
# C77: the intersection of ranges
-/

namespace Tablite

theorem interceptSearch_none {y ys : Int} {l : List Int} (h : interceptSearch y ys l = none) : ∀ n ∈ l, ¬ (y ≤ n ∧ ys ∣ n - y) := by
  induction l with
  | nil => simp
  | cons m ms ih =>
    rw [interceptSearch] at h
    intro n hn
    rcases List.mem_cons.1 hn with rfl | hn
    · rintro ⟨h1, h2⟩
      rw [if_neg (by omega), if_pos (Int.emod_eq_zero_of_dvd h2)] at h
      cases h
    · split at h
      · exact ih h n hn
      · split at h
        · cases h
        · exact ih h n hn

theorem interceptSearch_some {y ys : Int} {l : List Int} (hl : l.Pairwise (· < ·)) {m : Int} (h : interceptSearch y ys l = some m) :
    m ∈ l ∧ y ≤ m ∧ ys ∣ m - y ∧ ∀ n ∈ l, y ≤ n → ys ∣ n - y → m ≤ n := by
  induction l with
  | nil => simp [interceptSearch] at h
  | cons a as ih =>
    rw [List.pairwise_cons] at hl
    rw [interceptSearch] at h
    split at h
    · rename_i hlt
      obtain ⟨h1, h2, h3, h4⟩ := ih hl.2 h
      refine ⟨by simp [h1], h2, h3, fun n hn h5 h6 => ?_⟩
      rcases List.mem_cons.1 hn with rfl | hn
      · omega
      · exact h4 n hn h5 h6
    · split at h
      · rename_i h1 h2
        cases h
        refine ⟨by simp, by omega, Int.dvd_of_emod_eq_zero h2, fun n hn _ _ => ?_⟩
        rcases List.mem_cons.1 hn with rfl | hn
        · omega
        · exact Int.le_of_lt (hl.1 n hn)
      · rename_i h1 h2
        obtain ⟨h3, h4, h5, h6⟩ := ih hl.2 h
        refine ⟨by simp [h3], h4, h5, fun n hn h7 h8 => ?_⟩
        rcases List.mem_cons.1 hn with rfl | hn
        · exact absurd (Int.emod_eq_zero_of_dvd h8) h2
        · exact h6 n hn h7 h8

/-- the first element of a range not before `s` -/
theorem ceilStart {a s k : Int} (hk : 0 < k) (x : Int) : (s ≤ x ∧ k ∣ x - a) ↔ (ceilDiv (s - a) k * k + a ≤ x ∧ k ∣ x - (ceilDiv (s - a) k * k + a)) := by
  have h := ceilDiv_spec (x := s - a) hk
  have hd : k ∣ x - a ↔ k ∣ x - (ceilDiv (s - a) k * k + a) := by
    have : x - (ceilDiv (s - a) k * k + a) = (x - a) - k * ceilDiv (s - a) k := by rw [Int.mul_comm]; omega
    rw [this]
    have hm : k ∣ k * ceilDiv (s - a) k := Int.dvd_mul_right _ _
    refine ⟨fun h => Int.dvd_sub h hm, fun h => ?_⟩
    have := Int.dvd_add h hm
    simpa using this
  rw [← hd]
  refine ⟨fun ⟨h1, h2⟩ => ⟨?_, h2⟩, fun ⟨h1, h2⟩ => ⟨by omega, h2⟩⟩
  obtain ⟨c, hc⟩ := h2
  by_contra hlt
  have h3 : k * (ceilDiv (s - a) k - c) > 0 := by rw [Int.mul_sub, ← hc, Int.mul_comm]; omega
  have h4 : k * (ceilDiv (s - a) k - c) < k * 1 := by rw [Int.mul_sub, ← hc, Int.mul_comm]; omega
  have h5 := Int.lt_of_mul_lt_mul_left (show k * 0 < k * (ceilDiv (s - a) k - c) by rw [Int.mul_zero]; exact h3) hk.le
  have h6 := Int.lt_of_mul_lt_mul_left h4 hk.le
  omega

/-- two steps of which the least common multiple is what the code takes for it -/
def StepsOk (p q : Int) : Prop := p = 1 ∨ q = 1 ∨ p ≠ q ∧ (Int.gcd p q = 1 ∨ p ∣ q ∨ q ∣ p)

theorem step_lcm {p q : Int} (hp : 1 < p) (hq : 1 < q) (h : Int.gcd p q = 1 ∨ p ∣ q ∨ q ∣ p) (x : Int) :
    (if Int.gcd p q ≠ 1 then max p q else p * q) ∣ x ↔ p ∣ x ∧ q ∣ x := by
  split
  · rename_i hg
    rcases h with h | h | h
    · exact absurd h hg
    · rw [max_eq_right (Int.le_of_dvd (by omega) h)]
      exact ⟨fun hx => ⟨h.trans hx, hx⟩, fun hx => hx.2⟩
    · rw [max_eq_left (Int.le_of_dvd (by omega) h)]
      exact ⟨fun hx => ⟨hx, h.trans hx⟩, fun hx => hx.1⟩
  · rename_i hg
    have hg : Int.gcd p q = 1 := by omega
    refine ⟨fun hx => ⟨(Int.dvd_mul_right _ _).trans hx, (Int.dvd_mul_left _ _).trans hx⟩, fun ⟨h1, h2⟩ => ?_⟩
    rw [← Int.natAbs_dvd_natAbs] at h1 h2 ⊢
    rw [Int.natAbs_mul]
    exact Nat.Coprime.mul_dvd_of_dvd_of_dvd hg h1 h2

/-- one of the two searches: `(a, p)` is walked, `(b, q)` is tested -/
theorem search_mem {a b e p q k : Int} (hp : 0 < p) (hk : 0 < k) (hl : ∀ x, k ∣ x ↔ p ∣ x ∧ q ∣ x) (x : Int) :
    x ∈ (match interceptSearch b q (rangeList a e p) with | some n => PyRange.mk n e k | none => PyRange.empty).toList ↔
    (a ≤ x ∧ p ∣ x - a) ∧ (b ≤ x ∧ q ∣ x - b) ∧ x < e := by
  rcases hs : interceptSearch b q (rangeList a e p) with _ | n
  · constructor
    · intro h; simp [PyRange.toList, PyRange.empty, rangeList, rangeLen] at h
    · rintro ⟨⟨h1, h2⟩, h3, h4⟩
      exact absurd h3 (interceptSearch_none hs x ((mem_rangeList_pos hp).2 ⟨h1, h4, h2⟩))
  · obtain ⟨h1, h2, h3, h4⟩ := interceptSearch_some (rangeList_sorted hp) hs
    rw [mem_rangeList_pos hp] at h1
    simp only [PyRange.toList]
    rw [mem_rangeList_pos hk, hl]
    have ep : x - a = (x - n) + (n - a) := by omega
    have eq : x - b = (x - n) + (n - b) := by omega
    constructor
    · rintro ⟨h5, h6, h7, h8⟩
      exact ⟨⟨by omega, ep ▸ Int.dvd_add h7 h1.2.2⟩, ⟨by omega, eq ▸ Int.dvd_add h8 h3⟩, h6⟩
    · rintro ⟨⟨h5, h6⟩, ⟨h7, h8⟩, h9⟩
      refine ⟨h4 x ((mem_rangeList_pos hp).2 ⟨h5, h9, h6⟩) h7 h8, h9, ?_, ?_⟩
      · rw [ep] at h6; exact (Int.dvd_add_left h1.2.2).1 h6
      · rw [eq] at h8; exact (Int.dvd_add_left h3).1 h8

theorem mem_empty (x : Int) : x ∉ PyRange.empty.toList := by
  simp [PyRange.toList, PyRange.empty, rangeList, rangeLen]

theorem intercept_pos {A B : PyRange} (hA : 0 < A.step) (hB : 0 < B.step) (h : StepsOk A.step B.step) :
    ∃ r, intercept A B = .ok r ∧ 0 < r.step ∧ ∀ x, x ∈ r.toList ↔ x ∈ A.toList ∧ x ∈ B.toList := by
  obtain ⟨a, c, p⟩ := A
  obtain ⟨b, d, q⟩ := B
  dsimp only at hA hB h
  have hfa : flipRange ⟨a, c, p⟩ = ⟨a, c, p⟩ := by rw [flipRange, if_neg (by dsimp only; omega)]
  have hfb : flipRange ⟨b, d, q⟩ = ⟨b, d, q⟩ := by rw [flipRange, if_neg (by dsimp only; omega)]
  rw [intercept, hfa, hfb]
  simp only [PyRange.toList, PyRange.len, mem_rangeList_pos hA, mem_rangeList_pos hB]
  have he : 0 < PyRange.empty.step := by decide
  have hne : ∀ x, x ∉ PyRange.empty.toList := mem_empty
  simp only [PyRange.toList] at hne
  split
  · rename_i h0
    rw [rangeLen_eq_zero_pos hA] at h0
    exact ⟨_, rfl, he, fun x => ⟨fun hx => absurd hx (hne x), fun hx => by omega⟩⟩
  split
  · rename_i h0
    rw [rangeLen_eq_zero_pos hB] at h0
    exact ⟨_, rfl, he, fun x => ⟨fun hx => absurd hx (hne x), fun hx => by omega⟩⟩
  split
  · exact ⟨_, rfl, he, fun x => ⟨fun hx => absurd hx (hne x), fun hx => by omega⟩⟩
  split
  · exact ⟨_, rfl, he, fun x => ⟨fun hx => absurd hx (hne x), fun hx => by omega⟩⟩
  have hs : (if a ≤ b then b else a) = max a b := by split <;> omega
  have hm : (if c ≤ d then c else d) = min c d := by split <;> omega
  rw [hs, hm]
  have key : ∀ x, ((a ≤ x ∧ x < c ∧ p ∣ x - a) ∧ (b ≤ x ∧ x < d ∧ q ∣ x - b)) ↔
      (max a b ≤ x ∧ p ∣ x - a) ∧ (max a b ≤ x ∧ q ∣ x - b) ∧ x < min c d := fun x => by
    constructor
    · rintro ⟨⟨h1, h2, h3⟩, h4, h5, h6⟩; exact ⟨⟨by omega, h3⟩, ⟨by omega, h6⟩, by omega⟩
    · rintro ⟨⟨h1, h3⟩, ⟨h4, h6⟩, h5⟩; exact ⟨⟨by omega, by omega, h3⟩, by omega, by omega, h6⟩
  simp only [key]
  have ka := fun x => ceilStart (a := a) (s := max a b) hA x
  have kb := fun x => ceilStart (a := b) (s := max a b) hB x
  simp only [ka, kb]
  generalize hu : ceilDiv (max a b - a) p * p + a = u at *
  generalize hv : ceilDiv (max a b - b) q * q + b = v at *
  generalize min c d = e
  split
  · rename_i h1
    refine ⟨_, rfl, by dsimp only; omega, fun x => ?_⟩
    dsimp only
    rw [mem_rangeList_pos (by omega)]
    rcases h1 with rfl | rfl
    · have huv : max u v = v := by
        have := (kb v).2 ⟨by omega, by simp⟩
        have := (ka v).1 ⟨this.1, by simp⟩
        omega
      rw [huv, max_eq_right (by omega)]
      constructor
      · rintro ⟨h1, h2, h3⟩; exact ⟨⟨by omega, by simp⟩, ⟨h1, h3⟩, h2⟩
      · rintro ⟨_, ⟨h1, h3⟩, h2⟩; exact ⟨h1, h2, h3⟩
    · have huv : max u v = u := by
        have := (ka u).2 ⟨by omega, by simp⟩
        have := (kb u).1 ⟨this.1, by simp⟩
        omega
      rw [huv, max_eq_left (by omega)]
      constructor
      · rintro ⟨h1, h2, h3⟩; exact ⟨⟨h1, h3⟩, ⟨by omega, by simp⟩, h2⟩
      · rintro ⟨⟨h1, h3⟩, _, h2⟩; exact ⟨h1, h2, h3⟩
  · rename_i h1
    have hp : 1 < p := by omega
    have hq : 1 < q := by omega
    have h2 : p ≠ q ∧ (Int.gcd p q = 1 ∨ p ∣ q ∨ q ∣ p) := by
      rcases h with h | h | h
      · omega
      · omega
      · exact h
    rw [if_neg h2.1]
    have hl := step_lcm hp hq h2.2
    have hk : 0 < (if Int.gcd p q ≠ 1 then max p q else p * q) := by
      split
      · omega
      · exact Int.mul_pos hA hB
    generalize (if Int.gcd p q ≠ 1 then max p q else p * q) = k at *
    by_cases hpq : p < q
    · simp only [if_pos hpq]
      have := fun x => search_mem (a := u) (b := v) (e := e) hA hk hl x
      rcases hs : interceptSearch v q (rangeList u e p) with _ | n
      · simp only [hs] at this
        exact ⟨_, rfl, he, this⟩
      · simp only [hs] at this
        exact ⟨_, rfl, hk, this⟩
    · simp only [if_neg hpq]
      have := fun x => search_mem (a := v) (b := u) (e := e) (k := k) (q := p) hB hk (fun x => by rw [hl x]; exact and_comm) x
      rcases hs : interceptSearch u p (rangeList v e q) with _ | n
      · simp only [hs] at this
        refine ⟨_, rfl, he, fun x => (this x).trans ?_⟩
        constructor <;> rintro ⟨h1, h2, h3⟩ <;> exact ⟨h2, h1, h3⟩
      · simp only [hs] at this
        refine ⟨_, rfl, hk, fun x => (this x).trans ?_⟩
        constructor <;> rintro ⟨h1, h2, h3⟩ <;> exact ⟨h2, h1, h3⟩

theorem intercept_flips (A B : PyRange) : intercept (flipRange A) (flipRange B) = intercept A B := by
  unfold intercept
  have h : ∀ r : PyRange, flipRange (flipRange r) = flipRange r := fun r => by
    unfold flipRange
    by_cases h : r.step < 1
    · simp [h]
    · simp [h]
  rw [h, h]

theorem flipRange_step_pos (A : PyRange) : 0 < (flipRange A).step := by
  unfold flipRange
  split
  · simp
  · omega

/-- a range of which the code does not forget the step -/
def RangeOk (A : PyRange) : Prop := 0 < A.step ∨ A.step = -1

theorem mem_flipRange {A : PyRange} (h : RangeOk A) (x : Int) : x ∈ (flipRange A).toList ↔ x ∈ A.toList := by
  obtain ⟨a, b, k⟩ := A
  rcases h with h | h <;> dsimp only at h
  · rw [flipRange, if_neg (by dsimp only; omega)]
  · subst h
    rw [flipRange, if_pos (by dsimp only; omega)]
    simp only [PyRange.toList, rangeList_neg_one, List.mem_reverse]

theorem flipRange_step {A : PyRange} (h : RangeOk A) : (flipRange A).step = A.step.natAbs := by
  obtain ⟨a, b, k⟩ := A
  rcases h with h | h <;> dsimp only at h
  · rw [flipRange, if_neg (by dsimp only; omega)]; dsimp only; omega
  · subst h
    rw [flipRange, if_pos (by dsimp only; omega)]; simp

/-- what a user expects of `intercept(A, B)` (`tools.range_intercept`): a range with the numbers of both ranges, in ascending order -/
def Intersection (A B : PyRange) : Prop :=
  ∃ r, intercept A B = .ok r ∧ r.toList.Pairwise (· < ·) ∧ ∀ x, x ∈ r.toList ↔ x ∈ A.toList ∧ x ∈ B.toList

/-- the whole claim -/
def C77_statement : Prop := ∀ A B : PyRange, A.step ≠ 0 → B.step ≠ 0 → Intersection A B

/-- C77: ranges of which one has step 1 (or −1), or with different steps that have no common factor, or of which one step divides the other.
Missing: equal steps, other steps with a common factor, descending steps below −1. -/
theorem C77_partial (A B : PyRange) (hA : RangeOk A) (hB : RangeOk B) (h : StepsOk A.step.natAbs B.step.natAbs) : Intersection A B := by
  rw [← flipRange_step hA, ← flipRange_step hB] at h
  obtain ⟨r, h1, h2, h3⟩ := intercept_pos (flipRange_step_pos A) (flipRange_step_pos B) h
  refine ⟨r, ?_, rangeList_sorted h2, fun x => ?_⟩
  · rw [← intercept_flips]; exact h1
  · rw [h3, mem_flipRange hA, mem_flipRange hB]

/-- C77: two ranges with the same step above 1 have the right (empty) intersection or raise UnboundLocalError; they raise whenever the intersection is not empty -/
theorem C77_equal_steps (A B : PyRange) (k : Int) (hk : 1 < k) (hA : A.step = k) (hB : B.step = k) :
    (intercept A B = .ok .empty ∧ ∀ x, ¬ (x ∈ A.toList ∧ x ∈ B.toList)) ∨ intercept A B = .error .unbound := by
  obtain ⟨a, c, p⟩ := A
  obtain ⟨b, d, q⟩ := B
  dsimp only at hA hB
  subst hB
  subst hA
  have hq : 0 < p := by omega
  have hfa : flipRange ⟨a, c, p⟩ = ⟨a, c, p⟩ := by rw [flipRange, if_neg (by dsimp only; omega)]
  have hfb : flipRange ⟨b, d, p⟩ = ⟨b, d, p⟩ := by rw [flipRange, if_neg (by dsimp only; omega)]
  rw [intercept, hfa, hfb]
  simp only [PyRange.toList, PyRange.len, mem_rangeList_pos hq]
  split
  · rename_i h0
    rw [rangeLen_eq_zero_pos hq] at h0
    exact .inl ⟨rfl, fun x => by omega⟩
  split
  · rename_i h0
    rw [rangeLen_eq_zero_pos hq] at h0
    exact .inl ⟨rfl, fun x => by omega⟩
  split
  · exact .inl ⟨rfl, fun x => by omega⟩
  split
  · exact .inl ⟨rfl, fun x => by omega⟩
  rw [if_neg (by omega), if_pos True.intro]
  split
  · rename_i h0
    refine .inl ⟨rfl, ?_⟩
    rintro x ⟨⟨_, _, h1⟩, _, _, h2⟩
    apply h0
    rcases le_total a b with hab | hab
    · rw [min_eq_left hab, max_eq_right hab]
      have := Int.dvd_sub h1 h2
      exact Int.emod_eq_zero_of_dvd (by have e : x - a - (x - b) = b - a := by omega
                                        rwa [e] at this)
    · rw [min_eq_right hab, max_eq_left hab]
      have := Int.dvd_sub h2 h1
      exact Int.emod_eq_zero_of_dvd (by have e : x - b - (x - a) = a - b := by omega
                                        rwa [e] at this)
  · exact .inr rfl

/-- C77: the intersection of a range of step 2 with itself raises -/
theorem C77_fails : ¬ C77_statement := by
  intro h
  obtain ⟨r, h1, -⟩ := h ⟨0, 10, 2⟩ ⟨0, 10, 2⟩ (by decide) (by decide)
  have : intercept ⟨0, 10, 2⟩ ⟨0, 10, 2⟩ = .error .unbound := by decide
  rw [this] at h1
  cases h1

/-- C77: steps 4 and 6: 6 is said to be a number of both ranges -/
theorem C77_factor_fails : ¬ Intersection ⟨0, 20, 4⟩ ⟨0, 20, 6⟩ := by
  rintro ⟨r, h1, -, h3⟩
  have : intercept ⟨0, 20, 4⟩ ⟨0, 20, 6⟩ = .ok ⟨0, 20, 6⟩ := by decide
  rw [this] at h1
  cases h1
  exact absurd ((h3 6).1 (by decide)) (by decide)

/-- C77: a descending range of step −2: 9 is said to be a number of both ranges -/
theorem C77_descending_fails : ¬ Intersection ⟨10, 0, -2⟩ ⟨0, 20, 1⟩ := by
  rintro ⟨r, h1, -, h3⟩
  have : intercept ⟨10, 0, -2⟩ ⟨0, 20, 1⟩ = .ok ⟨1, 11, 1⟩ := by decide
  rw [this] at h1
  cases h1
  exact absurd ((h3 9).1 (by decide)) (by decide)

/-- ranges that meet the hypotheses of `C77_partial`: steps 2 and 3; 2 and 6; −1 and 5 -/
example : RangeOk ⟨1, 100, 2⟩ ∧ RangeOk ⟨0, 50, 3⟩ ∧ StepsOk 2 3 ∧ intercept ⟨1, 100, 2⟩ ⟨0, 50, 3⟩ = .ok ⟨3, 50, 6⟩ :=
  ⟨.inl (by decide), .inl (by decide), .inr (.inr ⟨by decide, .inl (by decide)⟩), by decide⟩
example : StepsOk 2 6 ∧ intercept ⟨1, 100, 2⟩ ⟨3, 50, 6⟩ = .ok ⟨3, 50, 6⟩ := ⟨.inr (.inr ⟨by decide, .inr (.inl (by decide))⟩), by decide⟩
example : RangeOk ⟨20, 0, -1⟩ ∧ intercept ⟨20, 0, -1⟩ ⟨3, 50, 5⟩ = .ok ⟨3, 21, 5⟩ := ⟨.inr rfl, by decide⟩

end Tablite
