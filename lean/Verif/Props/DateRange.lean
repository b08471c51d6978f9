import Verif.Model.DateRange
import Verif.Lemmas.Range
import Verif.Lemmas.Table
/-!
# C100: ranges of dates
-/

namespace Tablite

/-- spec: a moment of the years 1 to 9999 -/
def IsMoment (t : Int) : Prop := 0 ≤ t ∧ t ≤ datetimeMax

/-- the number of steps -/
theorem lt_fdiv (a b k : Int) (hk : k ≠ 0) (i : Nat) : i < ((b - a).fdiv k).toNat ↔ (0 < k ∧ a + k * i + k ≤ b) ∨ (k < 0 ∧ b ≤ a + k * i + k) := by
  have e : i < ((b - a).fdiv k).toNat ↔ (i : Int) + 1 ≤ (b - a).fdiv k := by omega
  have h3 : k * ((i : Int) + 1) = k * i + k := by rw [Int.mul_add, Int.mul_one]
  rw [e]
  rcases Int.lt_or_gt_of_ne hk with h | h
  · have h4 : (b - a).fdiv k = (-(b - a)) / (-k) := by
      rw [← Int.neg_fdiv_neg, Int.fdiv_eq_ediv_of_nonneg _ (by omega)]
    rw [h4, Int.le_ediv_iff_mul_le (by omega), Int.mul_neg, Int.mul_comm, h3]
    omega
  · rw [Int.fdiv_eq_ediv_of_nonneg _ (by omega), Int.le_ediv_iff_mul_le h, Int.mul_comm, h3]
    omega

/-- `date_range` of moments -/
theorem dateRange_eq (a b k : Int) (ha : IsMoment a) (hb : IsMoment b) (hk : k ≠ 0) :
    dateRange (some a) (some b) (some k) = .ok ((List.range ((b - a).fdiv k).toNat).map fun i : Nat => a + k * i) := by
  unfold dateRange
  dsimp only
  rw [if_neg hk]
  refine mapM_ok _ _ (fun i : Nat => a + k * i) fun i hi => ?_
  rw [List.mem_range, lt_fdiv a b k hk] at hi
  unfold datetimeAdd
  unfold IsMoment at ha hb
  rw [if_pos]
  rcases hi with ⟨h1, h2⟩ | ⟨h1, h2⟩
  · have := Int.mul_nonneg (Int.le_of_lt h1) (Int.natCast_nonneg i)
    omega
  · have := Int.mul_nonpos_of_nonpos_of_nonneg (Int.le_of_lt h1) (Int.natCast_nonneg i)
    omega

/-- **C100** (moments).  `date_range` never fails for a step that is not zero: it returns `start`, `start + step`, …, as long as the next step does not pass `stop`. -/
theorem C100_moments (a b k : Int) (ha : IsMoment a) (hb : IsMoment b) (hk : k ≠ 0) :
    ∃ l, dateRange (some a) (some b) (some k) = .ok l ∧ (∀ (i : Nat) (x : Int), l[i]? = some x → x = a + k * i) ∧
      ∀ (i : Nat), i < l.length ↔ (0 < k ∧ a + k * i + k ≤ b) ∨ (k < 0 ∧ b ≤ a + k * i + k) := by
  refine ⟨_, dateRange_eq a b k ha hb hk, ?_, ?_⟩
  · intro i x hx
    rw [List.getElem?_map] at hx
    by_cases h : i < ((b - a).fdiv k).toNat
    · rw [List.getElem?_range h, Option.map_some, Option.some.injEq] at hx
      exact hx.symm
    · rw [List.getElem?_eq_none_iff.2 (by rw [List.length_range]; omega)] at hx
      exact absurd hx (by simp)
  · intro i
    rw [List.length_map, List.length_range]
    exact lt_fdiv a b k hk i

/-- **C100** (errors).  A step of zero and arguments of other types are refused. -/
theorem C100_errors (a b : Int) (x y z : Option Int) : dateRange (some a) (some b) (some 0) = .error .zeroDivision ∧
    (x = none ∨ y = none ∨ z = none → dateRange x y z = .error .type) := by
  refine ⟨rfl, ?_⟩
  rintro (rfl | rfl | rfl)
  · rfl
  · cases x <;> rfl
  · cases x <;> cases y <;> rfl

/-- spec: `date_range` is `range` for dates -/
def C100_statement : Prop := ∀ (a b k : Int), IsMoment a → IsMoment b → k ≠ 0 → dateRange (some a) (some b) (some k) = .ok (rangeList a b k)

/-- **C100** (last step).  The last moment is missing if the last step is cut short: from 0 to 5 in steps of 2 there are 0, 2 and 4. -/
theorem C100_fails : ¬ C100_statement := by
  intro h
  exact absurd (h 0 5 2 (by unfold IsMoment; decide) (by unfold IsMoment; decide) (by decide)) (by decide)

/-- **C100** (whole steps).  If a whole number of steps leads from `start` to `stop`, or if the steps lead away from `stop`, `date_range` is `range`; in general it lacks at most the last
moment of `range`. -/
theorem C100_partial (a b k : Int) (ha : IsMoment a) (hb : IsMoment b) (hk : k ≠ 0) :
    (k ∣ b - a → dateRange (some a) (some b) (some k) = .ok (rangeList a b k)) ∧
    ((0 < k ∧ b ≤ a ∨ k < 0 ∧ a ≤ b) → dateRange (some a) (some b) (some k) = .ok []) ∧
    (dateRange (some a) (some b) (some k) = .ok (rangeList a b k) ∨ dateRange (some a) (some b) (some k) = .ok (rangeList a b k).dropLast) := by
  have hlen : ∀ i : Nat, i < rangeLen a b k ↔ (0 < k ∧ a + k * i < b) ∨ (k < 0 ∧ b < a + k * i) := by
    intro i
    rcases Int.lt_or_gt_of_ne hk with h | h
    · rw [lt_rangeLen_neg h, Int.mul_comm]
      omega
    · rw [lt_rangeLen_pos h, Int.mul_comm]
      omega
  have heq : ∀ n : Nat, (∀ i : Nat, i < n ↔ i < ((b - a).fdiv k).toNat) → ((b - a).fdiv k).toNat = n := by
    intro n hn
    have h1 := hn n
    have h2 := hn ((b - a).fdiv k).toNat
    omega
  rw [dateRange_eq a b k ha hb hk]
  have hmap : ∀ n : Nat, n = rangeLen a b k → (List.range n).map (fun i : Nat => a + k * i) = rangeList a b k := by
    intro n hn
    rw [hn]
    unfold rangeList
    exact List.map_congr_left fun i _ => by rw [Int.mul_comm]
  have hsucc : ∀ i : Nat, k * ((i : Int) + 1) = k * i + k := fun i => by rw [Int.mul_add, Int.mul_one]
  refine ⟨?_, ?_, ?_⟩
  · rintro ⟨q, hq⟩
    rw [hmap _ ?_]
    apply heq
    intro i
    rw [hlen, lt_fdiv a b k hk]
    have hb' : b = a + k * q := by omega
    have key : ∀ x : Int, (0 < k → (k * x < k * q ↔ k * (x + 1) ≤ k * q)) ∧ (k < 0 → (k * q < k * x ↔ k * q ≤ k * (x + 1))) := by
      intro x
      constructor
      · intro h
        rw [Int.mul_lt_mul_left h, Int.mul_le_mul_left h]
        omega
      · intro h
        rw [Int.mul_lt_mul_left_of_neg h, Int.mul_le_mul_left_of_neg h]
        omega
    have h1 := key i
    rw [hsucc] at h1
    rw [hb']
    constructor
    · rintro (⟨h, hx⟩ | ⟨h, hx⟩)
      · have := (h1.1 h).1 (by omega)
        omega
      · have := (h1.2 h).1 (by omega)
        omega
    · rintro (⟨h, hx⟩ | ⟨h, hx⟩)
      · have := (h1.1 h).2 (by omega)
        omega
      · have := (h1.2 h).2 (by omega)
        omega
  · intro h
    have : ((b - a).fdiv k).toNat = 0 := by
      refine Decidable.byContradiction fun hx => ?_
      have h0 := (lt_fdiv a b k hk 0).1 (by omega)
      simp only [Int.natCast_zero, Int.mul_zero] at h0
      omega
    rw [this]
    rfl
  · have h1 : ((b - a).fdiv k).toNat = rangeLen a b k ∨ ((b - a).fdiv k).toNat + 1 = rangeLen a b k := by
      generalize hn : ((b - a).fdiv k).toNat = n
      have g1 := hlen n
      have g2 := hlen (n + 1)
      have g3 := lt_fdiv a b k hk n
      rw [hn] at g3
      have g4 : n = 0 ∨ n - 1 < n := by omega
      have g5 := hlen (n - 1)
      have g6 := lt_fdiv a b k hk (n - 1)
      rw [hn] at g6
      have e1 := hsucc n
      rcases Nat.eq_zero_or_pos n with h0 | h0
      · subst h0
        simp only [Int.natCast_zero, Int.mul_zero, Nat.zero_add, Int.natCast_one, Int.mul_one] at *
        omega
      · have e2 := hsucc (n - 1)
        have e3 : ((n - 1 : Nat) : Int) + 1 = n := by omega
        rw [e3] at e2
        have e4 : ((n + 1 : Nat) : Int) = (n : Int) + 1 := by omega
        rw [e4] at g2
        omega
    rcases h1 with h1 | h1
    · left
      rw [hmap _ h1]
    · right
      have : rangeList a b k = (List.range (((b - a).fdiv k).toNat + 1)).map fun i : Nat => a + k * i := (hmap _ h1).symm
      rw [this, List.range_succ, List.map_append, List.map_singleton, List.dropLast_concat]

/-- a case with whole steps: 1 January 1 to 4 January 1 by days, both ways -/
example : IsMoment 0 ∧ IsMoment (3 * 86400000000) ∧ (86400000000 : Int) ∣ 3 * 86400000000 - 0 ∧
    dateRange (some 0) (some (3 * 86400000000)) (some 86400000000) = .ok [0, 86400000000, 2 * 86400000000] ∧
    dateRange (some (3 * 86400000000)) (some 0) (some (-86400000000)) = .ok [3 * 86400000000, 2 * 86400000000, 86400000000] := by
  unfold IsMoment
  decide

end Tablite
