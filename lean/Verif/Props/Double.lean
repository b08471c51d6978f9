import Verif.Model.DateText
import Verif.Props.Codec
import Verif.Props.Dates
/-!
# Rounding to the nearest double meets the assumptions made about floating point

`IsRound` is what the theorems about floating point assume.  Here: rounding to 53 bits, to the nearest, ties to even, meets it.
-/

namespace Tablite

/-- rounding to the nearest double, of either sign, without the limits of the exponent -/
def flDouble (q : Rat) : Rat := if q < 0 then -fl64 (-q) else fl64 q

theorem roundEven_err (q : Rat) : |(roundEven q : Rat) - q| ≤ 1 / 2 := by
  have h1 := Int.floor_le q
  have h2 := Int.lt_floor_add_one q
  unfold roundEven
  rw [abs_le]
  split
  · constructor <;> linarith
  · split
    · push_cast; constructor <;> linarith
    · split
      · constructor <;> linarith
      · push_cast; constructor <;> linarith

theorem roundEven_int (n : Int) : roundEven (n : Rat) = n := roundEven_near n n (by simp)

/-- the rounding to 53 bits of a number of at least 53 bits -/
def round53 (x : Rat) : Rat := (roundEven (x / 2 ^ (Nat.log2 ⌊x⌋.toNat - 52)) : Rat) * 2 ^ (Nat.log2 ⌊x⌋.toNat - 52)

theorem log2_floor (x : Rat) (h : 2 ^ 52 ≤ x) : 52 ≤ Nat.log2 ⌊x⌋.toNat ∧ (2 : Rat) ^ Nat.log2 ⌊x⌋.toNat ≤ x ∧ x < 2 ^ (Nat.log2 ⌊x⌋.toNat + 1) := by
  have h0 : (2 ^ 52 : Int) ≤ ⌊x⌋ := by rw [Int.le_floor]; exact_mod_cast h
  have hn : ((⌊x⌋.toNat : Nat) : Int) = ⌊x⌋ := Int.toNat_of_nonneg (by omega)
  have hne : ⌊x⌋.toNat ≠ 0 := by omega
  have h1 := Nat.log2_self_le hne
  have h2 := Nat.lt_log2_self (n := ⌊x⌋.toNat)
  refine ⟨?_, ?_, ?_⟩
  · rw [Nat.le_log2 hne]; omega
  · have : (((2 ^ Nat.log2 ⌊x⌋.toNat : Nat) : Int) : Rat) ≤ x := by
      rw [← Int.le_floor, ← hn]
      exact_mod_cast h1
    exact_mod_cast this
  · have : x < (((2 ^ (Nat.log2 ⌊x⌋.toNat + 1) : Nat) : Int) : Rat) := by
      rw [← Int.floor_lt, ← hn]
      exact_mod_cast h2
    exact_mod_cast this

theorem round53_err (x : Rat) (h : 2 ^ 52 ≤ x) : |round53 x - x| ≤ x / 2 ^ 53 := by
  obtain ⟨h1, h2, -⟩ := log2_floor x h
  unfold round53
  obtain ⟨k, hk⟩ := Nat.exists_eq_add_of_le h1
  rw [hk, Nat.add_sub_cancel_left]
  rw [hk] at h2
  have hp : (0 : Rat) < 2 ^ k := by positivity
  have he := roundEven_err (x / 2 ^ k)
  have : (roundEven (x / 2 ^ k) : Rat) * 2 ^ k - x = ((roundEven (x / 2 ^ k) : Rat) - x / 2 ^ k) * 2 ^ k := by field_simp
  rw [this, abs_mul, abs_of_pos hp]
  have h3 : |(roundEven (x / 2 ^ k) : Rat) - x / 2 ^ k| * 2 ^ k ≤ 1 / 2 * 2 ^ k := mul_le_mul_of_nonneg_right he hp.le
  refine h3.trans ?_
  rw [le_div_iff₀ (by positivity)]
  have : (1 : Rat) / 2 * 2 ^ k * 2 ^ 53 = 2 ^ (52 + k) := by rw [pow_add]; ring
  rw [this]
  exact h2

theorem round53_exact (x : Rat) (n : Int) (k : Nat) (h : 2 ^ 52 ≤ x) (hx : x = n * 2 ^ k) (hk : x ≤ 2 ^ (53 + k)) : round53 x = x := by
  obtain ⟨h1, h2, -⟩ := log2_floor x h
  unfold round53
  generalize hb : Nat.log2 ⌊x⌋.toNat = b at *
  have hbk : b ≤ 53 + k := by
    by_contra hc
    have : (2 : Rat) ^ (53 + k) < 2 ^ b := pow_lt_pow_right₀ (by norm_num) (by omega)
    linarith
  by_cases hlt : b - 52 ≤ k
  · have hz : x / 2 ^ (b - 52) = ((n * 2 ^ (k - (b - 52)) : Int) : Rat) := by
      rw [hx, div_eq_iff (by positivity)]
      push_cast
      rw [mul_assoc, ← pow_add, Nat.sub_add_cancel hlt]
    rw [hz, roundEven_int, ← hz]
    field_simp
  · have hb2 : b = 53 + k := by omega
    have hxe : x = 2 ^ (53 + k) := le_antisymm hk (by rw [← hb2]; exact h2)
    have hz : x / 2 ^ (b - 52) = ((2 ^ 52 : Int) : Rat) := by
      rw [div_eq_iff (by positivity), hxe, hb2, show 53 + k - 52 = k + 1 by omega]
      rw [show 53 + k = 52 + (k + 1) by omega, pow_add]
      norm_num
    rw [hz, roundEven_int, ← hz]
    field_simp

theorem fl64_pos (q : Rat) (h : 0 < q) : ∃ e : Nat, 2 ^ 52 ≤ q * 2 ^ e ∧ fl64 q = round53 (q * 2 ^ e) / 2 ^ e ∧ (1 ≤ q → e = 53) := by
  unfold fl64
  rw [if_neg (by linarith)]
  by_cases h1 : q < 1
  · rw [if_pos h1]
    refine ⟨Nat.log2 ⌈1 / q⌉.toNat + 53, ?_, rfl, by intro; linarith⟩
    have hq : 1 < 1 / q := by rw [lt_div_iff₀ h]; linarith
    have hc : (1 : Int) ≤ ⌈1 / q⌉ := by
      have : (0 : Int) < ⌈1 / q⌉ := by rw [Int.lt_ceil]; push_cast; linarith
      omega
    have hn : ((⌈1 / q⌉.toNat : Nat) : Int) = ⌈1 / q⌉ := Int.toNat_of_nonneg (by omega)
    have h2 := Nat.lt_log2_self (n := ⌈1 / q⌉.toNat)
    have h3 : 1 / q ≤ (2 : Rat) ^ (Nat.log2 ⌈1 / q⌉.toNat + 1) := by
      refine (Int.le_ceil (1 / q)).trans ?_
      rw [← hn]
      exact_mod_cast h2.le
    generalize Nat.log2 ⌈1 / q⌉.toNat = l at *
    rw [div_le_iff₀ h] at h3
    have : q * 2 ^ (l + 53) = 2 ^ (l + 1) * q * 2 ^ 52 := by rw [show l + 53 = (l + 1) + 52 by omega, pow_add]; ring
    rw [this]
    linarith
  · rw [if_neg h1]
    refine ⟨53, ?_, rfl, fun _ => rfl⟩
    have : (1 : Rat) ≤ q := not_lt.1 h1
    linarith

theorem fl64_err (q : Rat) (h : 0 < q) : |fl64 q - q| ≤ q / 2 ^ 53 := by
  obtain ⟨e, h1, h2, -⟩ := fl64_pos q h
  have hp : (0 : Rat) < 2 ^ e := by positivity
  have := round53_err _ h1
  rw [h2, show round53 (q * 2 ^ e) / 2 ^ e - q = (round53 (q * 2 ^ e) - q * 2 ^ e) / 2 ^ e by field_simp, abs_div, abs_of_pos hp, div_le_iff₀ hp]
  calc |round53 (q * 2 ^ e) - q * 2 ^ e| ≤ q * 2 ^ e / 2 ^ 53 := this
    _ = q / 2 ^ 53 * 2 ^ e := by ring

theorem fl64_int (n : Nat) (h0 : 0 < n) (h : n ≤ 2 ^ 53) : fl64 n = n := by
  have hq : (0 : Rat) < n := by exact_mod_cast h0
  obtain ⟨e, h1, h2, h3⟩ := fl64_pos n hq
  have : e = 53 := h3 (by exact_mod_cast h0)
  subst this
  rw [h2, round53_exact _ n 53 h1 (by push_cast; ring) (by
    rw [pow_add]
    exact mul_le_mul_of_nonneg_right (by exact_mod_cast h) (by positivity))]
  field_simp

/-- the assumptions about floating point hold of rounding to the nearest double -/
theorem isRound_double : IsRound flDouble where
  err := by
    intro z
    unfold flDouble
    rcases lt_trichotomy z 0 with h | h | h
    · rw [if_pos h, abs_of_neg h]
      have := fl64_err (-z) (by linarith)
      rw [show -fl64 (-z) - z = -(fl64 (-z) - -z) by ring, abs_neg]
      exact this
    · subst h
      rw [if_neg (lt_irrefl _)]
      unfold fl64
      rw [if_pos le_rfl]
      simp
    · rw [if_neg (by linarith), abs_of_pos h]
      exact fl64_err z h
  int := by
    intro n h
    unfold flDouble
    rcases lt_trichotomy n 0 with hn | hn | hn
    · rw [if_pos (by exact_mod_cast hn)]
      obtain ⟨k, rfl⟩ : ∃ k : Nat, n = -(k : Int) := ⟨n.natAbs, by omega⟩
      rw [abs_neg, Nat.abs_cast] at h
      have := fl64_int k (by omega) (by exact_mod_cast h)
      push_cast
      rw [neg_neg, this]
    · subst hn
      rw [if_neg (by simp)]
      unfold fl64
      rw [if_pos (by simp)]
      simp
    · rw [if_neg (by push Not; exact_mod_cast hn.le)]
      obtain ⟨k, rfl⟩ : ∃ k : Nat, n = (k : Int) := ⟨n.natAbs, by omega⟩
      rw [Nat.abs_cast] at h
      have := fl64_int k (by omega) (by exact_mod_cast h)
      push_cast
      exact this

end Tablite
