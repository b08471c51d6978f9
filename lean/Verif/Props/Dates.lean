import Verif.Model.Dates
import Mathlib.Tactic.Linarith
import Mathlib.Tactic.FieldSimp
import Mathlib.Tactic.NormNum
/-!
# C42 day numbers, C43 durations
-/

namespace Tablite

/-! ## C43 -/

/-- total number of microseconds (spec vocabulary) -/
def micros (weeks days hours minutes seconds milliseconds microseconds : Int) : Int :=
  ((((weeks * 7 + days) * 24 + hours) * 60 + minutes) * 60 + seconds) * 1000000 + milliseconds * 1000 + microseconds

/-- C43, exact quotients: nothing is lost and the parts are in range, for all integers -/
theorem C43_exact (w d h m s ms us : Int) :
    let r := toTimedelta divmod w d h m s ms us
    (r.1 * 86400 + r.2.1) * 1000000 + r.2.2 = micros w d h m s ms us ∧ 0 ≤ r.2.1 ∧ r.2.1 < 86400 ∧ 0 ≤ r.2.2 ∧ r.2.2 < 1000000 := by
  simp only [toTimedelta, divmod, micros]
  omega

/-- what is used of the rounding to double: relative error at most 2^-53, integers up to 2^53 are exact -/
structure IsRound (fl : Rat → Rat) : Prop where
  err : ∀ z, |fl z - z| ≤ |z| / 2 ^ 53
  int : ∀ n : Int, |n| ≤ 2 ^ 53 → fl n = n

theorem divmodF_eq (fl : Rat → Rat) (hfl : IsRound fl) (x y : Int) (hy : 0 < y) (hy2 : y ≤ 2 ^ 53) (hx : |x| < 2 ^ 53) : divmodF fl x y = divmod x y := by
  have key : Rat.floor (fl ((x : Rat) / (y : Rat))) = x / y := by
    have hy' : (0 : Rat) < (y : Rat) := by exact_mod_cast hy
    have h1 := Int.mul_ediv_add_emod x y
    have h2 := Int.emod_nonneg x (ne_of_gt hy)
    have h3 := Int.emod_lt_of_pos x hy
    set q := x / y with hq
    set e := x % y with he
    have hxq : (x : Rat) / y = q + e / y := by
      rw [← h1]; push_cast; field_simp
    have herr := hfl.err ((x : Rat) / y)
    have habs : |(x : Rat) / y| / 2 ^ 53 < 1 / y := by
      rw [abs_div, abs_of_pos hy', div_div, div_lt_div_iff₀ (by positivity) hy']
      have : |(x : Rat)| < 2 ^ 53 := by exact_mod_cast hx
      nlinarith
    have hlt : |fl ((x : Rat) / y) - x / y| < 1 / y := lt_of_le_of_lt herr habs
    rw [abs_lt] at hlt
    have hup : fl ((x : Rat) / y) < q + 1 := by
      have : (e : Rat) / y ≤ 1 - 1 / y := by
        rw [div_le_iff₀ hy']
        have : (e : Rat) ≤ y - 1 := by exact_mod_cast Int.le_sub_one_of_lt h3
        have h5 : (1 - 1 / (y : Rat)) * y = y - 1 := by field_simp
        rw [h5]; exact this
      linarith [hlt.2]
    have hlo : (q : Rat) ≤ fl ((x : Rat) / y) := by
      by_cases hz : e = 0
      · rw [hz] at hxq
        simp only [Int.cast_zero, zero_div, add_zero] at hxq
        rw [hxq]
        have : |q| ≤ 2 ^ 53 := by
          have hxe : x = y * q := by omega
          have : |x| = y * |q| := by rw [hxe, abs_mul, abs_of_pos hy]
          have hq0 : 0 ≤ |q| := abs_nonneg q
          nlinarith
        rw [hfl.int q this]
      · have : (1 : Rat) / y ≤ e / y := by
          apply div_le_div_of_nonneg_right _ (le_of_lt hy')
          have : (1 : Int) ≤ e := by omega
          exact_mod_cast this
        linarith [hlt.1]
    have : ⌊fl ((x : Rat) / y)⌋ = q := by
      rw [Int.floor_eq_iff]
      exact ⟨hlo, by exact_mod_cast hup⟩
    exact this
  unfold divmodF divmod
  dsimp only
  rw [hfl.int x (le_of_lt hx), hfl.int y (by rw [abs_of_pos hy]; exact hy2), key]

/-- for integers of 64 bits the quotient may be wrong, but the remainder stays small -/
theorem divmodF_small (fl : Rat → Rat) (hfl : IsRound fl) (x y : Int) (hy : 0 < y) (hy2 : y ≤ 2 ^ 20) (hx : |x| ≤ 2 ^ 63) :
    y * (divmodF fl x y).1 + (divmodF fl x y).2 = x ∧ |(divmodF fl x y).2| ≤ 2 ^ 21 ∧ |(divmodF fl x y).1| ≤ 2 ^ 63 + 2 ^ 21 := by
  have hy' : (0 : Rat) < (y : Rat) := by exact_mod_cast hy
  have hfy : fl y = y := hfl.int y (by rw [abs_of_pos hy]; omega)
  unfold divmodF
  dsimp only
  rw [hfy]
  set X := fl (x : Rat) with hX
  set Q := fl (X / y) with hQ
  have hx' : |(x : Rat)| ≤ 2 ^ 63 := by exact_mod_cast hx
  have e1 : |X - x| ≤ 2 ^ 10 := (hfl.err x).trans (by rw [div_le_iff₀ (by positivity)]; exact hx'.trans (by norm_num))
  have hXb : |X| ≤ 2 ^ 64 := by
    have : |X| ≤ |X - x| + |(x : Rat)| := by
      have := abs_add_le (X - x) (x : Rat)
      simpa using this
    refine this.trans (le_trans (add_le_add e1 hx') (by norm_num))
  have e2 : |y * Q - X| ≤ 2 ^ 11 := by
    have h := hfl.err (X / y)
    have h2 : |y * Q - X| = y * |Q - X / y| := by
      rw [← abs_of_pos hy', ← abs_mul, abs_of_pos hy', mul_sub, mul_div_cancel₀ _ (ne_of_gt hy')]
    rw [h2]
    calc (y : Rat) * |Q - X / y| ≤ y * (|X / y| / 2 ^ 53) := mul_le_mul_of_nonneg_left h (le_of_lt hy')
      _ = |X| / 2 ^ 53 := by rw [abs_div, abs_of_pos hy']; field_simp
      _ ≤ 2 ^ 11 := by rw [div_le_iff₀ (by positivity)]; exact hXb.trans (by norm_num)
  have f1 : ((⌊Q⌋ : Int) : Rat) ≤ Q := Int.floor_le Q
  have f2 : Q < (⌊Q⌋ : Int) + 1 := Int.lt_floor_add_one Q
  have hz : Rat.floor Q = ⌊Q⌋ := rfl
  rw [hz]
  set z := ⌊Q⌋ with hzz
  rw [abs_le] at e1 e2
  have b1 : (y : Rat) * z ≤ x + 3072 := by
    have : (y : Rat) * z ≤ y * Q := mul_le_mul_of_nonneg_left f1 (le_of_lt hy')
    linarith [e1.1, e1.2, e2.1, e2.2]
  have b2 : (x : Rat) < y * z + y + 3072 := by
    have : (y : Rat) * Q < y * (z + 1) := mul_lt_mul_of_pos_left f2 hy'
    linarith [e1.1, e1.2, e2.1, e2.2]
  have c1 : y * z ≤ x + 3072 := by exact_mod_cast b1
  have c2 : x < y * z + y + 3072 := by exact_mod_cast b2
  refine ⟨by ring, by rw [abs_le]; constructor <;> omega, ?_⟩
  have hyz : |y * z| ≤ 2 ^ 63 + 2 ^ 21 := by
    rw [abs_le] at hx ⊢
    constructor <;> omega
  rw [abs_mul, abs_of_pos hy] at hyz
  have h0 := abs_nonneg z
  nlinarith

/-- C43 for the code with quotients through floating point: nothing is lost and the parts are in range, for all sums of 64 bits.  A quotient of large numbers can be wrong by one
or more, but the code divides again. -/
theorem C43_float (fl : Rat → Rat) (hfl : IsRound fl) (w d h m s ms us : Int) (h1 : |s + (m * 60 + h * 3600)| ≤ 2 ^ 63) (h2 : |us + ms * 1000| ≤ 2 ^ 63) :
    let r := toTimedelta (divmodF fl) w d h m s ms us
    (r.1 * 86400 + r.2.1) * 1000000 + r.2.2 = micros w d h m s ms us ∧ 0 ≤ r.2.1 ∧ r.2.1 < 86400 ∧ 0 ≤ r.2.2 ∧ r.2.2 < 1000000 := by
  unfold toTimedelta micros
  dsimp only
  generalize hS : s + (m * 60 + h * 3600) = S at *
  generalize hU : us + ms * 1000 = U at *
  obtain ⟨a1, a2, a3⟩ := divmodF_small fl hfl S (24 * 3600) (by omega) (by omega) h1
  obtain ⟨b1, b2, b3⟩ := divmodF_small fl hfl U 1000000 (by omega) (by omega) h2
  generalize divmodF fl S (24 * 3600) = A at *
  have hB : |(divmodF fl U 1000000).1| ≤ 2 ^ 63 := by
    rw [abs_le] at h2 b2 ⊢
    constructor <;> omega
  generalize divmodF fl U 1000000 = B at *
  obtain ⟨c1, c2, c3⟩ := divmodF_small fl hfl B.1 (24 * 3600) (by omega) (by omega) hB
  generalize divmodF fl B.1 (24 * 3600) = C at *
  rw [divmodF_eq fl hfl B.2 1000000 (by omega) (by omega) (lt_of_le_of_lt b2 (by norm_num))]
  rw [abs_le] at a2 b2 c2
  have d1 : (divmod B.2 1000000).1 = B.2 / 1000000 := rfl
  have d2 : (divmod B.2 1000000).2 = B.2 - 1000000 * (B.2 / 1000000) := rfl
  rw [d1, d2, divmodF_eq fl hfl _ (24 * 3600) (by omega) (by omega) (by rw [abs_lt]; constructor <;> omega)]
  simp only [divmod]
  omega

/-- an integer of 64 bits -/
def Fits64 (v : Int) : Prop := -2 ^ 63 ≤ v ∧ v < 2 ^ 63

theorem wrap64_fits {v : Int} (h : Fits64 v) : wrap64 v = v := by
  obtain ⟨h1, h2⟩ := h
  unfold wrap64
  omega

/-- `r` are the days, seconds and microseconds of a duration of `t` microseconds (spec vocabulary) -/
def Normal (r : Int × Int × Int) (t : Int) : Prop :=
  (r.1 * 86400 + r.2.1) * 1000000 + r.2.2 = t ∧ 0 ≤ r.2.1 ∧ r.2.1 < 86400 ∧ 0 ≤ r.2.2 ∧ r.2.2 < 1000000

/-- C43, full statement: for all integers of 64 bits -/
def C43_statement : Prop := ∀ (fl : Rat → Rat), IsRound fl → ∀ w d h m s ms us : Int, (∀ v ∈ [w, d, h, m, s, ms, us], Fits64 v) →
  Normal (toTimedelta64 fl w d h m s ms us) (micros w d h m s ms us)

/-- **C43** partial: it holds whenever the days, the seconds and the microseconds of the sums fit in 64 bits, and so do the days of the result.  Missing: other sums, which wrap. -/
theorem C43_partial (fl : Rat → Rat) (hfl : IsRound fl) (w d h m s ms us : Int) (h0 : Fits64 (d + w * 7)) (h1 : Fits64 (s + (m * 60 + h * 3600))) (h2 : Fits64 (us + ms * 1000))
    (hd : Fits64 (micros w d h m s ms us / 86400000000)) : Normal (toTimedelta64 fl w d h m s ms us) (micros w d h m s ms us) := by
  have habs : ∀ {v : Int}, Fits64 v → |v| ≤ 2 ^ 63 := by
    intro v hv
    obtain ⟨a, b⟩ := hv
    rw [abs_le]; constructor <;> omega
  unfold toTimedelta64
  dsimp only
  rw [wrap64_fits h0, wrap64_fits h1, wrap64_fits h2]
  have hm : micros 0 (d + w * 7) 0 0 (s + (m * 60 + h * 3600)) 0 (us + ms * 1000) = micros w d h m s ms us := by unfold micros; ring
  have key := C43_float fl hfl 0 (d + w * 7) 0 0 (s + (m * 60 + h * 3600)) 0 (us + ms * 1000) (by simpa using habs h1) (by simpa using habs h2)
  dsimp only at key
  rw [hm] at key
  generalize toTimedelta (divmodF fl) 0 (d + w * 7) 0 0 (s + (m * 60 + h * 3600)) 0 (us + ms * 1000) = r at *
  have : r.1 = micros w d h m s ms us / 86400000000 := by omega
  unfold Normal
  dsimp only
  rw [wrap64_fits (this ▸ hd)]
  exact key

/-- 2^62 hours come out as no time at all -/
theorem C43_fails : ¬ C43_statement := by
  intro h
  have hr : IsRound (fun z : Rat => z) := ⟨by intro z; simp only [sub_self, abs_zero]; positivity, fun _ _ => rfl⟩
  have := h _ hr 0 0 (2 ^ 62) 0 0 0 0 (by unfold Fits64; decide)
  have := this.1
  have e : toTimedelta64 (fun z : Rat => z) 0 0 (2 ^ 62) 0 0 0 0 = (0, 0, 0) := by decide +kernel
  rw [e] at this
  exact absurd this (by decide)

/-- the hypotheses are met by a duration of more than 2^53 microseconds -/
example : Fits64 (0 + 0 * 7) ∧ Fits64 (-7 + (0 * 60 + 5 * 3600)) ∧ Fits64 (2 ^ 60 + -3 * 1000) ∧ Fits64 (micros 0 0 5 0 (-7) (-3) (2 ^ 60) / 86400000000) := by unfold Fits64 micros; decide

/-- rounding that is exact meets the assumption, and a negative duration -/
example : IsRound (fun z => z) := ⟨by intro z; simp only [sub_self, abs_zero]; positivity, fun _ _ => rfl⟩
example : toTimedelta divmod 0 0 0 0 (-1) 0 (-1) = (-1, 86398, 999999) := by decide

/-! ## C42 -/

/-- Gregorian leap years (spec vocabulary) -/
def Leap (y : Int) : Prop := 4 ∣ y ∧ (¬ 100 ∣ y ∨ 400 ∣ y)

instance (y : Int) : Decidable (Leap y) := inferInstanceAs (Decidable (_ ∧ _))

/-- days in a month (spec vocabulary) -/
def monthLen (y m : Int) : Int :=
  if m = 2 then (if Leap y then 29 else 28) else if m = 4 ∨ m = 6 ∨ m = 9 ∨ m = 11 then 30 else 31

/-- is a calendar date (spec vocabulary) -/
def ValidDate (x : Int × Int × Int) : Prop := 1 ≤ x.2.1 ∧ x.2.1 ≤ 12 ∧ 1 ≤ x.2.2 ∧ x.2.2 ≤ monthLen x.1 x.2.1

/-- the day after a date (spec vocabulary) -/
def nextDay (x : Int × Int × Int) : Int × Int × Int :=
  if x.2.2 < monthLen x.1 x.2.1 then (x.1, x.2.1, x.2.2 + 1)
  else if x.2.1 < 12 then (x.1, x.2.1 + 1, 1)
  else (x.1 + 1, 1, 1)

theorem isLeapYear_iff (y : Int) : isLeapYear y = true ↔ Leap y := by
  unfold isLeapYear Leap
  have h1 := Int.dvd_iff_tmod_eq_zero (a := 4) (b := y)
  have h2 := Int.dvd_iff_tmod_eq_zero (a := 100) (b := y)
  have h3 := Int.dvd_iff_tmod_eq_zero (a := 400) (b := y)
  simp only [Bool.and_eq_true, beq_iff_eq, Bool.or_eq_true, bne_iff_ne]
  rw [h1, h2, h3]

/-- days before year `y`, counted from 1970 -/
def yearStart (y : Int) : Int := 365 * (y - 1970) + ((y - 1) / 4 - (y - 1) / 100 + (y - 1) / 400) - 477

def yearLen (y : Int) : Int := if Leap y then 366 else 365

theorem yearStart_succ (y : Int) : yearStart (y + 1) = yearStart y + yearLen y := by
  unfold yearStart yearLen
  by_cases h : Leap y
  · rw [if_pos h]; unfold Leap at h; omega
  · rw [if_neg h]; unfold Leap at h; omega

theorem days2YearsDays_spec (d : Int) : yearStart (days2YearsDays d).1 + (days2YearsDays d).2 = d ∧ 0 ≤ (days2YearsDays d).2 ∧
    (days2YearsDays d).2 < yearLen (days2YearsDays d).1 := by
  unfold days2YearsDays extractUnit divmod
  dsimp only
  have e1 : ¬ (d - (365 * 30 + 7) - (400 * 365 + 100 - 4 + 1) * ((d - (365 * 30 + 7)) / (400 * 365 + 100 - 4 + 1)) < 0) := by omega
  rw [if_neg e1]
  obtain ⟨q, hq⟩ : ∃ q, q = (d - (365 * 30 + 7)) / (400 * 365 + 100 - 4 + 1) := ⟨_, rfl⟩
  obtain ⟨r, hr⟩ : ∃ r, r = d - (365 * 30 + 7) - (400 * 365 + 100 - 4 + 1) * ((d - (365 * 30 + 7)) / (400 * 365 + 100 - 4 + 1)) := ⟨_, rfl⟩
  have hd : d = 10957 + 146097 * q + r ∧ 0 ≤ r ∧ r < 146097 := by omega
  simp only [← hq]
  rw [← hq] at hr
  rw [← hr]
  clear hq hr e1
  obtain ⟨hd, h0, h1⟩ := hd
  subst hd
  by_cases c1 : r ≥ 366
  · rw [if_pos c1]
    rw [Int.tdiv_eq_ediv_of_nonneg (by omega), Int.tmod_eq_emod_of_nonneg (by omega)]
    obtain ⟨c, hc⟩ : ∃ c, c = (r - 1) / (100 * 365 + 25 - 1) := ⟨_, rfl⟩
    obtain ⟨u, hu⟩ : ∃ u, u = (r - 1) % (100 * 365 + 25 - 1) := ⟨_, rfl⟩
    rw [← hc, ← hu]
    have hr : r = 36524 * c + u + 1 ∧ 0 ≤ u ∧ u < 36524 ∧ 0 ≤ c ∧ c ≤ 3 := by omega
    clear hc hu
    obtain ⟨rfl, u0, u1, c0, c3⟩ := hr
    by_cases c2 : u ≥ 365
    · rw [if_pos c2]
      rw [Int.tdiv_eq_ediv_of_nonneg (by omega), Int.tmod_eq_emod_of_nonneg (by omega)]
      obtain ⟨o, ho⟩ : ∃ o, o = (u + 1) / (4 * 365 + 1) := ⟨_, rfl⟩
      obtain ⟨v, hv⟩ : ∃ v, v = (u + 1) % (4 * 365 + 1) := ⟨_, rfl⟩
      rw [← ho, ← hv]
      have hr : u = 1461 * o + v - 1 ∧ 0 ≤ v ∧ v < 1461 ∧ 0 ≤ o ∧ o ≤ 24 := by omega
      clear ho hv
      obtain ⟨rfl, v0, v1, o0, o3⟩ := hr
      by_cases c4 : v ≥ 366
      · rw [if_pos c4]
        rw [Int.tdiv_eq_ediv_of_nonneg (by omega), Int.tmod_eq_emod_of_nonneg (by omega)]
        obtain ⟨y, hy⟩ : ∃ y, y = (v - 1) / 365 := ⟨_, rfl⟩
        obtain ⟨w, hw⟩ : ∃ w, w = (v - 1) % 365 := ⟨_, rfl⟩
        rw [← hy, ← hw]
        have hr : v = 365 * y + w + 1 ∧ 0 ≤ w ∧ w < 365 ∧ 1 ≤ y ∧ y ≤ 3 := by omega
        clear hy hw
        obtain ⟨rfl, w0, w1, y1, y3⟩ := hr
        dsimp only
        have d1 : (400 * q + 100 * c + 4 * o + y + 2000 - 1) / 4 = 100 * q + 25 * c + o + 500 := by omega
        have d2 : (400 * q + 100 * c + 4 * o + y + 2000 - 1) / 100 = 4 * q + c + 20 := by omega
        have d3 : (400 * q + 100 * c + 4 * o + y + 2000 - 1) / 400 = q + 5 := by omega
        unfold yearStart yearLen
        rw [d1, d2, d3]
        refine ⟨by omega, w0, ?_⟩
        split <;> omega
      · rw [if_neg c4]
        dsimp only
        have ho : 1 ≤ o := by omega
        have d1 : (400 * q + 100 * c + 4 * o + 2000 - 1) / 4 = 100 * q + 25 * c + o + 499 := by omega
        have d2 : (400 * q + 100 * c + 4 * o + 2000 - 1) / 100 = 4 * q + c + 20 := by omega
        have d3 : (400 * q + 100 * c + 4 * o + 2000 - 1) / 400 = q + 5 := by omega
        have hl : Leap (400 * q + 100 * c + 4 * o + 2000) := by unfold Leap; omega
        unfold yearStart yearLen
        rw [d1, d2, d3, if_pos hl]
        exact ⟨by omega, v0, by omega⟩
    · rw [if_neg c2]
      dsimp only
      unfold yearStart yearLen
      refine ⟨by omega, u0, ?_⟩
      split <;> omega
  · rw [if_neg c1]
    dsimp only
    have hl : Leap (400 * q + 2000) := by unfold Leap; omega
    unfold yearStart yearLen
    rw [if_pos hl]
    exact ⟨by omega, h0, by omega⟩

theorem yearStart_mono (a b : Int) (h : a ≤ b) : yearStart a ≤ yearStart b := by
  unfold yearStart; omega

/-- year and day of year are determined -/
theorem year_unique (y y' r r' : Int) (h : yearStart y + r = yearStart y' + r') (h0 : 0 ≤ r) (h1 : r < yearLen y) (h0' : 0 ≤ r') (h1' : r' < yearLen y') :
    y = y' ∧ r = r' := by
  have a : y = y' := by
    rcases lt_trichotomy y y' with c | c | c
    · have := yearStart_mono (y + 1) y' (by omega)
      rw [yearStart_succ] at this; omega
    · exact c
    · have := yearStart_mono (y' + 1) y (by omega)
      rw [yearStart_succ] at this; omega
  subst a
  omega

/-- days in a month of a leap year (`true`) or common year -/
def monthLenB (b : Bool) (m : Int) : Int :=
  if m = 2 then (if b then 29 else 28) else if m = 4 ∨ m = 6 ∨ m = 9 ∨ m = 11 then 30 else 31

theorem monthLen_eq (y m : Int) : monthLen y m = monthLenB (isLeapYear y) m := by
  unfold monthLen monthLenB
  by_cases h : Leap y
  · simp [h, (isLeapYear_iff y).2 h]
  · have : isLeapYear y = false := by
      cases h' : isLeapYear y
      · rfl
      · exact absurd ((isLeapYear_iff y).1 h') h
    simp [h, this]

theorem yearLen_eq (y : Int) : yearLen y = if isLeapYear y then 366 else 365 := by
  unfold yearLen
  by_cases h : Leap y
  · simp [h, (isLeapYear_iff y).2 h]
  · have : isLeapYear y = false := by
      cases h' : isLeapYear y
      · rfl
      · exact absurd ((isLeapYear_iff y).1 h') h
    simp [h, this]

/-- what is checked for one day of the year -/
def monthCheck (b : Bool) (r : Nat) : Bool :=
  match monthLoop (monthTable b) 0 r with
  | none => false
  | some (m, d) =>
    decide (1 ≤ m ∧ m ≤ 12 ∧ 1 ≤ d ∧ d ≤ monthLenB b m) &&
    (if r + 1 < (if b then 366 else 365) then
      monthLoop (monthTable b) 0 (r + 1) == (if d < monthLenB b m then some (m, d + 1) else if m < 12 then some (m + 1, 1) else none)
     else decide (m = 12 ∧ d = 31))

/-- all days of both kinds of year (a complete finite table) -/
theorem monthCheck_all : ∀ b : Bool, ∀ r < (if b then 366 else 365), monthCheck b r = true := by decide +kernel

theorem monthLoop_spec (y : Int) (r : Int) (h0 : 0 ≤ r) (h1 : r < yearLen y) : ∃ m d, monthLoop (monthTable (isLeapYear y)) 0 r = some (m, d) ∧ ValidDate (y, m, d) ∧
    (r + 1 < yearLen y → (monthLoop (monthTable (isLeapYear y)) 0 (r + 1)).map (fun x => (y, x.1, x.2)) = some (nextDay (y, m, d))) ∧
    (r + 1 = yearLen y → m = 12 ∧ d = 31) := by
  obtain ⟨n, rfl⟩ := Int.eq_ofNat_of_zero_le h0
  rw [yearLen_eq] at *
  unfold ValidDate nextDay
  simp only [monthLen_eq]
  generalize isLeapYear y = b at *
  have hc := monthCheck_all b n (by cases b <;> simp at * <;> omega)
  unfold monthCheck at hc
  cases hm : monthLoop (monthTable b) 0 (n : Int) with
  | none => rw [hm] at hc; simp at hc
  | some md =>
    obtain ⟨m, d⟩ := md
    rw [hm] at hc
    simp only [Bool.and_eq_true, decide_eq_true_eq] at hc
    refine ⟨m, d, rfl, hc.1, ?_, ?_⟩
    · intro h
      have h2 := hc.2
      rw [if_pos (by cases b <;> simp at * <;> omega)] at h2
      rw [beq_iff_eq] at h2
      rw [h2]
      by_cases c1 : d < monthLenB b m
      · simp [c1]
      · by_cases c2 : m < 12
        · simp [c1, c2]
        · exfalso
          rw [if_neg c1, if_neg c2] at h2
          have := monthCheck_all b (n + 1) (by cases b <;> simp at * <;> omega)
          unfold monthCheck at this
          push_cast at this
          rw [h2] at this
          simp at this
    · intro h
      have h2 := hc.2
      rw [if_neg (by cases b <;> simp at * <;> omega)] at h2
      simpa using h2

/-- C42: the conversion never fails and always gives a calendar date -/
theorem C42_valid (d : Int) : ∃ x, days2Components d = some x ∧ ValidDate x := by
  obtain ⟨-, h0, h1⟩ := days2YearsDays_spec d
  obtain ⟨m, dd, e, v, -⟩ := monthLoop_spec (days2YearsDays d).1 (days2YearsDays d).2 h0 h1
  refine ⟨_, ?_, v⟩
  unfold days2Components
  simp only [e, Option.map_some]

/-- C42: day 0 is 1970-01-01 -/
theorem C42_epoch : days2Components 0 = some (1970, 1, 1) := by decide

/-- C42: the next day number is the next calendar day, for every integer day number: with `C42_epoch` this determines the conversion
for all days before and after the epoch -/
theorem C42_next (d : Int) : days2Components (d + 1) = (days2Components d).map nextDay := by
  obtain ⟨e, h0, h1⟩ := days2YearsDays_spec d
  obtain ⟨e', h0', h1'⟩ := days2YearsDays_spec (d + 1)
  obtain ⟨m, dd, hm, v, hn, hl⟩ := monthLoop_spec (days2YearsDays d).1 (days2YearsDays d).2 h0 h1
  have hd : days2Components d = some ((days2YearsDays d).1, m, dd) := by
    unfold days2Components; simp only [hm, Option.map_some]
  rw [hd, Option.map_some]
  have hd' : days2Components (d + 1) = (monthLoop (monthTable (isLeapYear (days2YearsDays (d + 1)).1)) 0 (days2YearsDays (d + 1)).2).map
      (fun md => ((days2YearsDays (d + 1)).1, md.1, md.2)) := rfl
  rw [hd']
  generalize days2YearsDays (d + 1) = z' at *
  generalize days2YearsDays d = z at *
  obtain ⟨y, r⟩ := z
  obtain ⟨y', r'⟩ := z'
  dsimp only at *
  by_cases c : r + 1 < yearLen y
  · obtain ⟨rfl, rfl⟩ := year_unique y' y r' (r + 1) (by omega) h0' h1' (by omega) c
    exact hn c
  · have c' : r + 1 = yearLen y := by omega
    obtain ⟨rfl, rfl⟩ := hl c'
    have hpos : 0 < yearLen (y + 1) := by unfold yearLen; split <;> omega
    obtain ⟨rfl, rfl⟩ := year_unique y' (y + 1) r' 0 (by rw [yearStart_succ]; omega) h0' h1' (by omega) hpos
    obtain ⟨m, dd, hm', -⟩ := monthLoop_spec (y + 1) 0 (by omega) hpos
    have : monthLoop (monthTable (isLeapYear (y + 1))) 0 0 = some (1, 1) := by
      cases isLeapYear (y + 1) <;> rfl
    rw [this]
    unfold nextDay monthLen
    simp

/-- a leap day before the epoch and one after -/
example : days2Components (-672) = some (1968, 2, 29) ∧ days2Components 11016 = some (2000, 2, 29) ∧ days2Components (-719162) = some (1, 1, 1) := by decide

end Tablite
