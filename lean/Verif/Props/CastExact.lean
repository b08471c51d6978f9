import Verif.Props.Cast
/-!
# C93: exactly which values survive a conversion
-/
namespace Tablite

/-- **C93**, exactly: an integer converted to bool is true when it is not zero if and only if it is not negative, a float if and only if it is zero or at
least one; smaller numbers become False -/
theorem C93_truth_exact (rt : CastRt) :
    (∀ n : Int, ∃ b, castVal rt .bool (.int n) = .ok (.bool b) ∧ ((b = true ↔ n ≠ 0) ↔ 0 ≤ n)) ∧
    ∀ q : Rat, ∃ b, castVal rt .bool (.float q) = .ok (.bool b) ∧ ((b = true ↔ q ≠ 0) ↔ q = 0 ∨ 1 ≤ q) := by
  constructor
  · intro n
    refine ⟨decide (1 ≤ n), rfl, ?_⟩
    rw [decide_eq_true_iff]
    omega
  · intro q
    refine ⟨decide (1 ≤ q), rfl, ?_⟩
    rw [decide_eq_true_iff]
    constructor
    · intro h
      by_cases hq : q = 0
      · exact .inl hq
      · exact .inr (h.2 hq)
    · rintro (rfl | h)
      · simp only [ne_eq, not_true_eq_false, iff_false]
        decide
      · refine iff_of_true h ?_
        rintro rfl
        exact absurd h (by decide)

/-- **C93**, exactly: a datetime of the years 1 to 9999 survives conversion to text and back if and only if it is a whole number of seconds, and so does a
time of day -/
theorem C93_clock_exact (rt : CastRt) (us : Int) : (InYears (us / dayUs) → (BackAgain rt .str (.datetime us) ↔ us % 1000000 = 0)) ∧
    (0 ≤ us → us < dayUs → (BackAgain rt .str (.time us) ↔ us % 1000000 = 0)) := by
  obtain ⟨hms, ht, hc⟩ := fmtTime_form us
  have hu := ht.us_eq
  constructor
  · intro hy
    obtain ⟨t, x, h1, h2, h3, h4, h5⟩ := fmtDate_text (us / dayUs) hy us rfl
    have hdt : inferDatetime false (t ++ ' ' :: fmtTime us) = .ok (x, hms, 0, none) :=
      C92_datetime_partial false true t _ x hms 0 ' ' h2 h3 (by simp) (Or.inl rfl) h5 ht
    have e1 : castVal rt .str (.datetime us) = .ok (.str (t ++ ' ' :: fmtTime us)) := by
      simp only [castVal, castDatetime, fmtDateTime, h1, Except.bind, Except.map]
    have e2 : castVal rt .datetime (.str (t ++ ' ' :: fmtTime us)) = .ok (.datetime (us - us % 1000000)) := by
      simp only [castVal, castStr, inferDatetimeAny, hdt, orElseValue, Except.bind, Except.map, timeUs, hu, hc, h4]
      unfold dayUs
      congr 2
      omega
    constructor
    · rintro ⟨w, hw, -, hb⟩
      rw [e1] at hw
      cases hw
      simp only [NV.kind] at hb
      rw [e2] at hb
      injection hb with hb
      injection hb with hb
      omega
    · intro h
      refine ⟨_, e1, rfl, ?_⟩
      simp only [NV.kind]
      rw [e2, h, Int.sub_zero]
  · intro h0 h1
    have e2 : castVal rt .time (.str (fmtTime us)) = .ok (.time (us - us % 1000000)) := by
      simp only [castVal, castStr, C92_accepts _ _ _ ht, Except.map, timeUs, hu, hc]
      unfold dayUs at h1
      congr 2
      omega
    constructor
    · rintro ⟨w, hw, -, hb⟩
      have hw' : (Except.ok (.str (fmtTime us)) : Except Err NV) = .ok w := hw
      cases hw'
      simp only [NV.kind] at hb
      rw [e2] at hb
      injection hb with hb
      injection hb with hb
      omega
    · intro h
      refine ⟨.str (fmtTime us), rfl, rfl, ?_⟩
      simp only [NV.kind]
      rw [e2, h, Int.sub_zero]

theorem tdiv_neg_nat (n k : Nat) : (-(n : Int)).tdiv k = -((n / k : Nat) : Int) := by
  rw [Int.neg_tdiv, Int.tdiv_eq_ediv_of_nonneg (by omega)]
  simp

/-- **C93**, exactly: the time of a datetime is its time of day if and only if it is from 1970 on or midnight; for all others before 1970 there is no time -/
theorem C93_time_exact (rt : CastRt) (us : Int) :
    (∃ t, castVal rt .time (.datetime us) = .ok (.time t) ∧ timeFields t = .ok (dayTime us)) ↔ 0 ≤ us ∨ us % 86400000000 = 0 := by
  by_cases h : 0 ≤ us
  · exact iff_of_true (C93_time_partial rt us h) (.inl h)
  have hex : ∃ n : Nat, us = -(n : Int) := ⟨us.natAbs, by omega⟩
  obtain ⟨n, rfl⟩ := hex
  have e1 := tdiv_neg_nat n 3600000000
  have e2 := tdiv_neg_nat n 60000000
  have e3 := tdiv_neg_nat n 1000000
  have e4 : (-((n / 3600000000 : Nat) : Int)).tmod 24 = -((n / 3600000000 % 24 : Nat) : Int) := by
    rw [Int.neg_tmod, Int.tmod_eq_emod_of_nonneg (by omega)]
    simp
  push_cast at e1 e2 e3 e4
  have g2 : n / 3600000000 = n / 60000000 / 60 := by rw [Nat.div_div_eq_div_mul]
  have g3 : n / 60000000 = n / 1000000 / 60 := by rw [Nat.div_div_eq_div_mul]
  have hfields : timeFields (-(n : Int)) = if n % 86400000000 = 0 then .ok (0, 0, 0, 0) else .error .other := by
    unfold timeFields
    dsimp only
    rw [e1, e2, e3, e4]
    by_cases hz : n % 86400000000 = 0
    · rw [if_pos hz, if_pos (by omega)]
      refine congrArg _ (Prod.ext ?_ (Prod.ext ?_ (Prod.ext ?_ ?_))) <;> dsimp only <;> omega
    · rw [if_neg hz, if_neg]
      omega
  constructor
  · rintro ⟨t, ht, hf⟩
    have ht' : (Except.ok (.time (-(n : Int))) : Except Err NV) = .ok (.time t) := ht
    cases ht'
    rw [hfields] at hf
    split at hf
    · right; omega
    · cases hf
  · rintro (h' | h')
    · exact absurd h' h
    · refine ⟨-(n : Int), rfl, ?_⟩
      rw [hfields, if_pos (by omega)]
      unfold dayTime
      rw [h']
      rfl

/-- noon and midnight of the last day of 1969; half a second -/
example (rt : CastRt) : castVal rt .time (.datetime (-43200000000)) = .ok (.time (-43200000000)) ∧ timeFields (-43200000000) = .error .other ∧
    timeFields (-86400000000) = .ok (0, 0, 0, 0) ∧ InYears (500000 / dayUs) ∧ (500000 : Int) % 1000000 ≠ 0 := by
  refine ⟨rfl, by decide, by decide, by unfold InYears dayUs; decide, by decide⟩

end Tablite
