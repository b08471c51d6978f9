import Verif.Props.InferTime
import Verif.Props.InferFloat
import Verif.Props.Npy
import Verif.Props.Select
import Verif.Props.DateText
import Verif.Props.Double
/-!
# C93: conversion of values between types

The conversions `column_select` uses: what survives a conversion and the way back, and what is lost.
-/

namespace Tablite

/-- what is assumed of floating point: rounding as in `IsRound`, and `parseFloat` rounds the number written -/
structure CastRtOk (rt : CastRt) : Prop where
  round : IsRound rt.fl
  pf : ∀ n : Int, rt.pf (nimIntText n) = some (rt.fl n)

/-- the days of the years 1 to 9999, counted from 1970-01-01 -/
def InYears (d : Int) : Prop := -719162 ≤ d ∧ d ≤ 2932896

/-- converted to `k` and back, a value is what it was -/
def BackAgain (rt : CastRt) (k : SelKind) (v : NV) : Prop := ∃ w, castVal rt k v = .ok w ∧ w.kind = k ∧ castVal rt v.kind w = .ok v

/-! ## the requested type -/

theorem inferBool_bool (s : List Char) (x : InfVal) (h : inferBool s = .ok x) : ∃ b, x = .bool b := by
  unfold inferBool at h
  dsimp only at h
  split at h
  · cases h; exact ⟨_, rfl⟩
  · split at h
    · cases h; exact ⟨_, rfl⟩
    · cases h

theorem map_kind {β : Type} (x : Except Err β) (f : β → NV) (w : NV) (h : x.map f = .ok w) : ∃ b, x = .ok b ∧ w = f b := by
  cases x with
  | error e => cases h
  | ok b => cases h; exact ⟨b, rfl, rfl⟩

/-- **C93** a conversion gives a value of the type asked for, or none -/
theorem C93_kind (rt : CastRt) (k : SelKind) (v w : NV) (h : castVal rt k v = .ok w) : w.kind = k ∧ k ≠ .none ∧ v ≠ .none := by
  have key : ∀ {β : Type} (x : Except Err β) (f : β → NV) (k : SelKind), (∀ b, (f b).kind = k) → x.map f = .ok w → w.kind = k := by
    intro β x f k hf hx
    obtain ⟨b, -, rfl⟩ := map_kind x f w hx
    exact hf b
  cases v with
  | none => cases h
  | bool b =>
    cases k <;> simp only [castVal, castBool] at h <;>
      first | (cases h; done) | (cases h; exact ⟨rfl, by simp, by simp⟩) | exact ⟨key _ _ _ (fun _ => rfl) h, by simp, by simp⟩
  | int b =>
    cases k <;> simp only [castVal, castInt] at h <;>
      first | (cases h; done) | (cases h; exact ⟨rfl, by simp, by simp⟩) | exact ⟨key _ _ _ (fun _ => rfl) h, by simp, by simp⟩
  | float b =>
    cases k <;> simp only [castVal, castFloat] at h <;>
      first | (cases h; done) | (cases h; exact ⟨rfl, by simp, by simp⟩) | exact ⟨key _ _ _ (fun _ => rfl) h, by simp, by simp⟩
  | date b =>
    cases k <;> simp only [castVal, castDate] at h <;>
      first | (cases h; done) | (cases h; exact ⟨rfl, by simp, by simp⟩) | exact ⟨key _ _ _ (fun _ => rfl) h, by simp, by simp⟩
  | time b =>
    cases k <;> simp only [castVal, castTime] at h <;>
      first | (cases h; done) | (cases h; exact ⟨rfl, by simp, by simp⟩) | exact ⟨key _ _ _ (fun _ => rfl) h, by simp, by simp⟩
  | datetime b =>
    cases k <;> simp only [castVal, castDatetime] at h <;>
      first | (cases h; done) | (cases h; exact ⟨rfl, by simp, by simp⟩) | exact ⟨key _ _ _ (fun _ => rfl) h, by simp, by simp⟩
  | str s =>
    cases k with
    | bool =>
      simp only [castVal, castStr] at h
      obtain ⟨x, hx, rfl⟩ := map_kind _ _ _ h
      obtain ⟨b, rfl⟩ := inferBool_bool s x hx
      exact ⟨rfl, by simp, by simp⟩
    | _ =>
      simp only [castVal, castStr] at h
      first | (cases h; done) | (cases h; exact ⟨rfl, by simp, by simp⟩) | exact ⟨key _ _ _ (fun _ => rfl) h, by simp, by simp⟩

/-- **C93** a value of the type asked for is kept -/
theorem C93_same (rt : CastRt) (v : NV) (h : v ≠ .none) : castVal rt v.kind v = .ok v := by
  cases v <;> first | rfl | exact absurd rfl h

/-- the conversions as `column_select` (C45, C46) uses them: it rejects a row where a conversion gives nothing -/
def castOps (rt : CastRt) : SelOps NV where
  kindOf := NV.kind
  emptyText := .str []
  noneVal := .none
  conv := fun k v => (castVal rt k v).toOption
  kind_empty := rfl
  kind_none := by intro v; cases v <;> simp [NV.kind]
  conv_same := by
    intro v h
    rw [C93_same rt v (by rintro rfl; exact h rfl)]; rfl
  conv_none := by intro k; rfl

/-- **C93** dates have no time of day, times no date: these conversions reject every value -/
theorem C93_rejects (rt : CastRt) (us : Int) : castVal rt .time (.date us) = .error .value ∧ castVal rt .date (.time us) = .error .value ∧
    castVal rt .datetime (.time us) = .error .value := ⟨rfl, rfl, rfl⟩

/-! ## days -/

/-- what is checked for one day of a year -/
def monthBack (b : Bool) (r : Nat) : Bool :=
  match monthLoop (monthTable b) 0 r with
  | some (m, d) => decide (monthOff b m + d - 1 = r)
  | none => false

/-- all days of both kinds of year (a complete finite table) -/
theorem monthBack_all : ∀ b : Bool, ∀ r < (if b then 366 else 365), monthBack b r = true := by decide +kernel

theorem epoch_components (d : Int) (h : InYears d) : ∃ y m dd : Nat, days2Components d = some ((y : Int), (m : Int), (dd : Int)) ∧ DateOk (y, m, dd) ∧ toEpochDay y m dd = d := by
  obtain ⟨s0, s1, s2⟩ := days2YearsDays_spec d
  have hd : days2Components d = (monthLoop (monthTable (isLeapYear (days2YearsDays d).1)) 0 (days2YearsDays d).2).map fun md => ((days2YearsDays d).1, md.1, md.2) := rfl
  generalize (days2YearsDays d).1 = y at *
  generalize (days2YearsDays d).2 = r at *
  have hyl : yearLen y ≤ 366 := by unfold yearLen; split <;> omega
  have hy : 1 ≤ y ∧ y ≤ 9999 := by
    obtain ⟨h1, h2⟩ := h
    unfold yearStart at s0
    constructor
    · by_contra hc
      have e1 : (y - 1) / 4 ≤ (y - 1 + 3) / 4 := by omega
      have hy0 : y ≤ 0 := by omega
      by_cases hy2 : y ≤ -10
      · omega
      · have : y = 0 ∨ y = -1 ∨ y = -2 ∨ y = -3 ∨ y = -4 ∨ y = -5 ∨ y = -6 ∨ y = -7 ∨ y = -8 ∨ y = -9 := by omega
        rcases this with rfl | rfl | rfl | rfl | rfl | rfl | rfl | rfl | rfl | rfl <;> norm_num [yearLen, Leap] at s0 s2 <;> omega
    · omega
  obtain ⟨m, dd, hm, hv, -, -⟩ := monthLoop_spec y r s1 s2
  obtain ⟨v1, v2, v3, v4⟩ := hv
  dsimp only at v1 v2 v3 v4
  refine ⟨y.toNat, m.toNat, dd.toNat, ?_, ⟨?_, ?_, ?_⟩, ?_⟩
  · rw [hd, hm, Option.map_some, Int.toNat_of_nonneg (by omega), Int.toNat_of_nonneg (by omega), Int.toNat_of_nonneg (by omega)]
  · dsimp only; omega
  · dsimp only; omega
  · rw [Int.toNat_of_nonneg (by omega), Int.toNat_of_nonneg (by omega), Int.toNat_of_nonneg (by omega)]
    exact ⟨v1, v2, v3, v4⟩
  · rw [Int.toNat_of_nonneg (by omega), Int.toNat_of_nonneg (by omega), Int.toNat_of_nonneg (by omega), toEpochDay_eq y m dd hy.1 v1 v2]
    obtain ⟨n, rfl⟩ := Int.eq_ofNat_of_zero_le s1
    have hb := monthBack_all (isLeapYear y) n (by
      rw [yearLen_eq] at s2
      split at s2 <;> rename_i hl
      · rw [if_pos hl]; omega
      · rw [if_neg hl]; omega)
    unfold monthBack at hb
    rw [hm] at hb
    have := of_decide_eq_true hb
    omega

theorem days_of_date (x : Nat × Nat × Nat) (h : DateOk x) : InYears (dateDays x) := by
  obtain ⟨y, m, d⟩ := x
  obtain ⟨h0, h1, h2, h3, h4, h5⟩ := h
  dsimp only at h0 h1 h2 h3 h4 h5
  unfold dateDays
  dsimp only
  rw [toEpochDay_eq y m d (by omega) h2 h3]
  have hl : monthOff (isLeapYear y) m + d - 1 < yearLen y ∧ 0 ≤ monthOff (isLeapYear y) m + d - 1 := by
    have hlen : monthLen y m ≤ 31 := by unfold monthLen; split <;> (try split) <;> omega
    rw [monthLen_eq] at h5 hlen
    have := monthLoop_off (isLeapYear y) m d (by omega) (by omega) (by omega) (by omega) h5
    rw [yearLen_eq]
    exact ⟨this.2.2, this.2.1⟩
  unfold InYears
  have hys : yearStart 1 ≤ yearStart y ∧ yearStart y + yearLen y ≤ yearStart 10000 := by
    have e := yearLen_eq y
    have hle : ∀ z : Int, 1 ≤ z → yearStart 1 ≤ yearStart z := by intro z hz; unfold yearStart; omega
    have hle2 : ∀ z : Int, z ≤ 10000 → yearStart z ≤ yearStart 10000 := by intro z hz; unfold yearStart; omega
    have hs : yearStart y + yearLen y = yearStart (y + 1) := by
      unfold yearStart yearLen
      split
      · rename_i hL; unfold Leap at hL; omega
      · rename_i hL; unfold Leap at hL; omega
    exact ⟨hle _ (by omega), by rw [hs]; exact hle2 _ (by omega)⟩
  have a1 : yearStart 1 = -719162 := by decide
  have a2 : yearStart 10000 = 2932897 := by decide
  omega

theorem midnight_eq (us : Int) (h : InYears (us / dayUs)) : midnight us = .ok (us / dayUs * dayUs) := by
  obtain ⟨y, m, d, hc, -, he⟩ := epoch_components _ h
  unfold midnight
  rw [hc]
  dsimp only
  rw [ymdUs, he]

theorem deltaUs_eq (fl : Rat → Rat) (hfl : IsRound fl) (v : Int) (h : InYears (v / 86400)) : deltaUs fl v = .ok (v * 1000000) := by
  have hv : |v| < 2 ^ 53 := by
    obtain ⟨h1, h2⟩ := h
    rw [abs_lt]; constructor <;> omega
  obtain ⟨e, r1, r2, r3, r4⟩ := C43_float fl hfl 0 0 0 0 v 0 0 (by simpa using (le_of_lt hv).trans (by norm_num)) (by norm_num)
  unfold deltaUs
  dsimp only
  generalize toTimedelta (divmodF fl) 0 0 0 0 v 0 0 = x at *
  unfold micros at e
  have hd : x.1 = v / 86400 := by omega
  obtain ⟨y, m, d, hc, -, he⟩ := epoch_components _ h
  rw [hd, hc]
  dsimp only
  rw [ymdUs, he]
  unfold dayUs
  congr 1
  omega

/-! ## truth values -/

theorem truncRat_int (n : Int) : truncRat (n : Rat) = n := by
  unfold truncRat
  simp

theorem secondsUs_int (fl : Rat → Rat) (hfl : IsRound fl) (n : Int) : secondsUs fl (n : Rat) = n * 1000000 := by
  unfold secondsUs
  dsimp only
  rw [truncRat_int, sub_self, zero_mul]
  have := hfl.int 0 (by norm_num)
  rw [Int.cast_zero] at this
  rw [this]
  have := truncRat_int 0
  rw [Int.cast_zero] at this
  rw [this, add_zero]

/-- **C93** a truth value becomes 0 or 1, `True` or `False`, the first or second second of 1970 or of a day, and each of these becomes the truth value again -/
theorem C93_bool (rt : CastRt) (h : CastRtOk rt) (b : Bool) (k : SelKind) (hk : k ≠ .date ∧ k ≠ .none) : BackAgain rt k (.bool b) := by
  cases k with
  | none => exact absurd rfl hk.2
  | date => exact absurd rfl hk.1
  | bool => exact ⟨_, rfl, rfl, rfl⟩
  | int => exact ⟨_, rfl, rfl, by cases b <;> rfl⟩
  | float => exact ⟨_, rfl, rfl, by cases b <;> simp [NV.kind, castVal, castFloat]⟩
  | str => exact ⟨_, rfl, rfl, by
      have hb : ∀ b : Bool, inferBool (if b then "True".toList else "False".toList) = .ok (.bool b) := by decide +kernel
      simp only [castVal, NV.kind, castStr, hb b, Except.map, boolOf]⟩
  | datetime =>
    have := deltaUs_eq rt.fl h.round (b.toNat : Int) (by cases b <;> (unfold InYears; decide))
    refine ⟨.datetime ((b.toNat : Int) * 1000000), ?_, rfl, by cases b <;> rfl⟩
    simp only [castVal, castBool, this, Except.map]
  | time =>
    have := secondsUs_int rt.fl h.round (b.toNat : Int)
    refine ⟨.time ((b.toNat : Int) * 1000000), ?_, rfl, by cases b <;> rfl⟩
    simp only [castVal, castBool]
    rw [← this]
    simp

/-- full statement: a number is true exactly when it is not zero, as in Python -/
def C93_truth_statement : Prop := ∀ (rt : CastRt) (v : NV) (b : Bool), castVal rt .bool v = .ok (.bool b) →
  (∀ n, v = .int n → (b = true ↔ n ≠ 0)) ∧ (∀ q, v = .float q → (b = true ↔ q ≠ 0))

/-- **C93**, partial: this holds for whole numbers that are not negative.  Missing: negative numbers and fractions below one, which become False. -/
theorem C93_truth_partial (rt : CastRt) (n : Nat) : castVal rt .bool (.int n) = .ok (.bool (decide (n ≠ 0))) ∧
    castVal rt .bool (.float n) = .ok (.bool (decide (n ≠ 0))) := by
  constructor
  · simp only [castVal, castInt, Except.ok.injEq, NV.bool.injEq, decide_eq_decide]
    omega
  · simp only [castVal, castFloat, Except.ok.injEq, NV.bool.injEq, decide_eq_decide]
    rw [show ((1 : Rat) ≤ (n : Rat)) ↔ 1 ≤ n from by exact_mod_cast Iff.rfl]
    omega

theorem C93_truth_fails : ¬ C93_truth_statement := by
  intro h
  have := (h ⟨id, fun _ => none, fun _ => []⟩ (.int (-1)) false rfl).1 (-1) rfl
  revert this
  decide

/-! ## numbers -/

theorem digits_nimIntText (n : Int) : ∃ ds, Digits ds ∧ nimIntText n = (if n < 0 then ['-'] else []) ++ ds := by
  refine ⟨Nat.toDigits 10 n.natAbs, ?_, rfl⟩
  intro c hc
  exact Nat.isDigit_of_mem_toDigits (by decide) (by decide) hc

theorem strip_nimIntText (n : Int) : stripNum (nimIntText n) = nimIntText n ∧ nimIntText n ≠ [] := by
  obtain ⟨ds, hd, e⟩ := digits_nimIntText n
  constructor
  · apply stripNum_id
    intro c hc
    rw [e] at hc
    rcases List.mem_append.1 hc with hc | hc
    · split at hc
      · simp only [List.mem_singleton] at hc; subst hc; decide
      · cases hc
    · have := hd c hc
      refine ⟨?_, ?_, ?_⟩ <;> rintro rfl <;> revert this <;> decide
  · unfold nimIntText
    intro hc
    have := (List.append_eq_nil_iff.1 hc).2
    exact Nat.toDigits_ne_nil this

theorem inferFloatAny_int (rt : CastRt) (h : CastRtOk rt) (n : Int) : inferFloatAny rt.pf (nimIntText n) = .ok (rt.fl n) := by
  obtain ⟨h1, h2⟩ := strip_nimIntText n
  unfold inferFloatAny inferFloat
  rw [h1]
  dsimp only
  rw [if_neg h2, if_pos rfl, h.pf]
  rfl

/-- full statement: whole numbers survive conversion to text and back, to a float and back, and to a datetime and back -/
def C93_int_statement : Prop := ∀ (rt : CastRt), CastRtOk rt → ∀ v : Int, Int64 v →
  BackAgain rt .str (.int v) ∧ BackAgain rt .float (.int v) ∧ (InYears (v / 86400) → BackAgain rt .datetime (.int v))

theorem inSeconds_mul (v : Int) : inSeconds (v * 1000000) = v := by
  unfold inSeconds
  exact Int.mul_tdiv_cancel v (by decide)

/-- **C93**, partial: this holds up to 2^53, for datetimes without that bound.  Missing: larger numbers, as text is read as a float. -/
theorem C93_int_partial (rt : CastRt) (h : CastRtOk rt) (v : Int) :
    (|v| ≤ 2 ^ 53 → BackAgain rt .str (.int v) ∧ BackAgain rt .float (.int v)) ∧ (InYears (v / 86400) → BackAgain rt .datetime (.int v)) := by
  refine ⟨fun hv => ⟨⟨_, rfl, rfl, ?_⟩, ⟨_, rfl, rfl, ?_⟩⟩, fun hy => ⟨.datetime (v * 1000000), ?_, rfl, ?_⟩⟩
  · simp only [castVal, NV.kind, castStr, inferFloatAny_int rt h v, Except.map, h.round.int v hv, truncRat_int]
  · simp only [castVal, NV.kind, castFloat, h.round.int v hv, truncRat_int]
  · simp only [castVal, castInt, deltaUs_eq rt.fl h.round v hy, Except.map]
  · simp only [castVal, NV.kind, castDatetime, inSeconds_mul]

/-! ## dates -/

theorem inSeconds_day (d : Int) : inSeconds (d * dayUs) = d * 86400 := by
  unfold dayUs
  rw [show d * 86400000000 = d * 86400 * 1000000 by ring, inSeconds_mul]

theorem day_div (d : Int) : d * dayUs / dayUs = d := Int.mul_ediv_cancel d (by decide)

theorem padDigits_spec (k n : Nat) : Digits (padDigits k n) ∧ (padDigits k n).length = k ∧ decVal (padDigits k n) = n % 10 ^ k := by
  induction k generalizing n with
  | zero => exact ⟨fun c hc => (by cases hc), rfl, by simp [padDigits, decVal, Nat.mod_one]⟩
  | succ k ih =>
    obtain ⟨h1, h2, h3⟩ := ih (n / 10)
    have hdig : ∀ r, r < 10 → (Char.ofNat (48 + r)).isDigit = true ∧ digitVal (Char.ofNat (48 + r)) = r := by decide
    obtain ⟨d1, d2⟩ := hdig (n % 10) (Nat.mod_lt _ (by decide))
    refine ⟨?_, ?_, ?_⟩
    · intro c hc
      rw [padDigits] at hc
      rcases List.mem_append.1 hc with hc | hc
      · exact h1 c hc
      · simp only [List.mem_singleton] at hc; subst hc; exact d1
    · rw [padDigits, List.length_append, h2]; rfl
    · rw [padDigits, decVal_append, h3, d2, pow_succ, Nat.mul_comm, Nat.mul_comm (10 ^ k) 10, Nat.mod_mul]
      omega

theorem fmtDate_text (d : Int) (h : InYears d) (us : Int) (hus : us / dayUs = d) : ∃ (s : List Char) (x : Int × Int × Int), fmtDate us = .ok s ∧
    DateText false s true x ∧ ValidDate x ∧ ymdUs x = d * dayUs ∧ ' ' ∉ s := by
  obtain ⟨y, m, dd, hc, hok, he⟩ := epoch_components d h
  obtain ⟨y1, y2, v1, v2, v3, v4⟩ := hok
  dsimp only at y1 y2 v1 v2 v3 v4
  have hlen : monthLen y m ≤ 31 := by unfold monthLen; split <;> (try split) <;> omega
  obtain ⟨p1, p2, p3⟩ := padDigits_spec 4 y
  obtain ⟨q1, q2, q3⟩ := padDigits_spec 2 m
  obtain ⟨r1, r2, r3⟩ := padDigits_spec 2 dd
  rw [Nat.mod_eq_of_lt (by omega)] at p3 q3 r3
  have ne : ∀ l : List Char, ∀ k, l.length = k + 1 → l ≠ [] := by intro l k hl e; rw [e] at hl; cases hl
  refine ⟨padDigits 4 y ++ '-' :: (padDigits 2 m ++ '-' :: padDigits 2 dd), (y, m, dd), ?_, ?_, ⟨v1, v2, v3, v4⟩, ?_, ?_⟩
  · unfold fmtDate
    rw [hus, hc]
    dsimp only
    rw [if_pos (by omega)]
    rfl
  · refine ⟨'-', _, _, _, by decide, p1, q1, r1, ne _ _ p2, ne _ _ q2, ne _ _ r2, rfl, ?_, ?_, ?_⟩
    · simp only [List.length_append, List.length_cons, p2, q2, r2]; omega
    · simp only [List.length_append, List.length_cons, p2, q2, r2]; omega
    · rw [if_pos rfl]
      exact ⟨rfl, p2, by rw [p3, q3, r3]⟩
  · rw [ymdUs, he]
  · intro hc
    have hb : ∀ l : List Char, Digits l → ' ' ∉ l := by
      intro l hl hm
      have := hl _ hm
      revert this; decide
    simp only [List.mem_append, List.mem_cons] at hc
    rcases hc with hc | hc | hc | hc | hc
    · exact hb _ p1 hc
    · revert hc; decide
    · exact hb _ q1 hc
    · revert hc; decide
    · exact hb _ r1 hc

/-- **C93** every date of the years 1 to 9999 survives conversion to text, to a whole number (of seconds), to a datetime, and back -/
theorem C93_date (rt : CastRt) (h : CastRtOk rt) (d : Int) (hd : InYears d) :
    BackAgain rt .str (.date (d * dayUs)) ∧ BackAgain rt .int (.date (d * dayUs)) ∧ BackAgain rt .float (.date (d * dayUs)) ∧
      BackAgain rt .datetime (.date (d * dayUs)) := by
  have hm := midnight_eq (d * dayUs) (by rw [day_div]; exact hd)
  rw [day_div] at hm
  have hdl : deltaUs rt.fl (d * 86400) = .ok (d * dayUs) := by
    rw [deltaUs_eq rt.fl h.round (d * 86400) (by rw [Int.mul_ediv_cancel d (by decide)]; exact hd)]
    unfold dayUs
    congr 1
    ring
  have hb : |d * 86400| ≤ 2 ^ 53 := by
    obtain ⟨h1, h2⟩ := hd
    rw [abs_le]; constructor <;> omega
  refine ⟨?_, ?_, ?_, ?_⟩
  · obtain ⟨s, x, h1, h2, h3, h4, -⟩ := fmtDate_text d hd (d * dayUs) (day_div d)
    refine ⟨.str s, by simp only [castVal, castDate, h1, Except.map], rfl, ?_⟩
    have := C39_year_first s x h2 h3
    simp only [castVal, NV.kind, castStr, inferDateAny, this, orElseAny, Except.map, orElseValue, h4]
  · refine ⟨.int (d * 86400), by simp only [castVal, castDate, inSeconds_day], rfl, ?_⟩
    simp only [castVal, NV.kind, castInt, hdl, Except.bind, hm, Except.map]
  · refine ⟨.float (((d * 86400 : Int)) : Rat), by simp only [castVal, castDate, inSeconds_day, h.round.int _ hb], rfl, ?_⟩
    simp only [castVal, NV.kind, castFloat, truncRat_int, hdl, Except.bind, hm, Except.map]
  · refine ⟨.datetime (d * dayUs), rfl, rfl, ?_⟩
    simp only [castVal, NV.kind, castDatetime, hm, Except.map]

/-- **C93** the date of a datetime is its day, before 1970 as well as after -/
theorem C93_day (rt : CastRt) (us : Int) (h : InYears (us / dayUs)) : castVal rt .date (.datetime us) = .ok (.date (us / dayUs * dayUs)) := by
  simp only [castVal, castDatetime, midnight_eq us h, Except.map]

/-! ## datetimes and times -/

theorem fmtTime_form (us : Int) : ∃ hms, TimeForm (fmtTime us) hms 0 ∧ clockUs hms 0 = us / 1000000 % 86400 * 1000000 := by
  have hs : (us / 1000000 % 86400).toNat < 86400 := by omega
  have hsi : ((us / 1000000 % 86400).toNat : Int) = us / 1000000 % 86400 := by omega
  unfold fmtTime
  dsimp only
  rw [← hsi, Int.toNat_natCast]
  generalize (us / 1000000 % 86400).toNat = s at *
  obtain ⟨p1, p2, p3⟩ := padDigits_spec 2 (s / 3600)
  obtain ⟨q1, q2, q3⟩ := padDigits_spec 2 (s % 3600 / 60)
  obtain ⟨r1, r2, r3⟩ := padDigits_spec 2 (s % 60)
  rw [Nat.mod_eq_of_lt (a := s / 3600) (by omega)] at p3
  rw [Nat.mod_eq_of_lt (a := s % 3600 / 60) (by omega)] at q3
  rw [Nat.mod_eq_of_lt (a := s % 60) (by omega)] at r3
  refine ⟨_, Or.inl (Or.inr ⟨_, _, _, [], ⟨p1, p2⟩, ⟨q1, q2⟩, ⟨r1, r2⟩, Or.inl ⟨rfl, rfl⟩, by rw [List.append_nil], rfl⟩), ?_⟩
  rw [p3, q3, r3]
  unfold clockUs
  simp only [List.getD_cons_zero, List.getD_cons_succ]
  omega

/-- full statement: datetimes and times of day survive conversion to text and back -/
def C93_clock_statement : Prop := ∀ (rt : CastRt), CastRtOk rt → ∀ us : Int, (InYears (us / dayUs) → BackAgain rt .str (.datetime us)) ∧
  (0 ≤ us → us < dayUs → BackAgain rt .str (.time us))

/-- **C93**, partial: this holds for whole seconds.  Missing: fractions of a second, which the text drops. -/
theorem C93_clock_partial (rt : CastRt) (s : Int) : (InYears (s / 86400) → BackAgain rt .str (.datetime (s * 1000000))) ∧
    (0 ≤ s → s < 86400 → BackAgain rt .str (.time (s * 1000000))) := by
  obtain ⟨hms, ht, hc⟩ := fmtTime_form (s * 1000000)
  rw [Int.mul_ediv_cancel s (by decide)] at hc
  have hu := ht.us_eq
  constructor
  · intro hy
    have hdiv : s * 1000000 / dayUs = s / 86400 := by unfold dayUs; omega
    obtain ⟨t, x, h1, h2, h3, h4, h5⟩ := fmtDate_text (s / 86400) hy (s * 1000000) hdiv
    have hdt : inferDatetime false (t ++ ' ' :: fmtTime (s * 1000000)) = .ok (x, hms, 0, none) :=
      C92_datetime_partial false true t _ x hms 0 ' ' h2 h3 (by simp) (Or.inl rfl) h5 ht
    refine ⟨.str (t ++ ' ' :: fmtTime (s * 1000000)), by simp only [castVal, castDatetime, fmtDateTime, h1, Except.bind, Except.map], rfl, ?_⟩
    simp only [castVal, NV.kind, castStr, inferDatetimeAny, hdt, orElseValue, Except.bind, Except.map, timeUs, hu, hc, h4]
    unfold dayUs
    congr 2
    omega
  · intro h0 h1
    refine ⟨.str (fmtTime (s * 1000000)), rfl, rfl, ?_⟩
    simp only [castVal, NV.kind, castStr, C92_accepts _ _ _ ht, Except.map, timeUs, hu, hc]
    congr 2
    omega

/-! ## a runtime that meets the assumptions -/

/-- the number written in a text of an optional sign and digits -/
def intOfText : List Char → Int
  | '-' :: t => -(decVal t : Int)
  | t => decVal t

/-- doubles, and texts of whole numbers -/
def doubleRt : CastRt where
  fl := flDouble
  pf := fun s => some (flDouble (intOfText s))
  showF := fun _ => []

theorem decVal_toDigits (n : Nat) : decVal (Nat.toDigits 10 n) = n := by
  have h := @Nat.ofDigitChars_ten_toDigits n
  unfold Nat.ofDigitChars at h
  unfold decVal
  convert h using 3
  rw [Nat.mul_comm]
  rfl

theorem doubleRt_ok : CastRtOk doubleRt where
  round := isRound_double
  pf := by
    intro n
    simp only [doubleRt, Option.some.injEq]
    congr 2
    unfold nimIntText
    split
    · simp only [List.singleton_append, intOfText, decVal_toDigits]
      omega
    · rw [List.nil_append]
      have hd : ∀ c ∈ Nat.toDigits 10 n.natAbs, c.isDigit = true := fun c hc => Nat.isDigit_of_mem_toDigits (by decide) (by decide) hc
      have : intOfText (Nat.toDigits 10 n.natAbs) = decVal (Nat.toDigits 10 n.natAbs) := by
        generalize Nat.toDigits 10 n.natAbs = l at *
        unfold intOfText
        split
        · exact absurd (hd '-' (by simp)) (by decide)
        · rfl
      rw [this, decVal_toDigits]
      omega

theorem C93_clock_fails : ¬ C93_clock_statement := by
  intro h
  obtain ⟨w, h1, -, h2⟩ := (h doubleRt doubleRt_ok 500000).2 (by decide) (by decide)
  cases h1
  revert h2
  decide +kernel

theorem C93_int_fails : ¬ C93_int_statement := by
  intro h
  obtain ⟨w, h1, -, h2⟩ := (h doubleRt doubleRt_ok (2 ^ 53 + 1) ⟨by decide, by decide⟩).1
  cases h1
  revert h2
  decide +kernel

example : CastRtOk doubleRt ∧ InYears (-1) ∧ InYears 19782 ∧ |(2 : Int) ^ 53| ≤ 2 ^ 53 := ⟨doubleRt_ok, by unfold InYears; decide, by unfold InYears; decide, by decide⟩

/-! ## seconds as a float -/

theorem truncRat_err (q : Rat) : |(truncRat q : Rat) - q| < 1 := by
  have hd : (0 : Int) < q.den := by exact_mod_cast q.den_pos
  have hdr : (0 : Rat) < q.den := by exact_mod_cast q.den_pos
  unfold truncRat
  have h := Int.mul_tdiv_add_tmod q.num q.den
  have hb : |q.num.tmod q.den| < q.den := by
    rw [abs_lt]
    have h1 := Int.tmod_lt_of_pos q.num hd
    have h2 := Int.tmod_lt_of_pos (-q.num) hd
    rw [Int.neg_tmod] at h2
    constructor <;> omega
  generalize q.num.tdiv q.den = a at *
  generalize q.num.tmod q.den = b at *
  have hq : (q.num : Rat) = q.den * a + b := by exact_mod_cast h.symm
  have hqq : q = q.num / q.den := (Rat.num_div_den q).symm
  have : (a : Rat) - q = -(b / q.den) := by
    have h2 : q * q.den = q.den * a + b := by
      rw [← hq]; exact Rat.mul_den_eq_num q
    rw [← neg_div, eq_div_iff hdr.ne']
    linarith
  rw [this, abs_neg, abs_div, abs_of_pos hdr, div_lt_one hdr]
  exact_mod_cast hb

/-- full statement: datetimes and times of day survive conversion to a float (of seconds) and back -/
def C93_float_statement : Prop := ∀ (rt : CastRt), CastRtOk rt → ∀ us : Int, (InYears (us / dayUs) → BackAgain rt .float (.datetime us)) ∧
  (0 ≤ us → us < dayUs → BackAgain rt .float (.time us))

theorem seconds_back (fl : Rat → Rat) (hfl : IsRound fl) (us : Int) (h : |us| + 1000000 ≤ 2 ^ 53) :
    |secondsUs fl (durSeconds fl us) - us| ≤ 1 ∧ (us % 1000000 = 0 → secondsUs fl (durSeconds fl us) = us) := by
  constructor
  · have e1 := hfl.err ((us : Rat) / 1000000)
    unfold durSeconds secondsUs
    dsimp only
    generalize fl ((us : Rat) / 1000000) = q at *
    have t1 := truncRat_err q
    generalize truncRat q = a at *
    have e2 := hfl.err ((q - a) * 1000000)
    generalize fl ((q - a) * 1000000) = z at *
    have t2 := truncRat_err z
    generalize truncRat z = r at *
    have hus : (|us| : Rat) + 1000000 ≤ 2 ^ 53 := by exact_mod_cast h
    rw [abs_mul, abs_of_pos (by norm_num : (0 : Rat) < 1000000)] at e2
    rw [abs_div, abs_of_pos (by norm_num : (0 : Rat) < 1000000)] at e1
    have e3 : |q - a| = |(a : Rat) - q| := abs_sub_comm _ _
    rw [e3] at e2
    have e4 : |z - (q - a) * 1000000| ≤ 1000000 / 2 ^ 53 := e2.trans (by
      apply div_le_div_of_nonneg_right _ (by norm_num)
      linarith)
    have e5 : |q * 1000000 - us| ≤ |(us : Rat)| / 2 ^ 53 := by
      have : q * 1000000 - us = (q - us / 1000000) * 1000000 := by ring
      rw [this, abs_mul, abs_of_pos (by norm_num : (0 : Rat) < 1000000)]
      calc |q - us / 1000000| * 1000000 ≤ |(us : Rat)| / 1000000 / 2 ^ 53 * 1000000 := mul_le_mul_of_nonneg_right e1 (by norm_num)
        _ = |(us : Rat)| / 2 ^ 53 := by ring
    have e6 : |(us : Rat)| / 2 ^ 53 + 1000000 / 2 ^ 53 ≤ 1 := by
      rw [← add_div, div_le_one (by norm_num)]
      exact hus
    have key : |((a * 1000000 + r - us : Int) : Rat)| < 2 := by
      have : ((a * 1000000 + r - us : Int) : Rat) = (r - z) + (z - (q - a) * 1000000) + (q * 1000000 - us) := by push_cast; ring
      rw [this]
      have h1 := abs_add_le ((r - z) + (z - (q - a) * 1000000)) (q * 1000000 - (us : Rat))
      have h2 := abs_add_le ((r : Rat) - z) (z - (q - a) * 1000000)
      linarith
    have : |a * 1000000 + r - us| < 2 := by exact_mod_cast key
    omega
  · intro h0
    obtain ⟨s, rfl⟩ : ∃ s, us = s * 1000000 := ⟨us / 1000000, by omega⟩
    have : ((s * 1000000 : Int) : Rat) / 1000000 = (s : Int) := by push_cast; field_simp
    have hs : |s| ≤ 2 ^ 53 := by
      rw [abs_mul] at h
      have : |(1000000 : Int)| = 1000000 := rfl
      rw [this] at h
      have := abs_nonneg s
      omega
    unfold durSeconds
    rw [this, hfl.int s hs, secondsUs_int fl hfl]

/-- **C93**, partial: whole seconds survive, and the rest comes back within a microsecond, as long as there are at most 2^53 microseconds (285 years from 1970).
Missing: the last microsecond. -/
theorem C93_float_partial (rt : CastRt) (h : CastRtOk rt) (us : Int) (hus : |us| + 1000000 ≤ 2 ^ 53) :
    (∃ q us', castVal rt .float (.datetime us) = .ok (.float q) ∧ castVal rt .datetime (.float q) = .ok (.datetime us') ∧ |us' - us| ≤ 1 ∧ (us % 1000000 = 0 → us' = us)) ∧
    ∃ q us', castVal rt .float (.time us) = .ok (.float q) ∧ castVal rt .time (.float q) = .ok (.time us') ∧ |us' - us| ≤ 1 ∧ (us % 1000000 = 0 → us' = us) := by
  obtain ⟨h1, h2⟩ := seconds_back rt.fl h.round us hus
  exact ⟨⟨_, _, rfl, rfl, h1, h2⟩, ⟨_, _, rfl, rfl, h1, h2⟩⟩

theorem C93_float_fails : ¬ C93_float_statement := by
  intro h
  obtain ⟨w, h1, -, h2⟩ := (h doubleRt doubleRt_ok 1000001).2 (by decide) (by decide)
  cases h1
  revert h2
  decide +kernel

/-! ## times of day -/

/-- hour, minute, second and microsecond of the day -/
def dayTime (us : Int) : Nat × Nat × Nat × Nat :=
  let d := (us % 86400000000).toNat
  (d / 3600000000, d / 60000000 % 60, d / 1000000 % 60, d % 1000000)

/-- full statement: the time of a datetime is its time of day -/
def C93_time_statement : Prop := ∀ (rt : CastRt) (us : Int), InYears (us / dayUs) → ∃ t, castVal rt .time (.datetime us) = .ok (.time t) ∧ timeFields t = .ok (dayTime us)

/-- **C93**, partial: this holds from 1970 on.  Missing: datetimes before, for which no time results. -/
theorem C93_time_partial (rt : CastRt) (us : Int) (h : 0 ≤ us) : ∃ t, castVal rt .time (.datetime us) = .ok (.time t) ∧ timeFields t = .ok (dayTime us) := by
  refine ⟨us, rfl, ?_⟩
  obtain ⟨n, rfl⟩ := Int.eq_ofNat_of_zero_le h
  unfold timeFields dayTime
  dsimp only
  have e1 : ∀ k : Nat, (n : Int).tdiv (k : Int) = ((n / k : Nat) : Int) := fun k => by rw [Int.tdiv_eq_ediv_of_nonneg h]; simp
  have e2 : ((n / 3600000000 : Nat) : Int).tmod 24 = ((n / 3600000000 % 24 : Nat) : Int) := by
    rw [Int.tmod_eq_emod_of_nonneg (by omega)]; simp
  have a1 := e1 3600000000
  have a2 := e1 60000000
  have a3 := e1 1000000
  push_cast at a1 a2 a3 e2
  rw [a1, a2, a3, e2]
  rw [if_pos (by omega)]
  have hd : ((n : Int) % 86400000000).toNat = n % 86400000000 := by omega
  have f1 : n % 86400000000 / 3600000000 = n / 3600000000 % 24 := Nat.mod_mul_right_div_self n 3600000000 24
  have f2 : n % 86400000000 / 60000000 % 60 = n / 60000000 % 60 := by
    rw [show 86400000000 = 60000000 * 1440 from rfl, Nat.mod_mul_right_div_self]
    exact Nat.mod_mod_of_dvd _ ⟨24, rfl⟩
  have f3 : n % 86400000000 / 1000000 % 60 = n / 1000000 % 60 := by
    rw [show 86400000000 = 1000000 * 86400 from rfl, Nat.mod_mul_right_div_self]
    exact Nat.mod_mod_of_dvd _ ⟨1440, rfl⟩
  have f4 : n % 86400000000 % 1000000 = n % 1000000 := Nat.mod_mod_of_dvd _ ⟨86400, rfl⟩
  have g2 : n / 3600000000 = n / 60000000 / 60 := by rw [Nat.div_div_eq_div_mul]
  have g3 : n / 60000000 = n / 1000000 / 60 := by rw [Nat.div_div_eq_div_mul]
  rw [hd, f1, f2, f3, f4]
  clear hd f1 f2 f3 f4 a1 a2 a3 e1 e2
  refine congrArg _ (Prod.ext ?_ (Prod.ext ?_ (Prod.ext ?_ ?_))) <;> dsimp only <;> omega

theorem C93_time_fails : ¬ C93_time_statement := by
  intro h
  obtain ⟨t, h1, h2⟩ := h doubleRt (-1) ⟨by decide, by decide⟩
  cases h1
  revert h2
  decide +kernel

/-- **C93** a number of seconds becomes that time of day -/
theorem C93_int_time (rt : CastRt) (h : CastRtOk rt) (s : Nat) (hs : s < 86400) :
    ∃ t, castVal rt .time (.int s) = .ok (.time t) ∧ timeFields t = .ok (s / 3600, s / 60 % 60, s % 60, 0) := by
  refine ⟨(s : Int) * 1000000, ?_, ?_⟩
  · have : rt.fl ((s : Int) : Rat) = ((s : Int) : Rat) := h.round.int s (by rw [Nat.abs_cast]; omega)
    simp only [castVal, castInt, this, secondsUs_int rt.fl h.round]
  · have := C93_time_partial rt ((s : Int) * 1000000) (by omega)
    obtain ⟨t, h1, h2⟩ := this
    cases h1
    rw [h2]
    unfold dayTime
    dsimp only
    refine congrArg _ (Prod.ext ?_ (Prod.ext ?_ (Prod.ext ?_ ?_))) <;> dsimp only <;> omega

/-! ## dates and times in text -/

/-- **C93** text of a date with the year first becomes that date, at midnight -/
theorem C93_text_date (rt : CastRt) (s : List Char) (x : Int × Int × Int) (h : DateText false s true x) (hv : ValidDate x) :
    castVal rt .date (.str s) = .ok (.date (ymdUs x)) ∧ storedDay (ymdUs x) = toEpochDay x.1 x.2.1 x.2.2 ∧ objectDay (ymdUs x) = toEpochDay x.1 x.2.1 x.2.2 := by
  refine ⟨?_, ?_, day_div _⟩
  · simp only [castVal, castStr, inferDateAny, C39_year_first s x h hv, orElseAny, Except.map, orElseValue]
  · exact Int.mul_tdiv_cancel _ (by decide)

/-- full statement: text of a date and a time becomes that datetime, and converted to a date, that date -/
def C93_text_statement : Prop := ∀ (rt : CastRt) (s t : List Char) (x : Int × Int × Int) (hms : List Int) (us : Int) (c : Char), DateText false s true x → ValidDate x →
  c = ' ' ∨ c = 'T' → c ∉ s → TimeForm t hms us → HmsOk hms →
  castVal rt .datetime (.str (s ++ c :: t)) = .ok (.datetime (ymdUs x + clockUs hms us)) ∧
    ∃ d, castVal rt .date (.str (s ++ c :: t)) = .ok (.date d) ∧ storedDay d = toEpochDay x.1 x.2.1 x.2.2 ∧ objectDay d = toEpochDay x.1 x.2.1 x.2.2

theorem clockUs_range {t : List Char} {hms : List Int} {us : Int} (h : TimeForm t hms us) (hk : HmsOk hms) : 0 ≤ clockUs hms us ∧ clockUs hms us < dayUs := by
  obtain ⟨k1, k2, k3⟩ := hk
  have hus : 0 ≤ us ∧ us < 1000000 := by
    rcases h with (⟨_, _, _, _, _, _, rfl⟩ | ⟨_, _, _, f, _, _, _, hf, _, _⟩) | ⟨_, rfl⟩
    · decide
    · rcases hf with ⟨_, rfl⟩ | ⟨ds, _, hd, ⟨hl, rfl⟩ | ⟨hl, rfl⟩⟩
      · decide
      · have := decVal_lt ds hd; rw [hl] at this; omega
      · have := decVal_lt ds hd; rw [hl] at this; omega
    · decide
  have hn : 0 ≤ hms.getD 0 0 ∧ 0 ≤ hms.getD 1 0 ∧ 0 ≤ hms.getD 2 0 := by
    rcases h with (⟨_, _, _, _, _, rfl, _⟩ | ⟨_, _, _, _, _, _, _, _, _, rfl⟩) | ⟨⟨_, rfl⟩ | ⟨_, _, _, _, _, rfl⟩ | ⟨_, _, _, _, _, _, _, rfl⟩, _⟩ <;>
      simp
  unfold clockUs dayUs
  constructor <;> omega

theorem TimeForm.two {t : List Char} {hms : List Int} {us : Int} (h : TimeForm t hms us) : 2 ≤ t.length := by
  rcases h with h | ⟨h, -⟩
  · have := h.chars.2.2; omega
  · exact h.digits.2

theorem datetime_text (rt : CastRt) (s t : List Char) (x : Int × Int × Int) (hms : List Int) (us : Int) (c : Char) (h : DateText false s true x) (hv : ValidDate x)
    (hc : c = ' ' ∨ c = 'T') (hcs : c ∉ s) (ht : TimeForm t hms us) :
    castVal rt .datetime (.str (s ++ c :: t)) = .ok (.datetime (ymdUs x + clockUs hms us)) ∧ castVal rt .date (.str (s ++ c :: t)) = .ok (.date (ymdUs x + clockUs hms us)) := by
  have hdt : inferDatetime false (s ++ c :: t) = .ok (x, hms, us, none) := C92_datetime_partial false true s t x hms us c h hv (by simp) hc hcs ht
  have hany : inferDatetimeAny (s ++ c :: t) = .ok (ymdUs x + clockUs hms us) := by
    simp only [inferDatetimeAny, hdt, orElseValue, Except.bind, timeUs, ht.us_eq]
  have hlen : (s ++ c :: t).length > 10 := by
    obtain ⟨_, _, _, _, _, _, _, _, _, _, _, _, h8, _⟩ := h
    have := ht.two
    rw [List.length_append, List.length_cons]
    omega
  have hd : ∀ a b, inferDate a b (s ++ c :: t) = .error .value := by
    intro a b
    unfold inferDate
    rw [if_pos (Or.inl hlen)]
  constructor
  · simp only [castVal, castStr, hany, orElseValue, Except.map]
  · simp only [castVal, castStr, inferDateAny, hd, orElseAny, Except.map, orElseValue, hany]

/-- **C93**, partial: the datetime is that of the text, and so is the date from 1970 on.  Missing: dates before, for which the day after is stored
(`C93_text_fails`). -/
theorem C93_text_partial (rt : CastRt) (s t : List Char) (x : Int × Int × Int) (hms : List Int) (us : Int) (c : Char) (h : DateText false s true x) (hv : ValidDate x)
    (hc : c = ' ' ∨ c = 'T') (hcs : c ∉ s) (ht : TimeForm t hms us) (hk : HmsOk hms) :
    castVal rt .datetime (.str (s ++ c :: t)) = .ok (.datetime (ymdUs x + clockUs hms us)) ∧
      ∃ d, castVal rt .date (.str (s ++ c :: t)) = .ok (.date d) ∧ objectDay d = toEpochDay x.1 x.2.1 x.2.2 ∧
        (0 ≤ toEpochDay x.1 x.2.1 x.2.2 → storedDay d = toEpochDay x.1 x.2.1 x.2.2) ∧
        (toEpochDay x.1 x.2.1 x.2.2 < 0 → 0 < clockUs hms us → storedDay d = toEpochDay x.1 x.2.1 x.2.2 + 1) := by
  obtain ⟨h1, h2⟩ := datetime_text rt s t x hms us c h hv hc hcs ht
  obtain ⟨r1, r2⟩ := clockUs_range ht hk
  have hdiv : (ymdUs x + clockUs hms us) / dayUs = toEpochDay x.1 x.2.1 x.2.2 := by unfold ymdUs dayUs at *; omega
  refine ⟨h1, _, h2, hdiv, fun h0 => ?_, fun h0 hp => ?_⟩
  · unfold storedDay
    rw [Int.tdiv_eq_ediv_of_nonneg (by unfold ymdUs dayUs at *; omega)]
    exact hdiv
  · unfold storedDay
    have := Int.neg_tdiv (-(ymdUs x + clockUs hms us)) dayUs
    rw [neg_neg] at this
    rw [this, Int.tdiv_eq_ediv_of_nonneg (by unfold ymdUs dayUs at *; omega)]
    unfold ymdUs dayUs at *
    omega

/-- **C93** noon of the last day of 1969 is stored as the first day of 1970 -/
theorem C93_text_fails : ¬ C93_text_statement := by
  intro h
  obtain ⟨-, d, h1, h2, -⟩ := h doubleRt "1969-12-31".toList "12:00:00".toList (1969, 12, 31) [12, 0, 0] 0 ' '
    ⟨'-', "1969".toList, "12".toList, "31".toList, by decide, by unfold Digits; decide, by unfold Digits; decide, by unfold Digits; decide, by decide, by decide, by decide, by decide,
      by decide, by decide, by decide⟩ (by unfold ValidDate; decide) (Or.inl rfl) (by decide)
    (Or.inl (Or.inr ⟨"12".toList, "00".toList, "00".toList, [], ⟨by unfold Digits; decide, rfl⟩, ⟨by unfold Digits; decide, rfl⟩, ⟨by unfold Digits; decide, rfl⟩, Or.inl ⟨rfl, rfl⟩,
      by decide, by decide⟩)) (by unfold HmsOk; decide)
  have h3 : castVal doubleRt .date (.str ("1969-12-31".toList ++ ' ' :: "12:00:00".toList)) = .ok (.date (-43200000000)) := by decide +kernel
  rw [h3] at h1
  cases h1
  revert h2
  decide +kernel

/-- full statement: where a conversion is not possible the value is rejected with a ValueError, which `column_select` turns into a rejected row -/
def C93_reject_statement : Prop := ∀ (rt : CastRt) (k : SelKind) (v : NV) (e : Err), castVal rt k v = .error e → e = .value

theorem components_some (d : Int) : ∃ x, days2Components d = some x := by
  obtain ⟨-, s1, s2⟩ := days2YearsDays_spec d
  obtain ⟨m, dd, hm, -⟩ := monthLoop_spec _ _ s1 s2
  have hd : days2Components d = (monthLoop (monthTable (isLeapYear (days2YearsDays d).1)) 0 (days2YearsDays d).2).map fun md => ((days2YearsDays d).1, md.1, md.2) := rfl
  exact ⟨_, by rw [hd, hm]; rfl⟩

theorem midnight_ok (us : Int) : ∃ x, midnight us = .ok x := by
  obtain ⟨x, hx⟩ := components_some (us / dayUs)
  exact ⟨_, by unfold midnight; rw [hx]⟩

theorem deltaUs_ok (fl : Rat → Rat) (v : Int) : ∃ x, deltaUs fl v = .ok x := by
  obtain ⟨x, hx⟩ := components_some (toTimedelta (divmodF fl) 0 0 0 0 v 0 0).1
  exact ⟨_, by unfold deltaUs; dsimp only; rw [hx]⟩

/-- **C93**, partial: this holds of all values but text, as long as the years of dates written as text have four digits.  Missing: text. -/
theorem C93_reject_partial (rt : CastRt) (k : SelKind) (v : NV) (e : Err) (hs : ∀ s, v ≠ .str s)
    (hy : ∀ us, v = .date us ∨ v = .datetime us → InYears (us / dayUs)) (h : castVal rt k v = .error e) : e = .value := by
  have hf : ∀ us, InYears (us / dayUs) → ∃ t, fmtDate us = .ok t := fun us hus => by
    obtain ⟨t, x, h1, -⟩ := fmtDate_text _ hus us rfl
    exact ⟨t, h1⟩
  cases v with
  | none => cases h; rfl
  | str s => exact absurd rfl (hs s)
  | bool b =>
    obtain ⟨x, hx⟩ := deltaUs_ok rt.fl b.toNat
    obtain ⟨y, hy⟩ := midnight_ok x
    cases k <;> simp only [castVal, castBool, hx, Except.bind, hy, Except.map] at h <;> cases h
    rfl
  | int b =>
    obtain ⟨x, hx⟩ := deltaUs_ok rt.fl b
    obtain ⟨y, hy⟩ := midnight_ok x
    cases k <;> simp only [castVal, castInt, hx, Except.bind, hy, Except.map] at h <;> cases h
    rfl
  | float b =>
    obtain ⟨x, hx⟩ := deltaUs_ok rt.fl (truncRat b)
    obtain ⟨y, hy⟩ := midnight_ok x
    cases k <;> simp only [castVal, castFloat, hx, Except.bind, hy, Except.map] at h <;> cases h
    rfl
  | date us =>
    obtain ⟨t, ht⟩ := hf us (hy us (Or.inl rfl))
    cases k <;> simp only [castVal, castDate, ht, Except.map] at h <;> cases h <;> rfl
  | time us => cases k <;> simp only [castVal, castTime] at h <;> cases h <;> rfl
  | datetime us =>
    obtain ⟨t, ht⟩ := hf us (hy us (Or.inr rfl))
    obtain ⟨y, hy⟩ := midnight_ok us
    cases k <;> simp only [castVal, castDatetime, fmtDateTime, ht, hy, Except.bind, Except.map] at h <;> cases h
    rfl

/-- **C93** a time with a time zone of another length than HH:MM, HH:MM:SS or HH:MM:SS.ffffff raises another exception, which ends the selection -/
theorem C93_reject_fails : ¬ C93_reject_statement := by
  intro h
  have h3 : castVal doubleRt .time (.str "10:00+1".toList) = .error .other := by decide +kernel
  exact absurd (h _ _ _ _ h3) (by decide)

end Tablite
