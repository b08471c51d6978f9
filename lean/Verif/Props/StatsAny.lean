import Verif.Model.StatsAny
import Verif.Props.Stats
import Verif.Props.Double
import Verif.Props.InferDate
/-!
# C94: statistics of truth values, text, dates and times
-/

namespace Tablite

/-! ## specification -/

/-- timestamps keep the order of the datetimes in `R` and lead back to them (no change of the clock between them) -/
structure ClockOk (clk : SClock) (R : Int → Prop) : Prop where
  mono : ∀ a b, R a → R b → (clk.toTs a ≤ clk.toTs b ↔ a ≤ b)
  back : ∀ a, R a → clk.fromTs (clk.toTs a) = a

/-- `e` is an entry of the histogram with the least value -/
def LeastIn {α : Type} [LE α] (vc : List (α × Nat)) (a : α) : Prop := (∃ e ∈ vc, e.1 = a) ∧ ∀ e ∈ vc, a ≤ e.1
/-- the greatest value -/
def GreatestIn {α : Type} [LE α] (vc : List (α × Nat)) (a : α) : Prop := (∃ e ∈ vc, e.1 = a) ∧ ∀ e ∈ vc, e.1 ≤ a
/-- a value of greatest count -/
def FrequentIn {α : Type} (vc : List (α × Nat)) (a : α) : Prop := ∃ e ∈ vc, e.1 = a ∧ ∀ e' ∈ vc, e'.2 ≤ e.2

/-- full statement: there are statistics of every column that is not empty -/
def C94_statement : Prop := ∀ (clk : SClock) (fl : Rat → Rat) (vc : List (StVal × Nat)), vc ≠ [] → (∀ e ∈ vc, 0 < e.2) → ∃ r, summaryStatistics clk fl vc = .ok (some r)

/-! ## the numbers behind -/

theorem expand_map_mem {α : Type} (f : α → Rat) (vc : List (α × Nat)) (hpos : ∀ e ∈ vc, 0 < e.2) (x : Rat) :
    x ∈ expand (vc.map fun e => (f e.1, e.2)) ↔ ∃ e ∈ vc, f e.1 = x := by
  unfold expand
  simp only [List.mem_flatMap, List.mem_map, List.mem_replicate]
  constructor
  · rintro ⟨e, ⟨e', he', rfl⟩, -, rfl⟩; exact ⟨e', he', rfl⟩
  · rintro ⟨e, he, rfl⟩; exact ⟨_, ⟨e, he, rfl⟩, (hpos e he).ne', rfl⟩

theorem expand_map_sum {α : Type} (f : α → Rat) (vc : List (α × Nat)) : (expand (vc.map fun e => (f e.1, e.2))).sum = (vc.map fun e => f e.1 * e.2).sum := by
  induction vc with
  | nil => rfl
  | cons e t ih =>
    rw [List.map_cons, List.map_cons, List.sum_cons, ← ih]
    simp [expand, mul_comm]

/-- the summary of mapped values -/
theorem summary_map {α : Type} (f : α → Rat) (vc : List (α × Nat)) (hne : vc ≠ []) (hpos : ∀ e ∈ vc, 0 < e.2) :
    ∃ s, numericSummary (vc.map fun e => (f e.1, e.2)) = .ok s ∧ s.sum = (vc.map fun e => f e.1 * e.2).sum ∧ s.mean = (vc.map fun e => f e.1 * e.2).sum / (vc.map (·.2)).sum ∧
      (∃ e ∈ vc, s.min = f e.1 ∧ ∀ e' ∈ vc, f e.1 ≤ f e'.1) ∧ (∃ e ∈ vc, s.max = f e.1 ∧ ∀ e' ∈ vc, f e'.1 ≤ f e.1) ∧
      (∃ e ∈ vc, s.mode = some (f e.1) ∧ ∀ e' ∈ vc, e'.2 ≤ e.2) ∧ (∃ m, s.median = some m ∧ IsMedian (expand (vc.map fun e => (f e.1, e.2))) m) ∧
      (∃ q, s.iqrLow = some q) ∧ ∃ q, s.iqrHigh = some q := by
  obtain ⟨s, h1, h2, h3, ⟨h4, h4'⟩, ⟨h5, h5'⟩, ⟨e, he, hm, hm'⟩, h7, -, -, ⟨ql, h8, -⟩, ⟨qh, h9, -⟩⟩ := C36_summary (vc.map fun e => (f e.1, e.2)) (by simpa using hne) (by
    intro e he
    obtain ⟨e', he', rfl⟩ := List.mem_map.1 he
    exact hpos e' he')
  refine ⟨s, h1, by rw [h2, expand_map_sum], ?_, ?_, ?_, ?_, h7, ⟨ql, h8⟩, ⟨qh, h9⟩⟩
  · rw [h3, meanOf, expand_map_sum, expand_length, List.map_map]
    rfl
  · obtain ⟨e, he, hx⟩ := (expand_map_mem f vc hpos _).1 h4
    exact ⟨e, he, hx.symm, fun e' he' => by rw [hx]; exact h4' _ ((expand_map_mem f vc hpos _).2 ⟨e', he', rfl⟩)⟩
  · obtain ⟨e, he, hx⟩ := (expand_map_mem f vc hpos _).1 h5
    exact ⟨e, he, hx.symm, fun e' he' => by rw [hx]; exact h5' _ ((expand_map_mem f vc hpos _).2 ⟨e', he', rfl⟩)⟩
  · obtain ⟨e', he', rfl⟩ := List.mem_map.1 he
    exact ⟨e', he', hm, fun e'' he'' => hm' (f e''.1, e''.2) (List.mem_map.2 ⟨e'', he'', rfl⟩)⟩

/-! ## truth values -/

theorem boolEntry_bool (b : Bool) : boolEntry (.rat (b.toNat : Rat)) = .val (.bool b) := by cases b <;> simp [boolEntry]

/-- **C94** the statistics of truth values: least, greatest and a most frequent truth value, the number of True as sum and their share as mean -/
theorem C94_bool (vc : List (Bool × Nat)) (hne : vc ≠ []) (hpos : ∀ e ∈ vc, 0 < e.2) :
    ∃ d, boolSummary vc = .ok d ∧ (∃ b, d.min = .val (.bool b) ∧ (b = true ↔ ∀ e ∈ vc, e.1 = true)) ∧ (∃ b, d.max = .val (.bool b) ∧ (b = true ↔ ∃ e ∈ vc, e.1 = true)) ∧
      (∃ b, d.mode = .val (.bool b) ∧ FrequentIn vc b) ∧ d.sum = .num (.rat (((vc.filter (·.1)).map (·.2)).sum : Nat)) ∧
      d.mean = .num (.rat ((((vc.filter (·.1)).map (·.2)).sum : Nat) / ((vc.map (·.2)).sum : Nat))) := by
  obtain ⟨s, h1, h2, h3, ⟨e4, m4, h4, h4'⟩, ⟨e5, m5, h5, h5'⟩, ⟨e6, m6, h6, h6'⟩, -⟩ := summary_map (fun b : Bool => (b.toNat : Rat)) vc hne hpos
  have hsum : (vc.map fun e => (e.1.toNat : Rat) * e.2).sum = (((vc.filter (·.1)).map (·.2)).sum : Nat) := by
    clear h1 h2 h3 h4' h5' h6' m4 m5 m6 hne hpos
    induction vc with
    | nil => rfl
    | cons e t ih =>
      rw [List.map_cons, List.sum_cons, ih]
      obtain ⟨b, n⟩ := e
      cases b <;> simp
  have le : ∀ a b : Bool, ((a.toNat : Rat) ≤ (b.toNat : Rat)) → (a = true → b = true) := by decide
  refine ⟨_, by unfold boolSummary; simp only [h1, bind, Except.bind]; rfl, ⟨e4.1, ?_, ?_⟩, ⟨e5.1, ?_, ?_⟩, ⟨e6.1, ?_, e6, m6, rfl, h6'⟩, ?_, ?_⟩
  · simp only [sum10, h4]; exact boolEntry_bool _
  · exact ⟨fun hb e' he' => le _ _ (h4' e' he') hb, fun h => h e4 m4⟩
  · simp only [sum10, h5]; exact boolEntry_bool _
  · exact ⟨fun hb => ⟨e5, m5, hb⟩, fun ⟨e, he, hb⟩ => le _ _ (h5' e he) hb⟩
  · simp only [sum10, h6, optNum]; exact boolEntry_bool _
  · simp only [sum10, h2, hsum]
  · simp only [sum10, h3, hsum]

/-! ## text -/

theorem firstMax_spec (vc : List (List Char × Nat)) (hne : vc ≠ []) : ∃ pre e post, vc = pre ++ e :: post ∧ firstMax vc = some e ∧ (∀ x ∈ pre, x.2 < e.2) ∧ ∀ x ∈ post, x.2 ≤ e.2 := by
  induction vc with
  | nil => exact absurd rfl hne
  | cons a t ih =>
    by_cases ht : t = []
    · subst ht
      exact ⟨[], a, [], rfl, rfl, by simp, by simp⟩
    · obtain ⟨pre, e, post, rfl, hm, h1, h2⟩ := ih ht
      rw [firstMax, hm]
      dsimp only
      by_cases hlt : a.2 < e.2
      · rw [if_pos hlt]
        refine ⟨a :: pre, e, post, rfl, rfl, ?_, h2⟩
        intro x hx
        rcases List.mem_cons.1 hx with rfl | hx
        · exact hlt
        · exact h1 x hx
      · rw [if_neg hlt]
        refine ⟨[], a, pre ++ e :: post, rfl, rfl, by simp, ?_⟩
        intro x hx
        rcases List.mem_append.1 hx with hx | hx
        · have := h1 x hx; omega
        · rcases List.mem_cons.1 hx with rfl | hx
          · omega
          · have := h2 x hx; omega

/-- **C94** the statistics of text are those of its lengths, as text; the mode is the first of the most frequent texts -/
theorem C94_text (vc : List (List Char × Nat)) (hne : vc ≠ []) (hpos : ∀ e ∈ vc, 0 < e.2) :
    ∃ d, strSummary vc = .ok d ∧ (∃ e ∈ vc, d.min = .text (.rat e.1.length) " characters" ∧ ∀ e' ∈ vc, e.1.length ≤ e'.1.length) ∧
      (∃ e ∈ vc, d.max = .text (.rat e.1.length) " characters" ∧ ∀ e' ∈ vc, e'.1.length ≤ e.1.length) ∧
      d.sum = .text (.rat ((vc.map fun e => e.1.length * e.2).sum : Nat)) " characters" ∧
      ∃ pre e post, vc = pre ++ e :: post ∧ d.mode = .val (.str e.1) ∧ (∀ x ∈ pre, x.2 < e.2) ∧ ∀ x ∈ post, x.2 ≤ e.2 := by
  obtain ⟨s, h1, h2, -, ⟨e4, m4, h4, h4'⟩, ⟨e5, m5, h5, h5'⟩, -⟩ := summary_map (fun t : List Char => (t.length : Rat)) vc hne hpos
  obtain ⟨pre, e, post, hvc, hm, h6, h7⟩ := firstMax_spec vc hne
  have hsum : (vc.map fun e => (e.1.length : Rat) * e.2).sum = ((vc.map fun e => e.1.length * e.2).sum : Nat) := by
    clear hvc h1 h2 h4' h5' m4 m5 hne hpos hm
    induction vc with
    | nil => rfl
    | cons e t ih => rw [List.map_cons, List.sum_cons, ih, List.map_cons, List.sum_cons]; push_cast; rfl
  refine ⟨_, by unfold strSummary; simp only [h1, bind, Except.bind, hm]; rfl, ⟨e4, m4, ?_, fun e' he' => by exact_mod_cast h4' e' he'⟩,
    ⟨e5, m5, ?_, fun e' he' => by exact_mod_cast h5' e' he'⟩, ?_, ⟨pre, e, post, hvc, rfl, h6, h7⟩⟩
  · simp only [sum10, h4]
  · simp only [sum10, h5]
  · simp only [sum10, h2, hsum]

/-! ## datetimes and dates -/

/-- **C94** the least, the greatest and a most frequent datetime are among the statistics of datetimes -/
theorem C94_datetime (clk : SClock) (R : Int → Prop) (hclk : ClockOk clk R) (vc : List (Int × Nat)) (hne : vc ≠ []) (hpos : ∀ e ∈ vc, 0 < e.2) (hR : ∀ e ∈ vc, R e.1) :
    ∃ d a b c, datetimeSummary clk vc = .ok d ∧ d.min = .val (.datetime a) ∧ LeastIn vc a ∧ d.max = .val (.datetime b) ∧ GreatestIn vc b ∧
      d.mode = .val (.datetime c) ∧ FrequentIn vc c := by
  obtain ⟨s, h1, -, -, ⟨e4, m4, h4, h4'⟩, ⟨e5, m5, h5, h5'⟩, ⟨e6, m6, h6, h6'⟩, ⟨m, h7, -⟩, ⟨ql, h8⟩, ⟨qh, h9⟩⟩ := summary_map clk.toTs vc hne hpos
  refine ⟨_, e4.1, e5.1, e6.1, by unfold datetimeSummary; simp only [h1, bind, Except.bind, sum10, h4, h5, h6, h7, h8, h9, optNum, backEntry]; rfl, ?_,
    ⟨⟨e4, m4, rfl⟩, fun e he => (hclk.mono _ _ (hR _ m4) (hR _ he)).1 (h4' e he)⟩, ?_, ⟨⟨e5, m5, rfl⟩, fun e he => (hclk.mono _ _ (hR _ he) (hR _ m5)).1 (h5' e he)⟩, ?_, ⟨e6, m6, rfl, h6'⟩⟩
  · simp only [hclk.back _ (hR _ m4)]
  · simp only [hclk.back _ (hR _ m5)]
  · simp only [hclk.back _ (hR _ m6)]

/-- **C94** so it is for dates -/
theorem C94_date (clk : SClock) (R : Int → Prop) (hclk : ClockOk clk R) (vc : List (Int × Nat)) (hne : vc ≠ []) (hpos : ∀ e ∈ vc, 0 < e.2) (hR : ∀ e ∈ vc, R (e.1 * 86400000000)) :
    ∃ d a b c, dateSummary clk vc = .ok d ∧ d.min = .val (.date a) ∧ LeastIn vc a ∧ d.max = .val (.date b) ∧ GreatestIn vc b ∧ d.mode = .val (.date c) ∧ FrequentIn vc c := by
  obtain ⟨s, h1, -, -, ⟨e4, m4, h4, h4'⟩, ⟨e5, m5, h5, h5'⟩, ⟨e6, m6, h6, h6'⟩, ⟨m, h7, -⟩, ⟨ql, h8⟩, ⟨qh, h9⟩⟩ := summary_map (fun d => clk.toTs (d * 86400000000)) vc hne hpos
  have hdiv : ∀ d : Int, d * 86400000000 / 86400000000 = d := fun d => Int.mul_ediv_cancel d (by decide)
  refine ⟨_, e4.1, e5.1, e6.1, by unfold dateSummary; simp only [h1, bind, Except.bind, sum10, h4, h5, h6, h7, h8, h9, optNum, backEntry]; rfl, ?_,
    ⟨⟨e4, m4, rfl⟩, fun e he => ?_⟩, ?_, ⟨⟨e5, m5, rfl⟩, fun e he => ?_⟩, ?_, ⟨e6, m6, rfl, h6'⟩⟩
  · simp only [hclk.back _ (hR _ m4), hdiv]
  · have := (hclk.mono _ _ (hR _ m4) (hR _ he)).1 (h4' e he); omega
  · simp only [hclk.back _ (hR _ m5), hdiv]
  · have := (hclk.mono _ _ (hR _ he) (hR _ m5)).1 (h5' e he); omega
  · simp only [hclk.back _ (hR _ m6), hdiv]

/-- a clock without time zone and rounding -/
def utcClock : SClock := ⟨fun us => us / 1000000, fun q => ⌊q * 1000000⌋⟩

theorem utcClock_ok : ClockOk utcClock fun _ => True where
  mono := by
    intro a b _ _
    simp only [utcClock]
    rw [div_le_div_iff_of_pos_right (by norm_num)]
    exact_mod_cast Iff.rfl
  back := by
    intro a _
    simp [utcClock]

/-- full statement: the quartiles of dates are dates -/
def C94_quartile_statement : Prop := ∀ (clk : SClock) (vc : List (Int × Nat)) d, ClockOk clk (fun _ => True) → dateSummary clk vc = .ok d → ∃ a b, d.iqrLow = .val (.date a) ∧ d.iqrHigh = .val (.date b)

/-- **C94** the quartiles of dates are numbers of seconds -/
theorem C94_quartile_fails : ¬ C94_quartile_statement := by
  intro h
  obtain ⟨d, a, b, c, h1, -⟩ := C94_date utcClock _ utcClock_ok [(0, 1)] (by simp) (by simp) (by simp)
  obtain ⟨a, b, h2, -⟩ := h utcClock _ d utcClock_ok h1
  have : dateSummary utcClock [(0, 1)] = .ok d := h1
  unfold dateSummary at this
  simp only [bind, Except.bind] at this
  split at this
  · cases this
  · repeat (split at this; · cases this)
    cases this
    cases h2

example : ClockOk utcClock (fun _ => True) ∧ [((0 : Int), 2), (3, 1)] ≠ [] ∧ ∀ e ∈ [((0 : Int), 2), (3, 1)], 0 < e.2 := ⟨utcClock_ok, by decide, by decide⟩

/-! ## times -/

theorem intOf_nonneg (q : Rat) (h : 0 ≤ q) : intOf q = ⌊q⌋ := by
  unfold intOf
  rw [Int.tdiv_eq_ediv_of_nonneg (Rat.num_nonneg.2 h), Rat.floor_def']

theorem floor_between (q : Rat) (n : Int) (h1 : (n : Rat) ≤ q) (h2 : q < n + 1) : ⌊q⌋ = n := Int.floor_eq_iff.2 ⟨h1, h2⟩

theorem round_near (fl : Rat → Rat) (hfl : IsRound fl) (x b : Rat) (hb : |x| ≤ b) (hb2 : b ≤ 100000) : |fl x - x| ≤ 12 / 10 ^ 12 := by
  refine (hfl.err x).trans ?_
  rw [div_le_iff₀ (by norm_num)]
  linarith

/-- a remainder of seconds with its fraction: one step of `timeBack` -/
theorem time_step (fl : Rat → Rat) (hfl : IsRound fl) (A k c : Nat) (t e : Rat) (hc : 0 < c) (hA : A < 90000) (hk : k < 1000000)
    (ht : |t - (A + (k : Rat) / 1000000)| ≤ e) (he : e ≤ 1 / 10 ^ 10) (hx : (k = 0 → t = A)) :
    ⌊t / c⌋ = ((A / c : Nat) : Int) ∧ |fl (t - ((A / c : Nat) : Rat) * c) - ((A % c : Nat) + (k : Rat) / 1000000)| ≤ e + 12 / 10 ^ 12 ∧
      (k = 0 → fl (t - ((A / c : Nat) : Rat) * c) = (A % c : Nat)) := by
  have hcr : (0 : Rat) < c := by exact_mod_cast hc
  have hdm : ((A / c : Nat) : Rat) * c + ((A % c : Nat) : Rat) = A := by
    have := Nat.div_add_mod A c
    rw [Nat.mul_comm] at this
    exact_mod_cast this
  have hmod : ((A % c : Nat) : Rat) + 1 ≤ c := by exact_mod_cast Nat.mod_lt A hc
  have hmod0 : (0 : Rat) ≤ ((A % c : Nat) : Rat) := by positivity
  have hAr : (A : Rat) < 90000 := by exact_mod_cast hA
  rw [abs_le] at ht
  have hbounds : (A : Rat) ≤ t ∧ t < A + 1 := by
    by_cases h0 : k = 0
    · rw [hx h0]; constructor <;> linarith
    · have h1 : (1 : Rat) ≤ k := by exact_mod_cast Nat.one_le_iff_ne_zero.2 h0
      have h2 : (k : Rat) ≤ 999999 := by exact_mod_cast (by omega : k ≤ 999999)
      constructor <;> linarith
  have hrem : t - ((A / c : Nat) : Rat) * c = t - A + ((A % c : Nat) : Rat) := by linarith
  refine ⟨?_, ?_, ?_⟩
  · apply floor_between
    · rw [le_div_iff₀ hcr, Int.cast_natCast]; linarith
    · rw [div_lt_iff₀ hcr, Int.cast_natCast, add_mul, one_mul]; linarith
  · have hr := round_near fl hfl (t - ((A / c : Nat) : Rat) * c) 100000 (by
      rw [hrem, abs_le]
      have : ((A % c : Nat) : Rat) ≤ A := by exact_mod_cast Nat.mod_le A c
      constructor <;> linarith) le_rfl
    rw [abs_le] at hr ⊢
    rw [hrem] at hr ⊢
    constructor <;> linarith
  · intro h0
    rw [hrem, hx h0, sub_self, zero_add]
    have := hfl.int ((A % c : Nat) : Int) (by
      have : A % c ≤ A := Nat.mod_le A c
      rw [Nat.abs_cast]
      omega)
    exact_mod_cast this

theorem timeTs_near (fl : Rat → Rat) (hfl : IsRound fl) (us : Nat) (h : us < 86400000000) :
    |timeTs fl us - (((us / 1000000 : Nat) : Rat) + ((us % 1000000 : Nat) : Rat) / 1000000)| ≤ 24 / 10 ^ 12 ∧ (us % 1000000 = 0 → timeTs fl us = ((us / 1000000 : Nat) : Rat)) := by
  unfold timeTs
  have hS : us / 1000000 < 86400 := by omega
  have hk : us % 1000000 < 1000000 := Nat.mod_lt _ (by decide)
  generalize us / 1000000 = S at *
  generalize us % 1000000 = k at *
  have hSr : (S : Rat) ≤ 86400 := by exact_mod_cast hS.le
  have hkr : (k : Rat) < 1000000 := by exact_mod_cast hk
  have hS0 : (0 : Rat) ≤ S := by positivity
  have hk0 : (0 : Rat) ≤ (k : Rat) / 1000000 := by positivity
  have hk1 : (k : Rat) / 1000000 < 1 := by rw [div_lt_one (by norm_num)]; exact hkr
  constructor
  · have h1 := round_near fl hfl ((k : Rat) / 1000000) 1 (by rw [abs_le]; constructor <;> linarith) (by norm_num)
    rw [abs_le] at h1
    have h2 := round_near fl hfl ((S : Rat) + fl ((k : Rat) / 1000000)) 100000 (by rw [abs_le]; constructor <;> linarith) le_rfl
    rw [abs_le] at h2 ⊢
    constructor <;> linarith
  · rintro rfl
    have h0 := hfl.int 0 (by norm_num)
    have h1 := hfl.int (S : Int) (by rw [Nat.abs_cast]; omega)
    push_cast at h0 h1
    rw [Nat.cast_zero, zero_div, h0, add_zero, h1]

/-- **C94** a time converted to seconds and back is the same time or a microsecond earlier; a time in whole seconds is the same -/
theorem C94_time_back (fl : Rat → Rat) (hfl : IsRound fl) (us : Nat) (h : us < 86400000000) :
    ∃ us', timeBack fl (timeTs fl us) = .ok (.time us') ∧ (us' = us ∨ us' + 1 = us) ∧ (us % 1000000 = 0 → us' = us) := by
  obtain ⟨a1, a2⟩ := timeTs_near fl hfl us h
  have hS : us / 1000000 < 86400 := by omega
  have hk : us % 1000000 < 1000000 := Nat.mod_lt _ (by decide)
  obtain ⟨b1, b2, b3⟩ := time_step fl hfl _ _ 3600 _ _ (by decide) (by omega) hk a1 (by norm_num) a2
  simp only [Nat.cast_ofNat] at b1 b2 b3
  obtain ⟨c1, c2, c3⟩ := time_step fl hfl (us / 1000000 % 3600) _ 60 _ _ (by decide) (by omega) hk b2 (by norm_num) b3
  simp only [Nat.cast_ofNat] at c1 c2 c3
  unfold timeBack
  dsimp only
  rw [b1]
  simp only [Int.cast_natCast]
  rw [c1]
  simp only [Int.cast_natCast]
  generalize fl (fl (timeTs fl us - (us / 1000000 / 3600 : Nat) * 3600) - (us / 1000000 % 3600 / 60 : Nat) * 60) = t2 at *
  have hB : us / 1000000 % 3600 % 60 < 60 := Nat.mod_lt _ (by decide)
  have hrec : ((us / 1000000 / 3600) * 60 + us / 1000000 % 3600 / 60) * 60 + us / 1000000 % 3600 % 60 = us / 1000000 := by omega
  have hh : us / 1000000 / 3600 < 24 := by omega
  have hm : us / 1000000 % 3600 / 60 < 60 := by omega
  have hus : us / 1000000 * 1000000 + us % 1000000 = us := by omega
  generalize us / 1000000 % 3600 % 60 = B at *
  generalize us / 1000000 % 3600 / 60 = m at *
  generalize us / 1000000 / 3600 = hr at *
  generalize us / 1000000 = S at *
  generalize us % 1000000 = k at *
  have hBr : (0 : Rat) ≤ B := by positivity
  have hBr2 : (B : Rat) ≤ 59 := by exact_mod_cast (by omega : B ≤ 59)
  rw [abs_le] at c2
  have hkr : (k : Rat) ≤ 999999 := by exact_mod_cast (by omega : k ≤ 999999)
  have ht2 : (B : Rat) ≤ t2 ∧ t2 < B + 1 := by
    by_cases h0 : k = 0
    · rw [c3 h0]; constructor <;> linarith
    · have h1 : (1 : Rat) ≤ k := by exact_mod_cast Nat.one_le_iff_ne_zero.2 h0
      constructor <;> linarith
  have hs : intOf t2 = (B : Int) := by
    rw [intOf_nonneg _ (by linarith)]
    exact floor_between _ _ (by exact_mod_cast ht2.1) (by push_cast; exact ht2.2)
  rw [hs]
  simp only [Int.cast_natCast]
  have key : ∃ u : Nat, intOf (fl (1000000 * fl (t2 - B))) = (u : Int) ∧ (u = k ∨ u + 1 = k) ∧ (k = 0 → u = k) := by
    by_cases h0 : k = 0
    · have z := hfl.int 0 (by norm_num)
      push_cast at z
      rw [c3 h0, sub_self, z, mul_zero, z]
      exact ⟨0, rfl, Or.inl h0.symm, fun _ => h0.symm⟩
    · have h1 : (1 : Rat) ≤ k := by exact_mod_cast Nat.one_le_iff_ne_zero.2 h0
      have r1 := round_near fl hfl (t2 - B) 1 (by rw [abs_le]; constructor <;> linarith) (by norm_num)
      rw [abs_le] at r1
      have r2 := hfl.err (1000000 * fl (t2 - B))
      have r3 : |1000000 * fl (t2 - B)| / 2 ^ 53 ≤ 1 / 1000 := by
        rw [div_le_iff₀ (by norm_num), abs_le]
        constructor <;> linarith
      have r4 := abs_le.1 (r2.trans r3)
      generalize fl (1000000 * fl (t2 - B)) = z at *
      have hz0 : 0 ≤ z := by linarith
      rw [intOf_nonneg _ hz0]
      have f1 := Int.floor_le z
      have f2 := Int.lt_floor_add_one z
      have f3 : (k : Int) - 1 ≤ ⌊z⌋ := by rw [Int.le_floor]; push_cast; linarith
      have f4 : ⌊z⌋ < (k : Int) + 1 := by rw [Int.floor_lt]; push_cast; linarith
      refine ⟨⌊z⌋.toNat, by omega, by omega, fun h => absurd h h0⟩
  obtain ⟨u, hu, hu1, hu2⟩ := key
  rw [hu, if_pos (by omega)]
  have hn : ((((hr : Int) * 60 + m) * 60 + B) * 1000000 + u).toNat = S * 1000000 + u := by
    have e : ((((hr : Int) * 60 + m) * 60 + B) * 1000000 + u) = ((((hr * 60 + m) * 60 + B) * 1000000 + u : Nat) : Int) := by push_cast; rfl
    rw [e, hrec, Int.toNat_natCast]
  rw [hn]
  clear hrec hn b1 c1 b2 b3 hu
  refine ⟨_, rfl, ?_, ?_⟩ <;> omega

/-- full statement: the least, greatest and most frequent time are among the statistics of times -/
def C94_time_statement : Prop := ∀ (fl : Rat → Rat) (vc : List (Nat × Nat)) d, IsRound fl → (∀ e ∈ vc, e.1 < 86400000000) → (∀ e ∈ vc, 0 < e.2) → timeSummary fl vc = .ok d →
  (∃ a, d.min = .val (.time a) ∧ LeastIn vc a) ∧ (∃ a, d.max = .val (.time a) ∧ GreatestIn vc a) ∧ ∃ a, d.mode = .val (.time a) ∧ FrequentIn vc a

theorem timeSummary_parts (fl : Rat → Rat) (vc : List (Nat × Nat)) (d : Sum10 SOut) (h : timeSummary fl vc = .ok d) :
    ∃ s, numericSummary (vc.map fun e => (timeTs fl e.1, e.2)) = .ok s ∧ backEntry (timeBack fl) (.rat s.min) = .ok d.min ∧ backEntry (timeBack fl) (.rat s.max) = .ok d.max ∧
      backEntry (timeBack fl) (optNum s.mode) = .ok d.mode := by
  unfold timeSummary at h
  obtain ⟨s, h1, h⟩ := ebind_ok h
  obtain ⟨a, h2, h⟩ := ebind_ok h
  obtain ⟨b, h3, h⟩ := ebind_ok h
  obtain ⟨c, h4, h⟩ := ebind_ok h
  obtain ⟨e, h5, h⟩ := ebind_ok h
  obtain ⟨f, h6, h⟩ := ebind_ok h
  cases h
  exact ⟨s, h1, h2, h3, h6⟩

/-- **C94**, partial: this holds of times in whole seconds.  Missing: fractions, of which a microsecond may be lost (`C94_time_back`). -/
theorem C94_time_partial (fl : Rat → Rat) (hfl : IsRound fl) (vc : List (Nat × Nat)) (d : Sum10 SOut) (hne : vc ≠ []) (hr : ∀ e ∈ vc, e.1 < 86400000000 ∧ e.1 % 1000000 = 0)
    (hpos : ∀ e ∈ vc, 0 < e.2) (h : timeSummary fl vc = .ok d) :
    (∃ a, d.min = .val (.time a) ∧ LeastIn vc a) ∧ (∃ a, d.max = .val (.time a) ∧ GreatestIn vc a) ∧ ∃ a, d.mode = .val (.time a) ∧ FrequentIn vc a := by
  obtain ⟨s, h1, h2, h3, h4⟩ := timeSummary_parts fl vc d h
  obtain ⟨s', h1', -, -, ⟨e4, m4, h5, h5'⟩, ⟨e5, m5, h6, h6'⟩, ⟨e6, m6, h7, h7'⟩, -⟩ := summary_map (timeTs fl) vc hne hpos
  rw [h1] at h1'
  cases h1'
  have back : ∀ e ∈ vc, backEntry (timeBack fl) (.rat (timeTs fl e.1)) = .ok (.val (.time e.1)) := by
    intro e he
    obtain ⟨us', hb, -, hu⟩ := C94_time_back fl hfl e.1 (hr e he).1
    rw [hu (hr e he).2] at hb
    simp only [backEntry, hb, bind, Except.bind]
  have mono : ∀ e ∈ vc, ∀ e' ∈ vc, timeTs fl e.1 ≤ timeTs fl e'.1 → e.1 ≤ e'.1 := by
    intro e he e' he' hle
    rw [(timeTs_near fl hfl e.1 (hr e he).1).2 (hr e he).2, (timeTs_near fl hfl e'.1 (hr e' he').1).2 (hr e' he').2] at hle
    have : e.1 / 1000000 ≤ e'.1 / 1000000 := by exact_mod_cast hle
    have := (hr e he).2
    have := (hr e' he').2
    omega
  rw [h5, back _ m4] at h2
  rw [h6, back _ m5] at h3
  rw [h7, optNum, back _ m6] at h4
  injection h2 with h2
  injection h3 with h3
  injection h4 with h4
  exact ⟨⟨_, h2.symm, ⟨e4, m4, rfl⟩, fun e he => mono _ m4 _ he (h5' e he)⟩, ⟨_, h3.symm, ⟨e5, m5, rfl⟩, fun e he => mono _ he _ m5 (h6' e he)⟩, ⟨_, h4.symm, e6, m6, rfl, h7'⟩⟩

/-- **C94** of a second and a microsecond the microsecond is lost -/
theorem C94_time_fails : ¬ C94_time_statement := by
  intro h
  obtain ⟨d, hd⟩ : ∃ d, timeSummary flDouble [(1000001, 1)] = .ok d := by
    have : (timeSummary flDouble [(1000001, 1)]).isOk = true := by decide +kernel
    cases hx : timeSummary flDouble [(1000001, 1)] with
    | ok d => exact ⟨d, rfl⟩
    | error e => rw [hx] at this; cases this
  obtain ⟨⟨a, h1, ⟨e, he, hea⟩, -⟩, -⟩ := h flDouble _ d isRound_double (by decide) (by decide) hd
  obtain ⟨s, p1, p2, -⟩ := timeSummary_parts _ _ _ hd
  obtain ⟨s', q1, -, -, ⟨e4, m4, q4, -⟩, -⟩ := summary_map (timeTs flDouble) [(1000001, 1)] (by decide) (by decide)
  rw [p1] at q1
  cases q1
  rw [List.mem_singleton] at he m4
  subst he m4
  rw [q4, h1, ← hea] at p2
  revert p2
  decide +kernel

theorem timeBack_exact (q : Rat) (h0 : 0 ≤ q) (h1 : q < 86400) : ∃ v, timeBack id q = .ok v := by
  unfold timeBack
  dsimp only [id]
  have a1 := Int.floor_le (q / 3600)
  have a2 := Int.lt_floor_add_one (q / 3600)
  have a3 : (0 : Int) ≤ ⌊q / 3600⌋ := Int.floor_nonneg.2 (by positivity)
  have a4 : ⌊q / 3600⌋ < 24 := by rw [Int.floor_lt, div_lt_iff₀ (by norm_num)]; push_cast; linarith
  generalize ⌊q / 3600⌋ = h at *
  rw [le_div_iff₀ (by norm_num)] at a1
  rw [div_lt_iff₀ (by norm_num)] at a2
  have t0 : 0 ≤ q - h * 3600 := by linarith
  have t1 : q - h * 3600 < 3600 := by linarith
  generalize q - (h : Rat) * 3600 = t at *
  have b1 := Int.floor_le (t / 60)
  have b2 := Int.lt_floor_add_one (t / 60)
  have b3 : (0 : Int) ≤ ⌊t / 60⌋ := Int.floor_nonneg.2 (by positivity)
  have b4 : ⌊t / 60⌋ < 60 := by rw [Int.floor_lt, div_lt_iff₀ (by norm_num)]; push_cast; linarith
  generalize ⌊t / 60⌋ = m at *
  rw [le_div_iff₀ (by norm_num)] at b1
  rw [div_lt_iff₀ (by norm_num)] at b2
  have s0 : 0 ≤ t - m * 60 := by linarith
  have s1 : t - m * 60 < 60 := by linarith
  generalize t - (m : Rat) * 60 = r at *
  rw [intOf_nonneg r s0]
  have c1 := Int.floor_le r
  have c2 := Int.lt_floor_add_one r
  have c3 : (0 : Int) ≤ ⌊r⌋ := Int.floor_nonneg.2 s0
  have c4 : ⌊r⌋ < 60 := by rw [Int.floor_lt]; push_cast; linarith
  generalize ⌊r⌋ = n at *
  rw [intOf_nonneg _ (by linarith)]
  have d3 : (0 : Int) ≤ ⌊1000000 * (r - n)⌋ := Int.floor_nonneg.2 (by linarith)
  have d4 : ⌊1000000 * (r - n)⌋ < 1000000 := by rw [Int.floor_lt]; push_cast; linarith
  rw [if_pos ⟨a3, a4, b3, b4, c3, c4, d3, d4⟩]
  exact ⟨_, rfl⟩

theorem median_range (qs : List Rat) (m : Rat) (h : IsMedian qs m) (a b : Rat) (hq : ∀ x ∈ qs, a ≤ x ∧ x < b) : a ≤ m ∧ m < b := by
  obtain ⟨s, hp, -, hm⟩ := h
  have mem : ∀ i x, s[i]? = some x → a ≤ x ∧ x < b := fun i x hx => hq x (hp.mem_iff.1 (List.mem_of_getElem? hx))
  split at hm
  · exact mem _ _ hm
  · obtain ⟨x, y, hx, hy, rfl⟩ := hm
    have h1 := mem _ _ hx
    have h2 := mem _ _ hy
    constructor <;> linarith

theorem mean_range {α : Type} (f : α → Rat) (vc : List (α × Nat)) (a b : Rat) (hne : vc ≠ []) (hpos : ∀ e ∈ vc, 0 < e.2) (hq : ∀ e ∈ vc, a ≤ f e.1 ∧ f e.1 < b) :
    a ≤ (vc.map fun e => f e.1 * e.2).sum / (vc.map (·.2)).sum ∧ (vc.map fun e => f e.1 * e.2).sum / (vc.map (·.2)).sum < b := by
  have key : ∀ vc : List (α × Nat), (∀ e ∈ vc, 0 < e.2) → (∀ e ∈ vc, a ≤ f e.1 ∧ f e.1 < b) → a * ((vc.map (·.2)).sum : Nat) ≤ (vc.map fun e => f e.1 * e.2).sum ∧
      (vc.map fun e => f e.1 * e.2).sum ≤ b * ((vc.map (·.2)).sum : Nat) ∧ (vc ≠ [] → (vc.map fun e => f e.1 * e.2).sum < b * ((vc.map (·.2)).sum : Nat) ∧ 0 < (vc.map (·.2)).sum) := by
    intro vc
    induction vc with
    | nil => intro _ _; simp
    | cons e t ih =>
      intro hp hq
      obtain ⟨i1, i2, -⟩ := ih (fun x hx => hp x (List.mem_cons_of_mem _ hx)) (fun x hx => hq x (List.mem_cons_of_mem _ hx))
      obtain ⟨q1, q2⟩ := hq e List.mem_cons_self
      have p1 := hp e List.mem_cons_self
      have p2 : (0 : Rat) < e.2 := by exact_mod_cast p1
      simp only [List.map_cons, List.sum_cons]
      push_cast
      have m1 := mul_le_mul_of_nonneg_right q1 p2.le
      have m2 := mul_lt_mul_of_pos_right q2 p2
      refine ⟨by linarith, by linarith, fun _ => ⟨by linarith, by omega⟩⟩
  obtain ⟨k1, -, k3⟩ := key vc hpos hq
  obtain ⟨k3, k4⟩ := k3 hne
  have k5 : (0 : Rat) < ((vc.map (·.2)).sum : Nat) := by exact_mod_cast k4
  exact ⟨by rw [le_div_iff₀ k5]; exact k1, by rw [div_lt_iff₀ k5]; exact k3⟩

/-- **C94** without rounding there are statistics of every column of times -/
theorem C94_time_total (vc : List (Nat × Nat)) (hne : vc ≠ []) (hpos : ∀ e ∈ vc, 0 < e.2) (hr : ∀ e ∈ vc, e.1 < 86400000000) : ∃ d, timeSummary id vc = .ok d := by
  obtain ⟨s, h1, -, h3, ⟨e4, m4, h4, -⟩, ⟨e5, m5, h5, -⟩, ⟨e6, m6, h6, -⟩, ⟨m, h7, h7'⟩, ⟨ql, h8⟩, ⟨qh, h9⟩⟩ := summary_map (timeTs id) vc hne hpos
  have hts : ∀ us : Nat, us < 86400000000 → 0 ≤ timeTs id us ∧ timeTs id us < 86400 := by
    intro us hus
    unfold timeTs
    dsimp only [id]
    have e : ((us / 1000000 : Nat) : Rat) + ((us % 1000000 : Nat) : Rat) / 1000000 = us / 1000000 := by
      have : ((us / 1000000 : Nat) : Rat) * 1000000 + ((us % 1000000 : Nat) : Rat) = us := by exact_mod_cast Nat.div_add_mod' us 1000000
      rw [eq_div_iff (by norm_num), add_mul, div_mul_cancel₀ _ (by norm_num)]
      exact this
    rw [e]
    exact ⟨by positivity, by rw [div_lt_iff₀ (by norm_num)]; exact_mod_cast hus⟩
  have hmean := mean_range (timeTs id) vc 0 86400 hne hpos fun e he => hts _ (hr e he)
  rw [← h3] at hmean
  have hmed := median_range _ m h7' 0 86400 fun x hx => by
    obtain ⟨e, he, rfl⟩ := (expand_map_mem _ vc hpos x).1 hx
    exact hts _ (hr e he)
  have bk : ∀ q : Rat, 0 ≤ q ∧ q < 86400 → ∃ v, backEntry (timeBack id) (.rat q) = .ok v := by
    intro q hq
    obtain ⟨v, hv⟩ := timeBack_exact q hq.1 hq.2
    exact ⟨_, by simp only [backEntry, hv, bind, Except.bind]; rfl⟩
  obtain ⟨v1, b1⟩ := bk _ (hts _ (hr _ m4))
  obtain ⟨v2, b2⟩ := bk _ (hts _ (hr _ m5))
  obtain ⟨v3, b3⟩ := bk _ hmean
  obtain ⟨v4, b4⟩ := bk _ hmed
  obtain ⟨v5, b5⟩ := bk _ (hts _ (hr _ m6))
  exact ⟨_, by unfold timeSummary; simp only [h1, bind, Except.bind, sum10, h4, h5, h6, h7, optNum, b1, b2, b3, b4, b5]; rfl⟩

/-! ## the whole summary -/

/-- **C94** the statistics are computed from all values of a type that no other type outnumbers; all values are counted and given as histogram -/
theorem C94_whole (clk : SClock) (fl : Rat → Rat) (vc : List (StVal × Nat)) (hpos : ∃ e ∈ vc, 0 < e.2) (r : Option SumOut) (h : summaryStatistics clk fl vc = .ok r) :
    ∃ o, r = some o ∧ o.distinct = vc.length ∧ o.histogram = vc ∧ (∀ T, typeTotal StVal.kind vc T ≤ typeTotal StVal.kind vc o.summaryType) ∧
      methodOf clk fl o.summaryType (vc.filter fun e => e.1.kind = o.summaryType) = .ok o.entries := by
  obtain ⟨T, hT, -, hmax, -⟩ := C66_dominant StVal.kind vc hpos
  unfold summaryStatistics at h
  rw [hT] at h
  dsimp only at h
  obtain ⟨d, hd, h⟩ := ebind_ok h
  cases h
  exact ⟨_, rfl, rfl, rfl, hmax, hd⟩

theorem pick_ok {β : Type} (f : StVal → Option β) (k : SKind) (hf : ∀ v : StVal, v.kind = k → ∃ b, f v = some b) (vc : List (StVal × Nat)) (hpos : ∀ e ∈ vc, 0 < e.2)
    (he : ∃ e ∈ vc, e.1.kind = k) : pickVals f (vc.filter fun e => e.1.kind = k) ≠ [] ∧ ∀ e ∈ pickVals f (vc.filter fun e => e.1.kind = k), 0 < e.2 := by
  constructor
  · obtain ⟨e, he, hk⟩ := he
    obtain ⟨b, hb⟩ := hf _ hk
    apply List.ne_nil_of_mem (a := (b, e.2))
    unfold pickVals
    rw [List.mem_filterMap]
    exact ⟨e, List.mem_filter.2 ⟨he, by simpa using hk⟩, by rw [hb]; rfl⟩
  · intro e he
    unfold pickVals at he
    obtain ⟨x, hx, hx'⟩ := List.mem_filterMap.1 he
    obtain ⟨b, -, rfl⟩ := Option.map_eq_some_iff.1 hx'
    exact hpos x (List.mem_filter.1 hx).1

theorem numSummary_ok (vc : List (Rat × Nat)) (hne : vc ≠ []) (hpos : ∀ e ∈ vc, 0 < e.2) : ∃ d, numSummary vc = .ok d := by
  obtain ⟨s, h1, -⟩ := C36_summary vc hne hpos
  exact ⟨_, by unfold numSummary; simp only [h1, bind, Except.bind]; rfl⟩

theorem datetimeSummary_ok (clk : SClock) (vc : List (Int × Nat)) (hne : vc ≠ []) (hpos : ∀ e ∈ vc, 0 < e.2) : ∃ d, datetimeSummary clk vc = .ok d := by
  obtain ⟨s, h1, -, -, -, -, ⟨e6, m6, h6, h6'⟩, ⟨m, h7, -⟩, ⟨ql, h8⟩, ⟨qh, h9⟩⟩ := summary_map clk.toTs vc hne hpos
  exact ⟨_, by unfold datetimeSummary; simp only [h1, bind, Except.bind, sum10, h6, h7, h8, h9, optNum, backEntry]; rfl⟩

theorem dateSummary_ok (clk : SClock) (vc : List (Int × Nat)) (hne : vc ≠ []) (hpos : ∀ e ∈ vc, 0 < e.2) : ∃ d, dateSummary clk vc = .ok d := by
  obtain ⟨s, h1, -, -, -, -, ⟨e6, m6, h6, h6'⟩, ⟨m, h7, -⟩, ⟨ql, h8⟩, ⟨qh, h9⟩⟩ := summary_map (fun d => clk.toTs (d * 86400000000)) vc hne hpos
  exact ⟨_, by unfold dateSummary; simp only [h1, bind, Except.bind, sum10, h6, h7, h8, h9, optNum, backEntry]; rfl⟩

/-- **C94**, partial: there are statistics when the most frequent type is bool, int, float, str, date, datetime or None.  Missing: time deltas and other types, for which
an exception is raised, and times, for which it is shown without rounding only (`C94_time_total`). -/
theorem C94_partial (clk : SClock) (fl : Rat → Rat) (vc : List (StVal × Nat)) (hne : vc ≠ []) (hpos : ∀ e ∈ vc, 0 < e.2)
    (hk : ∀ T l, dominant StVal.kind vc = some (T, l) → T ≠ .timedelta ∧ T ≠ .other ∧ T ≠ .time) : ∃ r, summaryStatistics clk fl vc = .ok (some r) := by
  obtain ⟨a, ha⟩ := List.exists_mem_of_ne_nil vc hne
  obtain ⟨T, hT, hex, -, -⟩ := C66_dominant StVal.kind vc ⟨a, ha, hpos a ha⟩
  obtain ⟨k1, k2, k3⟩ := hk _ _ hT
  suffices h : ∃ d, methodOf clk fl T (vc.filter fun e => e.1.kind = T) = .ok d by
    obtain ⟨d, hd⟩ := h
    refine ⟨⟨d, vc.length, T, vc⟩, ?_⟩
    unfold summaryStatistics
    rw [hT]
    dsimp only
    rw [hd]
    rfl
  cases T with
  | timedelta => exact absurd rfl k1
  | other => exact absurd rfl k2
  | time => exact absurd rfl k3
  | none => exact ⟨_, rfl⟩
  | bool =>
    obtain ⟨p1, p2⟩ := pick_ok (fun | .bool b => some b | _ => none) .bool (by intro v hv; cases v <;> first | exact ⟨_, rfl⟩ | cases hv) vc hpos hex
    obtain ⟨d, hd, -⟩ := C94_bool _ p1 p2
    exact ⟨d, hd⟩
  | int =>
    obtain ⟨p1, p2⟩ := pick_ok (fun | .int n => some (n : Rat) | _ => none) .int (by intro v hv; cases v <;> first | exact ⟨_, rfl⟩ | cases hv) vc hpos hex
    exact numSummary_ok _ p1 p2
  | float =>
    obtain ⟨p1, p2⟩ := pick_ok (fun | .float q => some q | _ => none) .float (by intro v hv; cases v <;> first | exact ⟨_, rfl⟩ | cases hv) vc hpos hex
    exact numSummary_ok _ p1 p2
  | str =>
    obtain ⟨p1, p2⟩ := pick_ok (fun | .str s => some s | _ => none) .str (by intro v hv; cases v <;> first | exact ⟨_, rfl⟩ | cases hv) vc hpos hex
    obtain ⟨d, hd, -⟩ := C94_text _ p1 p2
    exact ⟨d, hd⟩
  | date =>
    obtain ⟨p1, p2⟩ := pick_ok (fun | .date d => some d | _ => none) .date (by intro v hv; cases v <;> first | exact ⟨_, rfl⟩ | cases hv) vc hpos hex
    exact dateSummary_ok clk _ p1 p2
  | datetime =>
    obtain ⟨p1, p2⟩ := pick_ok (fun | .datetime us => some us | _ => none) .datetime (by intro v hv; cases v <;> first | exact ⟨_, rfl⟩ | cases hv) vc hpos hex
    exact datetimeSummary_ok clk _ p1 p2

theorem timedeltaSummary_raises (l : List (Int × Nat)) (h : l ≠ []) : timedeltaSummary l = .error .attribute := by
  cases l with
  | nil => exact absurd rfl h
  | cons x t => rfl

/-- **C94** when most values are time deltas, AttributeError is raised -/
theorem C94_timedelta_raises (clk : SClock) (fl : Rat → Rat) (vc : List (StVal × Nat)) (hpos : ∀ e ∈ vc, 0 < e.2) (l : List (StVal × Nat))
    (h : dominant StVal.kind vc = some (.timedelta, l)) : summaryStatistics clk fl vc = .error .attribute := by
  have hne : vc ≠ [] := by rintro rfl; cases h
  obtain ⟨a, ha⟩ := List.exists_mem_of_ne_nil vc hne
  obtain ⟨T, hT, hex, -, -⟩ := C66_dominant StVal.kind vc ⟨a, ha, hpos a ha⟩
  rw [hT] at h
  cases h
  obtain ⟨p1, -⟩ := pick_ok (fun | .timedelta b => some b | _ => none) .timedelta (by intro v hv; cases v <;> first | exact ⟨_, rfl⟩ | cases hv) vc hpos hex
  have hm : methodOf clk fl .timedelta (vc.filter fun e => e.1.kind = .timedelta) = .error .attribute := timedeltaSummary_raises _ p1
  unfold summaryStatistics
  rw [hT]
  dsimp only
  rw [hm]
  rfl

/-- **C94** when most values are of a type without method, TypeError is raised -/
theorem C94_other_raises (clk : SClock) (fl : Rat → Rat) (vc l : List (StVal × Nat)) (h : dominant StVal.kind vc = some (.other, l)) : summaryStatistics clk fl vc = .error .type := by
  unfold summaryStatistics
  rw [h]
  rfl

theorem C94_fails : ¬ C94_statement := by
  intro h
  obtain ⟨r, hr⟩ := h utcClock id [(.timedelta 5, 1)] (by simp) (by simp)
  rw [C94_timedelta_raises utcClock id _ (by simp) [(.timedelta 5, 1)] (by decide)] at hr
  cases hr

example : dominant StVal.kind [(.str ['a'], 2), (.int 3, 1), (.timedelta 5, 1)] = some (.str, [(.str ['a'], 2)]) := by decide

/-! ## all ten entries -/

/-- the ten numbers of a list of rationals -/
structure TenNums where
  min : Rat
  max : Rat
  mean : Rat
  median : Rat
  var : Rat
  mode : Rat
  low : Rat
  high : Rat
  sum : Rat

/-- `t` are statistics of the values with their counts: each as in a textbook, the quartiles as far as the definitions in use agree -/
structure TenOk (vc : List (Rat × Nat)) (t : TenNums) : Prop where
  min : t.min ∈ expand vc ∧ ∀ x ∈ expand vc, t.min ≤ x
  max : t.max ∈ expand vc ∧ ∀ x ∈ expand vc, x ≤ t.max
  mean : t.mean = meanOf (expand vc)
  median : IsMedian (expand vc) t.median
  var : (2 ≤ (expand vc).length → t.var = varianceOf (expand vc)) ∧ ((expand vc).length = 1 → t.var = 0)
  mode : ∃ e ∈ vc, t.mode = e.1 ∧ ∀ x ∈ vc, x.2 ≤ e.2
  low : IsQuartile 1 (expand vc) t.low
  high : IsQuartile 3 (expand vc) t.high
  sum : t.sum = (expand vc).sum

theorem ten_of {α : Type} (f : α → Rat) (vc : List (α × Nat)) (hne : vc ≠ []) (hpos : ∀ e ∈ vc, 0 < e.2) :
    ∃ t s, TenOk (vc.map fun e => (f e.1, e.2)) t ∧ numericSummary (vc.map fun e => (f e.1, e.2)) = .ok s ∧
      sum10 s = ⟨.rat t.min, .rat t.max, .rat t.mean, .rat t.median, .sqrt t.var, .rat t.mode, .rat t.low, .rat t.high, .rat (t.high - t.low), .rat t.sum⟩ := by
  obtain ⟨s, h1, h2, h3, h4, h5, ⟨e, he, hm, hm'⟩, ⟨m, h7, h7'⟩, h10, h11, ⟨ql, h8, h8'⟩, ⟨qh, h9, h9'⟩⟩ := C36_summary (vc.map fun e => (f e.1, e.2)) (by simpa using hne) (by
    intro e he
    obtain ⟨e', he', rfl⟩ := List.mem_map.1 he
    exact hpos e' he')
  refine ⟨⟨s.min, s.max, s.mean, m, s.var, e.1, ql, qh, s.sum⟩, s, ⟨h4, h5, h3, h7', ⟨h10, h11⟩, ⟨e, he, rfl, hm'⟩, h8', h9', h2⟩, h1, ?_⟩
  simp only [sum10, hm, h7, h8, h9, optNum]

/-- **C94** numbers: the ten entries are the statistics; the interquartile range is the distance of the quartiles -/
theorem C94_number_entries (vc : List (Rat × Nat)) (hne : vc ≠ []) (hpos : ∀ e ∈ vc, 0 < e.2) :
    ∃ t, TenOk vc t ∧ numSummary vc = .ok ⟨.num (.rat t.min), .num (.rat t.max), .num (.rat t.mean), .num (.rat t.median), .num (.sqrt t.var), .num (.rat t.mode),
      .num (.rat t.low), .num (.rat t.high), .num (.rat (t.high - t.low)), .num (.rat t.sum)⟩ := by
  obtain ⟨t, s, ht, h1, h2⟩ := ten_of id vc hne hpos
  have hid : (vc.map fun e => (id e.1, e.2)) = vc := by simp
  rw [hid] at ht h1
  exact ⟨t, ht, by unfold numSummary; simp only [h1, bind, Except.bind, h2]⟩

/-- a truth value in place of 1 or 0 -/
def truthOr (q : Rat) : SOut := if q = 1 then .val (.bool true) else if q = 0 then .val (.bool false) else .num (.rat q)

/-- **C94** truth values: the statistics of ones and zeros, with truth values as least, greatest and most frequent one, and as median if it is 0 or 1 -/
theorem C94_bool_entries (vc : List (Bool × Nat)) (hne : vc ≠ []) (hpos : ∀ e ∈ vc, 0 < e.2) :
    ∃ t, TenOk (vc.map fun e => ((e.1.toNat : Rat), e.2)) t ∧ boolSummary vc = .ok ⟨truthOr t.min, truthOr t.max, .num (.rat t.mean), truthOr t.median, .num (.sqrt t.var), truthOr t.mode,
      .num (.rat t.low), .num (.rat t.high), .num (.rat (t.high - t.low)), .num (.rat t.sum)⟩ := by
  obtain ⟨t, s, ht, h1, h2⟩ := ten_of (fun b : Bool => (b.toNat : Rat)) vc hne hpos
  exact ⟨t, ht, by unfold boolSummary; simp only [h1, bind, Except.bind, h2, boolEntry, truthOr]⟩

/-- **C94** text: the statistics of the lengths in characters; the mode is a most frequent text (`C94_text`) -/
theorem C94_text_entries (vc : List (List Char × Nat)) (hne : vc ≠ []) (hpos : ∀ e ∈ vc, 0 < e.2) :
    ∃ t c, TenOk (vc.map fun e => ((e.1.length : Rat), e.2)) t ∧ FrequentIn vc c ∧ strSummary vc = .ok ⟨.text (.rat t.min) " characters", .text (.rat t.max) " characters",
      .text (.rat t.mean) " characters", .text (.rat t.median) " characters", .text (.sqrt t.var) " characters", .val (.str c), .text (.rat t.low) " characters",
      .text (.rat t.high) " characters", .text (.rat (t.high - t.low)) " characters", .text (.rat t.sum) " characters"⟩ := by
  obtain ⟨t, s, ht, h1, h2⟩ := ten_of (fun t : List Char => (t.length : Rat)) vc hne hpos
  obtain ⟨pre, e, post, hvc, hm, h6, h7⟩ := firstMax_spec vc hne
  refine ⟨t, e.1, ht, ⟨e, by rw [hvc]; simp, rfl, ?_⟩, by unfold strSummary; simp only [h1, bind, Except.bind, h2, hm]⟩
  intro x hx
  rw [hvc] at hx
  rcases List.mem_append.1 hx with hx | hx
  · exact (h6 x hx).le
  · rcases List.mem_cons.1 hx with rfl | hx
    · exact le_rfl
    · exact h7 x hx

/-- **C94** datetimes: the statistics of the timestamps, as datetimes; deviation, interquartile range and sum in days (the deviation is the root of `var / 86400²`) -/
theorem C94_datetime_entries (clk : SClock) (vc : List (Int × Nat)) (hne : vc ≠ []) (hpos : ∀ e ∈ vc, 0 < e.2) :
    ∃ t, TenOk (vc.map fun e => (clk.toTs e.1, e.2)) t ∧ datetimeSummary clk vc = .ok ⟨.val (.datetime (clk.fromTs t.min)), .val (.datetime (clk.fromTs t.max)),
      .val (.datetime (clk.fromTs t.mean)), .val (.datetime (clk.fromTs t.median)), .text (.sqrt (t.var / 86400 ^ 2)) " days", .val (.datetime (clk.fromTs t.mode)),
      .val (.datetime (clk.fromTs t.low)), .val (.datetime (clk.fromTs t.high)), .text (.rat ((t.high - t.low) / 86400)) " days", .text (.rat (t.sum / 86400)) " days"⟩ := by
  obtain ⟨t, s, ht, h1, h2⟩ := ten_of clk.toTs vc hne hpos
  exact ⟨t, ht, by unfold datetimeSummary; simp only [h1, bind, Except.bind, h2, backEntry, inDays]⟩

/-- **C94** dates: the statistics of the timestamps of midnight; the quartiles stay timestamps -/
theorem C94_date_entries (clk : SClock) (vc : List (Int × Nat)) (hne : vc ≠ []) (hpos : ∀ e ∈ vc, 0 < e.2) :
    ∃ t, TenOk (vc.map fun e => (clk.toTs (e.1 * 86400000000), e.2)) t ∧ dateSummary clk vc = .ok ⟨.val (.date (clk.fromTs t.min / 86400000000)),
      .val (.date (clk.fromTs t.max / 86400000000)), .val (.date (clk.fromTs t.mean / 86400000000)), .val (.date (clk.fromTs t.median / 86400000000)),
      .text (.sqrt (t.var / 86400 ^ 2)) " days", .val (.date (clk.fromTs t.mode / 86400000000)), .num (.rat t.low), .num (.rat t.high),
      .text (.rat ((t.high - t.low) / 86400)) " days", .text (.rat (t.sum / 86400)) " days"⟩ := by
  obtain ⟨t, s, ht, h1, h2⟩ := ten_of (fun d => clk.toTs (d * 86400000000)) vc hne hpos
  exact ⟨t, ht, by unfold dateSummary; simp only [h1, bind, Except.bind, h2, backEntry, inDays]⟩

/-- without rounding the seconds become the time they stand for, fractions of a microsecond dropped -/
theorem timeBack_floor (q : Rat) (h0 : 0 ≤ q) (h1 : q < 86400) : timeBack id q = .ok (.time ⌊q * 1000000⌋.toNat) := by
  unfold timeBack
  dsimp only [id]
  have a1 := Int.floor_le (q / 3600)
  have a2 := Int.lt_floor_add_one (q / 3600)
  have a3 : (0 : Int) ≤ ⌊q / 3600⌋ := Int.floor_nonneg.2 (by positivity)
  have a4 : ⌊q / 3600⌋ < 24 := by rw [Int.floor_lt, div_lt_iff₀ (by norm_num)]; push_cast; linarith
  generalize ⌊q / 3600⌋ = h at *
  rw [le_div_iff₀ (by norm_num)] at a1
  rw [div_lt_iff₀ (by norm_num)] at a2
  obtain ⟨t, ht⟩ : ∃ t, t = q - (h : Rat) * 3600 := ⟨_, rfl⟩
  rw [← ht]
  have t0 : 0 ≤ t := by linarith
  have t1 : t < 3600 := by linarith
  have b1 := Int.floor_le (t / 60)
  have b2 := Int.lt_floor_add_one (t / 60)
  have b3 : (0 : Int) ≤ ⌊t / 60⌋ := Int.floor_nonneg.2 (by positivity)
  have b4 : ⌊t / 60⌋ < 60 := by rw [Int.floor_lt, div_lt_iff₀ (by norm_num)]; push_cast; linarith
  generalize ⌊t / 60⌋ = m at *
  rw [le_div_iff₀ (by norm_num)] at b1
  rw [div_lt_iff₀ (by norm_num)] at b2
  obtain ⟨r, hr⟩ : ∃ r, r = t - (m : Rat) * 60 := ⟨_, rfl⟩
  rw [← hr]
  have s0 : 0 ≤ r := by linarith
  have s1 : r < 60 := by linarith
  rw [intOf_nonneg r s0]
  have c1 := Int.floor_le r
  have c2 := Int.lt_floor_add_one r
  have c3 : (0 : Int) ≤ ⌊r⌋ := Int.floor_nonneg.2 s0
  have c4 : ⌊r⌋ < 60 := by rw [Int.floor_lt]; push_cast; linarith
  generalize ⌊r⌋ = n at *
  rw [intOf_nonneg _ (by linarith)]
  have d3 : (0 : Int) ≤ ⌊1000000 * (r - n)⌋ := Int.floor_nonneg.2 (by linarith)
  have d4 : ⌊1000000 * (r - n)⌋ < 1000000 := by rw [Int.floor_lt]; push_cast; linarith
  rw [if_pos ⟨a3, a4, b3, b4, c3, c4, d3, d4⟩]
  have hq : q * 1000000 = 1000000 * (r - n) + ((((h * 60 + m) * 60 + n) * 1000000 : Int) : Rat) := by
    rw [hr, ht]; push_cast; ring
  rw [hq, Int.floor_add_intCast, add_comm]

/-- seconds since midnight -/
def secondsOf (us : Nat) : Rat := us / 1000000

/-- **C94** times, in exact arithmetic: the statistics of the seconds since midnight, as times; deviation, interquartile range and sum in seconds; the quartiles stay seconds -/
theorem C94_time_entries (vc : List (Nat × Nat)) (hne : vc ≠ []) (hpos : ∀ e ∈ vc, 0 < e.2) (hr : ∀ e ∈ vc, e.1 < 86400000000) :
    ∃ t, TenOk (vc.map fun e => (secondsOf e.1, e.2)) t ∧ timeSummary id vc = .ok ⟨.val (.time ⌊t.min * 1000000⌋.toNat), .val (.time ⌊t.max * 1000000⌋.toNat),
      .val (.time ⌊t.mean * 1000000⌋.toNat), .val (.time ⌊t.median * 1000000⌋.toNat), .text (.sqrt t.var) " seconds", .val (.time ⌊t.mode * 1000000⌋.toNat),
      .num (.rat t.low), .num (.rat t.high), .text (.rat (t.high - t.low)) " seconds", .text (.rat t.sum) " seconds"⟩ := by
  have hsec : timeTs id = secondsOf := by
    funext us
    unfold timeTs secondsOf
    dsimp only [id]
    have : ((us / 1000000 : Nat) : Rat) * 1000000 + ((us % 1000000 : Nat) : Rat) = us := by exact_mod_cast Nat.div_add_mod' us 1000000
    rw [eq_div_iff (by norm_num), add_mul, div_mul_cancel₀ _ (by norm_num)]
    exact this
  obtain ⟨t, s, ht, h1, h2⟩ := ten_of secondsOf vc hne hpos
  have hq : ∀ us : Nat, us < 86400000000 → 0 ≤ secondsOf us ∧ secondsOf us < 86400 := by
    intro us hus
    unfold secondsOf
    exact ⟨by positivity, by rw [div_lt_iff₀ (by norm_num)]; exact_mod_cast hus⟩
  have hx : ∀ x ∈ expand (vc.map fun e => (secondsOf e.1, e.2)), 0 ≤ x ∧ x < 86400 := by
    intro x hx
    obtain ⟨e, he, rfl⟩ := (expand_map_mem _ vc hpos x).1 hx
    exact hq _ (hr e he)
  have hmean : 0 ≤ t.mean ∧ t.mean < 86400 := by
    have := mean_range secondsOf vc 0 86400 hne hpos fun e he => hq _ (hr e he)
    rw [ht.mean, meanOf, expand_map_sum, expand_length, List.map_map]
    exact this
  have hmed := median_range _ t.median ht.median 0 86400 hx
  have hmode : 0 ≤ t.mode ∧ t.mode < 86400 := by
    obtain ⟨e, he, hm, -⟩ := ht.mode
    obtain ⟨e', he', rfl⟩ := List.mem_map.1 he
    rw [hm]
    exact hq _ (hr e' he')
  have bk : ∀ q : Rat, 0 ≤ q ∧ q < 86400 → backEntry (timeBack id) (.rat q) = .ok (.val (.time ⌊q * 1000000⌋.toNat)) := by
    intro q hq
    simp only [backEntry, timeBack_floor q hq.1 hq.2, bind, Except.bind]
  refine ⟨t, ht, ?_⟩
  unfold timeSummary
  rw [hsec]
  simp only [h1, bind, Except.bind, h2, bk _ (hx _ ht.min.1), bk _ (hx _ ht.max.1), bk _ hmean, bk _ hmed, bk _ hmode]

/-- the least time comes back exactly -/
example (us : Nat) : ⌊secondsOf us * 1000000⌋.toNat = us := by
  unfold secondsOf
  rw [div_mul_cancel₀ _ (by norm_num)]
  simp

/-- the values of one type with their counts, in order -/
def OfKind {β : Type} (mk : β → StVal) (vc : List (StVal × Nat)) (k : SKind) (l : List (β × Nat)) : Prop := (vc.filter fun e => e.1.kind = k) = l.map fun e => (mk e.1, e.2)

/-- **C94** which method: the values of the type found are summarised by the method for it, with their counts -/
theorem C94_method (clk : SClock) (fl : Rat → Rat) (vc : List (StVal × Nat)) (hpos : ∃ e ∈ vc, 0 < e.2) (o : SumOut) (h : summaryStatistics clk fl vc = .ok (some o)) :
    (∀ l, OfKind .bool vc o.summaryType l → l ≠ [] → boolSummary l = .ok o.entries) ∧
    (∀ l : List (Int × Nat), OfKind .int vc o.summaryType l → l ≠ [] → numSummary (l.map fun e => ((e.1 : Rat), e.2)) = .ok o.entries) ∧
    (∀ l, OfKind .float vc o.summaryType l → l ≠ [] → numSummary l = .ok o.entries) ∧
    (∀ l, OfKind .str vc o.summaryType l → l ≠ [] → strSummary l = .ok o.entries) ∧
    (∀ l, OfKind .date vc o.summaryType l → l ≠ [] → dateSummary clk l = .ok o.entries) ∧
    (∀ l, OfKind .datetime vc o.summaryType l → l ≠ [] → datetimeSummary clk l = .ok o.entries) ∧
    (∀ l, OfKind .time vc o.summaryType l → l ≠ [] → timeSummary fl l = .ok o.entries) ∧
    (o.summaryType = .none → o.entries = ⟨.na, .na, .na, .na, .na, .na, .na, .na, .na, .na⟩) := by
  obtain ⟨o', ho, -, -, -, hm⟩ := C94_whole clk fl vc hpos _ h
  cases ho
  have hk : ∀ {β : Type} (mk : β → StVal) (k : SKind) (l : List (β × Nat)), (∀ b, (mk b).kind = k) → OfKind mk vc o.summaryType l → l ≠ [] → o.summaryType = k := by
    intro β mk k l hmk hl hne
    obtain ⟨a, ha⟩ := List.exists_mem_of_ne_nil l hne
    have : (mk a.1, a.2) ∈ vc.filter fun e => e.1.kind = o.summaryType := by rw [hl]; exact List.mem_map.2 ⟨a, ha, rfl⟩
    have := of_decide_eq_true (List.mem_filter.1 this).2
    rw [← this]; exact hmk _
  have hp : ∀ {β γ : Type} (mk : β → StVal) (f : StVal → Option γ) (g : β → γ) (l : List (β × Nat)), (∀ b, f (mk b) = some (g b)) →
      pickVals f (l.map fun e => (mk e.1, e.2)) = l.map fun e => (g e.1, e.2) := by
    intro β γ mk f g l hf
    unfold pickVals
    rw [List.filterMap_map]
    induction l with
    | nil => rfl
    | cons e t ih => rw [List.filterMap_cons]; simp only [Function.comp_apply, hf, Option.map_some, List.map_cons]; rw [← ih]; simp only [Function.comp_def, hf, Option.map_some]
  have hid : ∀ {β : Type} (l : List (β × Nat)), (l.map fun e => (id e.1, e.2)) = l := by intro β l; simp
  refine ⟨?_, ?_, ?_, ?_, ?_, ?_, ?_, ?_⟩
  · intro l hl hne
    have ht := hk StVal.bool .bool l (fun _ => rfl) hl hne
    unfold OfKind at hl
    rw [hl, ht, methodOf, hp StVal.bool _ id l (fun _ => rfl), hid] at hm
    exact hm
  · intro l hl hne
    have ht := hk StVal.int .int l (fun _ => rfl) hl hne
    unfold OfKind at hl
    rw [hl, ht, methodOf, hp StVal.int _ (fun n : Int => (n : Rat)) l (fun _ => rfl)] at hm
    exact hm
  · intro l hl hne
    have ht := hk StVal.float .float l (fun _ => rfl) hl hne
    unfold OfKind at hl
    rw [hl, ht, methodOf, hp StVal.float _ id l (fun _ => rfl), hid] at hm
    exact hm
  · intro l hl hne
    have ht := hk StVal.str .str l (fun _ => rfl) hl hne
    unfold OfKind at hl
    rw [hl, ht, methodOf, hp StVal.str _ id l (fun _ => rfl), hid] at hm
    exact hm
  · intro l hl hne
    have ht := hk StVal.date .date l (fun _ => rfl) hl hne
    unfold OfKind at hl
    rw [hl, ht, methodOf, hp StVal.date _ id l (fun _ => rfl), hid] at hm
    exact hm
  · intro l hl hne
    have ht := hk StVal.datetime .datetime l (fun _ => rfl) hl hne
    unfold OfKind at hl
    rw [hl, ht, methodOf, hp StVal.datetime _ id l (fun _ => rfl), hid] at hm
    exact hm
  · intro l hl hne
    have ht := hk StVal.time .time l (fun _ => rfl) hl hne
    unfold OfKind at hl
    rw [hl, ht, methodOf, hp StVal.time _ id l (fun _ => rfl), hid] at hm
    exact hm
  · intro ht
    rw [ht, methodOf] at hm
    injection hm with hm
    exact hm.symm

example : OfKind StVal.str [(.str ['a'], 2), (.int 3, 1), (.str ['b'], 1)] .str [(['a'], 2), (['b'], 1)] := by unfold OfKind; decide

end Tablite
