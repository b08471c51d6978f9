import Verif.Model.SortDates
import Verif.Props.Sort
import Verif.Props.Dates
import Verif.Props.Double
/-!
# C102: sorting by dates and times
-/

namespace Tablite
set_option linter.unusedSectionVars false

/-! ## specification -/

/-- a value Python can hold -/
def DVal.Ok : DVal → Prop
  | .time u => 0 ≤ u ∧ u < 86400000000
  | .date d => 0 ≤ d ∧ d < 3652059
  | .datetime m => 0 ≤ m ∧ m < 315537897600000000
  | .timedelta m => -86399999913600000000 ≤ m ∧ m < 86400000000000000000
  | .none => True

/-- spec: the instant of a value in microseconds; a date is its midnight -/
def DVal.instant : DVal → Int
  | .time u => u
  | .date d => d * 86400000000
  | .datetime m => m
  | .timedelta m => m
  | .none => 0

/-- spec: the type of a value -/
def DVal.kind : DVal → Nat
  | .time _ => 0
  | .date _ => 1
  | .datetime _ => 2
  | .timedelta _ => 3
  | .none => 4

/-- spec: a date or a datetime -/
def DVal.isMoment (v : DVal) : Prop := v.kind = 1 ∨ v.kind = 2

/-- spec: `a` is earlier than `b`; None is after all (Excel) or before all (Unix) -/
def earlier (noneLast : Bool) (a b : DVal) : Prop :=
  if a = .none then noneLast = false ∧ b ≠ .none
  else if b = .none then noneLast = true
  else a.instant < b.instant

/-- spec: row `i` stands before row `j`: at the first key on which they differ it is earlier (later, if the key is descending), and rows that agree on all keys keep their order -/
def Chron (noneLast : Bool) {ν : Type} (v : ν → Nat → DVal) (i j : Nat) : List (ν × Bool) → Prop
  | [] => i < j
  | (a, rev) :: ks => (v a i = v a j ∧ Chron noneLast v i j ks) ∨ (if rev then earlier noneLast (v a j) (v a i) else earlier noneLast (v a i) (v a j))

/-- spec: two values of a column that Excel order can compare: of one type, or None, or a date and a datetime in different seconds -/
def Alike (a b : DVal) : Prop := a.kind = b.kind ∨ a = .none ∨ b = .none ∨ (a.isMoment ∧ b.isMoment ∧ a.instant / 1000000 ≠ b.instant / 1000000)

/-! ## sort values -/

theorem daysVC_err (fl : Rat → Rat) (hfl : IsRound fl) (s : Int) (hs : |s| ≤ 86400000000000) : |daysVC fl s - (s : Rat) / 86400| < 1 / 200000 := by
  have h1 := Int.mul_ediv_add_emod s 86400
  have h2 := Int.emod_nonneg s (show (86400 : Int) ≠ 0 by decide)
  have h3 := Int.emod_lt_of_pos s (show (0 : Int) < 86400 by decide)
  unfold daysVC
  set q := s / 86400 with hq
  set r := s % 86400 with hr
  have hqb : |(q : Rat)| ≤ 1000000001 := by
    have := abs_le.1 hs
    have : -1000000001 ≤ q ∧ q ≤ 1000000001 := by constructor <;> omega
    rw [abs_le]
    exact ⟨by exact_mod_cast this.1, by exact_mod_cast this.2⟩
  have hr0 : (0 : Rat) ≤ r := by exact_mod_cast h2
  have hr1 : (r : Rat) < 86400 := by exact_mod_cast h3
  have hx0 : (0 : Rat) ≤ (r : Rat) / 86400 := by positivity
  have hx1 : (r : Rat) / 86400 ≤ 1 := by rw [div_le_one (by norm_num)]; exact hr1.le
  have e1 := hfl.err ((r : Rat) / 86400)
  rw [abs_of_nonneg hx0] at e1
  set x := fl ((r : Rat) / 86400) with hx
  have e1' : |x - (r : Rat) / 86400| ≤ 1 / 2 ^ 53 := e1.trans (by gcongr)
  have e2 := hfl.err ((q : Rat) + x)
  have a1 := abs_le.1 e1'
  have a2 := abs_le.1 hqb
  have hqx : |(q : Rat) + x| ≤ 1000000003 := by
    rw [abs_le]
    constructor <;> norm_num at a1 ⊢ <;> linarith [a1.1, a1.2, a2.1, a2.2]
  have e2' : |fl ((q : Rat) + x) - (q + x)| ≤ 1000000003 / 2 ^ 53 := e2.trans (by gcongr)
  have a3 := abs_le.1 e2'
  have hs' : (s : Rat) / 86400 = q + r / 86400 := by
    rw [← h1]; push_cast; field_simp
  rw [hs', abs_lt]
  norm_num at a1 a3 ⊢
  constructor <;> linarith [a1.1, a1.2, a3.1, a3.2]

theorem daysVC_lt (fl : Rat → Rat) (hfl : IsRound fl) (a b : Int) (ha : |a| ≤ 86400000000000) (hb : |b| ≤ 86400000000000) (h : a < b) : daysVC fl a < daysVC fl b := by
  have e1 := abs_lt.1 (daysVC_err fl hfl a ha)
  have e2 := abs_lt.1 (daysVC_err fl hfl b hb)
  have : (a : Rat) + 1 ≤ b := by exact_mod_cast h
  have : (a : Rat) / 86400 + 1 / 86400 ≤ b / 86400 := by rw [← add_div]; gcongr
  norm_num at *
  linarith [e1.2, e2.1]

theorem timeVC_err (fl : Rat → Rat) (hfl : IsRound fl) (u : Int) (h0 : 0 ≤ u) (h1 : u < 86400000000) : |timeVC fl u - (u : Rat) / 86400000000| < 1 / 200000000000 := by
  have k1 := Int.mul_ediv_add_emod u 1000000
  have k2 := Int.emod_nonneg u (show (1000000 : Int) ≠ 0 by decide)
  have k3 := Int.emod_lt_of_pos u (show (0 : Int) < 1000000 by decide)
  unfold timeVC
  set q := u / 1000000 with hq
  set r := u % 1000000 with hr
  have hq0 : (0 : Rat) ≤ q := by
    have : 0 ≤ q := by omega
    exact_mod_cast this
  have hq1 : (q : Rat) ≤ 86400 := by
    have : q ≤ 86400 := by omega
    exact_mod_cast this
  have hr0 : (0 : Rat) ≤ r := by exact_mod_cast k2
  have hr1 : (r : Rat) < 1000000 := by exact_mod_cast k3
  have hx0 : (0 : Rat) ≤ (r : Rat) / 1000000 := by positivity
  have hx1 : (r : Rat) / 1000000 ≤ 1 := by rw [div_le_one (by norm_num)]; exact hr1.le
  have e1 := hfl.err ((r : Rat) / 1000000)
  rw [abs_of_nonneg hx0] at e1
  set x := fl ((r : Rat) / 1000000) with hx
  have e1' : |x - (r : Rat) / 1000000| ≤ 1 / 2 ^ 53 := e1.trans (by gcongr)
  have a1 := abs_le.1 e1'
  have e2 := hfl.err ((q : Rat) + x)
  have hqx : |(q : Rat) + x| ≤ 86402 := by
    rw [abs_le]
    constructor <;> norm_num at a1 ⊢ <;> linarith [a1.1, a1.2]
  have e2' : |fl ((q : Rat) + x) - (q + x)| ≤ 86402 / 2 ^ 53 := e2.trans (by gcongr)
  set y := fl ((q : Rat) + x) with hy
  have a2 := abs_le.1 e2'
  have b2 := abs_le.1 hqx
  have e3 := hfl.err (y / 86400)
  have hyb : |y / 86400| ≤ 2 := by
    rw [abs_le]
    norm_num at a2 b2 ⊢
    constructor
    · rw [le_div_iff₀ (by norm_num)]; linarith [a2.1, a2.2, b2.1, b2.2]
    · rw [div_le_iff₀ (by norm_num)]; linarith [a2.1, a2.2, b2.1, b2.2]
  have e3' : |fl (y / 86400) - y / 86400| ≤ 2 / 2 ^ 53 := e3.trans (by gcongr)
  have a3 := abs_le.1 e3'
  have hu : (u : Rat) / 86400000000 = (q + r / 1000000) / 86400 := by
    rw [← k1]; push_cast; field_simp; ring
  rw [hu, abs_lt]
  norm_num at a1 a2 a3 ⊢
  constructor <;> linarith [a1.1, a1.2, a2.1, a2.2, a3.1, a3.2]

theorem timeVC_lt (fl : Rat → Rat) (hfl : IsRound fl) (a b : Int) (ha : 0 ≤ a) (hb : b < 86400000000) (h : a < b) : timeVC fl a < timeVC fl b := by
  have e1 := abs_lt.1 (timeVC_err fl hfl a ha (by omega))
  have e2 := abs_lt.1 (timeVC_err fl hfl b (by omega) hb)
  have : (a : Rat) + 1 ≤ b := by exact_mod_cast h
  have : (a : Rat) / 86400000000 + 1 / 86400000000 ≤ b / 86400000000 := by rw [← add_div]; gcongr
  norm_num at *
  linarith [e1.2, e2.1]

section
variable {K : Type} [LinearOrder K]

/-- an earlier value has a smaller tuple -/
theorem sval_lt (fl : Rat → Rat) (hfl : IsRound fl) (e : Int) (he : 0 ≤ e ∧ e ≤ 1000000) (key : String → K) (a b : DVal) (ha : a.Ok) (hb : b.Ok) (hna : a ≠ .none) (hnb : b ≠ .none)
    (hab : Alike a b) (h : a.instant < b.instant) : within key (a.sval fl e) (b.sval fl e) = true := by
  have days : ∀ x y : Int, |x| ≤ 86400000000000 → |y| ≤ 86400000000000 → ∀ f g : Int, (x < y ∨ (x = y ∧ f < g)) →
      daysVC fl x < daysVC fl y ∨ (daysVC fl x = daysVC fl y ∧ (f : Rat) < g) := by
    intro x y hx hy f g h
    rcases h with h | ⟨rfl, h⟩
    · exact .inl (daysVC_lt fl hfl x y hx hy h)
    · exact .inr ⟨rfl, by exact_mod_cast h⟩
  cases a <;> cases b <;> simp [Alike, DVal.kind, DVal.isMoment] at hab hna hnb <;>
    simp only [DVal.Ok, DVal.instant] at ha hb h hab <;>
    simp only [DVal.sval, within, decide_eq_true_eq]
  · exact .inl (timeVC_lt fl hfl _ _ ha.1 hb.2 h)
  · exact days _ _ (by rw [abs_le]; omega) (by rw [abs_le]; omega) _ _ (by omega)
  · refine .inl (daysVC_lt fl hfl _ _ ?_ ?_ ?_) <;> first | (rw [abs_le]; omega) | omega
  · refine .inl (daysVC_lt fl hfl _ _ ?_ ?_ ?_) <;> first | (rw [abs_le]; omega) | omega
  · exact days _ _ (by rw [abs_le]; omega) (by rw [abs_le]; omega) _ _ (by omega)
  · exact days _ _ (by rw [abs_le]; omega) (by rw [abs_le]; omega) _ _ (by omega)

theorem alike_symm (a b : DVal) (h : Alike a b) : Alike b a := by
  rcases h with h | h | h | ⟨h1, h2, h3⟩
  · exact .inl h.symm
  · exact .inr (.inr (.inl h))
  · exact .inr (.inl h)
  · exact .inr (.inr (.inr ⟨h2, h1, h3.symm⟩))

theorem earlier_total (l : Bool) (a b : DVal) (hab : Alike a b) (hne : a ≠ b) : earlier l a b ∨ earlier l b a := by
  unfold earlier
  by_cases ha : a = .none
  · have hb : b ≠ .none := fun h => hne (ha.trans h.symm)
    cases l <;> simp [ha, hb]
  · by_cases hb : b = .none
    · cases l <;> simp [ha, hb]
    · rw [if_neg ha, if_neg hb, if_neg hb, if_neg ha]
      have : a.instant ≠ b.instant := by
        intro e
        rcases hab with h | h | h | ⟨-, -, h⟩
        · cases a <;> cases b <;> simp [DVal.kind, DVal.instant] at * <;> omega
        · exact ha h
        · exact hb h
        · exact h (by rw [e])
      omega

theorem excelLt_of_earlier (fl : Rat → Rat) (hfl : IsRound fl) (e : Int) (he : 0 ≤ e ∧ e ≤ 1000000) (key : String → K) (a b : DVal) (ha : a.Ok) (hb : b.Ok)
    (hab : Alike a b) (h : earlier true a b) : excelLt key (a.sval fl e) (b.sval fl e) = true := by
  unfold earlier at h
  have hna : a ≠ .none := by intro hx; rw [if_pos hx] at h; exact absurd h.1 (by decide)
  rw [if_neg hna] at h
  by_cases hnb : b = .none
  · subst hnb
    cases a <;> simp [DVal.sval, excelLt, xgroup] at hna ⊢
  · rw [if_neg hnb] at h
    have := sval_lt fl hfl e he key a b ha hb hna hnb hab h
    have hg : xgroup (a.sval fl e) = xgroup (b.sval fl e) := by
      cases a <;> cases b <;> simp [DVal.sval, xgroup] at hna hnb ⊢
    unfold excelLt
    rw [this, hg]
    simp

theorem unixLt_of_earlier (fl : Rat → Rat) (hfl : IsRound fl) (e : Int) (he : 0 ≤ e ∧ e ≤ 1000000) (key : String → K) (a b : DVal) (ha : a.Ok) (hb : b.Ok)
    (hab : a.kind = b.kind ∨ a = .none ∨ b = .none) (h : earlier false a b) : unixLt key (a.sval fl e) (b.sval fl e) = true := by
  unfold earlier at h
  by_cases hna : a = .none
  · subst hna
    rw [if_pos rfl] at h
    have hnb := h.2
    cases b <;> simp [DVal.sval, unixLt, unixCode] at hnb ⊢
  · rw [if_neg hna] at h
    have hnb : b ≠ .none := by intro hx; rw [if_pos hx] at h; exact absurd h (by decide)
    rw [if_neg hnb] at h
    have hk : a.kind = b.kind := by
      rcases hab with h | h | h
      · exact h
      · exact absurd h hna
      · exact absurd h hnb
    have := sval_lt fl hfl e he key a b ha hb hna hnb (.inl hk) h
    have hg : unixCode (a.sval fl e) = unixCode (b.sval fl e) := by
      cases a <;> cases b <;> simp [DVal.kind, DVal.sval, unixCode] at hk hna hnb ⊢
    unfold unixLt
    rw [this, hg]
    simp

theorem sval_inj (fl : Rat → Rat) (e : Int) (a b : DVal) (h : a.sval fl e = b.sval fl e) : a = b := by
  cases a <;> cases b <;> simp [DVal.sval] at h ⊢ <;> exact_mod_cast h.2

theorem sval_same (fl : Rat → Rat) (e : Int) (a b : DVal) (h : (a.sval fl e).same (b.sval fl e) = true) : a = b := by
  cases a <;> cases b <;> simp [DVal.sval, SVal.same, SVal.pyEq, tyComparable, xgroup] at h ⊢ <;> exact_mod_cast h.2

theorem sval_same_refl (fl : Rat → Rat) (e : Int) (a : DVal) : (a.sval fl e).same (a.sval fl e) = true := by
  cases a <;> simp [DVal.sval, SVal.same, SVal.pyEq, tyComparable, xgroup]

theorem sval_clash (fl : Rat → Rat) (hfl : IsRound fl) (e : Int) (he : 0 ≤ e ∧ e ≤ 1000000) (a b : DVal) (ha : a.Ok) (hb : b.Ok) (hab : Alike a b) :
    numClash (a.sval fl e) (b.sval fl e) = false := by
  have key : ∀ x y : Int, |x| ≤ 86400000000000 → |y| ≤ 86400000000000 → x ≠ y → daysVC fl x ≠ daysVC fl y := by
    intro x y hx hy hne
    rcases lt_or_gt_of_ne hne with h | h
    · exact (daysVC_lt fl hfl x y hx hy h).ne
    · exact (daysVC_lt fl hfl y x hy hx h).ne'
  cases a <;> cases b <;> simp [Alike, DVal.kind, DVal.isMoment] at hab <;> simp only [DVal.Ok, DVal.instant] at ha hb hab <;> simp [DVal.sval, numClash, tyComparable]
  · exact key _ _ (by rw [abs_le]; omega) (by rw [abs_le]; omega) (by omega)
  · exact key _ _ (by rw [abs_le]; omega) (by rw [abs_le]; omega) (by omega)

variable {ν : Type} [DecidableEq ν]

/-- from the order of the sort values to the order of the instants -/
theorem chron_of_inOrder (l : Bool) (same lt : SVal → SVal → Bool) (sv : DVal → SVal) (t : Tbl ν SVal) (n : Nat) (v : ν → Nat → DVal)
    (hs : ∀ a b : DVal, same (sv a) (sv b) = true → a = b) : ∀ (mapping : List (ν × Bool)) (i j : Nat), i < n → j < n →
    (∀ k ∈ mapping, ∀ i < n, cell .none t k.1 i = sv (v k.1 i)) →
    (∀ k ∈ mapping, ∀ i < n, ∀ j < n, same (sv (v k.1 i)) (sv (v k.1 j)) = false → earlier l (v k.1 i) (v k.1 j) ∨ earlier l (v k.1 j) (v k.1 i)) →
    (∀ k ∈ mapping, ∀ i < n, ∀ j < n, earlier l (v k.1 i) (v k.1 j) → lt (sv (v k.1 i)) (sv (v k.1 j)) = true) →
    InOrder same lt .none t i j mapping → Chron l v i j mapping
  | [], _, _, _, _, _, _, _, h => h
  | (a, rev) :: ks, i, j, hi, hj, hc, ht, hl, h => by
    unfold InOrder at h
    unfold Chron
    rw [hc (a, rev) (by simp) i hi, hc (a, rev) (by simp) j hj] at h
    split at h
    · rename_i e
      exact .inl ⟨hs _ _ e, chron_of_inOrder l same lt sv t n v hs ks i j hi hj (fun k hk => hc k (List.mem_cons_of_mem _ hk)) (fun k hk => ht k (List.mem_cons_of_mem _ hk))
        (fun k hk => hl k (List.mem_cons_of_mem _ hk)) h⟩
    · rename_i e
      have tot := ht (a, rev) (by simp) i hi j hj (by simpa using e)
      have l1 := hl (a, rev) (by simp) i hi j hj
      have l2 := hl (a, rev) (by simp) j hj i hi
      dsimp only at tot l1 l2
      right
      cases rev
      · simp only [Bool.false_eq_true, if_false] at h ⊢
        rcases tot with h' | h'
        · exact h'
        · rw [l2 h'] at h; exact absurd h (by decide)
      · simp only [if_true] at h ⊢
        rcases tot with h' | h'
        · rw [l1 h'] at h; exact absurd h (by decide)
        · exact h'

/-- **C102** (Excel order, the default).  Sorting by columns of times, of dates, of datetimes or of timedeltas, with None, is chronological to the microsecond although the sort value
drops microseconds and is rounded: it never fails, rearranges the rows, and puts the earlier before the later (or after it, if descending), None last (first), rows that agree on all keys in
their order.  Dates and datetimes may be mixed as long as no date is in the same second as a datetime. -/
theorem C102_excel_partial (fl : Rat → Rat) (hfl : IsRound fl) (key : String → K) (ord : List SVal → List SVal) (hord : ∀ l v, v ∈ ord l ↔ v ∈ l) (ps : Nat) (hps : 0 < ps) (t : Tbl ν SVal)
    (n : Nat) (hrect : Rect t n) (mapping : List (ν × Bool)) (hne : mapping ≠ []) (hk : ∀ k ∈ mapping, k.1 ∈ t.map (·.1))
    (v : ν → Nat → DVal) (hv : ∀ k ∈ mapping, ∀ i < n, (v k.1 i).Ok ∧ cell .none t k.1 i = (v k.1 i).sval fl excelEpoch)
    (ha : ∀ k ∈ mapping, ∀ i < n, ∀ j < n, Alike (v k.1 i) (v k.1 j)) :
    ∃ idx t', tblSort (excelRank key ord) ps .none t mapping = .ok t' ∧ idx.Perm (List.range n) ∧ tview t' = rowsOf .none t idx ∧
      idx.Pairwise fun i j => Chron true v i j mapping := by
  have he : (0 : Int) ≤ excelEpoch ∧ excelEpoch ≤ 1000000 := by unfold excelEpoch; decide
  obtain ⟨idx, t', h1, h2, h3, h4⟩ := C32_excel_partial key ord hord ps hps t n hrect mapping hne hk
    (by
      intro k hk' i hi j hj
      rw [(hv k hk' i hi).2, (hv k hk' j hj).2]
      exact sval_clash fl hfl _ he _ _ (hv k hk' i hi).1 (hv k hk' j hj).1 (ha k hk' i hi j hj))
    (by
      intro k hk' i hi j hj
      rw [(hv k hk' i hi).2, (hv k hk' j hj).2]
      generalize v k.1 i = a
      generalize v k.1 j = b
      cases a <;> cases b <;> simp [DVal.sval, SVal.pyEq, xgroup])
  refine ⟨idx, t', h1, h2, h3, h4.imp_of_mem ?_⟩
  intro i j hi hj h
  have hi' := List.mem_range.1 (h2.subset hi)
  have hj' := List.mem_range.1 (h2.subset hj)
  refine chron_of_inOrder true _ _ (DVal.sval fl excelEpoch) t n v (sval_same fl excelEpoch) mapping i j hi' hj' (fun k hk' i hi => (hv k hk' i hi).2) ?_ ?_ h
  · intro k hk' i hi j hj e
    refine earlier_total true _ _ (ha k hk' i hi j hj) ?_
    intro e'
    rw [e', sval_same_refl] at e
    exact absurd e (by decide)
  · intro k hk' i hi j hj
    exact excelLt_of_earlier fl hfl _ he key _ _ (hv k hk' i hi).1 (hv k hk' j hj).1 (ha k hk' i hi j hj)

/-- **C102** (Unix order): the same for columns of one type, with None first (last, if descending) -/
theorem C102_unix (fl : Rat → Rat) (hfl : IsRound fl) (key : String → K) (ord : List SVal → List SVal) (hord : ∀ l v, v ∈ ord l ↔ v ∈ l) (ps : Nat) (hps : 0 < ps) (t : Tbl ν SVal)
    (n : Nat) (hrect : Rect t n) (mapping : List (ν × Bool)) (hne : mapping ≠ []) (hk : ∀ k ∈ mapping, k.1 ∈ t.map (·.1))
    (v : ν → Nat → DVal) (hv : ∀ k ∈ mapping, ∀ i < n, (v k.1 i).Ok ∧ cell .none t k.1 i = (v k.1 i).sval fl unixEpoch)
    (ha : ∀ k ∈ mapping, ∀ i < n, ∀ j < n, (v k.1 i).kind = (v k.1 j).kind ∨ v k.1 i = .none ∨ v k.1 j = .none) :
    ∃ idx t', tblSort (unixRank key ord) ps .none t mapping = .ok t' ∧ idx.Perm (List.range n) ∧ tview t' = rowsOf .none t idx ∧
      idx.Pairwise fun i j => Chron false v i j mapping := by
  have he : (0 : Int) ≤ unixEpoch ∧ unixEpoch ≤ 1000000 := by unfold unixEpoch; decide
  obtain ⟨idx, t', h1, h2, h3, h4⟩ := C32_unix_partial key ord hord ps hps t n hrect mapping hne hk
    (by
      intro k hk' _
      right
      intro i hi
      rw [(hv k hk' i hi).2]
      generalize v k.1 i = a
      cases a <;> rfl)
  refine ⟨idx, t', h1, h2, h3, h4.imp_of_mem ?_⟩
  intro i j hi hj h
  have hi' := List.mem_range.1 (h2.subset hi)
  have hj' := List.mem_range.1 (h2.subset hj)
  refine chron_of_inOrder false _ _ (DVal.sval fl unixEpoch) t n v (fun a b h => sval_inj fl unixEpoch a b (of_decide_eq_true h)) mapping i j hi' hj' (fun k hk' i hi => (hv k hk' i hi).2) ?_ ?_ h
  · intro k hk' i hi j hj e
    have hal : Alike (v k.1 i) (v k.1 j) := by
      rcases ha k hk' i hi j hj with h | h | h
      · exact .inl h
      · exact .inr (.inl h)
      · exact .inr (.inr (.inl h))
    refine earlier_total false _ _ hal ?_
    intro e'
    rw [e'] at e
    simp at e
  · intro k hk' i hi j hj
    exact unixLt_of_earlier fl hfl _ he key _ _ (hv k hk' i hi).1 (hv k hk' j hj).1 (ha k hk' i hi j hj)

/-- days from 1 January 1 to 1 January of a year (spec vocabulary): leap years are those divisible by 4, of full centuries those divisible by 400 -/
def newYear : Nat → Int
  | 0 => 0
  | 1 => 0
  | y + 2 => newYear (y + 1) + if (y + 1) % 4 = 0 ∧ ((y + 1) % 100 ≠ 0 ∨ (y + 1) % 400 = 0) then 366 else 365

/-- In Excel order a date counts as the number of days since 1 January 1900.  A column with a date and the integer of these days cannot be sorted: TypeError. -/
theorem C102_day_number_raises (fl : Rat → Rat) (key : String → K) (ord : List SVal → List SVal) (hord : ∀ l v, v ∈ ord l ↔ v ∈ l) (reverse : Bool) (col : List SVal) (k : Int) (h0 : fl 0 = 0) (hk : fl k = k)
    (hd : (DVal.date (newYear 1900 + k)).sval fl excelEpoch ∈ col) (hi : SVal.num .int k k ∈ col) : excelRank key ord reverse col = .error .type := by
  have e : newYear 1900 = excelEpoch := by decide +kernel
  unfold excelRank excelList
  rw [if_pos]
  · rfl
  · rw [List.any_eq_true]
    refine ⟨_, (hord _ _).2 hd, ?_⟩
    rw [List.any_eq_true]
    refine ⟨_, (hord _ _).2 hi, ?_⟩
    simp only [DVal.sval, numClash, daysVC, e]
    rw [show (excelEpoch + k - excelEpoch) * 86400 = k * 86400 by ring, Int.mul_ediv_cancel _ (by decide), Int.mul_emod_left]
    simp [h0, hk, tyComparable]

/-- 2 January 1900 and the integer 1 -/
example : newYear 1900 + 1 = 693596 ∧ flDouble 0 = 0 ∧ flDouble ((1 : Int) : Rat) = ((1 : Int) : Rat) := by decide +kernel

/-- a date and a datetime in the same second, for example its midnight, cannot be sorted in Excel order: TypeError, whatever else is in the column -/
theorem C102_same_second_raises (fl : Rat → Rat) (key : String → K) (ord : List SVal → List SVal) (hord : ∀ l v, v ∈ ord l ↔ v ∈ l) (reverse : Bool) (col : List SVal)
    (d m : Int) (hd : (DVal.date d).sval fl excelEpoch ∈ col) (hm : (DVal.datetime m).sval fl excelEpoch ∈ col) (h : m / 1000000 = d * 86400) :
    excelRank key ord reverse col = .error .type := by
  unfold excelRank excelList
  rw [if_pos]
  · rfl
  · rw [List.any_eq_true]
    refine ⟨_, (hord _ _).2 hd, ?_⟩
    rw [List.any_eq_true]
    refine ⟨_, (hord _ _).2 hm, ?_⟩
    simp only [DVal.sval, numClash, h]
    rw [show (d - excelEpoch) * 86400 = d * 86400 - excelEpoch * 86400 by ring]
    simp [tyComparable]

end

/-- the full claim: columns of dates and times, however mixed, are sorted by instant -/
def C102_statement : Prop := ∀ (fl : Rat → Rat), IsRound fl → ∀ (vs : List DVal), (∀ v ∈ vs, v.Ok) →
  ∃ (idx : List Nat) (t' : Tbl Nat SVal), tblSort (excelRank (fun s => s.length) id) 10 .none [(0, [vs.map (DVal.sval fl excelEpoch)])] [((0 : Nat), false)] = .ok t' ∧ idx.Perm (List.range vs.length) ∧
    tview t' = [(0, idx.map fun i => (vs.getD i .none).sval fl excelEpoch)] ∧ idx.Pairwise fun i j => Chron true (fun _ i => vs.getD i .none) i j [((0 : Nat), false)]

/-- 1 January 1900 and its midnight -/
theorem C102_fails : ¬ C102_statement := by
  intro h
  obtain ⟨idx, t', h1, -⟩ := h flDouble isRound_double [.date 693595, .datetime 59926608000000000] (by simp [DVal.Ok])
  have e : excelRank (fun s => s.length) id false ([DVal.date 693595, .datetime 59926608000000000].map (DVal.sval flDouble excelEpoch)) = .error .type :=
    C102_same_second_raises flDouble _ id (fun _ _ => Iff.rfl) false _ 693595 59926608000000000 (by simp) (by simp) (by decide)
  have e2 : sortIndex (excelRank (fun s => s.length) id) [(0, [[DVal.date 693595, .datetime 59926608000000000].map (DVal.sval flDouble excelEpoch)])] [((0 : Nat), false)] = .error .type := by
    unfold sortIndex
    rw [if_neg (by simp), if_neg (by simp)]
    rw [rankRows]
    simp only [dGet, if_true]
    rw [show colIter [[DVal.date 693595, .datetime 59926608000000000].map (DVal.sval flDouble excelEpoch)] = [DVal.date 693595, .datetime 59926608000000000].map (DVal.sval flDouble excelEpoch) from rfl, e]
    rfl
  unfold tblSort at h1
  rw [e2] at h1
  exact absurd h1 (by simp [bind, Except.bind])

/-- a time and a timedelta are put in the wrong order: half a second after nine tenths of a second -/
theorem C102_mixed_fails {K : Type} [LinearOrder K] (key : String → K) (fl : Rat → Rat) (hfl : IsRound fl) :
    excelList key false ([DVal.time 500000, .timedelta 900000].map (DVal.sval fl excelEpoch)) = .ok ([DVal.timedelta 900000, .time 500000].map (DVal.sval fl excelEpoch)) := by
  have h1 : daysVC fl 0 = 0 := by
    have := hfl.int 0 (by norm_num)
    unfold daysVC
    simp at this ⊢
    rw [this, this]
  have h2 : (0 : Rat) < timeVC fl 500000 := by
    have := abs_lt.1 (timeVC_err fl hfl 500000 (by decide) (by decide))
    norm_num at this
    linarith [this.1]
  have h3 := h2.ne'
  have h4 := h2.not_gt
  have le : numLe (SVal.num .time (timeVC fl 500000) 500000) (SVal.num .timedelta 0 900000) = false := by simp [numLe, numKey, pairLe, h3, h4]
  simp [excelList, DVal.sval, h1, numClash, h3, h3.symm, tyComparable, SVal.isNum, SVal.isStr, SVal.isBoolNone, pySort]
  rw [show [SVal.num .time (timeVC fl 500000) 500000, SVal.num .timedelta 0 900000].filter SVal.isNum = [SVal.num .time (timeVC fl 500000) 500000, SVal.num .timedelta 0 900000] from rfl]
  simp [List.insertionSort_cons, le]

/-- three datetimes, two of them in the same second, and None -/
example : ∃ idx t', tblSort (excelRank (fun s => s.length) id) 10 .none [((0 : Nat), [[DVal.datetime 63000000000900000, .none, .datetime 63000000000100000, .datetime 62000000000000000].map (DVal.sval flDouble excelEpoch)])] [(0, true)] = .ok t' ∧
    idx.Perm (List.range 4) ∧ tview t' = rowsOf .none [((0 : Nat), [[DVal.datetime 63000000000900000, .none, .datetime 63000000000100000, .datetime 62000000000000000].map (DVal.sval flDouble excelEpoch)])] idx ∧
    idx.Pairwise fun i j => Chron true (fun _ i => [DVal.datetime 63000000000900000, .none, .datetime 63000000000100000, .datetime 62000000000000000].getD i .none) i j [((0 : Nat), true)] :=
  C102_excel_partial flDouble isRound_double _ id (fun _ _ => Iff.rfl) 10 (by decide) _ 4 (by intro c hc; rw [List.mem_singleton.1 hc]; rfl) [(0, true)] (by simp) (by simp) _
    (by
      intro k hk i hi
      rw [List.mem_singleton.1 hk]
      interval_cases i <;> exact ⟨by simp [DVal.Ok], rfl⟩)
    (by
      intro k hk i hi j hj
      interval_cases i <;> interval_cases j <;> simp [Alike, DVal.kind])

end Tablite
