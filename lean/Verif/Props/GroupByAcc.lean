import Verif.Model.GroupBy
import Verif.Spec.Stats
import Verif.Lemmas.OrdDict
import Mathlib.Data.List.Induction
import Mathlib.Data.List.Perm.Basic
import Mathlib.Algebra.Order.Field.Rat
import Mathlib.Tactic.FieldSimp
import Mathlib.Tactic.Ring
import Mathlib.Tactic.Linarith
/-!
# C34 group-by aggregates, C35 group-by median
-/

namespace Tablite

/-! ## the specification -/

/-- `v` is the number `q` -/
def IsNum (v : GVal) (q : Rat) : Prop := v = .float q ∨ ∃ n : Int, v = .int n ∧ q = n

/-- `l` lists the numbers `qs` -/
def IsNums (l : List GVal) (qs : List Rat) : Prop := List.Forall₂ IsNum l qs

/-- what two values must share to be counted once: integers and floats by number, dates and datetimes by moment -/
def sameAs : GVal → GVal
  | .int n => .float n
  | .date q => .datetime q
  | v => v

/-! ## C34 -/

theorem IsNum.supported {v : GVal} {q : Rat} (h : IsNum v q) : v.unsupported = false := by
  rcases h with h | ⟨n, h, _⟩ <;> subst h <;> rfl

theorem IsNum.numOr0 {v : GVal} {q : Rat} (h : IsNum v q) : v.numOr0 = q := by
  rcases h with h | ⟨n, h, e⟩ <;> subst h
  · rfl
  · exact e.symm

theorem IsNum.num {v : GVal} {q : Rat} (h : IsNum v q) : v.num? = .ok q := by
  rcases h with h | ⟨n, h, e⟩ <;> subst h
  · rfl
  · rw [e]; rfl

theorem C34_count (sqrt : Rat → Rat) (l : List GVal) : accRun sqrt .count l = .ok (.int l.length) := by
  have H : ∀ (s : AState), ∃ s', l.foldlM (accUpdate .count) s = .ok s' ∧ s'.count = s.count + l.length := by
    induction l with
    | nil => intro s; exact ⟨s, rfl, rfl⟩
    | cons a t ih =>
      intro s
      obtain ⟨s', h1, h2⟩ := ih { s with count := s.count + 1 }
      refine ⟨s', ?_, ?_⟩
      · rw [List.foldlM_cons]; exact h1
      · rw [h2]; simp only [List.length_cons]; omega
  obtain ⟨s', h1, h2⟩ := H (accInit .count)
  unfold accRun
  rw [h1]
  show accValue sqrt .count s' = _
  simp only [accValue, h2, accInit]
  simp

theorem C34_first (sqrt : Rat → Rat) (a : GVal) (t : List GVal) : accRun sqrt .first (a :: t) = .ok a := by
  have H : ∀ (s : AState), s.isSet = true → s.value = some a → ∃ s', t.foldlM (accUpdate .first) s = .ok s' ∧ s'.value = some a := by
    induction t with
    | nil => intro s _ h; exact ⟨s, rfl, h⟩
    | cons b u ih =>
      intro s hs h
      obtain ⟨s', h1, h2⟩ := ih s hs h
      refine ⟨s', ?_, h2⟩
      rw [List.foldlM_cons]
      simp only [accUpdate, hs, if_true, bind, Except.bind]
      exact h1
  obtain ⟨s', h1, h2⟩ := H { value := some a, isSet := true } rfl rfl
  unfold accRun
  rw [List.foldlM_cons]
  show (do let s ← t.foldlM (accUpdate .first) { value := some a, isSet := true }; accValue sqrt .first s) = _
  rw [h1]
  show accValue sqrt .first s' = _
  simp only [accValue, h2]

theorem C34_last (sqrt : Rat → Rat) (l : List GVal) (hne : l ≠ []) : accRun sqrt .last l = .ok (l.getLast hne) := by
  have H : ∀ (l : List GVal) (s : AState), ∃ s', l.foldlM (accUpdate .last) s = .ok s' ∧ s'.value = l.getLast?.or s.value := by
    intro l
    induction l with
    | nil => intro s; exact ⟨s, rfl, by simp⟩
    | cons b u ih =>
      intro s
      obtain ⟨s', h1, h2⟩ := ih { s with value := some b }
      refine ⟨s', ?_, ?_⟩
      · rw [List.foldlM_cons]; exact h1
      · rw [h2, List.getLast?_cons]
        cases u.getLast? <;> simp
  obtain ⟨s', h1, h2⟩ := H l (accInit .last)
  unfold accRun
  rw [h1]
  show accValue sqrt .last s' = _
  rw [List.getLast?_eq_getLast_of_ne_nil hne] at h2
  simp only [accValue, h2, Option.or]

theorem C34_sum (sqrt : Rat → Rat) (l : List GVal) (qs : List Rat) (h : IsNums l qs) : accRun sqrt .sum l = .ok (.float qs.sum) := by
  have H : ∀ (s : AState), ∃ s', l.foldlM (accUpdate .sum) s = .ok s' ∧ s'.num = s.num + qs.sum := by
    induction h with
    | nil => intro s; exact ⟨s, rfl, by simp⟩
    | @cons a q t ts ha _ ih =>
      intro s
      obtain ⟨s', h1, h2⟩ := ih { s with num := s.num + q }
      refine ⟨s', ?_, ?_⟩
      · rw [List.foldlM_cons]
        simp only [accUpdate, sumUpdate, ha.supported, ha.numOr0]
        exact h1
      · rw [h2, List.sum_cons]; ring
  obtain ⟨s', h1, h2⟩ := H (accInit .sum)
  unfold accRun
  rw [h1]
  show accValue sqrt .sum s' = _
  simp only [accValue, h2, accInit, zero_add]

theorem C34_product (sqrt : Rat → Rat) (l : List GVal) (qs : List Rat) (h : IsNums l qs) : accRun sqrt .product l = .ok (.float qs.prod) := by
  have H : ∀ (s : AState), ∃ s', l.foldlM (accUpdate .product) s = .ok s' ∧ s'.num = s.num * qs.prod := by
    induction h with
    | nil => intro s; exact ⟨s, rfl, by simp⟩
    | @cons a q t ts ha _ ih =>
      intro s
      obtain ⟨s', h1, h2⟩ := ih { s with num := s.num * q }
      refine ⟨s', ?_, ?_⟩
      · rw [List.foldlM_cons]
        simp only [accUpdate, productUpdate, ha.supported, ha.numOr0]
        exact h1
      · rw [h2, List.prod_cons]; ring
  obtain ⟨s', h1, h2⟩ := H (accInit .product)
  unfold accRun
  rw [h1]
  show accValue sqrt .product s' = _
  simp only [accValue, h2, accInit, one_mul]

theorem C34_average (sqrt : Rat → Rat) (l : List GVal) (qs : List Rat) (h : IsNums l qs) (hne : l ≠ []) :
    accRun sqrt .average l = .ok (.float (meanOf qs)) := by
  have H : ∀ (l : List GVal) (qs : List Rat), IsNums l qs → ∀ (s : AState), ∃ s', l.foldlM (accUpdate .average) s = .ok s' ∧ s'.num = s.num + qs.sum ∧
      s'.count = s.count + qs.length ∧ (l ≠ [] → s'.value = some (.float (s'.num / s'.count))) := by
    intro l qs h
    induction h with
    | nil => intro s; exact ⟨s, rfl, by simp, rfl, fun h => absurd rfl h⟩
    | @cons a q t ts ha ht ih =>
      intro s
      obtain ⟨s', h1, h2, h3, h4⟩ := ih { s with num := s.num + q, count := s.count + 1, value := some (.float ((s.num + q) / (s.count + 1 : Nat))) }
      refine ⟨s', ?_, ?_, ?_, ?_⟩
      · rw [List.foldlM_cons]
        simp only [accUpdate, averageUpdate, ha.supported, ha.num, bind, Except.bind]
        exact h1
      · rw [h2, List.sum_cons]; ring
      · rw [h3]; simp only [List.length_cons]; omega
      · intro _
        by_cases e : t = []
        · subst e
          cases ht
          have : s' = _ := (Except.ok.inj h1).symm
          subst this
          rfl
        · exact h4 e
  obtain ⟨s', h1, h2, h3, h4⟩ := H l qs h (accInit .average)
  unfold accRun
  rw [h1]
  show accValue sqrt .average s' = _
  simp only [accValue, h4 hne]
  rw [h2, h3]
  simp [meanOf, accInit]

theorem sum_sq (a : Rat) (qs : List Rat) :
    (qs.map fun x => (x - a) * (x - a)).sum = (qs.map fun x => x * x).sum - 2 * a * qs.sum + qs.length * (a * a) := by
  induction qs with
  | nil => simp
  | cons q t ih =>
    simp only [List.map_cons, List.sum_cons, ih, List.length_cons]
    push_cast
    ring

theorem two_pass (qs : List Rat) (hne : qs ≠ []) :
    (qs.map fun x => (x - meanOf qs) * (x - meanOf qs)).sum = (qs.map fun x => x * x).sum - qs.sum * qs.sum / qs.length := by
  have : (qs.length : Rat) ≠ 0 := by
    have := List.length_pos_iff.2 hne
    exact_mod_cast Nat.pos_iff_ne_zero.1 this
  rw [sum_sq]
  unfold meanOf
  field_simp
  ring

/-- the streaming update keeps mean and sum of squared deviations -/
theorem stdev_run (l : List GVal) (qs : List Rat) (h : IsNums l qs) :
    ∃ s', l.foldlM (accUpdate .stdev) (accInit .stdev) = .ok s' ∧ s'.count = qs.length ∧ s'.mean = meanOf qs ∧
      s'.c = (qs.map fun x => x * x).sum - qs.sum * qs.sum / qs.length := by
  induction l using List.reverseRecOn generalizing qs with
  | nil =>
    cases h
    exact ⟨_, rfl, rfl, by simp [meanOf, accInit], by simp [accInit]⟩
  | append_singleton t a ih =>
    obtain ⟨qs', q, rfl, h1, h2⟩ : ∃ qs' q, qs = qs' ++ [q] ∧ IsNums t qs' ∧ IsNum a q := by
      have hl := List.Forall₂.length_eq h
      simp only [List.length_append, List.length_singleton] at hl
      refine ⟨qs.take t.length, qs[t.length]'(by omega), ?_, ?_, ?_⟩
      · rw [List.take_append_getElem, List.take_of_length_le (by omega)]
      · have := List.forall₂_take t.length h
        unfold IsNums
        simpa using this
      · have := List.Forall₂.get h (i := t.length) (by simp) (by omega)
        simpa using this
    obtain ⟨s, e1, e2, e3, e4⟩ := ih qs' h1
    rw [List.foldlM_append, e1]
    simp only [bind, Except.bind, List.foldlM_cons, List.foldlM_nil, accUpdate, stdevUpdate, h2.supported, h2.num, pure, Except.pure]
    refine ⟨_, rfl, by simp [e2], ?_, ?_⟩
    · simp only [e2, e3, meanOf, List.sum_append, List.sum_singleton, List.length_append, List.length_singleton]
      by_cases hz : qs' = []
      · subst hz; simp
      · have : (qs'.length : Rat) ≠ 0 := by
          have := List.length_pos_iff.2 hz
          exact_mod_cast Nat.pos_iff_ne_zero.1 this
        have h' : ((qs'.length : Rat) + 1) ≠ 0 := by positivity
        push_cast
        field_simp
        ring
    · simp only [e2, e3, e4, meanOf, List.sum_append, List.sum_singleton, List.length_append, List.length_singleton, List.map_append, List.map_cons, List.map_nil]
      by_cases hz : qs' = []
      · subst hz; simp
      · have : (qs'.length : Rat) ≠ 0 := by
          have := List.length_pos_iff.2 hz
          exact_mod_cast Nat.pos_iff_ne_zero.1 this
        have h' : ((qs'.length : Rat) + 1) ≠ 0 := by positivity
        push_cast
        field_simp
        ring

theorem C34_stdev (sqrt : Rat → Rat) (l : List GVal) (qs : List Rat) (h : IsNums l qs) (h2 : 2 ≤ qs.length) :
    accRun sqrt .stdev l = .ok (.float (sqrt (varianceOf qs))) := by
  obtain ⟨s, e1, e2, _, e4⟩ := stdev_run l qs h
  unfold accRun
  rw [e1]
  show accValue sqrt .stdev s = _
  simp only [accValue]
  rw [if_neg (by omega), e4, e2, varianceOf, two_pass qs (by intro e; subst e; simp at h2), Nat.cast_sub (by omega)]
  simp

theorem C34_stdev_single (sqrt : Rat → Rat) (v : GVal) (q : Rat) (h : IsNum v q) : accRun sqrt .stdev [v] = .ok (.float 0) := by
  obtain ⟨s, e1, e2, _, _⟩ := stdev_run [v] [q] (.cons h .nil)
  unfold accRun
  rw [e1]
  show accValue sqrt .stdev s = _
  simp only [accValue]
  rw [if_pos (by simp [e2])]

theorem eq_sameAs (a b : GVal) : GVal.eq a b = decide (sameAs a = sameAs b) := by
  cases a <;> cases b <;> simp [GVal.eq, sameAs]

theorem C34_count_unique (sqrt : Rat → Rat) (l : List GVal) :
    accRun sqrt .countUnique l = .ok (.int (firstOccs (l.map sameAs)).length) := by
  have H : ∃ s', l.foldlM (accUpdate .countUnique) (accInit .countUnique) = .ok s' ∧ s'.items.map sameAs = firstOccs (l.map sameAs) := by
    induction l using List.reverseRecOn with
    | nil => exact ⟨_, rfl, rfl⟩
    | append_singleton t a ih =>
      obtain ⟨s, e1, e2⟩ := ih
      rw [List.foldlM_append, e1]
      refine ⟨_, rfl, ?_⟩
      rw [List.map_append, List.map_singleton, firstOccs_snoc]
      unfold countUniqueUpdate
      have hm : (s.items.any fun x => GVal.eq x a) = true ↔ sameAs a ∈ t.map sameAs := by
        rw [← mem_firstOccs, ← e2]
        simp [eq_sameAs]
      by_cases hmem : sameAs a ∈ t.map sameAs
      · rw [if_pos (hm.2 hmem), if_pos hmem, e2]
      · rw [if_neg (fun h => hmem (hm.1 h)), if_neg hmem]
        simp [e2]
  obtain ⟨s', h1, h2⟩ := H
  unfold accRun
  rw [h1]
  show accValue sqrt .countUnique s' = _
  simp only [accValue]
  rw [← h2, List.length_map]

/-- values of one kind -/
def SameKind (l : List GVal) : Prop := ∀ x ∈ l, ∀ y ∈ l, x.kind = y.kind

theorem lt_neg_trans {a b c : GVal} (h1 : a.kind = b.kind) (h2 : b.kind = c.kind) (hab : GVal.lt a b = false) (hbc : GVal.lt b c = false) : GVal.lt a c = false := by
  cases a <;> cases b <;> first
    | (simp [GVal.kind] at h1; done)
    | (cases c <;> first
        | (simp [GVal.kind] at h2; done)
        | (simp only [GVal.lt, decide_eq_false_iff_not, not_lt] at *; exact le_trans hbc hab)
        | rfl
        | (simp only [GVal.lt] at *; revert hab hbc; rename_i x y z; revert x y z; decide))

theorem lt_asymm' {a b : GVal} (h : GVal.lt a b = true) : GVal.lt b a = false := by
  cases a <;> cases b <;> first
    | (simp [GVal.lt] at h; done)
    | (simp only [GVal.lt, decide_eq_false_iff_not, decide_eq_true_eq, not_lt] at *; exact le_of_lt h)
    | (simp only [GVal.lt] at *; revert h; rename_i x y; revert x y; decide)

theorem lt_irrefl' (a : GVal) : GVal.lt a a = false := by
  cases a <;> simp [GVal.lt]

theorem limit_run (better : GVal → GVal → Bool)
    (hirr : ∀ a, better a a = false) (hasym : ∀ a b, better a b = true → better b a = false)
    (htr : ∀ a b c : GVal, a.kind = b.kind → b.kind = c.kind → better a b = false → better b c = false → better a c = false)
    (l : List GVal) (hk : SameKind l) (hne : l ≠ []) :
    ∃ s' v, l.foldlM (limitUpdate better) {} = .ok s' ∧ s'.value = some v ∧ v ∈ l ∧ ∀ x ∈ l, better x v = false := by
  induction l using List.reverseRecOn with
  | nil => exact absurd rfl hne
  | append_singleton t a ih =>
    by_cases ht : t = []
    · subst ht
      exact ⟨_, a, rfl, rfl, by simp, by simp [hirr]⟩
    · obtain ⟨s, v, e1, e2, e3, e4⟩ := ih (fun x hx y hy => hk x (by simp [hx]) y (by simp [hy])) ht
      have hva : v.kind = a.kind := hk v (by simp [e3]) a (by simp)
      rw [List.foldlM_append, e1]
      simp only [bind, Except.bind, List.foldlM_cons, List.foldlM_nil, limitUpdate, e2, if_pos hva, pure, Except.pure]
      by_cases hb : better a v = true
      · refine ⟨_, a, rfl, by rw [if_pos hb], by simp, ?_⟩
        intro x hx
        simp only [List.mem_append, List.mem_singleton] at hx
        rcases hx with hx | hx
        · exact htr x v a (hk x (by simp [hx]) v (by simp [e3])) hva (e4 x hx) (hasym _ _ hb)
        · subst hx; exact hirr _
      · refine ⟨_, v, rfl, by rw [if_neg hb, e2], by simp [e3], ?_⟩
        intro x hx
        simp only [List.mem_append, List.mem_singleton] at hx
        rcases hx with hx | hx
        · exact e4 x hx
        · subst hx; simpa using hb

/-- the maximum: a value of the group that none exceeds -/
theorem C34_max (sqrt : Rat → Rat) (l : List GVal) (hk : SameKind l) (hne : l ≠ []) :
    ∃ v, accRun sqrt .max l = .ok v ∧ v ∈ l ∧ ∀ x ∈ l, GVal.lt v x = false := by
  obtain ⟨s, v, e1, e2, e3, e4⟩ := limit_run (fun a b => GVal.lt b a) (fun a => lt_irrefl' a) (fun a b h => lt_asymm' h)
    (fun a b c h1 h2 h3 h4 => lt_neg_trans h2.symm h1.symm h4 h3) l hk hne
  refine ⟨v, ?_, e3, e4⟩
  unfold accRun
  rw [show l.foldlM (accUpdate .max) (accInit .max) = .ok s from e1]
  show accValue sqrt .max s = _
  simp only [accValue, e2]

/-- the minimum: a value of the group that exceeds none -/
theorem C34_min (sqrt : Rat → Rat) (l : List GVal) (hk : SameKind l) (hne : l ≠ []) :
    ∃ v, accRun sqrt .min l = .ok v ∧ v ∈ l ∧ ∀ x ∈ l, GVal.lt x v = false := by
  obtain ⟨s, v, e1, e2, e3, e4⟩ := limit_run (fun a b => GVal.lt a b) (fun a => lt_irrefl' a) (fun a b h => lt_asymm' h)
    (fun a b c h1 h2 h3 h4 => lt_neg_trans h1 h2 h3 h4) l hk hne
  refine ⟨v, ?_, e3, e4⟩
  unfold accRun
  rw [show l.foldlM (accUpdate .min) (accInit .min) = .ok s from e1]
  show accValue sqrt .min s = _
  simp only [accValue, e2]

theorem limit_mixed (better : GVal → GVal → Bool) (t : List GVal) (s : AState) (v : GVal) (hv : s.value = some v) :
    (∃ x ∈ t, x.kind ≠ v.kind) → ∃ e, t.foldlM (limitUpdate better) s = .error e := by
  induction t generalizing s v with
  | nil => rintro ⟨x, hx, _⟩; simp at hx
  | cons a u ih =>
    rintro ⟨x, hx, hk⟩
    rw [List.foldlM_cons]
    by_cases ha : v.kind = a.kind
    · simp only [limitUpdate, hv, if_pos ha, bind, Except.bind]
      have hx' : x ∈ u := by
        simp only [List.mem_cons] at hx
        rcases hx with h | h
        · subst h; exact absurd ha.symm hk
        · exact h
      by_cases hb : better a v = true
      · rw [if_pos hb]
        exact ih _ a rfl ⟨x, hx', by rw [← ha]; exact hk⟩
      · rw [if_neg hb]
        exact ih _ v hv ⟨x, hx', hk⟩
    · simp only [limitUpdate, hv, if_neg ha, bind, Except.bind]
      exact ⟨_, rfl⟩

/-- values of different kinds (an int and a float, a date and None) have no extremum: the group-by raises -/
theorem C34_mixed_kinds (sqrt : Rat → Rat) (l : List GVal) (hk : ¬ SameKind l) :
    (∃ e, accRun sqrt .max l = .error e) ∧ ∃ e, accRun sqrt .min l = .error e := by
  have hx : ∃ a t, l = a :: t ∧ ∃ x ∈ t, x.kind ≠ a.kind := by
    cases l with
    | nil => exact absurd (by intro x hx; simp at hx) hk
    | cons a t =>
      refine ⟨a, t, rfl, ?_⟩
      by_contra hc
      push Not at hc
      apply hk
      have h' : ∀ x ∈ a :: t, x.kind = a.kind := by
        intro x hx
        simp only [List.mem_cons] at hx
        rcases hx with h | h
        · rw [h]
        · exact hc x h
      intro x hx y hy
      rw [h' x hx, h' y hy]
  obtain ⟨a, t, rfl, hx⟩ := hx
  constructor
  · obtain ⟨e, he⟩ := limit_mixed (fun a b => GVal.lt b a) t { value := some a } a rfl hx
    refine ⟨e, ?_⟩
    unfold accRun
    rw [show (a :: t).foldlM (accUpdate .max) (accInit .max) = .error e from by rw [List.foldlM_cons]; exact he]
    rfl
  · obtain ⟨e, he⟩ := limit_mixed (fun a b => GVal.lt a b) t { value := some a } a rfl hx
    refine ⟨e, ?_⟩
    unfold accRun
    rw [show (a :: t).foldlM (accUpdate .min) (accInit .min) = .error e from by rw [List.foldlM_cons]; exact he]
    rfl

/-- booleans count for nothing in a sum -/
theorem C34_sum_bools (sqrt : Rat → Rat) (l : List Bool) : accRun sqrt .sum (l.map .bool) = .ok (.float 0) := by
  have H : ∀ (s : AState), (l.map GVal.bool).foldlM (accUpdate .sum) s = .ok s := by
    induction l with
    | nil => intro s; rfl
    | cons a t ih =>
      intro s
      rw [List.map_cons, List.foldlM_cons]
      simp only [accUpdate, sumUpdate, GVal.unsupported, GVal.numOr0, bind, Except.bind]
      have := ih { s with num := s.num + 0 }
      simp only [add_zero] at this ⊢
      exact this
  unfold accRun
  rw [H]
  rfl

/-! ## C35, C65 -/

/-- how often `k` occurs -/
def timesIn (l : List GVal) (k : GVal) : Nat := (l.filter fun x => decide (x = k)).length

theorem hist_run (f : Acc) (hf : f = .median ∨ f = .mode) (l : List GVal) :
    ∃ s', l.foldlM (accUpdate f) (accInit f) = .ok s' ∧ s'.hist = (firstOccs l).map fun k => (k, timesIn l k) := by
  have H : ∀ (s : AState), ∃ s', l.foldlM (accUpdate f) s = .ok s' ∧ s'.hist = l.foldl (fun d x => dUpd 0 x (· + 1) d) s.hist := by
    induction l with
    | nil => intro s; exact ⟨s, rfl, rfl⟩
    | cons a t ih =>
      intro s
      obtain ⟨s', h1, h2⟩ := ih (histUpdate s a)
      refine ⟨s', ?_, h2⟩
      rw [List.foldlM_cons]
      rcases hf with e | e <;> subst e <;> exact h1
  obtain ⟨s', h1, h2⟩ := H (accInit f)
  refine ⟨s', h1, ?_⟩
  rw [h2]
  have hi : (accInit f).hist = [] := by rcases hf with e | e <;> subst e <;> rfl
  rw [hi]
  have := dGroup_eq (fun x : GVal => x) 0 (fun _ b => b + 1) l
  unfold dGroup at this
  rw [this, List.map_id']
  apply List.map_congr_left
  intro k _
  congr 1
  unfold timesIn
  have hc : ∀ (m : List GVal) (b : Nat), m.foldl (fun b _ => b + 1) b = b + m.length := by
    intro m
    induction m with
    | nil => intro b; rfl
    | cons a t ih => intro b; simp only [List.foldl_cons, ih, List.length_cons]; omega
  rw [hc, Nat.zero_add]

/-- the values of a histogram written out -/
def writeOut (h : List (GVal × Nat)) : List GVal := h.flatMap fun e => List.replicate e.2 e.1

theorem writeOut_perm {h h' : List (GVal × Nat)} (p : h.Perm h') : (writeOut h).Perm (writeOut h') := List.Perm.flatMap_right _ p

theorem writeOut_length (h : List (GVal × Nat)) : (writeOut h).length = (h.map (·.2)).sum := by
  unfold writeOut
  simp [List.length_flatMap]

theorem writeOut_hist (l : List GVal) : (writeOut ((firstOccs l).map fun k => (k, timesIn l k))).Perm l := by
  rw [List.perm_iff_count]
  intro a
  unfold writeOut
  rw [List.flatMap_map, List.count_flatMap]
  have hc : ∀ (m : List GVal), m.Nodup → ((m.map (List.count a ∘ fun k => List.replicate (timesIn l k) k)).sum) = if a ∈ m then l.count a else 0 := by
    intro m hm
    induction m with
    | nil => simp
    | cons b t ih =>
      simp only [List.nodup_cons] at hm
      simp only [List.map_cons, List.sum_cons, ih hm.2, Function.comp, List.count_replicate, List.mem_cons]
      by_cases h : b = a
      · subst h
        rw [if_neg hm.1]
        simp only [BEq.rfl, if_true, true_or, Nat.add_zero]
        unfold timesIn
        rw [List.count_eq_countP, List.countP_eq_length_filter]
        rfl
      · have h' : ¬ a = b := fun e => h e.symm
        simp [h, h']
  have := hc (firstOccs l) (nodup_firstOccs l)
  rw [show ((firstOccs l).map (List.count a ∘ fun k => List.replicate (timesIn l k) k)).sum = _ from this]
  by_cases h : a ∈ l
  · rw [if_pos (mem_firstOccs.2 h)]
  · rw [if_neg (fun h' => h (mem_firstOccs.1 h')), List.count_eq_zero_of_not_mem h]

theorem cmpHist_total (a b : GVal × Nat) : cmpHist a b = true ∨ cmpHist b a = true := by
  unfold cmpHist
  rcases lt_trichotomy a.1.parity b.1.parity with h | h | h
  · simp [h]
  · rcases lt_trichotomy a.1.toFloat b.1.toFloat with h' | h' | h'
    · simp [h, h']
    · simp [h, h']; exact Nat.le_total _ _
    · simp [h, h']
  · simp [h]

theorem cmpHist_trans (a b c : GVal × Nat) (h1 : cmpHist a b = true) (h2 : cmpHist b c = true) : cmpHist a c = true := by
  unfold cmpHist at *
  simp only [Bool.or_eq_true, Bool.and_eq_true, decide_eq_true_eq] at *
  rcases h1 with h1 | ⟨e1, h1⟩
  · rcases h2 with h2 | ⟨e2, _⟩
    · left; omega
    · left; omega
  · rcases h2 with h2 | ⟨e2, h2⟩
    · left; omega
    · right
      refine ⟨by omega, ?_⟩
      rcases h1 with h1 | ⟨f1, h1⟩
      · rcases h2 with h2 | ⟨f2, _⟩
        · left; exact lt_trans h1 h2
        · left; rw [← f2]; exact h1
      · rcases h2 with h2 | ⟨f2, h2⟩
        · left; rw [f1]; exact h2
        · right; exact ⟨f1.trans f2, by omega⟩

instance : Std.Total (fun a b : GVal × Nat => cmpHist a b = true) := ⟨cmpHist_total⟩
instance : IsTrans (GVal × Nat) (fun a b => cmpHist a b = true) := ⟨cmpHist_trans⟩

theorem IsNum.parity {v : GVal} {q : Rat} (h : IsNum v q) : v.parity = 2 ∧ v.isStr = false ∧ v.toFloat = q := by
  rcases h with h | ⟨n, h, e⟩ <;> subst h
  · exact ⟨rfl, rfl, rfl⟩
  · exact ⟨rfl, rfl, e.symm⟩

theorem IsNums.mem {l : List GVal} {qs : List Rat} (h : IsNums l qs) : ∀ v ∈ l, IsNum v v.toFloat := by
  induction h with
  | nil => simp
  | @cons a q t ts ha _ ih =>
    intro v hv
    simp only [List.mem_cons] at hv
    rcases hv with e | hv
    · subst e; rw [ha.parity.2.2]; exact ha
    · exact ih v hv

theorem IsNums.values {l : List GVal} {qs : List Rat} (h : IsNums l qs) : l.map GVal.toFloat = qs := by
  induction h with
  | nil => rfl
  | @cons a q t ts ha _ ih => rw [List.map_cons, ih, ha.parity.2.2]

theorem sortedHist_num (h : List (GVal × Nat)) (hn : ∀ e ∈ h, IsNum e.1 e.1.toFloat) :
    (sortedHist h).Perm h ∧ (sortedHist h).Pairwise (fun a b => a.1.toFloat ≤ b.1.toFloat) := by
  have e1 : h.filter (fun x => !x.1.isStr) = h := by
    rw [List.filter_eq_self]
    intro x hx
    simp [(hn x hx).parity.2.1]
  have e2 : h.filter (fun x => x.1.isStr) = [] := by
    rw [List.filter_eq_nil_iff]
    intro x hx
    simp [(hn x hx).parity.2.1]
  unfold sortedHist
  rw [e1, e2]
  simp only [List.insertionSort_nil, List.append_nil]
  refine ⟨List.perm_insertionSort _ _, ?_⟩
  have hp := List.pairwise_insertionSort (fun a b : GVal × Nat => cmpHist a b = true) h
  refine List.Pairwise.imp_of_mem ?_ hp
  intro a b ha hb hab
  rw [List.mem_insertionSort] at ha hb
  unfold cmpHist at hab
  rw [(hn a ha).parity.1, (hn b hb).parity.1] at hab
  simp at hab
  rcases hab with h | ⟨h, _⟩
  · exact le_of_lt h
  · exact le_of_eq h

theorem writeOut_sorted (h : List (GVal × Nat)) (hp : h.Pairwise (fun a b => a.1.toFloat ≤ b.1.toFloat)) :
    ((writeOut h).map GVal.toFloat).Pairwise (· ≤ ·) := by
  induction h with
  | nil => simp [writeOut]
  | cons e t ih =>
    rw [List.pairwise_cons] at hp
    unfold writeOut
    rw [List.flatMap_cons, List.map_append, List.pairwise_append]
    refine ⟨?_, ih hp.2, ?_⟩
    · rw [List.map_replicate]
      exact List.pairwise_replicate.2 (Or.inr le_rfl)
    · intro a ha b hb
      rw [List.map_replicate, List.mem_replicate] at ha
      rw [List.mem_map] at hb
      obtain ⟨v, hv, rfl⟩ := hb
      rw [List.mem_flatMap] at hv
      obtain ⟨x, hx, hv⟩ := hv
      rw [List.mem_replicate] at hv
      rw [ha.2, hv.2]
      exact hp.1 x hx

theorem mid_iff (N t : Nat) : ((t : Rat) > (N : Rat) / 2) ↔ N / 2 < t := by
  rw [gt_iff_lt, div_lt_iff₀ (by norm_num)]
  constructor
  · intro h
    have : N < t * 2 := by exact_mod_cast h
    omega
  · intro h
    have : N < t * 2 := by omega
    exact_mod_cast this

theorem medianOdd_eq (N : Nat) (h : List (GVal × Nat)) (total : Nat) (ht : total ≤ N / 2) :
    medianOdd ((N : Rat) / 2) total h = (writeOut h)[N / 2 - total]? := by
  induction h generalizing total with
  | nil => simp [medianOdd, writeOut]
  | cons e t ih =>
    obtain ⟨k, v⟩ := e
    simp only [medianOdd, mid_iff]
    have hw : writeOut ((k, v) :: t) = List.replicate v k ++ writeOut t := rfl
    rw [hw]
    by_cases hc : N / 2 < total + v
    · rw [if_pos hc, List.getElem?_append_left (by simp; omega), List.getElem?_replicate, if_pos (by omega)]
    · rw [if_neg hc, ih _ (by omega), List.getElem?_append_right (by simp; omega), List.length_replicate]
      congr 1
      omega

theorem medianEven_eq (N : Nat) (h : List (GVal × Nat)) (h1 : ∀ e ∈ h, e.2 = 1) (hn : ∀ e ∈ h, IsNum e.1 e.1.toFloat) (total : Nat) (ht : total ≤ N / 2)
    (hj : N / 2 - total < h.length) (b : Option GVal) (hb : ∀ a, b = some a → IsNum a a.toFloat) (hb' : N / 2 - total = 0 → b.isSome) :
    ∃ a c : GVal, (b.toList ++ writeOut h)[N / 2 - total + b.toList.length - 1]? = some a ∧ (writeOut h)[N / 2 - total]? = some c ∧
      medianEven ((N : Rat) / 2) total b h = .ok (some (.float ((a.toFloat + c.toFloat) / 2))) := by
  induction h generalizing total b with
  | nil => simp at hj
  | cons e t ih =>
    obtain ⟨k, v⟩ := e
    have hv : v = 1 := h1 (k, v) (List.mem_cons_self ..)
    subst hv
    have hw : writeOut ((k, 1) :: t) = k :: writeOut t := rfl
    have hk : IsNum k k.toFloat := hn _ (List.mem_cons_self ..)
    simp only [medianEven, mid_iff]
    rw [hw]
    by_cases hc : N / 2 < total + 1
    · have e0 : N / 2 - total = 0 := by omega
      rw [if_pos hc]
      cases b with
      | none => simp [e0] at hb'
      | some a =>
        refine ⟨a, k, ?_, ?_, ?_⟩
        · simp [e0]
        · simp [e0]
        · simp only [(hb a rfl).num, hk.num]
    · rw [if_neg hc]
      simp only [List.length_cons] at hj
      obtain ⟨a, c, e1, e2, e3⟩ := ih (fun e he => h1 e (by simp [he])) (fun e he => hn e (by simp [he])) (total + 1) (by omega) (by omega) (some k)
        (by intro a ha; cases ha; exact hk) (by simp)
      refine ⟨a, c, ?_, ?_, e3⟩
      · simp only [Option.toList, List.singleton_append, List.length_singleton] at e1
        rw [← e1]
        cases b with
        | none => simp only [Option.toList, List.nil_append, List.length_nil]; congr 1
        | some a' =>
          simp only [Option.toList, List.singleton_append, List.length_singleton]
          rw [show N / 2 - total + 1 - 1 = (N / 2 - (total + 1) + 1 - 1) + 1 by omega, List.getElem?_cons_succ]
      · rw [show N / 2 - total = (N / 2 - (total + 1)) + 1 by omega, List.getElem?_cons_succ, e2]

/-- the full claim -/
def C35_statement (sqrt : Rat → Rat) : Prop :=
  ∀ (l : List GVal) (qs : List Rat), IsNums l qs → l ≠ [] → ∃ v m, accRun sqrt .median l = .ok v ∧ IsNum v m ∧ IsMedian qs m

/-- the median is right when the values are pairwise different, when there is only one value, and when both the number of values and the number
of different values are odd.  Missing: the code takes its decision from the number of different values instead of the number of values. -/
theorem C35_partial (sqrt : Rat → Rat) (l : List GVal) (qs : List Rat) (h : IsNums l qs) (hne : l ≠ [])
    (hcase : qs.Nodup ∨ (firstOccs l).length = 1 ∨ ((firstOccs l).length % 2 = 1 ∧ l.length % 2 = 1)) :
    ∃ v m, accRun sqrt .median l = .ok v ∧ IsNum v m ∧ IsMedian qs m := by
  obtain ⟨s, e1, e2⟩ := hist_run .median (Or.inl rfl) l
  have hrun : ∀ v, medianValue s.hist = .ok (some v) → accRun sqrt .median l = .ok v := by
    intro v hv
    unfold accRun
    rw [e1]
    show accValue sqrt .median s = _
    simp only [accValue, hv]
  have hlen := List.Forall₂.length_eq h
  have hnum : ∀ e ∈ s.hist, IsNum e.1 e.1.toFloat := by
    intro e he
    rw [e2, List.mem_map] at he
    obtain ⟨k, hk, rfl⟩ := he
    exact h.mem k (mem_firstOccs.1 hk)
  obtain ⟨p1, p2⟩ := sortedHist_num s.hist hnum
  have hW : (writeOut (sortedHist s.hist)).Perm l := (writeOut_perm p1).trans (by rw [e2]; exact writeOut_hist l)
  have hsort : ((writeOut (sortedHist s.hist)).map GVal.toFloat).Pairwise (· ≤ ·) := writeOut_sorted _ p2
  have hperm : ((writeOut (sortedHist s.hist)).map GVal.toFloat).Perm qs := by rw [← h.values]; exact hW.map _
  have hN : (s.hist.map (·.2)).sum = l.length := by
    rw [← writeOut_length, e2]; exact (writeOut_hist l).length_eq
  have hpos : 0 < l.length := List.length_pos_iff.2 hne
  have hWl : (writeOut (sortedHist s.hist)).length = l.length := hW.length_eq
  have hodd : ∀ v, (writeOut (sortedHist s.hist))[l.length / 2]? = some v → l.length % 2 = 1 →
      IsNum v v.toFloat ∧ IsMedian qs v.toFloat := by
    intro v hv ho
    refine ⟨h.mem v (hW.mem_iff.1 (List.mem_of_getElem? hv)), _, hperm, hsort, ?_⟩
    rw [← hlen, if_pos ho, List.getElem?_map, hv]
    rfl
  by_cases hone : (firstOccs l).length = 1
  · obtain ⟨k, hk⟩ := List.length_eq_one_iff.1 hone
    have hall : ∀ x ∈ l, x = k := by
      intro x hx
      have := mem_firstOccs.2 hx
      rw [hk] at this
      simpa using this
    have hkm : k ∈ l := mem_firstOccs.1 (by rw [hk]; simp)
    refine ⟨k, k.toFloat, hrun k ?_, h.mem k hkm, qs, List.Perm.refl _, ?_, ?_⟩
    · rw [e2, hk]; rfl
    · rw [← h.values, List.pairwise_map]
      apply List.Pairwise.imp_of_mem (R := fun _ _ => True)
      · intro a b ha hb _
        rw [hall a ha, hall b hb]
      · exact List.pairwise_of_forall (fun _ _ => trivial)
    · have hq : ∀ i, i < qs.length → qs[i]? = some k.toFloat := by
        intro i hi
        rw [← h.values, List.getElem?_map, List.getElem?_eq_getElem (by omega)]
        simp only [Option.map_some]
        rw [hall _ (List.getElem_mem _)]
      by_cases ho : qs.length % 2 = 1
      · rw [if_pos ho]
        exact hq _ (by omega)
      · rw [if_neg ho]
        exact ⟨_, _, hq _ (by omega), hq _ (by omega), by ring⟩
  · have hmv : medianValue s.hist = if s.hist.length % 2 = 0 then medianEven ((l.length : Rat) / 2) 0 none (sortedHist s.hist)
        else .ok (medianOdd ((l.length : Rat) / 2) 0 (sortedHist s.hist)) := by
      unfold medianValue
      rw [hN]
      have hl1 : s.hist.length ≠ 1 := by rw [e2, List.length_map]; exact hone
      dsimp only
      split
      · rename_i k v hh; rw [hh] at hl1; simp at hl1
      · rfl
    have hhl : s.hist.length = (firstOccs l).length := by rw [e2, List.length_map]
    by_cases hk : (firstOccs l).length % 2 = 1
    · have ho : l.length % 2 = 1 := by
        rcases hcase with hc | hc | hc
        · have hnd : l.Nodup := List.Nodup.of_map _ (by rw [h.values]; exact hc)
          rw [firstOccs_of_nodup hnd] at hk
          exact hk
        · exact absurd hc hone
        · exact hc.2
      rw [if_neg (by omega), medianOdd_eq _ _ _ (Nat.zero_le _), Nat.sub_zero] at hmv
      have hlt : l.length / 2 < (writeOut (sortedHist s.hist)).length := by rw [hWl]; omega
      rw [List.getElem?_eq_getElem hlt] at hmv
      obtain ⟨q1, q2⟩ := hodd _ (List.getElem?_eq_getElem hlt) ho
      exact ⟨_, _, hrun _ hmv, q1, q2⟩
    · have hnd : l.Nodup := by
        rcases hcase with hc | hc | hc
        · exact List.Nodup.of_map _ (by rw [h.values]; exact hc)
        · exact absurd hc hone
        · exact absurd hc.1 hk
      rw [firstOccs_of_nodup hnd] at hk hhl
      have hcnt : ∀ e ∈ sortedHist s.hist, e.2 = 1 := by
        intro e he
        have := p1.mem_iff.1 he
        rw [e2, List.mem_map] at this
        obtain ⟨k, hk, rfl⟩ := this
        have hkl := mem_firstOccs.1 hk
        show timesIn l k = 1
        have hc := List.count_eq_one_of_mem hnd hkl
        rw [List.count_eq_countP, List.countP_eq_length_filter] at hc
        exact hc
      rw [if_pos (by omega)] at hmv
      obtain ⟨a, c, f1, f2, f3⟩ := medianEven_eq l.length (sortedHist s.hist) hcnt (fun e he => hnum e (p1.mem_iff.1 he)) 0 (Nat.zero_le _)
        (by rw [p1.length_eq]; omega) none (by simp) (by intro hz; exfalso; omega)
      rw [f3] at hmv
      refine ⟨_, (a.toFloat + c.toFloat) / 2, hrun _ hmv, Or.inl rfl, _, hperm, hsort, ?_⟩
      rw [← hlen, if_neg hk]
      refine ⟨a.toFloat, c.toFloat, ?_, ?_, rfl⟩
      · simp only [Option.toList, List.nil_append, List.length_nil, Nat.sub_zero, Nat.add_zero] at f1
        rw [List.getElem?_map, f1]; rfl
      · simp only [Nat.sub_zero] at f2
        rw [List.getElem?_map, f2]; rfl

example : (firstOccs [GVal.int 1, .int 3, .int 3, .int 2, .int 2]).length % 2 = 1 := by decide

theorem median_sqrt (sqrt : Rat → Rat) (l : List GVal) : accRun sqrt .median l = accRun id .median l := rfl

/-- the median of 1, 2, 2 comes out as 3/2 -/
theorem C35_fails (sqrt : Rat → Rat) : ¬ C35_statement sqrt := by
  intro hst
  obtain ⟨v, m, h1, h2, s, h3, h4, h5⟩ := hst [.int 1, .int 2, .int 2] [1, 2, 2]
    (.cons (.inr ⟨1, rfl, by norm_num⟩) (.cons (.inr ⟨2, rfl, by norm_num⟩) (.cons (.inr ⟨2, rfl, by norm_num⟩) .nil))) (by simp)
  have hv : accRun sqrt .median [.int 1, .int 2, .int 2] = .ok (.float (3/2)) := by
    rw [median_sqrt]; decide +kernel
  rw [hv] at h1
  cases h1
  have hs : s = [1, 2, 2] := List.Perm.eq_of_pairwise (fun a b _ _ h h' => le_antisymm h h') h4 (by decide +kernel) h3
  subst hs
  have hm : m = 2 := by simpa using h5.symm
  subst hm
  rcases h2 with h2 | ⟨n, h2, _⟩
  · simp only [GVal.float.injEq] at h2; norm_num at h2
  · cases h2

/-- the median of 1, 1, 1, 2 raises -/
theorem C35_raises_fails (sqrt : Rat → Rat) : accRun sqrt .median [.int 1, .int 1, .int 1, .int 2] = .error .attribute := by
  rw [median_sqrt]; decide +kernel

/-! ## C65: the mode -/

/-- the full claim: the mode is a most frequent value -/
def C65_statement (sqrt : Rat → Rat) : Prop :=
  ∀ l : List GVal, l ≠ [] → ∃ v, accRun sqrt .mode l = .ok v ∧ v ∈ l ∧ ∀ x ∈ l, timesIn l x ≤ timesIn l v

theorem cmpMode_total (a b : GVal × Nat) : cmpMode a b = true ∨ cmpMode b a = true := by
  unfold cmpMode
  simp only [Bool.or_eq_true, Bool.and_eq_true, decide_eq_true_eq]
  rcases lt_trichotomy a.2 b.2 with h | h | h
  · right; left; exact h
  · rcases lt_trichotomy a.1.parity b.1.parity with h' | h' | h'
    · right; right; exact ⟨h.symm, Or.inl h'⟩
    · rcases le_total a.1.toFloat b.1.toFloat with h'' | h''
      · right; right; exact ⟨h.symm, Or.inr ⟨h'.symm, h''⟩⟩
      · left; right; exact ⟨h, Or.inr ⟨h', h''⟩⟩
    · left; right; exact ⟨h, Or.inl h'⟩
  · left; left; exact h

theorem cmpMode_trans (a b c : GVal × Nat) (h1 : cmpMode a b = true) (h2 : cmpMode b c = true) : cmpMode a c = true := by
  unfold cmpMode at *
  simp only [Bool.or_eq_true, Bool.and_eq_true, decide_eq_true_eq] at *
  rcases h1 with h1 | ⟨e1, h1⟩
  · rcases h2 with h2 | ⟨e2, _⟩
    · left; omega
    · left; omega
  · rcases h2 with h2 | ⟨e2, h2⟩
    · left; omega
    · right
      refine ⟨by omega, ?_⟩
      rcases h1 with h1 | ⟨f1, h1⟩
      · rcases h2 with h2 | ⟨f2, _⟩
        · left; omega
        · left; omega
      · rcases h2 with h2 | ⟨f2, h2⟩
        · left; omega
        · right; exact ⟨f1.trans f2, le_trans h2 h1⟩

instance : Std.Total (fun a b : GVal × Nat => cmpMode a b = true) := ⟨cmpMode_total⟩
instance : IsTrans (GVal × Nat) (fun a b => cmpMode a b = true) := ⟨cmpMode_trans⟩

theorem cmpModeText_total (a b : GVal × Nat) : cmpModeText a b = true ∨ cmpModeText b a = true := by
  unfold cmpModeText
  simp only [Bool.or_eq_true, Bool.and_eq_true, decide_eq_true_eq]
  rcases lt_trichotomy a.2 b.2 with h | h | h
  · right; left; exact h
  · rcases le_total a.1.text b.1.text with h' | h'
    · right; right; exact ⟨h.symm, h'⟩
    · left; right; exact ⟨h, h'⟩
  · left; left; exact h

theorem cmpModeText_trans (a b c : GVal × Nat) (h1 : cmpModeText a b = true) (h2 : cmpModeText b c = true) : cmpModeText a c = true := by
  unfold cmpModeText at *
  simp only [Bool.or_eq_true, Bool.and_eq_true, decide_eq_true_eq] at *
  rcases h1 with h1 | ⟨e1, h1⟩
  · rcases h2 with h2 | ⟨e2, _⟩
    · left; omega
    · left; omega
  · rcases h2 with h2 | ⟨e2, h2⟩
    · left; omega
    · right; exact ⟨by omega, le_trans h2 h1⟩

instance : Std.Total (fun a b : GVal × Nat => cmpModeText a b = true) := ⟨cmpModeText_total⟩
instance : IsTrans (GVal × Nat) (fun a b => cmpModeText a b = true) := ⟨cmpModeText_trans⟩

theorem mode_of_sorted (sqrt : Rat → Rat) (l : List GVal) (hne : l ≠ []) (le : GVal × Nat → GVal × Nat → Prop) [DecidableRel le] [Std.Total le] [IsTrans _ le]
    (hle : ∀ a b, le a b → b.2 ≤ a.2)
    (hs : ∀ h : List (GVal × Nat), (h.map (·.1)) = firstOccs l → sortedMode h = h.insertionSort le) :
    ∃ v, accRun sqrt .mode l = .ok v ∧ v ∈ l ∧ ∀ x ∈ l, timesIn l x ≤ timesIn l v := by
  obtain ⟨s, e1, e2⟩ := hist_run .mode (Or.inr rfl) l
  have hs' := hs s.hist (by rw [e2, List.map_map]; exact List.map_id' _)
  have hp := List.pairwise_insertionSort le s.hist
  have hperm := List.perm_insertionSort le s.hist
  have hv : accRun sqrt .mode l = accValue sqrt .mode s := by unfold accRun; rw [e1]; rfl
  rw [hv]
  simp only [accValue, hs']
  cases e : s.hist.insertionSort le with
  | nil =>
    rw [e] at hperm
    have := hperm.nil_eq
    rw [← this] at e2
    have h0 : firstOccs l = [] := by simpa using e2.symm
    obtain ⟨x, hx⟩ := List.exists_mem_of_ne_nil l hne
    have := mem_firstOccs.2 hx
    rw [h0] at this
    simp at this
  | cons y t =>
    rw [e] at hp hperm
    rw [List.pairwise_cons] at hp
    have hy : y ∈ s.hist := hperm.mem_iff.1 (by simp)
    rw [e2, List.mem_map] at hy
    obtain ⟨k, hk, rfl⟩ := hy
    refine ⟨k, rfl, mem_firstOccs.1 hk, ?_⟩
    intro x hx
    have hx' : (x, timesIn l x) ∈ s.hist := by
      rw [e2, List.mem_map]; exact ⟨x, mem_firstOccs.2 hx, rfl⟩
    have := hperm.mem_iff.2 hx'
    simp only [List.mem_cons, Prod.mk.injEq] at this
    rcases this with h | h
    · rw [h.1]
    · exact hle _ _ (hp.1 _ h)

/-- the mode is a most frequent value when all values are text or none is.  Missing: with both, a non-text value is always preferred. -/
theorem C65_partial (sqrt : Rat → Rat) (l : List GVal) (hne : l ≠ []) (b : Bool) (hk : ∀ v ∈ l, v.isStr = b) :
    ∃ v, accRun sqrt .mode l = .ok v ∧ v ∈ l ∧ ∀ x ∈ l, timesIn l x ≤ timesIn l v := by
  have hall : ∀ h : List (GVal × Nat), h.map (·.1) = firstOccs l → ∀ e ∈ h, e.1.isStr = b := by
    intro h hh e he
    apply hk
    rw [← mem_firstOccs, ← hh]
    exact List.mem_map_of_mem he
  cases b with
  | false =>
    apply mode_of_sorted sqrt l hne (fun a b => cmpMode a b = true)
    · intro a b hab
      unfold cmpMode at hab
      simp only [Bool.or_eq_true, Bool.and_eq_true, decide_eq_true_eq] at hab
      omega
    · intro h hh
      have := hall h hh
      unfold sortedMode
      rw [List.filter_eq_self.2 (by intro e he; simp [this e he]), List.filter_eq_nil_iff.2 (by intro e he; simp [this e he])]
      simp
  | true =>
    apply mode_of_sorted sqrt l hne (fun a b => cmpModeText a b = true)
    · intro a b hab
      unfold cmpModeText at hab
      simp only [Bool.or_eq_true, Bool.and_eq_true, decide_eq_true_eq] at hab
      omega
    · intro h hh
      have := hall h hh
      unfold sortedMode
      rw [List.filter_eq_nil_iff.2 (by intro e he; simp [this e he]), List.filter_eq_self.2 (by intro e he; simp [this e he])]
      simp

/-- the mode of "a", "a", 1 comes out as 1 -/
theorem C65_fails (sqrt : Rat → Rat) : ¬ C65_statement sqrt := by
  intro h
  obtain ⟨v, h1, _, h3⟩ := h [.str "a", .str "a", .int 1] (by simp)
  have hv : accRun sqrt .mode [.str "a", .str "a", .int 1] = .ok (.int 1) := by
    rw [show accRun sqrt .mode [.str "a", .str "a", .int 1] = accRun id .mode [.str "a", .str "a", .int 1] from rfl]; decide +kernel
  rw [hv] at h1
  cases h1
  exact absurd (h3 (.str "a") (by simp)) (by decide)

example : IsNums [.int 1, .float (5/2)] [1, 5/2] := .cons (.inr ⟨1, rfl, by norm_num⟩) (.cons (.inl rfl) .nil)
example : SameKind [.int 1, .int 4, .int 2] := by intro x hx y hy; simp at hx hy; rcases hx with h | h | h <;> rcases hy with h' | h' | h' <;> subst h <;> subst h' <;> rfl
example : ¬ SameKind [.int 1, .float 2] := by intro h; exact absurd (h (.int 1) (by simp) (.float 2) (by simp)) (by decide)

end Tablite
