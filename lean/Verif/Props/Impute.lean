import Verif.Model.Impute
import Verif.Props.Stats
import Verif.Props.ColumnQuery
import Verif.Props.TableObj
/-!
# C78: imputation by mean and mode
-/

namespace Tablite

/-! ## summaries with counts of 0 -/

theorem quartBlock_ok (N k cnt0 cntn : Nat) (prev : Option Rat) (vx : Rat) (cur : Option Rat) (h : prev.isSome ∨ (cnt0 = 0 ∧ 0 < N ∧ 0 < k)) :
    ∃ r, quartBlock N k cnt0 cntn prev vx cur = .ok r := by
  unfold quartBlock
  dsimp only
  split
  · exact ⟨_, rfl⟩
  · split
    · rename_i h0
      cases prev with
      | some p => exact ⟨_, rfl⟩
      | none =>
        rcases h with h | ⟨h1, h2, h3⟩
        · simp at h
        · exfalso
          have hp : (0 : Rat) < (N : Rat) * k / 4 := by
            have a1 : (0 : Rat) < N := by exact_mod_cast h2
            have a2 : (0 : Rat) < k := by exact_mod_cast h3
            have a3 := mul_pos a1 a2
            linarith
          rw [← h0, h1] at hp
          simp at hp
    · exact ⟨_, rfl⟩

theorem stat_fold (N : Nat) (hN : 0 < N) (e0 : Rat × Nat) (h0 : 0 < e0.2) (P : List (Rat × Nat)) :
    ∃ s, (e0 :: P).foldlM (statStep N) {} = .ok s ∧ s.total = ((e0 :: P).map fun e => e.1 * (e.2 : Rat)).sum ∧ s.prev.isSome ∧ 0 < s.cntN ∧
      ∃ e ∈ e0 :: P, s.mode = some e.1 ∧ s.maxCnt = e.2 ∧ ∀ x ∈ e0 :: P, x.2 ≤ e.2 := by
  have step : ∀ (s : StatSt) (e : Rat × Nat), (s.prev.isSome ∨ s.cntN = 0) → 0 < s.cntN + e.2 →
      ∃ s', statStep N s e = .ok s' ∧ s'.total = s.total + e.1 * e.2 ∧ s'.prev = some e.1 ∧ s'.cntN = s.cntN + e.2 ∧
        s'.mode = (if s.maxCnt < e.2 then some e.1 else s.mode) ∧ s'.maxCnt = (if s.maxCnt < e.2 then (e.2 : Int) else s.maxCnt) := by
    intro s e hp hc
    have hq : ∀ k, 0 < k → s.prev.isSome ∨ (s.cntN = 0 ∧ 0 < N ∧ 0 < k) := fun k hk => hp.imp id fun h => ⟨h, hN, hk⟩
    obtain ⟨r1, h1⟩ := quartBlock_ok N 1 s.cntN (s.cntN + e.2) s.prev e.1 s.low (hq 1 (by omega))
    obtain ⟨r2, h2⟩ := quartBlock_ok N 2 s.cntN (s.cntN + e.2) s.prev e.1 s.median (hq 2 (by omega))
    obtain ⟨r3, h3⟩ := quartBlock_ok N 3 s.cntN (s.cntN + e.2) s.prev e.1 s.high (hq 3 (by omega))
    have hmn : ∀ a b, mnStep a b (s.cntN + e.2) = .ok (a + b / (s.cntN + e.2 : Nat)) := fun a b => by
      rw [mnStep, if_neg (by omega)]
    unfold statStep
    dsimp only
    rw [h1, h2, h3, hmn]
    exact ⟨_, rfl, rfl, rfl, rfl, rfl, rfl⟩
  induction P using List.reverseRecOn with
  | nil =>
    obtain ⟨s, h1, h2, h3, h4, h5, h6⟩ := step {} e0 (.inr rfl) (by simpa using h0)
    refine ⟨s, ?_, by simp [h2], by simp [h3], by omega, e0, by simp, ?_, ?_, by simp⟩
    · rw [List.foldlM_cons, h1]; rfl
    · rw [h5, if_pos (by show (-1 : Int) < _; omega)]
    · rw [h6, if_pos (by show (-1 : Int) < _; omega)]
  | append_singleton P e ih =>
    obtain ⟨s, g1, g2, g3, g4, m, hm, q1, q2, q3⟩ := ih
    obtain ⟨s', h1, h2, h3, h4, h5, h6⟩ := step s e (.inl g3) (by omega)
    refine ⟨s', ?_, ?_, by simp [h3], by omega, ?_⟩
    · rw [← List.cons_append, List.foldlM_append, g1]
      show List.foldlM (statStep N) s [e] = _
      rw [List.foldlM_cons, h1]
      rfl
    · rw [h2, g2]; simp only [List.map_cons, List.map_append, List.sum_cons, List.sum_append, List.map_nil, List.sum_nil]; ring
    · rw [h5, h6]
      by_cases hlt : s.maxCnt < e.2
      · rw [if_pos hlt, if_pos hlt]
        refine ⟨e, by simp, rfl, rfl, fun x hx => ?_⟩
        rw [← List.cons_append, List.mem_append, List.mem_singleton] at hx
        rcases hx with hx | hx
        · have := q3 x hx; omega
        · rw [hx]
      · rw [if_neg hlt, if_neg hlt]
        refine ⟨m, by rw [← List.cons_append]; exact List.mem_append_left _ hm, q1, q2, fun x hx => ?_⟩
        rw [← List.cons_append, List.mem_append, List.mem_singleton] at hx
        rcases hx with hx | hx
        · exact q3 x hx
        · rw [hx]; omega

/-- the mean and the mode of a histogram in which counts may be 0, but not that of the least value -/
theorem summary_zero (vc : List (Rat × Nat)) (hne : vc ≠ []) (h : ∀ e ∈ vc, e.2 = 0 → ∃ e' ∈ vc, e'.1 < e.1) :
    ∃ s, numericSummary vc = .ok s ∧ s.mean = (vc.map fun e => e.1 * (e.2 : Rat)).sum / ((vc.map (·.2)).sum : Nat) ∧
      ∃ e ∈ vc, s.mode = some e.1 ∧ ∀ x ∈ vc, x.2 ≤ e.2 := by
  have hperm := List.perm_insertionSort (fun a b => vcLe a b = true) vc
  have hsorted := List.pairwise_insertionSort (fun a b => vcLe a b = true) vc
  unfold numericSummary
  dsimp only
  generalize hVC : vc.insertionSort (fun a b => vcLe a b = true) = VC at hperm hsorted
  cases VC with
  | nil => exact absurd hperm.nil_eq.symm hne
  | cons e0 P =>
    have h0 : 0 < e0.2 := by
      rcases Nat.eq_zero_or_pos e0.2 with hz | hz
      · obtain ⟨e', he', hlt⟩ := h e0 (hperm.mem_iff.1 (by simp)) hz
        have he' := hperm.mem_iff.2 he'
        rcases List.mem_cons.1 he' with rfl | he'
        · exact absurd hlt (lt_irrefl _)
        · have := (List.pairwise_cons.1 hsorted).1 e' he'
          rw [vcLe_iff] at this
          rcases this with hh | ⟨hh, _⟩
          · exact absurd (lt_trans hh hlt) (lt_irrefl _)
          · rw [hh] at hlt; exact absurd hlt (lt_irrefl _)
      · exact hz
    have hN : 0 < (vc.map (·.2)).sum := by
      rw [← (hperm.map (·.2)).sum_eq, List.map_cons, List.sum_cons]; omega
    obtain ⟨s, h1, h2, -, -, m, hm, q1, -, q3⟩ := stat_fold _ hN e0 h0 P
    have hlast := List.getLast?_eq_getLast_of_ne_nil (l := e0 :: P) (by simp)
    rw [List.head?_cons, hlast]
    simp only [bind, Except.bind, h1]
    rw [if_neg (by omega)]
    refine ⟨_, rfl, ?_, m, hperm.mem_iff.1 hm, q1, fun x hx => q3 x (hperm.mem_iff.2 hx)⟩
    dsimp only
    rw [h2, (hperm.map (fun e => e.1 * (e.2 : Rat))).sum_eq]

/-! ## the histogram without the missing values -/

theorem sum_zero_count {β : Type} [DecidableEq β] (f : β → Rat) (ks l : List β) (hn : ks.Nodup) (h : ∀ x ∈ l, x ∈ ks) :
    (ks.map fun v => f v * (l.count v : Rat)).sum = (l.map f).sum := by
  induction l with
  | nil => simp
  | cons a l ih =>
    have e : ∀ ks : List β, (ks.map fun v => f v * ((a :: l).count v : Rat)).sum =
        (ks.map fun v => f v * (l.count v : Rat)).sum + (ks.map fun v => if a = v then f v else 0).sum := by
      intro ks
      induction ks with
      | nil => simp
      | cons k ks ihk =>
        rw [List.map_cons, List.sum_cons, ihk, List.map_cons, List.sum_cons, List.map_cons, List.sum_cons, List.count_cons]
        by_cases hk : a = k
        · subst hk; simp; ring
        · simp [hk]; ring
    rw [e, ih (fun x hx => h x (by simp [hx])), List.map_cons, List.sum_cons, add_comm]
    congr 1
    have ha := h a (by simp)
    clear e ih h
    induction ks with
    | nil => simp at ha
    | cons k ks ihk =>
      rw [List.nodup_cons] at hn
      rw [List.map_cons, List.sum_cons]
      by_cases hk : a = k
      · subst hk
        have : (ks.map fun v => if a = v then f v else 0).sum = 0 := by
          apply List.sum_eq_zero
          intro x hx
          obtain ⟨v, hv, rfl⟩ := List.mem_map.1 hx
          rw [if_neg]
          rintro rfl
          exact hn.1 hv
        rw [this]; simp
      · rw [if_neg hk, ihk hn.2 (by rcases List.mem_cons.1 ha with h | h; exact absurd h hk; exact h)]
        simp

theorem zeroFirst_map (l : List (IV × Nat)) (m : IV) (hn : (l.map (·.1)).Nodup) : zeroFirst l m = l.map fun e => if e.1 = m then (e.1, 0) else e := by
  induction l with
  | nil => rfl
  | cons e l ih =>
    rw [List.map_cons, List.nodup_cons] at hn
    rw [zeroFirst, List.map_cons]
    split
    · rename_i h
      congr 1
      conv_lhs => rw [← List.map_id l]
      apply List.map_congr_left
      intro x hx
      rw [if_neg]
      · rfl
      · rintro hh
        exact hn.1 (List.mem_map.2 ⟨x, hx, by rw [hh, h]⟩)
    · rw [ih hn.2]

theorem zeroed (missing : List IV) (l : List (IV × Nat)) (hn : (l.map (·.1)).Nodup) :
    missing.foldl zeroFirst l = l.map fun e => (e.1, if e.1 ∈ missing then 0 else e.2) := by
  induction missing generalizing l with
  | nil => simp
  | cons m ms ih =>
    have hk : (zeroFirst l m).map (·.1) = l.map (·.1) := by
      rw [zeroFirst_map l m hn, List.map_map]
      apply List.map_congr_left
      intro e _
      simp only [Function.comp]
      split <;> rfl
    rw [List.foldl_cons, ih _ (by rw [hk]; exact hn), zeroFirst_map l m hn, List.map_map]
    apply List.map_congr_left
    intro e _
    simp only [Function.comp]
    by_cases h : e.1 = m
    · simp [h]
    · rw [if_neg h]
      simp [h]

/-- the values that are not missing -/
def present (missing l : List IV) : List IV := l.filter fun x => x ∉ missing

theorem hist_present (srt : List IV → Option (List IV)) (hsrt : ∀ l s, srt l = some s → s.Perm l) (same : IV → IV → Bool) (col : Pages IV)
    (h : ∀ p ∈ col, Faithful same p) (missing : List IV) :
    ∃ ks : List IV, ks.Nodup ∧ (∀ v, v ∈ ks ↔ v ∈ colIter col) ∧
      missing.foldl zeroFirst (histogram srt same col) = ks.map fun v => (v, (present missing (colIter col)).count v) := by
  obtain ⟨h1, h2, -⟩ := C13_histogram_partial srt hsrt same col h
  have hmem : ∀ v, v ∈ (histogram srt same col).map (·.1) ↔ v ∈ colIter col := by
    intro v
    rw [← dGet_isSome, h2 v]
    split <;> simp [*]
  refine ⟨(histogram srt same col).map (·.1), h1, hmem, ?_⟩
  rw [zeroed missing _ h1, List.map_map]
  apply List.map_congr_left
  intro e he
  simp only [Function.comp]
  congr 1
  have h3 := dGet_of_mem _ h1 e he
  rw [h2 e.1, if_pos ((hmem e.1).1 (List.mem_map.2 ⟨e, he, rfl⟩))] at h3
  injection h3 with h3
  rw [present]
  split
  · rename_i hm
    rw [eq_comm, List.count_eq_zero]
    intro hx
    simp [hm] at hx
  · rename_i hm
    rw [List.count_filter (by simpa using hm), ← h3, List.count]
    apply List.countP_congr
    intro x _
    simp

/-! ## the new value -/

/-- the number a value is -/
def IV.value : IV → Rat
  | .int n => n
  | .float x => x
  | _ => 0

/-- the mean or a most frequent value of a list -/
def IsStat (m : StatMethod) (l : List IV) (v : IV) : Prop :=
  match m with
  | .mean => v = .float ((l.map IV.value).sum / l.length)
  | .mode => v ∈ l ∧ ∀ w, l.count w ≤ l.count v

/-- a column with values of one type that are not missing: numbers, or texts if the method is the mode.  No missing value of this type is as small as the
least of them (for texts: as short as the shortest) -/
def Imputable (m : StatMethod) (missing l : List IV) : Prop :=
  ∃ T, (T = .int ∨ T = .float ∨ (T = .str ∧ m = .mode)) ∧ present missing l ≠ [] ∧ (∀ x ∈ present missing l, x.ty = T) ∧
    ∀ x ∈ l, x ∈ missing → x.ty = T → ∃ y ∈ present missing l, y.size < x.size

theorem mem_present {missing l : List IV} {x : IV} : x ∈ present missing l ↔ x ∈ l ∧ x ∉ missing := by
  simp [present]

theorem size_value {x : IV} (h : x.ty = .int ∨ x.ty = .float) : x.size = x.value := by
  cases x <;> simp_all [IV.ty, IV.size, IV.value]

theorem numLike_size {x : IV} (h : x.ty = .int ∨ x.ty = .float) : numLike x.ty x.size = x := by
  cases x <;> simp_all [IV.ty, IV.size, numLike]

theorem newValue_ok (srt : List IV → Option (List IV)) (hsrt : ∀ l s, srt l = some s → s.Perm l) (same : IV → IV → Bool) (fmt : Rat → String) (m : StatMethod)
    (missing : List IV) (col : Pages IV) (hf : ∀ p ∈ col, Faithful same p) (hi : Imputable m missing (colIter col)) :
    ∃ v, newValue srt same fmt m missing col = .ok v ∧ IsStat m (present missing (colIter col)) v := by
  obtain ⟨T, hT, hne, hty, hmin⟩ := hi
  obtain ⟨ks, hks, hmem, hh⟩ := hist_present srt hsrt same col hf missing
  generalize hl : colIter col = l at *
  generalize hP : present missing l = P at *
  obtain ⟨x0, hx0⟩ := List.exists_mem_of_ne_nil P hne
  have hPl : ∀ x, x ∈ P ↔ x ∈ l ∧ x ∉ missing := fun x => by rw [← hP, mem_present]
  have hc0 : 0 < P.count x0 := List.count_pos_iff.2 hx0
  have hdom : dominant IV.ty (ks.map fun v => (v, P.count v)) = some (T, (ks.filter fun v => v.ty = T).map fun v => (v, P.count v)) := by
    obtain ⟨T', h1, -, h3, -⟩ := C66_dominant IV.ty (ks.map fun v => (v, P.count v)) ⟨(x0, P.count x0), List.mem_map.2 ⟨x0, (hmem x0).2 ((hPl x0).1 hx0).1, rfl⟩, hc0⟩
    have hTT : T' = T := by
      by_contra hne'
      have h4 := h3 T
      have h5 : typeTotal IV.ty (ks.map fun v => (v, P.count v)) T' = 0 := by
        unfold typeTotal
        apply List.sum_eq_zero
        intro n hn
        obtain ⟨e, he, rfl⟩ := List.mem_map.1 hn
        rw [List.mem_filter] at he
        obtain ⟨v, hv, rfl⟩ := List.mem_map.1 he.1
        have h6 : v.ty = T' := by simpa using he.2
        dsimp only
        rw [List.count_eq_zero]
        intro hvP
        exact hne' (h6.symm.trans (hty v hvP))
      have h7 : P.count x0 ≤ typeTotal IV.ty (ks.map fun v => (v, P.count v)) T := by
        unfold typeTotal
        apply le_sum_mem
        refine List.mem_map.2 ⟨(x0, P.count x0), List.mem_filter.2 ⟨List.mem_map.2 ⟨x0, (hmem x0).2 ((hPl x0).1 hx0).1, rfl⟩, ?_⟩, rfl⟩
        simpa using hty x0 hx0
      omega
    rw [h1, hTT, List.filter_map]
    rfl
  generalize hkT : (ks.filter fun v => v.ty = T) = kT at hdom
  have hkTm : ∀ v, v ∈ kT ↔ v ∈ l ∧ v.ty = T := fun v => by rw [← hkT, List.mem_filter, hmem]; simp
  have hkTn : kT.Nodup := by rw [← hkT]; exact hks.filter _
  have hPk : ∀ x ∈ P, x ∈ kT := fun x hx => (hkTm x).2 ⟨((hPl x).1 hx).1, hty x hx⟩
  obtain ⟨s, hs1, hs2, e, he, hs3, hs4⟩ := summary_zero ((kT.map fun v => (v, P.count v)).map fun e => (e.1.size, e.2)) (by
    intro h0
    have := hPk x0 hx0
    simp only [List.map_eq_nil_iff] at h0
    rw [h0] at this
    simp at this) (by
    intro e he h0
    rw [List.map_map] at he
    obtain ⟨v, hv, rfl⟩ := List.mem_map.1 he
    have hvP : v ∉ P := List.count_eq_zero.1 h0
    have hvl := (hkTm v).1 hv
    have hvm : v ∈ missing := by
      by_contra hvm
      exact hvP ((hPl v).2 ⟨hvl.1, hvm⟩)
    obtain ⟨y, hy, hlt⟩ := hmin v hvl.1 hvm hvl.2
    refine ⟨(y.size, P.count y), ?_, hlt⟩
    rw [List.map_map]
    exact List.mem_map.2 ⟨y, hPk y hy, rfl⟩)
  have hmean : s.mean = (P.map IV.size).sum / P.length := by
    rw [hs2, List.map_map, List.map_map, List.map_map, List.map_map]
    have h1 := sum_zero_count IV.size kT P hkTn hPk
    have h2 := sum_zero_count (fun _ => 1) kT P hkTn hPk
    have e1 : ((fun e : Rat × Nat => e.1 * (e.2 : Rat)) ∘ (fun e : IV × Nat => (e.1.size, e.2))) ∘ (fun v => (v, P.count v)) = fun v => v.size * (P.count v : Rat) := rfl
    rw [e1, h1]
    congr 1
    have e2 : ∀ L : List IV, ((L.map (((fun x : Rat × Nat => x.2) ∘ (fun e : IV × Nat => (e.1.size, e.2))) ∘ (fun v => (v, P.count v)))).sum : Rat) =
        (L.map fun v => 1 * (P.count v : Rat)).sum := by
      intro L
      induction L with
      | nil => simp
      | cons a L ih => simp only [List.map_cons, List.sum_cons, Nat.cast_add, ih]; simp
    rw [e2, h2]
    simp
  rw [List.map_map] at he
  obtain ⟨v, hv, rfl⟩ := List.mem_map.1 he
  have hmax : ∀ w, P.count w ≤ P.count v := by
    intro w
    by_cases hw : w ∈ P
    · exact hs4 (w.size, P.count w) (by rw [List.map_map]; exact List.mem_map.2 ⟨w, hPk w hw, rfl⟩)
    · rw [List.count_eq_zero.2 hw]; omega
  have hvP : v ∈ P := by
    rw [← List.count_pos_iff]
    have := hmax x0
    omega
  unfold newValue
  rw [hh]
  unfold statOf
  rw [hdom]
  have hnum : T = .int ∨ T = .float → (P.map IV.size) = P.map IV.value := by
    intro h
    apply List.map_congr_left
    intro x hx
    rw [size_value]
    rw [hty x hx]
    exact h
  rcases hT with rfl | rfl | ⟨rfl, rfl⟩
  · dsimp only
    rw [hs1]
    cases m with
    | mean => exact ⟨_, rfl, by rw [IsStat, hmean, hnum (.inl rfl)]⟩
    | mode =>
      refine ⟨v, ?_, hvP, hmax⟩
      dsimp only [Except.bind]
      rw [hs3]
      have := numLike_size (x := v) (.inl (hty v hvP))
      rw [hty v hvP] at this
      exact congrArg Except.ok this
  · dsimp only
    rw [hs1]
    cases m with
    | mean => exact ⟨_, rfl, by rw [IsStat, hmean, hnum (.inr rfl)]⟩
    | mode =>
      refine ⟨v, ?_, hvP, hmax⟩
      dsimp only [Except.bind]
      rw [hs3]
      have := numLike_size (x := v) (.inr (hty v hvP))
      rw [hty v hvP] at this
      exact congrArg Except.ok this
  · dsimp only
    rw [hs1]
    dsimp only [Except.bind]
    obtain ⟨mk, hmk⟩ := maxKey_some (kT.map fun v => (v, P.count v)) (by
      intro h0
      rw [List.map_eq_nil_iff] at h0
      rw [h0] at hv
      simp at hv)
    obtain ⟨g1, g2⟩ := maxKey_spec _ mk hmk
    rw [hmk]
    obtain ⟨u, hu, rfl⟩ := List.mem_map.1 g1
    have hmaxu : ∀ w, P.count w ≤ P.count u := by
      intro w
      by_cases hw : w ∈ P
      · exact g2 (w, P.count w) (List.mem_map.2 ⟨w, hPk w hw, rfl⟩)
      · rw [List.count_eq_zero.2 hw]; omega
    refine ⟨u, rfl, ?_, hmaxu⟩
    rw [← List.count_pos_iff]
    have := hmaxu x0
    omega

/-! ## the columns -/

theorem replacePages_ok (store : List IV → IV → Except Err IV) (missing : List IV) (v : IV) (col : Pages IV)
    (h : ∀ p ∈ col, (∃ x ∈ p, x ∈ missing) → store p v = .ok v) :
    replacePages store missing v col = (col.map fun p => p.map fun x => if x ∈ missing then v else x, none) := by
  induction col with
  | nil => rfl
  | cons p l ih =>
    have hp : replacePage store missing v p = .ok (p.map fun x => if x ∈ missing then v else x) := by
      unfold replacePage
      split
      · rename_i ha
        rw [h p (by simp) (by simpa using ha)]
        rfl
      · rename_i ha
        congr 1
        conv_lhs => rw [← List.map_id p]
        apply List.map_congr_left
        intro x hx
        rw [if_neg]
        · rfl
        · intro hm
          exact ha (by simpa using ⟨x, hx, hm⟩)
    rw [replacePages, hp, ih (fun q hq => h q (by simp [hq]))]
    rfl

theorem colIter_replaced (missing : List IV) (v : IV) (col : Pages IV) :
    colIter (col.map fun p => p.map fun x => if x ∈ missing then v else x) = (colIter col).map fun x => if x ∈ missing then v else x := by
  rw [colIter_eq, colIter_eq, List.map_flatten]

section
variable {ν : Type} [DecidableEq ν]

theorem dSet_mid {β : Type} (k : ν) (v b : β) (pre R : List (ν × β)) (h : k ∉ pre.map (·.1)) : dSet k v (pre ++ (k, b) :: R) = pre ++ (k, v) :: R := by
  unfold dSet
  induction pre with
  | nil => simp [dUpd]
  | cons c pre ih =>
    obtain ⟨k', b'⟩ := c
    simp only [List.map_cons, List.mem_cons, not_or] at h
    rw [List.cons_append, dUpd, if_neg (fun e => h.1 e.symm), ih h.2]
    rfl

theorem statsLoop_ok (new : Pages IV → Except Err IV) (store : List IV → IV → Except Err IV) (missing : List IV) (targets : List ν) (l : OTbl ν)
    (H : Heap IV) (pre R : OTbl ν) (hR : R.map (·.1) = l.map (·.1)) (hn : (pre.map (·.1) ++ l.map (·.1)).Nodup) (ho : (objs l).Nodup) (hb : ∀ i ∈ objs l, i < H.length)
    (w : Nat → IV) (hw : ∀ c ∈ l, c.1 ∈ targets → new (colAt H c.2) = .ok (w c.2) ∧
      ∀ p ∈ colAt H c.2, (∃ x ∈ p, x ∈ missing) → store p (w c.2) = .ok (w c.2)) :
    ∃ H', statsLoop new store missing targets (H, pre ++ R) l = (H', pre ++ l, none) ∧ H'.length = H.length ∧ (∀ j, j ∉ objs l → colAt H' j = colAt H j) ∧
      ∀ c ∈ l, colAt H' c.2 = if c.1 ∈ targets then (colAt H c.2).map fun p => p.map fun x => if x ∈ missing then w c.2 else x else colAt H c.2 := by
  induction l generalizing H pre R with
  | nil =>
    simp only [List.map_nil, List.map_eq_nil_iff] at hR
    subst hR
    exact ⟨H, rfl, rfl, fun _ _ => rfl, by simp⟩
  | cons c l ih =>
    cases R with
    | nil => simp at hR
    | cons r R =>
      obtain ⟨k, b⟩ := r
      simp only [List.map_cons, List.cons.injEq] at hR
      obtain ⟨rfl, hR⟩ := hR
      simp only [objs, List.map_cons, List.nodup_cons] at ho
      have hk : c.1 ∉ pre.map (·.1) := by
        intro hm
        rw [List.nodup_append] at hn
        exact hn.2.2 _ hm c.1 (by simp) rfl
      have hset : dSet c.1 c.2 (pre ++ (c.1, b) :: R) = (pre ++ [c]) ++ R := by
        rw [dSet_mid _ _ _ _ _ hk]; simp
      have hn' : ((pre ++ [c]).map (·.1) ++ l.map (·.1)).Nodup := by simpa using hn
      rw [statsLoop]
      by_cases hc : c.1 ∈ targets
      · obtain ⟨h1, h2⟩ := hw c (by simp) hc
        rw [if_pos hc]
        dsimp only
        rw [h1]
        dsimp only
        rw [replacePages_ok _ _ _ _ h2]
        dsimp only
        rw [hset]
        have hcb : c.2 < H.length := hb c.2 (by simp [objs])
        have hother : ∀ j, j ≠ c.2 → colAt (H.set c.2 ((colAt H c.2).map fun p => p.map fun x => if x ∈ missing then w c.2 else x)) j = colAt H j :=
          fun j hj => colAt_set _ _ _ _ hj
        have hl : ∀ d ∈ l, d.2 ≠ c.2 := fun d hd e => ho.1 (List.mem_map.2 ⟨d, hd, e⟩)
        obtain ⟨H', g1, g2, g3, g4⟩ := ih (H.set c.2 ((colAt H c.2).map fun p => p.map fun x => if x ∈ missing then w c.2 else x)) (pre ++ [c]) R hR hn' ho.2
          (fun i hi => by rw [List.length_set]; exact hb i (by simp only [objs, List.map_cons, List.mem_cons]; exact .inr hi))
          (fun d hd hdt => by rw [hother _ (hl d hd)]; exact hw d (by simp [hd]) hdt)
        refine ⟨H', by rw [g1]; simp, by rw [g2, List.length_set], ?_, ?_⟩
        · intro j hj
          simp only [objs, List.map_cons, List.mem_cons, not_or] at hj
          rw [g3 j hj.2, hother j hj.1]
        · intro d hd
          rcases List.mem_cons.1 hd with rfl | hd
          · rw [g3 _ ho.1, if_pos hc]
            simp [colAt, List.getElem?_set_self hcb]
          · rw [g4 d hd, hother _ (hl d hd)]
      · rw [if_neg hc, hset]
        obtain ⟨H', g1, g2, g3, g4⟩ := ih H (pre ++ [c]) R hR hn' ho.2
          (fun i hi => hb i (by simp only [objs, List.map_cons, List.mem_cons]; exact .inr hi)) (fun d hd hdt => hw d (by simp [hd]) hdt)
        refine ⟨H', by rw [g1]; simp, g2, ?_, ?_⟩
        · intro j hj
          simp only [objs, List.map_cons, List.mem_cons, not_or] at hj
          exact g3 j hj.2
        · intro d hd
          rcases List.mem_cons.1 hd with rfl | hd
          · rw [g3 _ ho.1, if_neg hc]
          · exact g4 d hd

theorem tCopy_names {α : Type} (h : Heap α) (t : OTbl ν) (hn : (t.map (·.1)).Nodup) : (tCopy h t).2.map (·.1) = t.map (·.1) := by
  unfold tCopy
  have : ∀ (l : OTbl ν) (s : Heap α × OTbl ν), (s.2.map (·.1) ++ l.map (·.1)).Nodup →
      (l.foldl (fun s c => (s.1 ++ [colAt h c.2], dSet c.1 s.1.length s.2)) s).2.map (·.1) = s.2.map (·.1) ++ l.map (·.1) := by
    intro l
    induction l with
    | nil => simp
    | cons c l ih =>
      intro s hs
      have hk : c.1 ∉ s.2.map (·.1) := by
        intro hm
        rw [List.nodup_append] at hs
        exact hs.2.2 _ hm c.1 (by simp) rfl
      rw [List.foldl_cons, ih _ (by dsimp only; rw [keys_dSet _ _ _ hk]; simpa using hs)]
      dsimp only
      rw [keys_dSet _ _ _ hk]
      simp
  simpa using this t (h, []) (by simpa using hn)

/-- the values of a column after imputation -/
def Filled (m : StatMethod) (missing l l' : List IV) : Prop :=
  ∃ v, IsStat m (present missing l) v ∧ l' = l.map fun x => if x ∈ missing then v else x

/-- the whole claim: the new table is filled, the source is not changed -/
def C78_statement : Prop := ∀ (srt : List IV → Option (List IV)) (same : IV → IV → Bool) (fmt : Rat → String) (store : List IV → IV → Except Err IV) (m : StatMethod)
  (missing : List IV) (targets : List String) (h : Heap IV) (t : OTbl String), (∀ l s, srt l = some s → s.Perm l) → (∀ p, Faithful same p) → OWF h t → (∀ x ∈ targets, x ∈ t.map (·.1)) →
  (∀ p v, store p v = .ok v) → (∀ c ∈ t, c.1 ∈ targets → Imputable m missing (colIter (colAt h c.2))) →
  ∃ h' new, imputeStat srt same fmt store m missing targets h t = (h', new, none) ∧ new.map (·.1) = t.map (·.1) ∧
    (∀ x ∈ t.map (·.1), if x ∈ targets then Filled m missing (valsAt h t x) (valsAt h' new x) else valsAt h' new x = valsAt h t x) ∧
    lists h' t = lists h t

/-- C78: the imputed table has in every target the mean (a mode) of the values that are not missing in place of the missing values; the other values and the
other columns are those of the source.  Missing: the returned table holds the columns of the source themselves, so the source shows the new values too;
columns as in `Imputable` only; pages with missing values that keep the new value as it is (arrays of objects) only. -/
theorem C78_partial (srt : List IV → Option (List IV)) (hsrt : ∀ l s, srt l = some s → s.Perm l) (same : IV → IV → Bool) (fmt : Rat → String)
    (store : List IV → IV → Except Err IV) (m : StatMethod) (missing : List IV) (targets : List ν) (h : Heap IV) (t : OTbl ν) (hw : OWF h t)
    (htg : ∀ x ∈ targets, x ∈ t.map (·.1)) (hi : ∀ c ∈ t, c.1 ∈ targets → Imputable m missing (colIter (colAt h c.2)) ∧
      (∀ p ∈ colAt h c.2, Faithful same p) ∧ ∀ p ∈ colAt h c.2, (∃ x ∈ p, x ∈ missing) → ∀ v, store p v = .ok v) :
    ∃ h', imputeStat srt same fmt store m missing targets h t = (h', t, none) ∧
      ∀ c ∈ t, if c.1 ∈ targets then Filled m missing (colIter (colAt h c.2)) (colIter (colAt h' c.2)) else colAt h' c.2 = colAt h c.2 := by
  obtain ⟨hn, ho, hb⟩ := hw
  obtain ⟨L, h1, -⟩ := tCopy_new h t
  have hat : ∀ c ∈ t, colAt (tCopy h t).1 c.2 = colAt h c.2 := fun c hc => by
    rw [h1, colAt_append _ _ _ (hb c.2 (List.mem_map.2 ⟨c, hc, rfl⟩))]
  have hch : ∀ i, ∃ v, ∀ c ∈ t, c.2 = i → c.1 ∈ targets → newValue srt same fmt m missing (colAt h i) = .ok v ∧ IsStat m (present missing (colIter (colAt h i))) v := by
    intro i
    by_cases hex : ∃ c ∈ t, c.2 = i ∧ c.1 ∈ targets
    · obtain ⟨c, hc, rfl, hct⟩ := hex
      obtain ⟨q1, q2, -⟩ := hi c hc hct
      obtain ⟨v, hv⟩ := newValue_ok srt hsrt same fmt m missing _ q2 q1
      exact ⟨v, fun _ _ _ _ => hv⟩
    · exact ⟨.none, fun c hc h2 h3 => absurd ⟨c, hc, h2, h3⟩ hex⟩
  choose w hwv using hch
  obtain ⟨H', g1, -, -, g4⟩ := statsLoop_ok (newValue srt same fmt m missing) store missing targets t (tCopy h t).1 [] (tCopy h t).2 (tCopy_names h t hn) (by simpa using hn) ho
    (fun i hi => by rw [h1, List.length_append]; have := hb i hi; omega) w (fun c hc hct => by
      rw [hat c hc]
      exact ⟨(hwv c.2 c hc rfl hct).1, fun p hp hx => (hi c hc hct).2.2 p hp hx _⟩)
  refine ⟨H', ?_, ?_⟩
  · unfold imputeStat
    rw [if_pos (by simpa using htg)]
    exact g1
  · intro c hc
    have := g4 c hc
    rw [hat c hc] at this
    split
    · rename_i hct
      rw [if_pos hct] at this
      rw [this]
      exact ⟨w c.2, (hwv c.2 c hc rfl hct).2, colIter_replaced _ _ _⟩
    · rename_i hct
      rw [if_neg hct] at this
      exact this

end

/-! ## counterexamples -/

/-- an array of integers cuts off the fraction; other arrays keep the value -/
def intStore (p : List IV) (v : IV) : Except Err IV :=
  if p.all (fun x => x.ty = .int) then
    match v with
    | .int n => .ok (.int n)
    | .float x => .ok (.int (if 0 ≤ x then x.floor else x.ceil))
    | .none => .error .type
    | .str _ => .error .value
  else .ok v

/-- imputation of a table with one column "a" of one page -/
def imputeOne (store : List IV → IV → Except Err IV) (m : StatMethod) (missing l : List IV) : Heap IV × OTbl String × Option Err :=
  imputeStat (fun _ => none) (fun a b => decide (a = b)) (fun _ => "2.0") store m missing ["a"] [[l]] [("a", 0)]

/-- C78: after the imputation of 1, None, 3 the source has 2 in place of None -/
theorem C78_source_fails : imputeOne (fun _ v => .ok v) .mean [.none] [.int 1, .none, .int 3] =
    ([[[.int 1, .float 2, .int 3]], [[.int 1, .none, .int 3]]], [("a", 0)], none) := by decide +kernel

theorem C78_fails : ¬ C78_statement := by
  intro h
  obtain ⟨h', new, h1, -, -, h4⟩ := h (fun _ => none) (fun a b => decide (a = b)) (fun _ => "2.0") (fun _ v => .ok v) .mean [.none] ["a"] [[[.int 1, .none, .int 3]]] [("a", 0)]
    (by intro l s hs; cases hs) (fun p a _ b _ hab => by simpa using hab) ⟨by decide, by decide, by decide⟩ (by decide) (fun _ _ => rfl) (by
      intro c hc _
      simp only [List.mem_singleton] at hc
      subst hc
      refine ⟨.int, .inl rfl, by decide, by decide, by decide⟩)
  have := C78_source_fails
  unfold imputeOne at this
  rw [this] at h1
  injection h1 with h1 _
  subst h1
  revert h4
  decide +kernel

/-- C78: a missing value that is smaller than all others: 0 in 0, 2, 4 raises ZeroDivisionError -/
theorem C78_least_fails : (imputeOne intStore .mean [.int 0] [.int 0, .int 2, .int 4]).2.2 = some .zeroDivision := by decide +kernel

/-- C78: the empty text as missing value raises ZeroDivisionError -/
theorem C78_text_fails : (imputeOne intStore .mode [.str ""] [.str "", .str "x", .str "x"]).2.2 = some .zeroDivision := by decide +kernel

/-- C78: a column without other values raises KeyError -/
theorem C78_all_missing_fails : (imputeOne intStore .mean [.none] [.none, .none]).2.2 = some .key := by decide +kernel

/-- C78: in a column of integers the mean 3/2 of 1 and 2 is put in as 1 -/
theorem C78_integer_fails : (imputeOne intStore .mean [.int 9] [.int 1, .int 2, .int 9]).1.head? = some [[.int 1, .int 2, .int 1]] := by decide +kernel

/-- C78: where None is most frequent and not missing, a text is put in as mean -/
theorem C78_none_fails : (imputeOne intStore .mean [.int 9] [.none, .none, .int 9]).1.head? = some [[.none, .none, .str "n/a"]] := by decide +kernel

/-- columns that meet the hypotheses of `C78_partial` -/
example : Imputable .mode [.none, .int 9] [.int 1, .none, .int 9, .int 1, .int 3] :=
  ⟨.int, .inl rfl, by decide, by decide, fun x _ hm ht => by
    rcases List.mem_cons.1 hm with rfl | hm
    · simp [IV.ty] at ht
    · simp only [List.mem_singleton] at hm
      subst hm
      exact ⟨.int 1, by decide, by decide +kernel⟩⟩
example : imputeOne intStore .mode [.none, .int 9] [.int 1, .none, .int 9, .int 1, .int 3] =
    ([[[.int 1, .int 1, .int 1, .int 1, .int 3]], [[.int 1, .none, .int 9, .int 1, .int 3]]], [("a", 0)], none) := by decide +kernel

end Tablite
