import Verif.Props.Exact
import Verif.Props.Join
import Verif.Props.Codec
import Verif.Props.DateRange
import Verif.Props.Table
import Verif.Props.ColumnQuery
/-!
# Exactly when: C10, C18, C20, C24, C26, C51, C52, C100

More properties that the code has only in part, with the exact condition.
-/

namespace Tablite

/-! ## C10 -/

/-- **C10** (exact).  `c == d` holds exactly when the values are equal position by position, or when the columns share all their pages. -/
theorem C10_exact {α : Type} (eq : α → α → Bool) (c d : RCol α) (hco : Coherent c d) :
    colEqCol eq c d = true ↔ PosEq eq (colIter c.pages) (colIter d.pages) ∨ c.map Ref.id = d.map Ref.id := by
  unfold colEqCol PosEq
  rw [colIter_eq, colIter_eq, colLen_eq, colLen_eq]
  by_cases hid : c.map Ref.id = d.map Ref.id
  · rw [coherent_same c d hco hid]
    simp [hid, -List.length_flatten]
  · by_cases hl : c.pages.flatten.length = d.pages.flatten.length
    · simp only [hl, ne_eq, not_true_eq_false, if_false, true_and, hid, or_false]
      split
      · rename_i h
        rw [allEq_pages eq _ _ h.2, allEq_iff]
      · rw [allEq_iff]
    · simp [hl, hid, -List.length_flatten]

/-! ## C18 -/

/-- **C18** (exact).  `t == o` holds exactly when the tables agree in names and columns, or when neither has a single row. -/
theorem C18_exact {ν α : Type} [DecidableEq ν] [DecidableEq α] (t o : List (ν × RCol α)) (ho : (o.map (·.1)).Nodup) (hco : TblCoherent t o) :
    tblEq (fun a b => decide (a = b)) t o = true ↔
      SameTable t o ∨ ((∀ c ∈ t, colIter c.2.pages = []) ∧ ∀ c ∈ o, colIter c.2.pages = []) := by
  by_cases hrows : (∃ c ∈ t, colIter c.2.pages ≠ []) ∨ ∃ c ∈ o, colIter c.2.pages ≠ []
  · rw [C18_eq_partial t o ho hco hrows]
    constructor
    · exact Or.inl
    · rintro (h | ⟨h1, h2⟩)
      · exact h
      · rcases hrows with ⟨c, hc, hn⟩ | ⟨c, hc, hn⟩
        · exact absurd (h1 c hc) hn
        · exact absurd (h2 c hc) hn
  · have h1 : ∀ c ∈ t, colIter c.2.pages = [] := fun c hc => Decidable.byContradiction fun h => hrows (Or.inl ⟨c, hc, h⟩)
    have h2 : ∀ c ∈ o, colIter c.2.pages = [] := fun c hc => Decidable.byContradiction fun h => hrows (Or.inr ⟨c, hc, h⟩)
    have hz : ∀ t : List (ν × RCol α), (∀ c ∈ t, colIter c.2.pages = []) → (t.map fun c => colLen c.2.pages).foldl max 0 = 0 := by
      intro t h
      rcases foldl_max_mem (t.map fun c => colLen c.2.pages) 0 with e | e
      · exact e
      · obtain ⟨c, hc, e'⟩ := List.mem_map.1 e
        rw [← e', colLen_eq, ← colIter_eq, h c hc]
        rfl
    constructor
    · exact fun _ => Or.inr ⟨h1, h2⟩
    · intro _
      unfold tblEq
      simp only [hz t h1, hz o h2, ne_eq, not_true_eq_false, if_false, if_true]

/-! ## C20 -/

theorem uniqueLoop_map {α η : Type} [DecidableEq η] (hash : List α → η) (rows : List (List α)) (k : Nat) (seen : List η) :
    uniqueLoop hash seen (rows.zipIdx k) = uniqueLoop (id : List η → List η) (seen.map fun x => [x]) ((rows.map fun r => [hash r]).zipIdx k) := by
  induction rows generalizing k seen with
  | nil => rfl
  | cons a t ih =>
    simp only [List.map_cons, List.zipIdx_cons, uniqueLoop, id]
    have : [hash a] ∈ seen.map (fun x => [x]) ↔ hash a ∈ seen := by
      rw [List.mem_map]
      constructor
      · rintro ⟨x, hx, e⟩
        injection e with e
        exact e ▸ hx
      · exact fun h => ⟨_, h, rfl⟩
    by_cases h : hash a ∈ seen
    · rw [if_pos h, if_pos (this.2 h), ih]
    · rw [if_neg h, if_neg (fun x => h (this.1 x)), ih]
      rfl

/-- **C20** (the effect).  Whatever the hash, `unique_index` returns the rows whose hash occurs in no row before. -/
theorem C20_effect {ν α η : Type} [DecidableEq ν] [DecidableEq η] (hash : List α → η) (nul : α) (t : Tbl ν α) (n : Nat)
    (hr : Rect t n) (args : List ν) (hne : args ≠ []) (h : ∀ a ∈ args, a ∈ t.map (·.1)) :
    ∃ out, uniqueIndex hash t args = .ok out ∧ out.Pairwise (· < ·) ∧
      ∀ i, i ∈ out ↔ i < n ∧ ∀ j, j < i → hash (args.map fun a => cell nul t a j) ≠ hash (args.map fun a => cell nul t a i) := by
  unfold uniqueIndex
  rw [if_neg hne, tblPick_ok t args h]
  simp only [bind, Except.bind]
  rw [zipRows_pick nul t n hr args hne h]
  rw [uniqueLoop_map]
  obtain ⟨s1, s2, _⟩ := uniqueLoop_spec (id : List η → List η) ((keyRows nul t args n).map fun r => [hash r]) 0 [] (fun a _ b _ e => e)
  have hget : ∀ i : Nat, i < n → ((keyRows nul t args n).map fun r => [hash r])[i]? = some [hash (args.map fun a => cell nul t a i)] := by
    intro i hi
    unfold keyRows
    rw [List.getElem?_map, List.getElem?_map, List.getElem?_range hi]
    rfl
  have hlen : ((keyRows nul t args n).map fun r => [hash r]).length = n := by simp [keyRows]
  refine ⟨_, rfl, s2, ?_⟩
  intro i
  show i ∈ uniqueLoop id [] _ ↔ _
  rw [s1]
  simp only [Nat.sub_zero]
  constructor
  · rintro ⟨a, _, h2, _, h4⟩
    have hi : i < n := by
      have := (List.getElem?_eq_some_iff.1 h2).1
      omega
    refine ⟨hi, ?_⟩
    intro j hj e
    rw [hget i hi] at h2
    apply h4 j hj
    rw [hget j (by omega), e, h2]
  · rintro ⟨hi, h2⟩
    refine ⟨_, by omega, hget i hi, by simp, ?_⟩
    intro j hj e
    rw [hget j (by omega)] at e
    injection e with e
    injection e with e
    exact h2 j hj e

/-- **C20** (exact).  `unique_index` returns exactly the first row of every key if and only if no two different keys of the table have the same hash. -/
theorem C20_exact {ν α η : Type} [DecidableEq ν] [DecidableEq α] [DecidableEq η] (hash : List α → η) (nul : α) (t : Tbl ν α) (n : Nat)
    (hr : Rect t n) (args : List ν) (hne : args ≠ []) (h : ∀ a ∈ args, a ∈ t.map (·.1)) :
    (∃ out, uniqueIndex hash t args = .ok out ∧
      ∀ i, i ∈ out ↔ i < n ∧ ∀ j, j < i → (args.map fun a => cell nul t a j) ≠ args.map fun a => cell nul t a i) ↔
    ∀ i j, i < n → j < n → hash (args.map fun a => cell nul t a i) = hash (args.map fun a => cell nul t a j) →
      (args.map fun a => cell nul t a i) = args.map fun a => cell nul t a j := by
  obtain ⟨out, e, _, hm⟩ := C20_effect hash nul t n hr args hne h
  constructor
  · rintro ⟨out', e', hm'⟩
    rw [e] at e'
    cases e'
    intro i j hi hj hh
    refine Decidable.byContradiction fun hij => ?_
    -- the first rows holding the two keys
    have first : ∀ i, i < n → ∃ f, f ≤ i ∧ (args.map fun a => cell nul t a f) = (args.map fun a => cell nul t a i) ∧
        ∀ j, j < f → (args.map fun a => cell nul t a j) ≠ args.map fun a => cell nul t a f := by
      intro i
      induction i using Nat.strongRecOn with
      | ind i ih =>
        intro hi
        by_cases hx : ∃ j, j < i ∧ (args.map fun a => cell nul t a j) = args.map fun a => cell nul t a i
        · obtain ⟨j, hj, ej⟩ := hx
          obtain ⟨f, h1, h2, h3⟩ := ih j hj (by omega)
          exact ⟨f, by omega, h2.trans ej, h3⟩
        · exact ⟨i, Nat.le_refl _, rfl, fun j hj ej => hx ⟨j, hj, ej⟩⟩
    obtain ⟨f, f1, f2, f3⟩ := first i hi
    obtain ⟨g, g1, g2, g3⟩ := first j hj
    have mf := ((hm f).1 ((hm' f).2 ⟨by omega, f3⟩)).2
    have mg := ((hm g).1 ((hm' g).2 ⟨by omega, g3⟩)).2
    have hfg : hash (args.map fun a => cell nul t a f) = hash (args.map fun a => cell nul t a g) := by rw [f2, g2, hh]
    rcases Nat.lt_trichotomy f g with hl | hl | hl
    · exact mg f hl hfg
    · subst hl
      exact hij (f2.symm.trans g2)
    · exact mf g hl hfg.symm
  · intro hinj
    refine ⟨out, e, fun i => ?_⟩
    rw [hm]
    constructor
    · rintro ⟨hi, h2⟩
      exact ⟨hi, fun j hj ej => h2 j hj (by rw [ej])⟩
    · rintro ⟨hi, h2⟩
      exact ⟨hi, fun j hj ej => h2 j hj (hinj j i (by omega) hi ej)⟩

/-- a hash that does not tell 1 from 3 loses a row -/
example : uniqueIndex (fun l => l.map (· % 2)) ([("a", [[1, 2], [3]])] : Tbl String Nat) ["a"] = .ok [0, 1] := by decide
example : uniqueIndex id ([("a", [[1, 2], [3]])] : Tbl String Nat) ["a"] = .ok [0, 1, 2] := by decide

/-! ## C24 -/

theorem firstOccs_order {κ : Type} [DecidableEq κ] (K : List κ) :
    (firstOccs K).Pairwise fun x y => ∀ b : Nat, K[b]? = some y → ∃ a, a < b ∧ K[a]? = some x := by
  induction K with
  | nil => simp [firstOccs]
  | cons a t ih =>
    rw [firstOccs, List.pairwise_cons]
    constructor
    · intro y hy b hb
      have hne : y ≠ a := by simpa using (List.mem_filter.1 hy).2
      cases b with
      | zero =>
        simp only [List.getElem?_cons_zero, Option.some.injEq] at hb
        exact absurd hb.symm hne
      | succ b => exact ⟨0, by omega, rfl⟩
    · rw [List.pairwise_filter]
      refine ih.imp ?_
      intro x y hxy _ hy b hb
      have hne : y ≠ a := by simpa using hy
      cases b with
      | zero =>
        simp only [List.getElem?_cons_zero, Option.some.injEq] at hb
        exact absurd hb.symm hne
      | succ b =>
        obtain ⟨c, h1, h2⟩ := hxy b (by simpa using hb)
        exact ⟨c + 1, by omega, by simpa using h2⟩

theorem rIx_ne_nil {α : Type} [DecidableEq α] (KR : List (List α)) (k : List α) : rIx KR [-1] k ≠ [] := by
  unfold rIx
  split
  · rename_i h
    exact fun e => pos_ne_nil KR k h (List.map_eq_nil_iff.1 e)
  · simp

/-- **C24** (order, exact).  A left join keeps the order of the left rows exactly when rows with the same left key stand next to each other. -/
theorem C24_order_exact {α : Type} [DecidableEq α] (KL KR : List (List α)) :
    ((leftMapping (idxOf KL) (idxOf KR)).map (·.1)).Pairwise (· ≤ ·) ↔
      ∀ i j k : Nat, i < j → j < k → k < KL.length → KL[i]? = KL[k]? → KL[j]? = KL[i]? := by
  rw [left_eq, List.pairwise_map, List.pairwise_flatMap]
  have cross : ∀ (k : List α) (i : Nat), KL[i]? = some k → ∃ y, ((i : Int), y) ∈ crossIx (positionsFrom (fun x => decide (x = k)) 0 KL) (rIx KR [-1] k) := by
    intro k i hi
    obtain ⟨y, hy⟩ := List.exists_mem_of_ne_nil _ (rIx_ne_nil KR k)
    exact ⟨y, (mem_crossIx _ _ _ _).2 ⟨i, (mem_pos KL k i).2 hi, rfl, hy⟩⟩
  unfold idxOf
  rw [List.pairwise_map]
  constructor
  · rintro ⟨_, h⟩ i j k hij hjk hk e
    refine Decidable.byContradiction fun hne => ?_
    obtain ⟨x, hx⟩ : ∃ x, KL[i]? = some x := ⟨_, List.getElem?_eq_getElem (by omega)⟩
    obtain ⟨y, hy⟩ : ∃ y, KL[j]? = some y := ⟨_, List.getElem?_eq_getElem (by omega)⟩
    have hxy : x ≠ y := by rintro rfl; exact hne (hy.trans hx.symm)
    have mx : x ∈ firstOccs KL := mem_firstOccs.2 (List.mem_of_getElem? hx)
    have my : y ∈ firstOccs KL := mem_firstOccs.2 (List.mem_of_getElem? hy)
    obtain ⟨_, ci⟩ := cross x i hx
    obtain ⟨_, cj⟩ := cross y j hy
    obtain ⟨_, ck⟩ := cross x k (e.symm.trans hx)
    obtain ⟨p, hp, rfl⟩ := List.getElem_of_mem mx
    obtain ⟨q, hq, rfl⟩ := List.getElem_of_mem my
    rw [List.pairwise_iff_getElem] at h
    rcases Nat.lt_trichotomy p q with hl | hl | hl
    · have := h p q hp hq hl _ ck _ cj
      simp only at this
      omega
    · subst hl
      exact hxy rfl
    · have := h q p hq hp hl _ cj _ ci
      simp only at this
      omega
  · intro h
    constructor
    · intro e he
      unfold crossIx
      rw [List.pairwise_flatMap]
      constructor
      · intro i _
        rw [List.pairwise_map]
        exact List.pairwise_of_forall_mem_list fun _ _ _ _ => Int.le_refl _
      · obtain ⟨k, _, rfl⟩ := List.mem_map.1 he
        refine (positionsFrom_sorted _ 0 KL).imp ?_
        intro i j hij x hx y hy
        obtain ⟨_, _, rfl⟩ := List.mem_map.1 hx
        obtain ⟨_, _, rfl⟩ := List.mem_map.1 hy
        simp only
        omega
    · refine ((firstOccs_order KL).and (nodup_firstOccs KL)).imp ?_
      rintro x y ⟨hxy, hne⟩ ⟨a, _⟩ ha ⟨b, _⟩ hb
      rw [mem_crossIx] at ha hb
      obtain ⟨a, ha, rfl, _⟩ := ha
      obtain ⟨b, hb, rfl, _⟩ := hb
      simp only at ha hb ⊢
      rw [mem_pos] at ha hb
      refine Decidable.byContradiction fun hab => ?_
      obtain ⟨c, hc, ec⟩ := hxy b hb
      have := h c b a hc (by omega) (List.getElem?_eq_some_iff.1 ha).1 (ec.trans ha.symm)
      rw [ec, hb] at this
      injection this with this
      exact hne this.symm

/-- C24: rows 0, 1, 2 with keys a, a, b come out in order, with keys a, b, a they do not -/
example : (leftMapping (idxOf [[1], [1], [2]]) (idxOf [[1]])).map (·.1) = [0, 1, 2] := by decide
example : (leftMapping (idxOf [[1], [2], [1]]) (idxOf [[1]])).map (·.1) = [0, 2, 1] := by decide

/-! ## C26 -/

/-- **C26** (exact).  A cross join returns the `n * m` rows of the product exactly when neither table is empty. -/
theorem C26_exact {ν α : Type} [DecidableEq ν] [DecidableEq α] (ps : Nat) (hps : 0 < ps) (mk : ν → Nat → ν) (hmk : ∀ d a b, mk d a = mk d b → a = b)
    (ord : List (List α) → List (List α)) (nul : α) (t o : Tbl ν α) (n m : Nat) (ht : Rect t n) (ho : Rect o m) (lk rk lc rc : List ν) (h : JoinOk t o lk rk lc rc) :
    (∃ t', tblJoin ps mk ord nul .cross t o lk rk lc rc = .ok t' ∧
      tview t' = joinedView mk nul t o lc rc ((List.range (n * m)).map fun k => (some (k / m), some (k % m)))) ↔ 0 < n ∧ 0 < m := by
  have hz : ∀ (t : Tbl ν α), Rect t 0 → tblLen t = 0 := by
    intro t ht
    cases t with
    | nil => rfl
    | cons c l => exact tblLen_rect _ 0 ht (by simp)
  constructor
  · rintro ⟨t', e, _⟩
    refine Decidable.byContradiction fun hx => ?_
    have : tblLen t = 0 ∨ tblLen o = 0 := by
      by_cases hn : n = 0
      · subst hn; exact Or.inl (hz t ht)
      · have hm : m = 0 := by omega
        subst hm
        exact Or.inr (hz o ho)
    rw [C26_empty_raises ps mk ord nul t o this lk rk lc rc h] at e
    cases e
  · rintro ⟨hn, hm⟩
    exact C26_cross_partial ps hps mk hmk ord nul t o n m ht ho hn hm lk rk lc rc h

/-! ## C51, C52 -/

/-- **C51** (durations, exact).  A duration of at most 50000 days comes back from its bytes exactly when it has no microseconds. -/
theorem C51_durations_exact {O : Type} (R : Runtime O) (hR : RuntimeOk R) (d s us : Int) (hd : -50000 ≤ d ∧ d ≤ 50000) (hs : 0 ≤ s ∧ s < 86400)
    (hu : 0 ≤ us ∧ us < 1000000) :
    (∃ b, toBytes R (.timedelta d s us) = .ok b ∧ fromTypeCode R b (typeCode (.timedelta d s us : PV O)) = .ok (.timedelta d s us)) ↔ us = 0 := by
  constructor
  · rintro ⟨b, h1, h2⟩
    obtain ⟨b', h1', h2'⟩ := C51_partial R hR (.timedelta d s 0) ⟨⟨by omega, by omega⟩, hs, by omega, by omega⟩ ⟨hd, rfl⟩
    rw [C51_microseconds_lost R d s us 0, h1'] at h1
    injection h1 with h1
    subst h1
    have h3 : fromTypeCode R b' 10 = .ok (.timedelta d s 0) := h2'
    have h4 : fromTypeCode R b' 10 = .ok (.timedelta d s us) := h2
    rw [h3] at h4
    injection h4 with h4
    injection h4 with _ _ h4
    exact h4.symm
  · rintro rfl
    exact C51_partial R hR _ ⟨⟨by omega, by omega⟩, hs, hu⟩ ⟨hd, rfl⟩

/-- **C51** (texts, exact).  A text comes back from its bytes exactly when it holds no lone surrogate. -/
theorem C51_texts_exact {O : Type} (R : Runtime O) (hR : RuntimeOk R) (t : PyText) (ht : ∀ c ∈ t, c < 1114112) :
    (∃ b, toBytes R (.str t) = .ok b ∧ fromTypeCode R b (typeCode (.str t : PV O)) = .ok (.str t)) ↔ ∀ c ∈ t, ¬ (55296 ≤ c ∧ c < 57344) := by
  constructor
  · rintro ⟨b, h1, _⟩ c hc hs
    obtain ⟨e, he⟩ := C51_surrogate_raises R t c hc hs
    rw [he] at h1
    cases h1
  · intro h
    exact C51_partial R hR (.str t) ht h

/-- **C52** (exact).  A value (no NaN, no bytes, no object) comes back from JSON exactly when it is none of the six texts that stand for a missing value. -/
theorem C52_exact {O : Type} (R : Runtime O) (hR : RuntimeOk R) (v : PV O) (hv : PVOk R v) (hn : v ≠ .float .nan)
    (hb : v.type ≠ .bytes) (ho : v.type ≠ .other) :
    (∃ j, toJson R v = .ok j ∧ fromJson R j v.type = .ok v) ↔
      ∀ t, v = .str t → t ∉ [txt "null", txt "Null", txt "NULL", txt "#N/A", txt "#n/a", txt "None"] := by
  constructor
  · rintro ⟨j, h1, h2⟩ t rfl ht
    obtain ⟨e1, e2⟩ := C52_none_texts R t ht
    rw [e1] at h1
    cases h1
    have h3 : fromJson R (.str t) .str = .ok (.str t) := h2
    rw [e2] at h3
    cases h3
  · exact C52_partial R hR v hv hn hb ho

/-! ## C100 -/

/-- **C100** (exact).  `date_range` is `range` exactly when a whole number of steps leads from `start` to `stop`, or the steps lead away from `stop`. -/
theorem C100_exact (a b k : Int) (ha : IsMoment a) (hb : IsMoment b) (hk : k ≠ 0) :
    dateRange (some a) (some b) (some k) = .ok (rangeList a b k) ↔ k ∣ b - a ∨ (0 < k ∧ b ≤ a) ∨ (k < 0 ∧ a ≤ b) := by
  obtain ⟨p1, p2, _⟩ := C100_partial a b k ha hb hk
  constructor
  · intro h
    refine Decidable.byContradiction fun hx => ?_
    simp only [not_or, not_and, not_le] at hx
    obtain ⟨hx1, hx2, hx3⟩ := hx
    obtain ⟨l, e, _, hl⟩ := C100_moments a b k ha hb hk
    rw [e] at h
    injection h with h
    subst h
    rw [rangeList_length] at hl
    have h1 := Int.mul_ediv_add_emod (b - a) k
    have h2 : (b - a) % k ≠ 0 := fun h => hx1 (Int.dvd_of_emod_eq_zero h)
    have h3 := Int.emod_nonneg (b - a) hk
    rcases Int.lt_or_gt_of_ne hk with hlt | hgt
    · have hba := hx3 hlt
      have h4 := Int.emod_lt_of_neg (b - a) hlt
      have hq : 0 < (b - a) / k := by
        refine Decidable.byContradiction fun hq => ?_
        have := Int.mul_nonneg_of_nonpos_of_nonpos (a := k) (b := (b - a) / k) (by omega) (by omega)
        omega
      have e1 : k * ((((b - a) / k).toNat - 1 : Nat) : Int) = k * ((b - a) / k) - k := by
        rw [show ((((b - a) / k).toNat - 1 : Nat) : Int) = (b - a) / k - 1 by omega, Int.mul_sub, Int.mul_one]
      have h5 := (hl (((b - a) / k).toNat - 1)).1 ((lt_rangeLen_neg hlt _).2 (by rw [Int.mul_comm, e1]; omega))
      rw [e1] at h5
      omega
    · have hba := hx2 hgt
      have h4 := Int.emod_lt_of_pos (b - a) hgt
      have hq : 0 ≤ (b - a) / k := Int.ediv_nonneg (by omega) (by omega)
      have e1 : k * ((((b - a) / k).toNat : Nat) : Int) = k * ((b - a) / k) := by
        rw [Int.toNat_of_nonneg hq]
      have h5 := (hl ((b - a) / k).toNat).1 ((lt_rangeLen_pos hgt _).2 (by rw [Int.mul_comm, e1]; omega))
      rw [e1] at h5
      omega
  · rintro (h | h)
    · exact p1 h
    · rw [p2 h]
      congr 1
      refine (List.length_eq_zero_iff.1 ?_).symm
      rw [rangeList_length]
      unfold rangeLen
      rcases h with ⟨h1, h2⟩ | ⟨h1, h2⟩
      · rw [if_pos h1]
        have := Int.ediv_lt_of_lt_mul h1 (a := b - a + k - 1) (b := 1) (by omega)
        omega
      · rw [if_neg (by omega), if_pos h1]
        have := Int.ediv_lt_of_lt_mul (c := -k) (by omega) (a := a - b + -k - 1) (b := 1) (by omega)
        omega

end Tablite
