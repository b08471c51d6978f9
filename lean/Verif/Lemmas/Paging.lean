import Verif.Model.Paging
import Verif.Lemmas.Range
/-! Lemmas about the paging core. -/

namespace Tablite

theorem colLen_eq {α} (pages : Pages α) : colLen pages = pages.flatten.length := by
  unfold colLen
  rw [List.length_flatten]

theorem colIter_eq {α} (pages : Pages α) : colIter pages = pages.flatten := by
  unfold colIter
  induction pages with
  | nil => rfl
  | cons p t ih => simp [List.flatMap_cons]

/-! ### paginate -/

theorem paginateLoop_flatten {α} (ps : Nat) (values : List α) (k start : Nat) :
    (paginateLoop ps values k start).flatten = (values.take (start + k * ps)).drop start := by
  induction k generalizing start with
  | zero => simp [paginateLoop]
  | succ k ih =>
    simp only [paginateLoop, List.flatten_cons, ih]
    have e : start + (k + 1) * ps = start + ps + k * ps := by rw [Nat.succ_mul]; omega
    rw [e]
    have h : (values.take (start + ps + k * ps)).drop start =
        ((values.take (start + ps + k * ps)).drop start).take ps ++ ((values.take (start + ps + k * ps)).drop start).drop ps :=
      (List.take_append_drop ps _).symm
    rw [h, List.drop_drop]
    congr 1
    rw [List.take_drop, List.take_take]
    congr 2
    omega

theorem ceil_mul_ge (n ps : Nat) (h : 0 < ps) : n ≤ (n + ps - 1) / ps * ps := by
  have h1 := Nat.div_add_mod (n + ps - 1) ps
  have h2 := Nat.mod_lt (n + ps - 1) h
  rw [Nat.mul_comm] at h1
  omega

theorem paginate_flatten {α} {ps : Nat} (h : 0 < ps) (values : List α) : (paginate ps values).flatten = values := by
  unfold paginate
  rw [paginateLoop_flatten]
  simp only [Nat.zero_add, List.drop_zero]
  apply List.take_of_length_le
  exact ceil_mul_ge _ _ h

theorem paginateLoop_sizes {α} (ps : Nat) (hps : 0 < ps) (values : List α) (k start : Nat)
    (hk : k = 0 ∨ start + (k - 1) * ps < values.length) :
    ∀ p ∈ paginateLoop ps values k start, 0 < p.length ∧ p.length ≤ ps := by
  induction k generalizing start with
  | zero => simp [paginateLoop]
  | succ k ih =>
    intro p hp
    simp only [paginateLoop, List.mem_cons] at hp
    have hk' : start + k * ps < values.length := by
      rcases hk with h | h
      · omega
      · simpa using h
    rcases hp with rfl | hp
    · simp only [List.length_drop, List.length_take]
      have : 0 ≤ k * ps := Nat.zero_le _
      omega
    · refine ih (start + ps) ?_ p hp
      cases k with
      | zero => left; rfl
      | succ j =>
        right
        rw [Nat.succ_mul] at hk'
        simp only [Nat.add_sub_cancel]
        omega

theorem paginate_sizes {α} {ps : Nat} (hps : 0 < ps) (values : List α) :
    ∀ p ∈ paginate ps values, 0 < p.length ∧ p.length ≤ ps := by
  unfold paginate
  apply paginateLoop_sizes ps hps
  rcases Nat.eq_zero_or_pos ((values.length + ps - 1) / ps) with h | h
  · left; exact h
  · right
    have h1 := Nat.div_add_mod (values.length + ps - 1) ps
    generalize (values.length + ps - 1) / ps = q at *
    obtain ⟨j, rfl⟩ : ∃ j, q = j + 1 := ⟨q - 1, by omega⟩
    have h2 := Nat.mod_lt (values.length + ps - 1) hps
    rw [Nat.mul_comm, Nat.succ_mul] at h1
    simp only [Nat.add_sub_cancel]
    omega

theorem paginateLoop_length {α} (ps : Nat) (values : List α) (k start : Nat) :
    (paginateLoop ps values k start).length = k := by
  induction k generalizing start with
  | zero => rfl
  | succ k ih => simp [paginateLoop, ih]

/-- all pages but the last are full -/
theorem paginateLoop_full {α} (ps : Nat) (values : List α) (k start i : Nat) (hi : i < k)
    (hle : start + (i + 1) * ps ≤ values.length) :
    ((paginateLoop ps values k start)[i]?).map List.length = some ps := by
  induction k generalizing start i with
  | zero => omega
  | succ k ih =>
    cases i with
    | zero =>
      simp only [paginateLoop, List.getElem?_cons_zero, Option.map_some, List.length_drop, List.length_take]
      congr 1
      simp at hle
      omega
    | succ i =>
      simp only [paginateLoop, List.getElem?_cons_succ]
      apply ih (start + ps) i (by omega)
      rw [Nat.succ_mul] at hle
      omega

/-! ### intercept -/

theorem ceilDiv_spec {x k : Int} (hk : 0 < k) : x ≤ ceilDiv x k * k ∧ ceilDiv x k * k < x + k := by
  unfold ceilDiv
  have h := Int.mul_ediv_add_emod (-x) k
  have h1 := Int.emod_nonneg (-x) (by omega : k ≠ 0)
  have h2 := Int.emod_lt_of_pos (-x) hk
  rw [Int.neg_mul, Int.mul_comm]
  omega

theorem ceilDiv_one (x : Int) : ceilDiv x 1 = x := by
  unfold ceilDiv; simp

theorem ceilDiv_zero (k : Int) : ceilDiv 0 k = 0 := by
  unfold ceilDiv; simp

/-- `intercept` of a page interval with an ascending range is exactly the part of the range inside the interval. -/
theorem intercept_page {s e a b k : Int} (hse : s ≤ e) (hk : 0 < k) :
    ∃ ro, intercept ⟨s, e, 1⟩ ⟨a, b, k⟩ = .ok ro ∧
      ro.toList = (rangeList a b k).filter (fun x => decide (s ≤ x) && decide (x < e)) ∧
      (ro.len = 0 ∨ (s ≤ ro.start ∧ ro.start ≤ e ∧ ro.stop ≤ e ∧ s ≤ ro.stop ∧ 0 < ro.step)) := by
  have fA : flipRange ⟨s, e, 1⟩ = ⟨s, e, 1⟩ := by simp [flipRange]
  have fB : flipRange ⟨a, b, k⟩ = ⟨a, b, k⟩ := by simp [flipRange]; omega
  have hempty : ∀ (P : Prop), (∀ x, x ∈ rangeList a b k → s ≤ x → x < e → False) → 
      ∃ ro, (Except.ok PyRange.empty : Except Err PyRange) = .ok ro ∧
      ro.toList = (rangeList a b k).filter (fun x => decide (s ≤ x) && decide (x < e)) ∧
      (ro.len = 0 ∨ (s ≤ ro.start ∧ ro.start ≤ e ∧ ro.stop ≤ e ∧ s ≤ ro.stop ∧ 0 < ro.step)) := by
    intro _ hno
    refine ⟨.empty, rfl, ?_, Or.inl (by decide)⟩
    have : (rangeList a b k).filter (fun x => decide (s ≤ x) && decide (x < e)) = [] := by
      rw [List.filter_eq_nil_iff]
      intro x hx hc
      simp only [Bool.and_eq_true, decide_eq_true_eq] at hc
      exact hno x hx hc.1 hc.2
    rw [this]; rfl
  unfold intercept
  simp only [fA, fB, PyRange.len]
  by_cases h1 : rangeLen s e 1 = 0
  · rw [if_pos h1]
    rw [rangeLen_eq_zero_pos (by omega)] at h1
    exact hempty True (by intro x _ _ _; omega)
  rw [if_neg h1]
  rw [rangeLen_eq_zero_pos (by omega)] at h1
  by_cases h2 : rangeLen a b k = 0
  · rw [if_pos h2]
    rw [rangeLen_eq_zero_pos hk] at h2
    refine hempty True ?_
    intro x hx _ _
    have := (mem_rangeList_pos hk).1 hx
    omega
  rw [if_neg h2]
  rw [rangeLen_eq_zero_pos hk] at h2
  by_cases h3 : e ≤ a
  · rw [if_pos h3]
    refine hempty True ?_
    intro x hx _ _
    have := (mem_rangeList_pos hk).1 hx
    omega
  rw [if_neg h3]
  by_cases h4 : s ≥ b
  · rw [if_pos h4]
    refine hempty True ?_
    intro x hx _ _
    have := (mem_rangeList_pos hk).1 hx
    omega
  rw [if_neg h4, if_pos (Or.inl trivial)]
  refine ⟨_, rfl, ?_, ?_⟩
  · simp only [PyRange.toList, ceilDiv_one, Int.mul_one]
    have hm : max 1 k = k := by omega
    rw [hm]
    apply eq_of_sorted_mem (rangeList_sorted hk)
    · exact (rangeList_sorted hk).filter _
    · intro x
      rw [mem_rangeList_pos hk, List.mem_filter, mem_rangeList_pos hk]
      simp only [Bool.and_eq_true, decide_eq_true_eq]
      generalize hst : (if s ≤ a then a else s) = st
      have hstv : st = max s a := by rw [← hst]; split <;> omega
      generalize hen : (if e ≤ b then e else b) = en
      have henv : en = min e b := by rw [← hen]; split <;> omega
      have hc := ceilDiv_spec (x := st - a) hk
      generalize ceilDiv (st - a) k = c at *
      have hM : max (st - s + s) (c * k + a) = c * k + a := by omega
      rw [hM]
      constructor
      · rintro ⟨p1, p2, p3⟩
        refine ⟨⟨by omega, by omega, ?_⟩, by omega, by omega⟩
        have : x - a = (x - (c * k + a)) + c * k := by omega
        rw [this]
        exact Int.dvd_add p3 (Int.dvd_mul_left _ _)
      · rintro ⟨⟨p1, p2, p3⟩, p4, p5⟩
        have hd : k ∣ x - (c * k + a) := by
          have : x - (c * k + a) = (x - a) - c * k := by omega
          rw [this]
          exact Int.dvd_sub p3 (Int.dvd_mul_left _ _)
        refine ⟨?_, by omega, hd⟩
        apply Int.le_of_not_gt
        intro hlt
        obtain ⟨d, hd⟩ := hd
        have : d < 0 := by
          apply Int.lt_of_not_ge
          intro hd0
          have := Int.mul_nonneg (by omega : 0 ≤ k) hd0
          omega
        have : k * d ≤ k * (-1) := Int.mul_le_mul_of_nonneg_left (by omega) (by omega)
        omega
  · by_cases hz : rangeLen (max (ceilDiv ((if s ≤ a then a else s) - s) 1 * 1 + s)
        (ceilDiv ((if s ≤ a then a else s) - a) k * k + a)) (if e ≤ b then e else b) (max 1 k) = 0
    · left; exact hz
    · right
      rw [rangeLen_eq_zero_pos (by omega)] at hz
      simp only [ceilDiv_one, Int.mul_one] at *
      refine ⟨?_, ?_, ?_, ?_, ?_⟩ <;> (try omega) <;> (repeat' split) <;> omega

/-- a strictly ascending list of `n` integers in `[s, s+n)` lists all of them -/
theorem sorted_full {l : List Int} {s : Int} (hs : l.Pairwise (· < ·))
    (hb : ∀ x ∈ l, s ≤ x ∧ x < s + l.length) : l = rangeList s (s + l.length) 1 := by
  apply eq_of_sorted_mem hs (rangeList_sorted (by omega))
  intro x
  rw [mem_rangeList_pos (by omega)]
  constructor
  · intro hx; exact ⟨(hb x hx).1, (hb x hx).2, Int.one_dvd _⟩
  · rintro ⟨h1, h2, -⟩
    -- the i-th element is s + i
    have key : ∀ (l : List Int) (s : Int), l.Pairwise (· < ·) → (∀ x ∈ l, s ≤ x ∧ x < s + l.length) →
        ∀ x, s ≤ x → x < s + l.length → x ∈ l := by
      intro l
      induction l with
      | nil => intro s _ _ x h1 h2; simp at h2; omega
      | cons a t ih =>
        intro s hs hb x h1 h2
        rw [List.pairwise_cons] at hs
        have ha := hb a (by simp)
        -- all of t lies in [s+1, ...)
        have ht : ∀ y ∈ t, s + 1 ≤ y ∧ y < s + 1 + t.length := by
          intro y hy
          have h3 := hs.1 y hy
          have h4 := hb y (by simp [hy])
          simp at h4
          omega
        have ha' : a = s := by
          cases t with
          | nil => simp at ha; omega
          | cons b u =>
            -- the smallest element cannot be larger than s: else u.length+2 elements fit above s
            by_cases h : a = s
            · exact h
            · exfalso
              have hall : ∀ y ∈ (b :: u), s + 1 ≤ y ∧ y < s + 1 + (b :: u).length := ht
              have hm := ih (s + 1) hs.2 hall (s + 1) (by omega) (by simp; omega)
              have := hs.1 _ hm
              omega
        by_cases hx : x = s
        · subst ha'; simp [hx]
        · apply List.mem_cons_of_mem
          apply ih (s + 1) hs.2 ht x (by omega)
          simp at h2
          omega
    exact key l s hs hb x h1 h2

theorem flipRange_pos (r : PyRange) : 0 < (flipRange r).step := by
  unfold flipRange; split <;> (first | simp | omega)

theorem flipRange_flip (r : PyRange) : flipRange (flipRange r) = flipRange r := by
  have := flipRange_pos r
  generalize flipRange r = q at *
  unfold flipRange
  rw [if_neg (by omega)]

theorem intercept_flip (A r : PyRange) : intercept A r = intercept A (flipRange r) := by
  unfold intercept
  rw [flipRange_flip]

/-- The fragments collected by the page loop are the values at the positions of the (ascending) range. -/
theorem getpagesLoop_spec {α} (isRev : Bool) (r : PyRange)
    (hrev : isRev = true → r.step < 0) (hfwd : isRev = false → 0 < r.step)
    (s : Int) (pages : Pages α) :
    ∃ frags, getpagesLoop isRev r s pages = .ok frags ∧
      frags.flatten = ((flipRange r).toList.filter (fun x => decide (s ≤ x))).filterMap
        (fun x => getI? pages.flatten (x - s)) := by
  induction pages generalizing s with
  | nil =>
    refine ⟨[], rfl, ?_⟩
    simp only [List.flatten_nil]
    symm
    rw [List.filterMap_eq_nil_iff]
    intro x hx
    unfold getI?
    split <;> simp
  | cons page rest ih =>
    have hkpos := flipRange_pos r
    -- positions are between the bounds
    have hmem : ∀ x, x ∈ (flipRange r).toList ↔ (flipRange r).start ≤ x ∧ x < (flipRange r).stop ∧
        (flipRange r).step ∣ x - (flipRange r).start := by
      intro x; exact mem_rangeList_pos hkpos
    have hskip : (∀ x ∈ (flipRange r).toList, s + page.length ≤ x) →
        ((flipRange r).toList.filter (fun x => decide (s + page.length ≤ x))).filterMap
          (fun x => getI? rest.flatten (x - (s + page.length))) =
        ((flipRange r).toList.filter (fun x => decide (s ≤ x))).filterMap
          (fun x => getI? (page :: rest).flatten (x - s)) := by
      intro hall
      have e1 : (flipRange r).toList.filter (fun x => decide (s + page.length ≤ x)) = (flipRange r).toList := by
        rw [List.filter_eq_self]; intro x hx; simpa using hall x hx
      have e2 : (flipRange r).toList.filter (fun x => decide (s ≤ x)) = (flipRange r).toList := by
        rw [List.filter_eq_self]; intro x hx; have := hall x hx; simp; omega
      rw [e1, e2]
      apply filterMap_congr'
      intro x hx
      have := hall x hx
      rw [List.flatten_cons, getI?_append_right _ _ (by omega)]
      congr 1; omega
    have hnone : (∀ x ∈ (flipRange r).toList, x < s) →
        ([] : List α) = ((flipRange r).toList.filter (fun x => decide (s ≤ x))).filterMap
          (fun x => getI? (page :: rest).flatten (x - s)) := by
      intro hall
      have e2 : (flipRange r).toList.filter (fun x => decide (s ≤ x)) = [] := by
        rw [List.filter_eq_nil_iff]; intro x hx; have := hall x hx; simp; omega
      rw [e2]; rfl
    have hmain : ∃ frags, (do
        let ro ← intercept ⟨s, s + page.length, 1⟩ r
        let more ← getpagesLoop isRev r (s + page.length) rest
        if ro.len = 0 then .ok more
        else if ro.len = page.length then .ok (page :: more)
        else .ok (pySlice page { start := some (ro.start - s), stop := some (ro.stop - s), step := some ro.step } :: more) :
          Except Err (List (List α))) = .ok frags ∧
      frags.flatten = ((flipRange r).toList.filter (fun x => decide (s ≤ x))).filterMap
        (fun x => getI? (page :: rest).flatten (x - s)) := by
      obtain ⟨more, hmore, hflat⟩ := ih (s + page.length)
      rw [intercept_flip]
      obtain ⟨ro, hro, hlist, hb⟩ := intercept_page (s := s) (e := s + page.length)
        (a := (flipRange r).start) (b := (flipRange r).stop) (k := (flipRange r).step) (by omega) hkpos
      have hro' : intercept ⟨s, s + page.length, 1⟩ (flipRange r) = .ok ro := hro
      rw [hro', hmore]
      -- split the positions at the page end
      have hsplit := sorted_filter_append
        (l := (flipRange r).toList.filter (fun x => decide (s ≤ x)))
        ((rangeList_sorted hkpos).filter _) (s + page.length)
      have hl : ((flipRange r).toList.filter (fun x => decide (s ≤ x))).filter (fun x => decide (x < s + page.length)) = ro.toList := by
        rw [hlist, List.filter_filter]
        apply List.filter_congr
        intro x _
        exact Bool.and_comm _ _
      have hr : ((flipRange r).toList.filter (fun x => decide (s ≤ x))).filter (fun x => decide (s + page.length ≤ x)) =
          (flipRange r).toList.filter (fun x => decide (s + page.length ≤ x)) := by
        rw [List.filter_filter]
        apply List.filter_congr
        intro x _
        by_cases h : s + page.length ≤ x
        · have : s ≤ x := by omega
          simp [h, this]
        · simp [h]
      rw [hl, hr] at hsplit
      have hin : ∀ x ∈ ro.toList, s ≤ x ∧ x < s + page.length := by
        intro x hx
        rw [hlist, List.mem_filter] at hx
        simpa using hx.2
      have hgoal : ((flipRange r).toList.filter (fun x => decide (s ≤ x))).filterMap
          (fun x => getI? (page :: rest).flatten (x - s)) =
          ro.toList.filterMap (fun x => getI? page (x - s)) ++ more.flatten := by
        conv => lhs; rw [← hsplit]
        rw [List.filterMap_append, hflat]
        congr 1
        · apply filterMap_congr'
          intro x hx
          have := hin x hx
          rw [List.flatten_cons, getI?_append_left _ _ (by omega)]
        · apply filterMap_congr'
          intro x hx
          rw [List.mem_filter] at hx
          have : s + page.length ≤ x := by simpa using hx.2
          rw [List.flatten_cons, getI?_append_right _ _ (by omega)]
          congr 1; omega
      rw [hgoal]
      simp only [bind, Except.bind]
      have hlenro : ro.toList.length = ro.len := rangeList_length _ _ _
      by_cases h0 : ro.len = 0
      · rw [if_pos h0]
        refine ⟨more, rfl, ?_⟩
        have : ro.toList = [] := List.eq_nil_of_length_eq_zero (by omega)
        rw [this]; rfl
      · rw [if_neg h0]
        by_cases h1 : ro.len = page.length
        · rw [if_pos h1]
          refine ⟨_, rfl, ?_⟩
          rw [List.flatten_cons]
          congr 1
          have hfull : ro.toList = rangeList s (s + ro.toList.length) 1 := by
            apply sorted_full
            · rw [hlist]; exact (rangeList_sorted hkpos).filter _
            · intro x hx; have := hin x hx; omega
          rw [hlenro, h1] at hfull
          rw [hfull, filterMap_getI?_rangeList]
        · rw [if_neg h1]
          refine ⟨_, rfl, ?_⟩
          rw [List.flatten_cons]
          congr 1
          rcases hb with hb | ⟨b1, b2, b3, b4, b5⟩
          · exact absurd hb h0
          · unfold pySlice
            rw [indices_explicit b5 (by omega) (by omega) (by omega) (by omega)]
            simp only
            rw [rangeList_shift _ _ _ _ b5, List.filterMap_map]
            rfl
    unfold getpagesLoop
    cases isRev with
    | true =>
      have hneg := hrev rfl
      have hflip : flipRange r = ⟨r.stop + 1, r.start + 1, 1⟩ := by unfold flipRange; rw [if_pos (by omega)]
      simp only [Bool.true_and, Bool.not_true, Bool.false_and, Bool.false_eq_true, if_false, decide_eq_true_eq]
      by_cases c1 : s > r.start
      · rw [if_pos c1]
        refine ⟨[], rfl, hnone ?_⟩
        intro x hx
        have := (hmem x).1 hx
        rw [hflip] at this; simp only at this; omega
      · rw [if_neg c1]
        by_cases c2 : s + page.length < r.stop
        · rw [if_pos c2]
          obtain ⟨fr, h1, h2⟩ := ih (s + page.length)
          refine ⟨fr, h1, ?_⟩
          rw [h2, hskip]
          intro x hx
          have := (hmem x).1 hx
          rw [hflip] at this; simp only at this; omega
        · rw [if_neg c2]; exact hmain
    | false =>
      have hpos := hfwd rfl
      have hflip : flipRange r = r := by unfold flipRange; rw [if_neg (by omega)]
      simp only [Bool.false_and, Bool.false_eq_true, if_false, Bool.not_false, Bool.true_and, decide_eq_true_eq]
      by_cases c1 : s > r.stop
      · rw [if_pos c1]
        refine ⟨[], rfl, hnone ?_⟩
        intro x hx
        have := (hmem x).1 hx
        rw [hflip] at this; omega
      · rw [if_neg c1]
        by_cases c2 : s + page.length < r.start
        · rw [if_pos c2]
          obtain ⟨fr, h1, h2⟩ := ih (s + page.length)
          refine ⟨fr, h1, ?_⟩
          rw [h2, hskip]
          intro x hx
          have := (hmem x).1 hx
          rw [hflip] at this; omega
        · rw [if_neg c2]; exact hmain

end Tablite
