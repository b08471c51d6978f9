import Verif.Props.ColumnWrite
import Mathlib.Data.List.Nodup
/-!
# C06, C07: exactly when strided assignment and deletion of columns work

For columns of pairwise different values: a strided assignment, a deletion of a position and a deletion of a slice do what they do to a list
exactly under the conditions stated here (on the layout of the pages and the slice).
-/

namespace Tablite

/-! ## where a position is -/

theorem page_of {α} (pages : Pages α) (x : Int) (h0 : 0 ≤ x) (h1 : x < pages.flatten.length) :
    ∃ A p R, pages = A ++ p :: R ∧ (A.flatten.length : Int) ≤ x ∧ x < A.flatten.length + p.length := by
  induction pages generalizing x with
  | nil => simp at h1; omega
  | cons p t ih =>
    by_cases hp : x < p.length
    · exact ⟨[], p, t, rfl, by simpa using h0, by simpa using hp⟩
    · rw [List.flatten_cons, List.length_append] at h1
      obtain ⟨A, q, R, rfl, h2, h3⟩ := ih (x - p.length) (by omega) (by omega)
      exact ⟨p :: A, q, R, rfl, by rw [List.flatten_cons, List.length_append]; omega, by rw [List.flatten_cons, List.length_append]; omega⟩

theorem get_mid {α} (A X C : List α) (i : Nat) (h1 : A.length ≤ i) (h2 : i < A.length + X.length) : (A ++ (X ++ C))[i]? = X[i - A.length]? := by
  rw [List.getElem?_append_right h1, List.getElem?_append_left (by omega)]

theorem nodup_get {α} {l : List α} (h : l.Nodup) {i j : Nat} {a : α} (hi : l[i]? = some a) (hj : l[j]? = some a) : i = j := by
  obtain ⟨hi', hi⟩ := List.getElem?_eq_some_iff.1 hi
  obtain ⟨hj', hj⟩ := List.getElem?_eq_some_iff.1 hj
  exact (List.Nodup.getElem_inj_iff h).1 (hi.trans hj.symm)

/-! ## the positions written -/

theorem setMany_take {α} (l : List α) (is : List Int) (vs : List α) : setMany l is vs = setMany l (is.take vs.length) vs := by
  induction is generalizing l vs with
  | nil => simp
  | cons i t ih => cases vs with
    | nil => rfl
    | cons v vs => rw [List.length_cons, List.take_succ_cons, setMany, setMany, ih]

theorem setUpdateWrite_take {α} (s : Option Int) (is : List Int) (vs new : List α) : setUpdateWrite s is vs new = setUpdateWrite s (is.take vs.length) vs new := by
  induction is generalizing new vs with
  | nil => simp
  | cons i t ih => cases vs with
    | nil => cases t <;> rfl
    | cons v vs =>
      rw [List.length_cons, List.take_succ_cons]
      cases s with
      | none => rfl
      | some s =>
        simp only [setUpdateWrite]
        congr 1
        funext x
        exact ih vs x

theorem npSet_length {α} {l l' : List α} {i : Int} {v : α} (h : npSet l i v = .ok l') : l'.length = l.length := by
  unfold npSet at h
  split at h
  · cases h; simp
  · split at h
    · cases h; simp
    · cases h

theorem setUpdateWrite_length {α} (s : Option Int) (is : List Int) (vs new new' : List α) (h : setUpdateWrite s is vs new = .ok new') : new'.length = new.length := by
  induction is generalizing new vs with
  | nil => cases vs <;> (cases h; rfl)
  | cons i t ih => cases vs with
    | nil => cases h; rfl
    | cons v vs => cases s with
      | none => cases h
      | some s =>
        simp only [setUpdateWrite] at h
        cases hn : npSet new (i - s) v with
        | error e => rw [hn] at h; cases h
        | ok l =>
          rw [hn] at h
          rw [ih vs l h, npSet_length hn]

theorem setMany_other {α} (l : List α) (is : List Int) (vs : List α) (j : Nat) (h : (j : Int) ∉ is) (hn : ∀ i ∈ is, 0 ≤ i) : (setMany l is vs)[j]? = l[j]? := by
  induction is generalizing l vs with
  | nil => simp [setMany]
  | cons i t ih => cases vs with
    | nil => rfl
    | cons v vs =>
      rw [setMany, ih _ _ (fun h' => h (List.mem_cons_of_mem _ h')) (fun i hi => hn i (List.mem_cons_of_mem _ hi)), List.getElem?_set_ne]
      intro hc
      apply h
      have := hn i List.mem_cons_self
      rw [List.mem_cons]
      left
      omega

theorem setMany_at {α} (l : List α) (is : List Int) (vs : List α) (hd : is.Nodup) (hn : ∀ i ∈ is, 0 ≤ i ∧ i < l.length) (i : Int) (hi : i ∈ is.take vs.length) :
    ∃ v ∈ vs, (setMany l is vs)[i.toNat]? = some v := by
  induction is generalizing l vs with
  | nil => simp at hi
  | cons x t ih => cases vs with
    | nil => simp at hi
    | cons v vs =>
      rw [List.length_cons, List.take_succ_cons, List.mem_cons] at hi
      rw [List.nodup_cons] at hd
      have hx := hn x List.mem_cons_self
      rw [setMany]
      rcases hi with rfl | hi
      · refine ⟨v, List.mem_cons_self, ?_⟩
        rw [setMany_other _ _ _ _ (by rw [Int.toNat_of_nonneg hx.1]; exact hd.1) (fun i hi => (hn i (List.mem_cons_of_mem _ hi)).1), List.getElem?_set_self (by omega)]
      · obtain ⟨w, hw, h⟩ := ih (l.set x.toNat v) vs hd.2 (fun i hi => by rw [List.length_set]; exact hn i (List.mem_cons_of_mem _ hi)) hi
        exact ⟨w, List.mem_cons_of_mem _ hw, h⟩

theorem rangeList_distinct {a b k : Int} (hk : k ≠ 0) : (rangeList a b k).Nodup := by
  rcases Int.lt_or_gt_of_ne hk with h | h
  · exact (rangeList_sorted_neg h).imp (by intro x y h; omega)
  · exact (rangeList_sorted h).imp (by intro x y h; omega)

/-! ## the pages `_setitem_update` changes -/

theorem setUpdateLoop_append {α} (ks ke s : Int) (X Y : Pages α) (acc : UpdAcc α) :
    setUpdateLoop ks ke s (X ++ Y) acc = setUpdateLoop ks ke (s + X.flatten.length) Y (setUpdateLoop ks ke s X acc) := by
  induction X generalizing s acc with
  | nil => simp [setUpdateLoop]
  | cons p t ih =>
    rw [List.cons_append]
    simp only [setUpdateLoop]
    rw [ih, List.flatten_cons, List.length_append]
    congr 1
    push_cast
    omega

theorem setUpdateLoop_miss {α} (ks ke s : Int) (R : Pages α) (acc : UpdAcc α) (h1 : ks < s) (h2 : ke < s ∨ s + R.flatten.length ≤ ke) :
    setUpdateLoop ks ke s R acc = { acc with tail := acc.tail ++ R } := by
  induction R generalizing s acc with
  | nil => simp [setUpdateLoop]
  | cons p t ih =>
    rw [List.flatten_cons, List.length_append] at h2
    simp only [setUpdateLoop]
    rw [if_neg (by omega), if_neg (by omega), if_neg (by omega), ih _ _ (by omega) (by omega)]
    simp

theorem setUpdateLoop_hit {α} (ks ke s : Int) (B : Pages α) (q : List α) (C : Pages α) (acc : UpdAcc α) (h1 : ks < s) (h2 : s + B.flatten.length ≤ ke)
    (h3 : ke < s + B.flatten.length + q.length) :
    setUpdateLoop ks ke s (B ++ q :: C) acc = { acc with changed := acc.changed ++ [q], tail := acc.tail ++ (B ++ C) } := by
  rw [setUpdateLoop_append, setUpdateLoop_miss ks ke s B acc h1 (by omega)]
  simp only [setUpdateLoop]
  rw [if_neg (by omega), if_neg (by omega), if_pos (by omega), setUpdateLoop_miss _ _ _ _ _ (by omega) (by omega)]
  simp

/-- the start position on page `p` -/
theorem setUpdateLoop_start {α} (ks ke : Int) (A : Pages α) (p : List α) (R : Pages α) (h1 : (A.flatten.length : Int) ≤ ks) (h2 : ks < A.flatten.length + p.length) :
    setUpdateLoop ks ke 0 (A ++ p :: R) {} = setUpdateLoop ks ke (A.flatten.length + p.length) R { head := A, changed := [p], startsOn := some (A.flatten.length : Int) } := by
  rw [setUpdateLoop_prefix _ _ _ _ _ _ (by omega) rfl]
  simp only [setUpdateLoop]
  rw [if_neg (by omega), if_pos (by omega)]
  simp

/-! ## C06: exactly when -/

/-- the layouts and slices for which `column[a:b:k] = values` with `m` values does what it does to a list: all positions written are on the page of the
start position, and the stop position is not on a later page; or the stop position is on the next page that is not empty; or nothing is selected, the start is before
the column, and the stop position is on the first page that is not empty. -/
inductive StrideExact {α} (pages : Pages α) (ks ke k : Int) (m : Nat) : Prop
  | one (A : Pages α) (p : List α) (R : Pages α) (e : pages = A ++ p :: R) (h1 : (A.flatten.length : Int) ≤ ks) (h2 : ks < A.flatten.length + p.length)
      (h3 : ke < A.flatten.length + p.length ∨ (pages.flatten.length : Int) ≤ ke)
      (h4 : ∀ i ∈ (rangeList ks ke k).take m, (A.flatten.length : Int) ≤ i ∧ i < A.flatten.length + p.length)
  | two (A : Pages α) (p : List α) (B : Pages α) (q : List α) (C : Pages α) (e : pages = A ++ p :: (B ++ q :: C)) (h1 : (A.flatten.length : Int) ≤ ks)
      (h2 : ks < A.flatten.length + p.length) (h3 : (A.flatten.length : Int) + p.length ≤ ke) (h4 : ke < A.flatten.length + p.length + q.length) (h5 : B.flatten = [])
  | before (A : Pages α) (q : List α) (C : Pages α) (e : pages = A ++ q :: C) (h1 : ks < 0) (h2 : 0 ≤ ke) (h3 : ke < q.length) (h4 : A.flatten = [])

theorem stride_core {α} (ps : Nat) (hps : 0 < ps) (pages : Pages α) (s : PySlice) (v : List α) (hs : s.step ≠ some 0)
    (hlen : v.length ≤ (rangeList (s.indices (colLen pages)).1 (s.indices (colLen pages)).2.1 s.stepOr1).length) :
    ((colIter pages ++ v).Nodup →
      (setUpdate ps pages s v).map colIter = .ok (setMany (colIter pages) (rangeList (s.indices (colLen pages)).1 (s.indices (colLen pages)).2.1 s.stepOr1) v) →
      StrideExact pages (s.indices (colLen pages)).1 (s.indices (colLen pages)).2.1 s.stepOr1 v.length) ∧
    (StrideExact pages (s.indices (colLen pages)).1 (s.indices (colLen pages)).2.1 s.stepOr1 v.length →
      (setUpdate ps pages s v).map colIter = .ok (setMany (colIter pages) (rangeList (s.indices (colLen pages)).1 (s.indices (colLen pages)).2.1 s.stepOr1) v)) := by
  have hk : s.stepOr1 ≠ 0 := by
    intro h
    apply hs
    unfold PySlice.stepOr1 at h
    cases hh : s.step with
    | none => simp [hh] at h
    | some k => simp [hh] at h; simp [h]
  have hpos := indices_pos s (colLen pages)
  have hneg := indices_neg s (colLen pages)
  unfold setUpdate
  rw [if_neg hs]
  have hstep : (s.indices (colLen pages)).2.2 = s.stepOr1 := rfl
  revert hlen hstep hpos hneg
  generalize s.indices (colLen pages) = x
  obtain ⟨ks, ke, k⟩ := x
  intro hlen hpos hneg hstep
  dsimp only at *
  subst hstep
  generalize s.stepOr1 = k at *
  rw [if_neg (by omega), colIter_eq]
  rw [colLen_eq] at hpos hneg
  have hseq : ∀ i ∈ rangeList ks ke k, 0 ≤ i ∧ i < pages.flatten.length := by
    intro i hi
    rcases rangeList_bounds hk hi with ⟨h0, h1, h2⟩ | ⟨h0, h1, h2⟩
    · have := hpos h0; omega
    · have := hneg h0; omega
  have hdis := rangeList_distinct (a := ks) (b := ke) hk
  -- the result for given pages
  have result : ∀ (H C T : Pages α) (so : Int) , C ≠ [] → setUpdateLoop ks ke 0 pages {} = { head := H, changed := C, tail := T, startsOn := some so } →
      ∀ r, (do
        let new ← setUpdateWrite (setUpdateLoop ks ke 0 pages {}).startsOn (rangeList ks ke k) v (setUpdateLoop ks ke 0 pages {}).changed.flatten
        Except.ok ((setUpdateLoop ks ke 0 pages {}).head ++ paginate ps new ++ (setUpdateLoop ks ke 0 pages {}).tail) : Except Err (Pages α)).map colIter = .ok r ↔
        ∃ new, setUpdateWrite (some so) (rangeList ks ke k) v C.flatten = .ok new ∧ r = H.flatten ++ new ++ T.flatten := by
    intro H C T so hC he r
    rw [he]
    dsimp only
    cases hw : setUpdateWrite (some so) (rangeList ks ke k) v C.flatten with
    | error e => simp [bind, Except.bind, Except.map]
    | ok new =>
      simp only [bind, Except.bind, Except.map, colIter_eq, List.flatten_append, paginate_flatten hps]
      constructor
      · intro h; cases h; exact ⟨new, rfl, rfl⟩
      · rintro ⟨new', h, rfl⟩; cases h; rfl
  by_cases h0 : ks < 0
  · -- start before the column
    have hk0 : k < 0 := by
      by_contra hc
      have := hpos (by omega)
      omega
    have hnil : rangeList ks ke k = [] := by
      have := hneg hk0
      exact rangeList_nil_neg hk0 (by omega)
    have hv : v = [] := by rw [hnil] at hlen; exact List.eq_nil_of_length_eq_zero (by simpa using hlen)
    subst hv
    by_cases hke : 0 ≤ ke ∧ ke < pages.flatten.length
    · obtain ⟨A, q, C, rfl, a1, a2⟩ := page_of pages ke hke.1 hke.2
      have hl : setUpdateLoop ks ke 0 (A ++ q :: C) {} = { head := [], changed := [q], tail := A ++ C, startsOn := none } := by
        rw [setUpdateLoop_hit _ _ _ _ _ _ _ h0 (by omega) (by omega)]
        simp
      rw [hl]
      dsimp only
      rw [if_neg (by simp), hnil]
      simp only [setUpdateWrite, bind, Except.bind, Except.map, setMany, Except.ok.injEq, colIter_eq, List.flatten_append, List.nil_append, paginate_flatten hps, List.flatten_cons,
        List.flatten_nil, List.append_nil]
      constructor
      · intro hd1 h
        refine .before A q C rfl h0 hke.1 ?_ ?_ <;> skip
        all_goals
          have hA : A.flatten = [] := by
            by_contra hA
            have hA' : 0 < A.flatten.length := List.length_pos_iff.2 hA
            have h1 : (q ++ (A.flatten ++ C.flatten))[A.flatten.length + q.length - 1]? = A.flatten[A.flatten.length - 1]? := by
              rw [get_mid _ _ _ _ (by omega) (by omega)]; congr 1; omega
            have h2 : (A.flatten ++ (q ++ C.flatten))[A.flatten.length + q.length - 1]? = q[q.length - 1]? := by
              rw [get_mid _ _ _ _ (by omega) (by omega)]; congr 1; omega
            rw [h, h2] at h1
            have h3 : (A.flatten ++ (q ++ C.flatten))[A.flatten.length - 1]? = A.flatten[A.flatten.length - 1]? := List.getElem?_append_left (by omega)
            have hq : q[q.length - 1]? = some q[q.length - 1] := List.getElem?_eq_getElem (by omega)
            rw [← h1, hq] at h3
            rw [hq] at h2
            have := nodup_get hd1 h2 h3
            omega
        · rw [hA] at a2; simpa using a2
        · exact hA
      · intro h
        cases h with
        | one A' p R e h1 h2 h3 h4 => omega
        | two A' p B q' C' e h1 h2 h3 h4 h5 => omega
        | before A' q' C' e h1 h2 h3 h4 =>
          have hA : A.flatten = [] := by
            rw [List.append_eq_append_iff] at e
            rcases e with ⟨X, e1, e2⟩ | ⟨X, e1, e2⟩
            · rw [e1, List.flatten_append, List.append_eq_nil_iff] at h4
              exact h4.1
            · cases X with
              | nil => rw [e1, List.append_nil]; exact h4
              | cons y Y =>
                rw [List.cons_append, List.cons.injEq] at e2
                rw [e1, List.flatten_append, List.length_append, h4, List.flatten_cons, List.length_append, ← e2.1] at a1
                simp only [List.length_nil] at a1
                omega
          rw [hA]; simp
    · have hl : setUpdateLoop ks ke 0 pages {} = { head := [], changed := [], tail := pages, startsOn := none } := by
        rw [setUpdateLoop_miss _ _ _ _ _ h0 (by omega)]
        simp
      rw [hl]
      dsimp only
      rw [if_pos rfl]
      constructor
      · intro _ h; cases h
      · intro h
        cases h with
        | one A' p R e h1 h2 h3 h4 => omega
        | two A' p B q' C' e h1 h2 h3 h4 h5 => omega
        | before A' q' C' e h1 h2 h3 h4 =>
          rw [e, List.flatten_append, List.length_append, List.flatten_cons, List.length_append] at hke
          omega
  · by_cases h1 : ks < pages.flatten.length
    · obtain ⟨A, p, R, e, a1, a2⟩ := page_of pages ks (by omega) h1
      have hl0 := setUpdateLoop_start ks ke A p R a1 a2
      rw [← e] at hl0
      have hfl : pages.flatten = A.flatten ++ (p ++ R.flatten) := by rw [e]; simp
      have hfll : pages.flatten.length = A.flatten.length + p.length + R.flatten.length := by rw [hfl]; simp; omega
      -- two decompositions at the page of `ks` agree
      have uniq : ∀ A' p' R', pages = A' ++ p' :: R' → (A'.flatten.length : Int) ≤ ks → ks < A'.flatten.length + p'.length → A' = A ∧ p' = p ∧ R' = R := by
        intro A' p' R' e' b1 b2
        rw [e, List.append_eq_append_iff] at e'
        rcases e' with ⟨X, e1, e2⟩ | ⟨X, e1, e2⟩
        · cases X with
          | nil => rw [List.nil_append, List.cons.injEq] at e2; exact ⟨by rw [e1, List.append_nil], e2.1.symm, e2.2.symm⟩
          | cons y Y =>
            rw [List.cons_append, List.cons.injEq] at e2
            rw [e1, List.flatten_append, List.length_append, List.flatten_cons, List.length_append, ← e2.1] at b1
            push_cast at b1
            omega
        · cases X with
          | nil => rw [List.nil_append, List.cons.injEq] at e2; exact ⟨by rw [e1, List.append_nil], e2.1, e2.2⟩
          | cons y Y =>
            rw [List.cons_append, List.cons.injEq] at e2
            rw [e1, List.flatten_append, List.length_append, List.flatten_cons, List.length_append, ← e2.1] at a1
            push_cast at a1
            omega
      by_cases h2 : (A.flatten.length : Int) + p.length ≤ ke ∧ ke < pages.flatten.length
      · -- the stop position on a later page
        obtain ⟨B, q, C, eR, b1, b2⟩ := page_of R (ke - (A.flatten.length + p.length)) (by omega) (by omega)
        have hl : setUpdateLoop ks ke 0 pages {} = { head := A, changed := [p, q], tail := B ++ C, startsOn := some (A.flatten.length : Int) } := by
          rw [hl0, eR, setUpdateLoop_hit _ _ _ _ _ _ _ (by omega) (by omega) (by omega)]
          simp
        rw [if_neg (by rw [hl]; simp), result A [p, q] (B ++ C) _ (by simp) hl]
        have hRl : R.flatten.length = B.flatten.length + q.length + C.flatten.length := by rw [eR]; simp; omega
        have hupper : ∀ i ∈ rangeList ks ke k, ks ≤ i ∧ i < ke := by
          intro i hi
          rcases rangeList_bounds hk hi with ⟨_, c1, c2⟩ | ⟨_, c1, c2⟩ <;> omega
        constructor
        · rintro hd ⟨new, hw, hr⟩
          obtain ⟨hd1, -, hd2⟩ := List.nodup_append.1 hd
          have hB : B.flatten = [] := by
            by_contra hB
            have hB' : 0 < B.flatten.length := List.length_pos_iff.2 hB
            have hnl := setUpdateWrite_length _ _ _ _ _ hw
            simp only [List.flatten_cons, List.flatten_nil, List.append_nil, List.length_append] at hnl
            have hP : (setMany pages.flatten (rangeList ks ke k) v)[A.flatten.length + p.length + B.flatten.length + q.length - 1]? =
                pages.flatten[A.flatten.length + p.length + B.flatten.length + q.length - 1]? :=
              setMany_other _ _ _ _ (by intro hc; have := hupper _ hc; omega) (fun i hi => (hseq i hi).1)
            have hX : pages.flatten = (A.flatten ++ p ++ B.flatten) ++ (q ++ C.flatten) := by rw [hfl, eR]; simp
            have hY : pages.flatten = (A.flatten ++ p) ++ (B.flatten ++ (q ++ C.flatten)) := by rw [hfl, eR]; simp
            have h3 : pages.flatten[A.flatten.length + p.length + B.flatten.length + q.length - 1]? = q[q.length - 1]? := by
              rw [hX, get_mid _ _ _ _ (by simp only [List.length_append, List.flatten_append, List.flatten_cons]; omega) (by simp only [List.length_append, List.flatten_append, List.flatten_cons]; omega)]
              congr 1
              simp only [List.length_append]; omega
            have h4 : pages.flatten[A.flatten.length + p.length + B.flatten.length - 1]? = B.flatten[B.flatten.length - 1]? := by
              rw [hY, get_mid _ _ _ _ (by simp only [List.length_append, List.flatten_append, List.flatten_cons]; omega) (by simp only [List.length_append, List.flatten_append, List.flatten_cons]; omega)]
              congr 1
              simp only [List.length_append]; omega
            have h5 : (A.flatten ++ new ++ (B ++ C).flatten)[A.flatten.length + p.length + B.flatten.length + q.length - 1]? = B.flatten[B.flatten.length - 1]? := by
              rw [List.flatten_append, get_mid _ _ _ _ (by simp only [List.length_append, List.flatten_append, List.flatten_cons]; omega) (by simp only [List.length_append, List.flatten_append, List.flatten_cons]; omega)]
              congr 1
              simp only [List.length_append]; omega
            rw [hr, h5, h3] at hP
            have hq : q[q.length - 1]? = some q[q.length - 1] := List.getElem?_eq_getElem (by omega)
            rw [hq] at hP h3
            rw [hP] at h4
            have := nodup_get hd1 h3 h4
            omega
          exact .two A p B q C (by rw [e, eR]) a1 a2 h2.1 (by rw [hB] at b2; simp only [List.length_nil] at b2; omega) hB
        · intro h
          cases h with
          | one A' p' R' e' c1 c2 c3 c4 =>
            obtain ⟨rfl, rfl, rfl⟩ := uniq _ _ _ e' c1 c2
            omega
          | two A' p' B' q' C' e' c1 c2 c3 c4 c5 =>
            obtain ⟨rfl, rfl, eR'⟩ := uniq _ _ _ e' c1 c2
            have hB : B.flatten = [] := by
              rw [eR, List.append_eq_append_iff] at eR'
              rcases eR' with ⟨X, e1, e2⟩ | ⟨X, e1, e2⟩
              · cases X with
                | nil => rw [e1, List.append_nil]; exact c5
                | cons y Y =>
                  rw [List.cons_append, List.cons.injEq] at e2
                  rw [e1, List.flatten_append, List.length_append, c5, List.flatten_cons, List.length_append, ← e2.1] at b1
                  simp only [List.length_nil] at b1
                  push_cast at b1
                  omega
              · rw [e1, List.flatten_append, List.append_eq_nil_iff] at c5
                exact c5.1
            obtain ⟨new', w1, w2, -⟩ := setMany_append_mid A'.flatten (p' ++ q) C.flatten (rangeList ks ke k) v (by
              intro i hi
              have := hupper i hi
              rw [hB] at b2
              simp only [List.length_nil] at b2
              rw [List.length_append]
              push_cast
              push_cast at b2
              omega)
            refine ⟨new', by simpa using w1, ?_⟩
            rw [List.flatten_append, hB, List.nil_append, w2, hfl, eR]
            simp [hB]
          | before A' q' C' e' c1 c2 c3 c4 => omega
      · -- one page
        have hl : setUpdateLoop ks ke 0 pages {} = { head := A, changed := [p], tail := R, startsOn := some (A.flatten.length : Int) } := by
          rw [hl0, setUpdateLoop_miss _ _ _ _ _ (by omega) (by omega)]
          simp
        rw [if_neg (by rw [hl]; simp), result A [p] R _ (by simp) hl]
        constructor
        · rintro hd ⟨new, hw, hr⟩
          obtain ⟨hd1, -, hd2⟩ := List.nodup_append.1 hd
          have hnl := setUpdateWrite_length _ _ _ _ _ hw
          simp only [List.flatten_cons, List.flatten_nil, List.append_nil] at hnl
          refine .one A p R e a1 a2 (by omega) ?_
          intro i hi
          have hi0 := hseq i (List.mem_of_mem_take hi)
          obtain ⟨w, hw1, hw2⟩ := setMany_at pages.flatten _ v hdis hseq i hi
          by_contra hc
          have horig : (setMany pages.flatten (rangeList ks ke k) v)[i.toNat]? = pages.flatten[i.toNat]? := by
            rw [hr, hfl]
            by_cases hA : i.toNat < A.flatten.length
            · rw [List.append_assoc, List.getElem?_append_left hA, List.getElem?_append_left hA]
            · rw [← List.append_assoc, List.getElem?_append_right (by simp only [List.length_append, List.flatten_append, List.flatten_cons]; omega), List.getElem?_append_right (by simp only [List.length_append, List.flatten_append, List.flatten_cons]; omega)]
              congr 1
              simp only [List.length_append]; omega
          rw [hw2] at horig
          exact hd2 w (List.mem_of_getElem? horig.symm) w hw1 rfl
        · intro h
          cases h with
          | one A' p' R' e' c1 c2 c3 c4 =>
            obtain ⟨rfl, rfl, rfl⟩ := uniq _ _ _ e' c1 c2
            obtain ⟨new', w1, w2, -⟩ := setMany_append_mid A'.flatten p' R'.flatten ((rangeList ks ke k).take v.length) v c4
            refine ⟨new', by rw [setUpdateWrite_take]; simpa using w1, ?_⟩
            rw [w2, setMany_take, hfl]
            simp
          | two A' p' B' q' C' e' c1 c2 c3 c4 c5 =>
            obtain ⟨rfl, rfl, rfl⟩ := uniq _ _ _ e' c1 c2
            simp only [List.flatten_append, List.flatten_cons, List.length_append] at hfll
            omega
          | before A' q' C' e' c1 c2 c3 c4 => omega
    · -- start at the end
      have hl : setUpdateLoop ks ke 0 pages {} = { head := pages, changed := [], tail := [], startsOn := none } := by
        have := setUpdateLoop_prefix ks ke 0 pages [] ({} : UpdAcc α) (by omega) rfl
        rw [List.append_nil] at this
        rw [this]
        simp [setUpdateLoop]
      rw [hl]
      dsimp only
      rw [if_pos rfl]
      constructor
      · intro _ h; cases h
      · intro h
        cases h with
        | one A' p R e c1 c2 c3 c4 => rw [e] at h1; simp only [List.length_append, List.flatten_append, List.flatten_cons] at h1; omega
        | two A' p B q' C' e c1 c2 c3 c4 c5 => rw [e] at h1; simp only [List.length_append, List.flatten_append, List.flatten_cons] at h1; omega
        | before A' q' C' e c1 c2 c3 c4 => omega

/-- **C06**, partial: under `StrideExact`, a value list not longer than the slice is written position by position, in every layout; with equal length this is what Python does to a list.
Missing: nothing can be added for columns of different values, see `C06_exact`. -/
theorem C06_exact_partial {α} (ps : Nat) (hps : 0 < ps) (pages : Pages α) (s : PySlice) (v : List α) (hs : s.step ≠ some 0)
    (hlen : v.length ≤ (rangeList (s.indices (colLen pages)).1 (s.indices (colLen pages)).2.1 s.stepOr1).length)
    (h : StrideExact pages (s.indices (colLen pages)).1 (s.indices (colLen pages)).2.1 s.stepOr1 v.length) :
    (setUpdate ps pages s v).map colIter = .ok (setMany (colIter pages) (rangeList (s.indices (colLen pages)).1 (s.indices (colLen pages)).2.1 s.stepOr1) v) :=
  (stride_core ps hps pages s v hs hlen).2 h

/-- **C06** exactly when: in a column of pairwise different values, none of which is among the new ones, `column[a:b:k] = values` writes the values one by one to the positions
of the slice and changes nothing else if and only if `StrideExact` holds -/
theorem C06_exact {α} (ps : Nat) (hps : 0 < ps) (pages : Pages α) (s : PySlice) (v : List α) (hs : s.step ≠ some 0) (hd : (colIter pages ++ v).Nodup)
    (hlen : v.length ≤ (rangeList (s.indices (colLen pages)).1 (s.indices (colLen pages)).2.1 s.stepOr1).length) :
    (setUpdate ps pages s v).map colIter = .ok (setMany (colIter pages) (rangeList (s.indices (colLen pages)).1 (s.indices (colLen pages)).2.1 s.stepOr1) v) ↔
      StrideExact pages (s.indices (colLen pages)).1 (s.indices (colLen pages)).2.1 s.stepOr1 v.length :=
  ⟨(stride_core ps hps pages s v hs hlen).1 hd, (stride_core ps hps pages s v hs hlen).2⟩

example : StrideExact [[0,1],[],[2,3,4],[5,6],[7]] 2 6 2 2 := .two [[0,1],[]] [2,3,4] [] [5,6] [[7]] rfl (by decide) (by decide) (by decide) (by decide) rfl
/-- the whole column with a step, when all positions are on the first page -/
example : StrideExact [[0,1,2],[3]] 0 4 2 2 := .one [] [0,1,2] [[3]] rfl (by decide) (by decide) (by decide) (by decide)
example : (setUpdate 3 [[0,1,2],[3]] { step := some 2 } [8,9]).map colIter = .ok [8,1,9,3] := by decide

/-! ## C07: positions, exactly -/

/-- **C07** what `del column[i]` does: for the page `p` on which position `i` is, it removes the value at position `i` of `p`, counted from the beginning of the page, if there is one,
and raises IndexError otherwise -/
theorem C07_int_effect {α} (A : Pages α) (p : List α) (R : Pages α) (i : Int) (h1 : (A.flatten.length : Int) ≤ i) (h2 : i < A.flatten.length + p.length) :
    (delInt i 0 (A ++ p :: R)).map colIter = if i < p.length then .ok (A.flatten ++ (p.eraseIdx i.toNat ++ R.flatten)) else .error .index := by
  have pre : ∀ (A : Pages α) (s : Int), s + A.flatten.length ≤ i → delInt i s (A ++ p :: R) = (delInt i (s + A.flatten.length) (p :: R)).map (A ++ ·) := by
    intro A
    induction A with
    | nil =>
      intro s _
      simp only [List.nil_append, List.flatten_nil, List.length_nil]
      rw [show s + ((0 : Nat) : Int) = s by omega]
      cases delInt i s (p :: R) <;> rfl
    | cons q t ih =>
      intro s hs
      rw [List.flatten_cons, List.length_append] at hs
      rw [List.cons_append, delInt]
      rw [if_neg (by omega), ih _ (by omega), List.flatten_cons, List.length_append]
      rw [show s + ((q.length + t.flatten.length : Nat) : Int) = s + (q.length : Int) + (t.flatten.length : Int) by push_cast; omega]
      cases delInt i (s + (q.length : Int) + (t.flatten.length : Int)) (p :: R) <;> rfl
  rw [pre A 0 (by omega), delInt]
  rw [if_pos (by omega)]
  split
  · rw [delInt_skip _ _ _ (by omega)]
    simp [bind, Except.bind, Except.map, colIter_eq]
  · rfl

theorem eraseIdx_inj {α} {l : List α} (hd : l.Nodup) {i j : Nat} (hi : i < l.length) (hj : j < l.length) (h : l.eraseIdx i = l.eraseIdx j) : i = j := by
  by_contra hne
  have h1 : l[i] ∈ l.eraseIdx j := List.mem_eraseIdx_iff_getElem.2 ⟨i, hi, hne, rfl⟩
  rw [← h] at h1
  obtain ⟨k, hk, hki, hx⟩ := List.mem_eraseIdx_iff_getElem.1 h1
  exact hki ((List.Nodup.getElem_inj_iff hd).1 hx)

/-- **C07** exactly when: in a column of pairwise different values `del column[i]` does what it does to a list if and only if `i` is on the first page that is not empty -/
theorem C07_int_exact {α} (pages : Pages α) (i : Int) (hd : (colIter pages).Nodup) :
    (delInt i 0 pages).map colIter = pyDelIndex (colIter pages) i ↔ ∃ A p R, pages = A ++ p :: R ∧ A.flatten = [] ∧ 0 ≤ i ∧ i < p.length := by
  rw [colIter_eq] at hd ⊢
  constructor
  · intro h
    by_cases hr : 0 ≤ i ∧ i < pages.flatten.length
    · obtain ⟨A, p, R, rfl, h1, h2⟩ := page_of pages i hr.1 hr.2
      rw [C07_int_effect A p R i h1 h2] at h
      unfold pyDelIndex at h
      dsimp only at h
      rw [if_neg (by omega : ¬ i < 0), if_pos hr] at h
      by_cases hp : i < p.length
      · rw [if_pos hp] at h
        injection h with h
        refine ⟨A, p, R, rfl, ?_, hr.1, hp⟩
        by_contra hA
        have hA' : 0 < A.flatten.length := List.length_pos_iff.2 hA
        have hx : (A ++ p :: R).flatten = A.flatten ++ (p ++ R.flatten) := by simp
        rw [hx] at h hd
        have he : A.flatten ++ (p.eraseIdx i.toNat ++ R.flatten) = (A.flatten ++ (p ++ R.flatten)).eraseIdx (A.flatten.length + i.toNat) := by
          rw [List.eraseIdx_append_of_length_le (by omega), Nat.add_sub_cancel_left, List.eraseIdx_append_of_lt_length (by omega)]
        rw [he] at h
        have := eraseIdx_inj hd (by simp only [List.length_append]; omega) (by simp only [List.length_append]; omega) h
        omega
      · rw [if_neg hp] at h; cases h
    · rw [delInt_skip _ _ _ (by omega)] at h
      unfold pyDelIndex at h
      dsimp only at h
      by_cases hc : i < 0
      · rw [if_pos hc] at h
        split at h
        · simp only [Except.map, Except.ok.injEq, colIter_eq] at h
          have := congrArg List.length h
          rw [List.length_eraseIdx_of_lt (by omega)] at this
          omega
        · cases h
      · rw [if_neg hc, if_neg hr] at h
        cases h
  · rintro ⟨A, p, R, rfl, hA, h0, h1⟩
    rw [C07_int_effect A p R i (by rw [hA]; simpa using h0) (by rw [hA]; simpa using h1), if_pos h1, hA]
    unfold pyDelIndex
    dsimp only
    have hx : (A ++ p :: R).flatten = p ++ R.flatten := by simp [hA]
    rw [hx, if_neg (by omega : ¬ i < 0), if_pos ⟨h0, by rw [List.length_append]; omega⟩, List.nil_append, List.eraseIdx_append_of_lt_length (by omega)]

example : ∃ (A : Pages Nat) (p : List Nat) (R : Pages Nat), [[], [4, 5], [6]] = A ++ p :: R ∧ A.flatten = [] ∧ (0 : Int) ≤ 1 ∧ (1 : Int) < p.length :=
  ⟨[[]], [4, 5], [[6]], rfl, rfl, by decide, by decide⟩

/-! ## C07: slices, exactly -/

/-- the values of `l` whose positions, counted from `off`, are not among `seq` -/
def keepAt {α} (seq : List Int) (off : Nat) (l : List α) : List α := ((l.zipIdx off).filter fun p => !(seq.contains (p.2 : Int))).map (·.1)

theorem keepAt_append {α} (seq : List Int) (off : Nat) (l m : List α) : keepAt seq off (l ++ m) = keepAt seq off l ++ keepAt seq (off + l.length) m := by
  unfold keepAt
  rw [List.zipIdx_append, List.filter_append, List.map_append]

theorem keepAt_all {α} (seq : List Int) (off : Nat) (l : List α) (h : ∀ i ∈ seq, i < off ∨ (off : Int) + l.length ≤ i) : keepAt seq off l = l := by
  unfold keepAt
  rw [List.filter_eq_self.2]
  · simp
  · intro p hp
    have h1 := List.le_snd_of_mem_zipIdx hp
    have h2 := List.snd_lt_of_mem_zipIdx hp
    simp only [Bool.not_eq_true', ← Bool.not_eq_true, List.contains_iff_mem]
    intro hm
    have := h _ hm
    omega

theorem mem_keepAt {α} (seq : List Int) (off : Nat) (l : List α) (x : α) : x ∈ keepAt seq off l ↔ ∃ j : Nat, l[j]? = some x ∧ ((off + j : Nat) : Int) ∉ seq := by
  unfold keepAt
  simp only [List.mem_map, List.mem_filter, Bool.not_eq_true', ← Bool.not_eq_true, List.contains_iff_mem]
  constructor
  · rintro ⟨⟨a, i⟩, ⟨h1, h2⟩, rfl⟩
    rw [List.mk_mem_zipIdx_iff_le_and_getElem?_sub] at h1
    exact ⟨i - off, h1.2, by rw [show off + (i - off) = i by omega]; exact h2⟩
  · rintro ⟨j, h1, h2⟩
    refine ⟨(x, off + j), ⟨?_, h2⟩, rfl⟩
    rw [List.mk_mem_zipIdx_iff_le_and_getElem?_sub]
    exact ⟨by omega, by rw [Nat.add_sub_cancel_left]; exact h1⟩

theorem keepAt_sub {α} (seq : List Int) (off : Nat) (l : List α) (x : α) (h : x ∈ keepAt seq off l) : x ∈ l := by
  obtain ⟨j, h, -⟩ := (mem_keepAt seq off l x).1 h
  exact List.mem_of_getElem? h

/-- `np.delete` at positions that are not negative -/
theorem npDelete_iff {α} (X : List α) (seq : List Int) (off : Nat) (h : ∀ i ∈ seq, (off : Int) ≤ i) (N : List α) :
    npDelete X (seq.map (· - (off : Int))) = .ok N ↔ (∀ i ∈ seq, i < off + X.length) ∧ N = keepAt seq off X := by
  unfold npDelete
  have hall : ((seq.map (· - (off : Int))).all fun i => decide (-(X.length : Int) ≤ i ∧ i < X.length)) = true ↔ ∀ i ∈ seq, i < off + X.length := by
    rw [List.all_eq_true]
    constructor
    · intro h' i hi
      have := of_decide_eq_true (h' (i - off) (List.mem_map.2 ⟨i, hi, rfl⟩))
      omega
    · intro h' j hj
      obtain ⟨i, hi, rfl⟩ := List.mem_map.1 hj
      have := h' i hi
      have := h i hi
      exact decide_eq_true (by omega)
  have hkeep : ((X.zipIdx.filter fun p => !((seq.map (· - (off : Int))).any fun i => i == (p.2 : Int) || i + X.length == (p.2 : Int))).map (·.1)) = keepAt seq off X := by
    unfold keepAt
    have hz : X.zipIdx off = X.zipIdx.map fun p => (p.1, off + p.2) := by
      apply List.ext_getElem?
      intro i
      simp only [List.getElem?_zipIdx, List.getElem?_map]
      cases X[i]? <;> simp
    rw [hz, List.filter_map, List.map_map]
    congr 1
    apply List.filter_congr
    intro p hp
    have hp2 := List.snd_lt_of_mem_zipIdx hp
    simp only [Function.comp]
    congr 1
    rw [Bool.eq_iff_iff, List.any_eq_true, List.contains_iff_mem]
    constructor
    · rintro ⟨j, hj, hc⟩
      obtain ⟨i, hi, rfl⟩ := List.mem_map.1 hj
      have := h i hi
      simp only [Bool.or_eq_true, beq_iff_eq] at hc
      rcases hc with hc | hc
      · rw [show ((off + p.2 : Nat) : Int) = i by push_cast; omega]; exact hi
      · omega
    · intro hm
      exact ⟨_, List.mem_map.2 ⟨_, hm, rfl⟩, by simp only [Bool.or_eq_true, beq_iff_eq]; left; push_cast; omega⟩
  rw [hkeep]
  split
  · rename_i hc
    constructor
    · intro h'; cases h'; exact ⟨hall.1 hc, rfl⟩
    · rintro ⟨-, rfl⟩; rfl
  · rename_i hc
    constructor
    · intro h'; cases h'
    · rintro ⟨h', -⟩; exact absurd (hall.2 h') hc

theorem delSliceLoop_append {α} (ks ke s : Int) (X Y : Pages α) (acc : UpdAcc α) :
    delSliceLoop ks ke s (X ++ Y) acc = delSliceLoop ks ke (s + X.flatten.length) Y (delSliceLoop ks ke s X acc) := by
  induction X generalizing s acc with
  | nil => simp [delSliceLoop]
  | cons p t ih =>
    rw [List.cons_append]
    simp only [delSliceLoop]
    rw [ih, List.flatten_cons, List.length_append]
    congr 1
    push_cast
    omega

/-- the pages before the one with the start position end up behind -/
theorem delSliceLoop_early {α} (ks ke s : Int) (A : Pages α) (acc : UpdAcc α) (h1 : s + A.flatten.length ≤ ks) (h2 : ks < ke) :
    delSliceLoop ks ke s A acc = { acc with tail := acc.tail ++ A } := by
  induction A generalizing s acc with
  | nil => simp [delSliceLoop]
  | cons p t ih =>
    rw [List.flatten_cons, List.length_append] at h1
    simp only [delSliceLoop]
    rw [if_neg (by omega), if_neg (by omega), if_neg (by omega), ih _ _ (by omega)]
    simp

/-- the pages behind the one with the start position: those that touch the stop position are changed, the others end up behind -/
theorem delSliceLoop_late {α} (ks ke s : Int) (R : Pages α) (acc : UpdAcc α) (h1 : ks < s) (hc : acc.changed ≠ []) :
    ∃ R1 R2 R3, R = R1 ++ (R2 ++ R3) ∧ delSliceLoop ks ke s R acc = { acc with changed := acc.changed ++ R2, tail := acc.tail ++ (R1 ++ R3) } ∧
      (R1 = [] ∨ s + R1.flatten.length < ke) ∧ (R2 = [] ∨ ∃ q R', R2 = q :: R' ∧ ke ≤ s + R1.flatten.length + q.length) ∧
      (ke ≤ s + R.flatten.length → s < ke → ke ≤ s + R1.flatten.length + R2.flatten.length) ∧ (R3.flatten = [] ∨ ke < s + R1.flatten.length + R2.flatten.length) := by
  induction R generalizing s acc with
  | nil => exact ⟨[], [], [], rfl, by simp [delSliceLoop], .inl rfl, .inl rfl, by simp only [List.flatten_nil, List.length_nil]; omega, .inl rfl⟩
  | cons p t ih =>
    by_cases c1 : s + p.length < ke
    · have e : delSliceLoop ks ke s (p :: t) acc = delSliceLoop ks ke (s + p.length) t { acc with tail := acc.tail ++ [p] } := by
        simp only [delSliceLoop]
        rw [if_neg (by simp [hc]), if_neg (by omega), if_neg (by omega)]
      obtain ⟨R1, R2, R3, i1, i2, i3, i4, i5, i6⟩ := ih (s + p.length) { acc with tail := acc.tail ++ [p] } (by omega) hc
      refine ⟨p :: R1, R2, R3, by rw [i1]; rfl, by rw [e, i2]; simp, .inr ?_, ?_, ?_, ?_⟩
      · rcases i3 with rfl | i3
        · simpa using c1
        · rw [List.flatten_cons, List.length_append]; push_cast; omega
      · rcases i4 with i4 | ⟨q, R', i4, i4'⟩
        · exact .inl i4
        · exact .inr ⟨q, R', i4, by rw [List.flatten_cons, List.length_append]; push_cast; omega⟩
      · rw [List.flatten_cons, List.flatten_cons, List.length_append, List.length_append]
        intro h _
        have := i5 (by push_cast at h; omega) c1
        push_cast
        omega
      · rw [List.flatten_cons, List.length_append]
        rcases i6 with i6 | i6
        · exact .inl i6
        · right; push_cast; omega
    · by_cases c2 : s ≤ ke
      · have e : delSliceLoop ks ke s (p :: t) acc = delSliceLoop ks ke (s + p.length) t { acc with changed := acc.changed ++ [p] } := by
          simp only [delSliceLoop]
          rw [if_neg (by simp [hc]), if_neg (by omega), if_pos (by omega)]
        obtain ⟨R1, R2, R3, i1, i2, i3, i4, i5, i6⟩ := ih (s + p.length) { acc with changed := acc.changed ++ [p] } (by omega) (by simp)
        obtain rfl : R1 = [] := by
          rcases i3 with i3 | i3
          · exact i3
          · omega
        refine ⟨[], p :: R2, R3, by rw [i1]; rfl, by rw [e, i2]; simp, .inl rfl, .inr ⟨p, R2, rfl, ?_⟩, ?_, ?_⟩
        · simp only [List.flatten_nil, List.length_nil]; push_cast; omega
        · intro _ _
          rw [List.flatten_cons, List.length_append]
          push_cast
          omega
        · rcases i6 with i6 | i6
          · exact .inl i6
          · right
            rw [List.flatten_cons, List.length_append]
            simp only [List.flatten_nil, List.length_nil] at i6 ⊢
            push_cast at i6 ⊢
            omega
      · refine ⟨[], [], p :: t, rfl, ?_, .inl rfl, .inl rfl, ?_, .inr ?_⟩
        · rw [delSliceLoop_suffix _ _ _ _ _ (by omega) (by omega) hc]; simp
        · intro _ _; omega
        · simp only [List.flatten_nil, List.length_nil]; push_cast; omega

/-- the layouts and slices for which `del column[a:b:k]` with `k > 0` does what it does to a list: the slice begins on the first page that is not empty and ends with the second one
at the latest; or it selects all values of the last pages, one or two besides empty ones, and everything there -/
inductive DelExact {α} (pages : Pages α) (ks ke k : Int) : Prop
  | front (A : Pages α) (p : List α) (B R : Pages α) (e : pages = A ++ p :: (B ++ R)) (hA : A.flatten = []) (hB : B.flatten = []) (h1 : ks < p.length)
      (h2 : ke ≤ p.length ∨ ∃ q R', R = q :: R' ∧ ke ≤ p.length + q.length)
  | back (A : Pages α) (p : List α) (B R : Pages α) (e : pages = A ++ p :: (B ++ R)) (hB : B.flatten = []) (h0 : p ≠ []) (h1 : ks = A.flatten.length) (h2 : ke = pages.flatten.length)
      (h3 : R = [] ∨ ∃ q R', R = q :: R' ∧ R'.flatten = []) (h4 : ∀ x, ks ≤ x → x < ke → x ∈ rangeList ks ke k)

theorem idxOf_lt_of_parts {α} [DecidableEq α] {L M : List α} {a b : α} (ha : a ∈ L) (hb : b ∉ L) (_ : b ∈ M) : (L ++ M).idxOf a < (L ++ M).idxOf b := by
  rw [List.idxOf_append_of_mem ha, List.idxOf_append_of_notMem hb]
  have := List.idxOf_lt_length_of_mem ha
  omega

theorem del_core {α} (ps : Nat) (hps : 0 < ps) (pages : Pages α) (s : PySlice) (hs : 0 < s.stepOr1)
    (hne : (s.indices (colLen pages)).1 < (s.indices (colLen pages)).2.1) :
    ((colIter pages).Nodup → (delSlice ps pages s).map colIter = .ok (pyDelSlice (colIter pages) s) →
      DelExact pages (s.indices (colLen pages)).1 (s.indices (colLen pages)).2.1 s.stepOr1) ∧
    (DelExact pages (s.indices (colLen pages)).1 (s.indices (colLen pages)).2.1 s.stepOr1 → (delSlice ps pages s).map colIter = .ok (pyDelSlice (colIter pages) s)) := by
  classical
  have hs0 : s.step ≠ some 0 := by
    intro h
    rw [PySlice.stepOr1, h] at hs
    simp at hs
  have hpos := indices_pos s (colLen pages) hs
  unfold delSlice pyDelSlice
  rw [if_neg hs0]
  have hstep : (s.indices (colLen pages)).2.2 = s.stepOr1 := rfl
  have hlen : (colIter pages).length = colLen pages := by rw [colIter_eq, colLen_eq]
  rw [hlen]
  revert hne hstep hpos
  generalize s.indices (colLen pages) = x
  obtain ⟨ks, ke, k⟩ := x
  intro hne hpos hstep
  dsimp only at *
  subst hstep
  generalize s.stepOr1 = k at *
  rw [colIter_eq]
  rw [colLen_eq] at hpos
  have hseq : ∀ i ∈ rangeList ks ke k, ks ≤ i ∧ i < ke := fun i hi => by
    have := (mem_rangeList_pos hs).1 hi
    omega
  obtain ⟨A, p, R, e, a1, a2⟩ := page_of pages ks hpos.1 (by omega)
  obtain ⟨R1, R2, R3, eR, i2, i3, i4, i5, i6⟩ := delSliceLoop_late ks ke (A.flatten.length + p.length) R
    { head := [], changed := [p], tail := A, startsOn := some (A.flatten.length : Int) } (by omega) (by simp)
  have hl : delSliceLoop ks ke 0 pages {} = { head := [], changed := p :: R2, tail := A ++ (R1 ++ R3), startsOn := some (A.flatten.length : Int) } := by
    rw [e, delSliceLoop_append, delSliceLoop_early ks ke 0 A {} (by omega) hne]
    have hstep : ∀ acc : UpdAcc α, acc.changed = [] → delSliceLoop ks ke (0 + (A.flatten.length : Int)) (p :: R) acc =
        delSliceLoop ks ke (A.flatten.length + p.length) R { acc with changed := [p], startsOn := some (A.flatten.length : Int) } := by
      intro acc hacc
      simp only [delSliceLoop]
      rw [if_neg (by omega), if_pos (by omega), hacc]
      simp
    rw [hstep _ rfl]
    simpa using i2
  have hfl : pages.flatten = A.flatten ++ (p ++ (R1.flatten ++ (R2.flatten ++ R3.flatten))) := by rw [e, eR]; simp
  have hfll : pages.flatten.length = A.flatten.length + (p.length + (R1.flatten.length + (R2.flatten.length + R3.flatten.length))) := by rw [hfl]; simp only [List.length_append]
  have hRl : R.flatten.length = R1.flatten.length + (R2.flatten.length + R3.flatten.length) := by rw [eR]; simp only [List.flatten_append, List.length_append]
  have hkeR : ke ≤ (A.flatten.length + p.length : Int) + R1.flatten.length + R2.flatten.length := by
    by_cases hc : (A.flatten.length + p.length : Int) < ke
    · exact i5 (by omega) hc
    · omega
  rw [hl]
  dsimp only
  rw [if_neg (by simp)]
  -- the result
  have hres : ∀ r, (do
      let pruned ← npDelete (p :: R2).flatten ((rangeList ks ke k).map (· - (A.flatten.length : Int)))
      Except.ok ([] ++ paginate ps pruned ++ (A ++ (R1 ++ R3))) : Except Err (Pages α)).map colIter = .ok r ↔
      (∀ i ∈ rangeList ks ke k, i < A.flatten.length + (p ++ R2.flatten).length) ∧
        r = keepAt (rangeList ks ke k) A.flatten.length (p ++ R2.flatten) ++ (A.flatten ++ (R1.flatten ++ R3.flatten)) := by
    intro r
    have hiff := npDelete_iff (p ++ R2.flatten) (rangeList ks ke k) A.flatten.length (fun i hi => by have := hseq i hi; omega)
    rw [List.flatten_cons]
    cases hn : npDelete (p ++ R2.flatten) ((rangeList ks ke k).map (· - (A.flatten.length : Int))) with
    | error x =>
      simp only [bind, Except.bind, Except.map]
      constructor
      · intro h; cases h
      · rintro ⟨h, -⟩
        have := (hiff _).2 ⟨h, rfl⟩
        rw [hn] at this
        cases this
    | ok N =>
      obtain ⟨h1, h2⟩ := (hiff N).1 hn
      simp only [bind, Except.bind, Except.map, colIter_eq, List.flatten_append, List.nil_append, paginate_flatten hps, Except.ok.injEq]
      rw [h2]
      constructor
      · intro h; exact ⟨h1, h.symm⟩
      · rintro ⟨-, rfl⟩; rfl
  -- what should be
  have hexp : ((pages.flatten.zipIdx.filter fun p => !((rangeList ks ke k).contains (p.2 : Int))).map (·.1)) =
      A.flatten ++ (keepAt (rangeList ks ke k) A.flatten.length p ++ (keepAt (rangeList ks ke k) (A.flatten.length + p.length) R1.flatten ++
        (keepAt (rangeList ks ke k) (A.flatten.length + p.length + R1.flatten.length) R2.flatten ++ R3.flatten))) := by
    have h0 : ((pages.flatten.zipIdx.filter fun p => !((rangeList ks ke k).contains (p.2 : Int))).map (·.1)) = keepAt (rangeList ks ke k) 0 pages.flatten := rfl
    rw [h0, hfl, keepAt_append, keepAt_append, keepAt_append, keepAt_append, Nat.zero_add,
      keepAt_all _ 0 A.flatten (fun i hi => by have := hseq i hi; right; omega), keepAt_all _ _ R3.flatten (fun i hi => by have := hseq i hi; left; push_cast; omega)]
  have hR1 : R1.flatten ≠ [] → (A.flatten.length + p.length : Int) + R1.flatten.length < ke := by
    intro h
    rcases i3 with rfl | i3
    · exact absurd rfl h
    · exact i3
  rw [hres, hexp]
  constructor
  · rintro hd ⟨hin, hr⟩
    rw [hfl] at hd
    -- nothing between
    have h1 : R1.flatten = [] := by
      by_contra hc
      have hR1' := hR1 hc
      have hpos1 : 0 < R1.flatten.length := List.length_pos_iff.2 hc
      have hpos2 : 0 < R2.flatten.length := by omega
      have hlast : R2.flatten[R2.flatten.length - 1]? = some (R2.flatten[R2.flatten.length - 1]'(by omega)) := List.getElem?_eq_getElem _
      generalize R2.flatten[R2.flatten.length - 1]'(by omega) = z at hlast
      have hzR2 : z ∈ R2.flatten := List.mem_of_getElem? hlast
      obtain ⟨y, hy⟩ := List.exists_mem_of_ne_nil _ hc
      simp only [List.nodup_append, List.mem_append] at hd
      obtain ⟨-, ⟨-, ⟨-, ⟨-, -, dis4⟩, dis3⟩, dis2⟩, dis1⟩ := hd
      have hzk : z ∈ keepAt (rangeList ks ke k) (A.flatten.length + p.length + R1.flatten.length) R2.flatten := by
        rw [mem_keepAt]
        refine ⟨_, hlast, fun hm => ?_⟩
        have := hin _ hm
        rw [List.length_append] at this
        push_cast at this
        omega
      have hzl : z ∈ keepAt (rangeList ks ke k) A.flatten.length (p ++ R2.flatten) := by
        have hz : z ∈ A.flatten ++ (keepAt (rangeList ks ke k) A.flatten.length p ++ (keepAt (rangeList ks ke k) (A.flatten.length + p.length) R1.flatten ++
            (keepAt (rangeList ks ke k) (A.flatten.length + p.length + R1.flatten.length) R2.flatten ++ R3.flatten))) := by
          simp only [List.mem_append]; exact .inr (.inr (.inr (.inl hzk)))
        rw [hr] at hz
        rcases List.mem_append.1 hz with hz | hz
        · exact hz
        · exfalso
          simp only [List.mem_append] at hz
          rcases hz with hz | hz | hz
          · exact dis1 z hz z (.inr (.inr (.inl hzR2))) rfl
          · exact dis3 z hz z (.inl hzR2) rfl
          · exact dis4 z hzR2 z hz rfl
      have hyz : y ∉ keepAt (rangeList ks ke k) A.flatten.length (p ++ R2.flatten) := by
        intro h
        have := keepAt_sub _ _ _ _ h
        rcases List.mem_append.1 this with h | h
        · exact dis2 y h y (.inl hy) rfl
        · exact dis3 y hy y (.inl h) rfl
      have lt1 := idxOf_lt_of_parts (M := A.flatten ++ (R1.flatten ++ R3.flatten)) hzl hyz (by simp only [List.mem_append]; exact .inr (.inl hy))
      rw [← hr] at lt1
      have hyE : y ∈ A.flatten ++ (keepAt (rangeList ks ke k) A.flatten.length p ++ keepAt (rangeList ks ke k) (A.flatten.length + p.length) R1.flatten) := by
        have hy' : y ∈ keepAt (rangeList ks ke k) A.flatten.length (p ++ R2.flatten) ++ (A.flatten ++ (R1.flatten ++ R3.flatten)) := by
          simp only [List.mem_append]; exact .inr (.inr (.inl hy))
        rw [← hr] at hy'
        simp only [List.mem_append] at hy' ⊢
        rcases hy' with h | h | h | h | h
        · exact .inl h
        · exact .inr (.inl h)
        · exact .inr (.inr h)
        · exact absurd rfl (dis3 y hy y (.inl (keepAt_sub _ _ _ _ h)))
        · exact absurd rfl (dis3 y hy y (.inr h))
      have hzE : z ∉ A.flatten ++ (keepAt (rangeList ks ke k) A.flatten.length p ++ keepAt (rangeList ks ke k) (A.flatten.length + p.length) R1.flatten) := by
        simp only [List.mem_append]
        rintro (h | h | h)
        · exact dis1 z h z (.inr (.inr (.inl hzR2))) rfl
        · exact dis2 z (keepAt_sub _ _ _ _ h) z (.inr (.inl hzR2)) rfl
        · exact dis3 z (keepAt_sub _ _ _ _ h) z (.inl hzR2) rfl
      have lt2 := idxOf_lt_of_parts (M := keepAt (rangeList ks ke k) (A.flatten.length + p.length + R1.flatten.length) R2.flatten ++ R3.flatten) hyE hzE
        (by simp only [List.mem_append]; exact .inl hzk)
      simp only [List.append_assoc] at lt1 lt2
      omega
    rw [h1] at hr hkeR hfll
    simp only [List.length_nil, List.nil_append, Nat.add_zero] at hr hkeR hfll
    have hX : keepAt (rangeList ks ke k) A.flatten.length (p ++ R2.flatten) = keepAt (rangeList ks ke k) A.flatten.length p ++ keepAt (rangeList ks ke k) (A.flatten.length + p.length) R2.flatten :=
      keepAt_append _ _ _ _
    by_cases hA : A.flatten = []
    · refine .front A p R1 (R2 ++ R3) (by rw [e, eR]) hA h1 (by rw [hA] at a2; simpa using a2) ?_
      rw [hA] at hkeR i4
      rw [h1] at i4
      simp only [List.length_nil] at hkeR i4
      rcases i4 with rfl | ⟨q, R', rfl, h⟩
      · left; simp only [List.flatten_nil, List.length_nil] at hkeR; push_cast at hkeR; omega
      · right; exact ⟨q, R' ++ R3, rfl, by push_cast at h; omega⟩
    · -- everything is deleted
      have hall : keepAt (rangeList ks ke k) A.flatten.length (p ++ R2.flatten) = [] := by
        by_contra hc
        obtain ⟨x, hx⟩ := List.exists_mem_of_ne_nil _ hc
        obtain ⟨y, hy⟩ := List.exists_mem_of_ne_nil _ hA
        have hxX := keepAt_sub _ _ _ _ hx
        simp only [List.nodup_append, List.mem_append] at hd
        obtain ⟨-, -, dis1⟩ := hd
        have hyx : x ∉ A.flatten := by
          intro h
          rcases List.mem_append.1 hxX with h' | h'
          · exact dis1 x h x (.inl h') rfl
          · exact dis1 x h x (.inr (.inr (.inl h'))) rfl
        have hyX : y ∉ keepAt (rangeList ks ke k) A.flatten.length (p ++ R2.flatten) := by
          intro h
          rcases List.mem_append.1 (keepAt_sub _ _ _ _ h) with h' | h'
          · exact dis1 y hy y (.inl h') rfl
          · exact dis1 y hy y (.inr (.inr (.inl h'))) rfl
        have lt1 := idxOf_lt_of_parts (M := A.flatten ++ R3.flatten) hx hyX (by simp only [List.mem_append]; exact .inl hy)
        have lt2 := idxOf_lt_of_parts (M := keepAt (rangeList ks ke k) A.flatten.length (p ++ R2.flatten) ++ R3.flatten) hy hyx (by simp only [List.mem_append]; exact .inl hx)
        have hkn : keepAt (rangeList ks ke k) (A.flatten.length + p.length) ([] : List α) = [] := rfl
        rw [hkn] at hr
        rw [hX] at lt1 lt2 hr
        simp only [List.nil_append, List.append_assoc] at hr lt1 lt2
        rw [hr] at lt2
        omega
      have hcov : ∀ j : Nat, j < p.length + R2.flatten.length → ((A.flatten.length + j : Nat) : Int) ∈ rangeList ks ke k := by
        intro j hj
        by_contra hc
        have hj' : j < (p ++ R2.flatten).length := by rw [List.length_append]; exact hj
        have : (p ++ R2.flatten)[j] ∈ keepAt (rangeList ks ke k) A.flatten.length (p ++ R2.flatten) :=
          (mem_keepAt _ _ _ _).2 ⟨j, List.getElem?_eq_getElem hj', hc⟩
        rw [hall] at this
        cases this
      have hpp : 0 < p.length := by omega
      have hks := hseq _ (hcov 0 (by omega))
      have hke := hseq _ (hcov (p.length + R2.flatten.length - 1) (by omega))
      have hks' : ks = A.flatten.length := by push_cast at hks; omega
      have hke' : ke = (A.flatten.length : Int) + p.length + R2.flatten.length := by omega
      have h3 : R3.flatten = [] := by
        rcases i6 with h | h
        · exact h
        · rw [h1] at h; simp only [List.length_nil] at h; omega
      have hcov' : ∀ x, ks ≤ x → x < ke → x ∈ rangeList ks ke k := by
        intro x hx1 hx2
        have := hcov (x - A.flatten.length).toNat (by omega)
        rwa [show ((A.flatten.length + (x - A.flatten.length).toNat : Nat) : Int) = x by push_cast; omega] at this
      rw [h3] at hfll
      simp only [List.length_nil, Nat.add_zero, Nat.zero_add] at hfll
      rcases i4 with rfl | ⟨q, R', rfl, h⟩
      · refine .back A p (R1 ++ R3) [] (by rw [e, eR]; simp) (by rw [List.flatten_append, h1, h3]; rfl) (by intro h; rw [h] at hpp; simp at hpp) hks' ?_ (.inl rfl) hcov'
        rw [hke', hfll]; push_cast; omega
      · refine .back A p R1 (q :: R' ++ R3) (by rw [e, eR]) h1 (by intro h; rw [h] at hpp; simp at hpp) hks' ?_ (.inr ⟨q, R' ++ R3, rfl, ?_⟩) hcov'
        · rw [hke', hfll]; push_cast; omega
        · rw [h1] at h
          rw [List.flatten_append, h3, List.append_nil]
          rw [List.flatten_cons, List.length_append] at hke'
          simp only [List.length_nil] at h
          push_cast at h hke'
          exact List.eq_nil_of_length_eq_zero (by omega)
  · intro h
    -- two decompositions at the page of `ks` agree
    have uniq : ∀ A' p' R', pages = A' ++ p' :: R' → (A'.flatten.length : Int) ≤ ks → ks < A'.flatten.length + p'.length → A' = A ∧ p' = p ∧ R' = R := by
      intro A' p' R' e' b1 b2
      rw [e, List.append_eq_append_iff] at e'
      rcases e' with ⟨X, e1, e2⟩ | ⟨X, e1, e2⟩
      · cases X with
        | nil => rw [List.nil_append, List.cons.injEq] at e2; exact ⟨by rw [e1, List.append_nil], e2.1.symm, e2.2.symm⟩
        | cons y Y =>
          rw [List.cons_append, List.cons.injEq] at e2
          rw [e1, List.flatten_append, List.length_append, List.flatten_cons, List.length_append, ← e2.1] at b1
          push_cast at b1
          omega
      · cases X with
        | nil => rw [List.nil_append, List.cons.injEq] at e2; exact ⟨by rw [e1, List.append_nil], e2.1, e2.2⟩
        | cons y Y =>
          rw [List.cons_append, List.cons.injEq] at e2
          rw [e1, List.flatten_append, List.length_append, List.flatten_cons, List.length_append, ← e2.1] at a1
          push_cast at a1
          omega
    -- if the slice ends with the next page, nothing is between
    have hmid : ∀ B' R' : Pages α, R = B' ++ R' → B'.flatten = [] → (ke ≤ A.flatten.length + p.length ∨ R' = [] ∨ ∃ q R'', R' = q :: R'' ∧ ke ≤ A.flatten.length + p.length + q.length) → R1.flatten = [] := by
      intro B' R' e' hB' hk'
      by_contra hc
      have hR1' := hR1 hc
      have hpos1 : 0 < R1.flatten.length := List.length_pos_iff.2 hc
      rcases hk' with hk' | rfl | ⟨q, R'', rfl, hk'⟩
      · omega
      · have : R.flatten = [] := by rw [e', List.append_nil]; exact hB'
        rw [this] at hRl
        simp only [List.length_nil] at hRl
        omega
      · rw [eR, List.append_eq_append_iff] at e'
        rcases e' with ⟨X, e1, e2⟩ | ⟨X, e1, e2⟩
        · rw [e1, List.flatten_append, List.append_eq_nil_iff] at hB'
          exact hc hB'.1
        · cases X with
          | nil => rw [e1, List.append_nil] at hc; exact hc hB'
          | cons y Y =>
            rw [List.cons_append, List.cons.injEq] at e2
            rw [e1, List.flatten_append, List.length_append, hB', List.flatten_cons, List.length_append, ← e2.1] at hR1'
            simp only [List.length_nil] at hR1'
            push_cast at hR1'
            omega
    have fin : R1.flatten = [] → (A.flatten = [] ∨ keepAt (rangeList ks ke k) A.flatten.length (p ++ R2.flatten) = []) →
        (∀ i ∈ rangeList ks ke k, i < A.flatten.length + (p ++ R2.flatten).length) ∧
        A.flatten ++ (keepAt (rangeList ks ke k) A.flatten.length p ++ (keepAt (rangeList ks ke k) (A.flatten.length + p.length) R1.flatten ++
          (keepAt (rangeList ks ke k) (A.flatten.length + p.length + R1.flatten.length) R2.flatten ++ R3.flatten))) =
        keepAt (rangeList ks ke k) A.flatten.length (p ++ R2.flatten) ++ (A.flatten ++ (R1.flatten ++ R3.flatten)) := by
      intro h1 h2
      rw [h1] at hkeR ⊢
      simp only [List.length_nil] at hkeR
      refine ⟨fun i hi => by have := hseq i hi; rw [List.length_append]; push_cast; omega, ?_⟩
      have hkn : keepAt (rangeList ks ke k) (A.flatten.length + p.length) ([] : List α) = [] := rfl
      rw [hkn]
      have hX : keepAt (rangeList ks ke k) A.flatten.length (p ++ R2.flatten) = keepAt (rangeList ks ke k) A.flatten.length p ++ keepAt (rangeList ks ke k) (A.flatten.length + p.length) R2.flatten :=
        keepAt_append _ _ _ _
      rcases h2 with h2 | h2
      · rw [hX, h2]; simp
      · rw [h2]
        rw [hX, List.append_eq_nil_iff] at h2
        simp only [List.length_nil, Nat.add_zero, h2.1, h2.2, List.nil_append]
    cases h with
    | front A' p' B R' e' hA hB c1 c2 =>
      obtain ⟨rfl, rfl, eR'⟩ := uniq _ _ _ e' (by rw [hA]; exact hpos.1) (by rw [hA]; simpa using c1)
      refine fin (hmid B R' eR'.symm hB ?_) (.inl hA)
      rw [hA]
      simp only [List.length_nil]
      rcases c2 with c2 | ⟨q, R'', c2, c3⟩
      · left; push_cast; omega
      · right; right; exact ⟨q, R'', c2, by push_cast; omega⟩
    | back A' p' B R' e' hB c0 c1 c2 c3 c4 =>
      have hp' : 0 < p'.length := List.length_pos_iff.2 c0
      obtain ⟨rfl, rfl, eR'⟩ := uniq _ _ _ e' (by omega) (by omega)
      have hRl' : R.flatten.length = R'.flatten.length := by rw [← eR', List.flatten_append, hB, List.nil_append]
      refine fin (hmid B R' eR'.symm hB ?_) (.inr ?_)
      · right
        rcases c3 with c3 | ⟨q, R'', rfl, c4⟩
        · exact .inl c3
        · right
          refine ⟨q, R'', rfl, ?_⟩
          rw [List.flatten_cons, c4, List.append_nil] at hRl'
          omega
      · apply List.eq_nil_iff_forall_not_mem.2
        intro x hx
        obtain ⟨j, hj1, hj2⟩ := (mem_keepAt _ _ _ _).1 hx
        have hj := (List.getElem?_eq_some_iff.1 hj1).1
        rw [List.length_append] at hj
        exact hj2 (c4 _ (by push_cast; omega) (by push_cast; omega))

/-- **C07**, partial: under `DelExact`, deleting a slice with a positive step is list deletion, in every layout.  Missing: nothing can be added for columns of different values,
see `C07_exact`; negative steps, see `C07_fails_reverse`. -/
theorem C07_exact_partial {α} (ps : Nat) (hps : 0 < ps) (pages : Pages α) (s : PySlice) (hs : 0 < s.stepOr1)
    (hne : (s.indices (colLen pages)).1 < (s.indices (colLen pages)).2.1) (h : DelExact pages (s.indices (colLen pages)).1 (s.indices (colLen pages)).2.1 s.stepOr1) :
    (delSlice ps pages s).map colIter = .ok (pyDelSlice (colIter pages) s) := (del_core ps hps pages s hs hne).2 h

/-- **C07** exactly when: in a column of pairwise different values, `del column[a:b:k]` with `k > 0` and `a` before `b` does what it does to a list if and only if `DelExact` holds -/
theorem C07_exact {α} (ps : Nat) (hps : 0 < ps) (pages : Pages α) (s : PySlice) (hs : 0 < s.stepOr1) (hd : (colIter pages).Nodup)
    (hne : (s.indices (colLen pages)).1 < (s.indices (colLen pages)).2.1) :
    (delSlice ps pages s).map colIter = .ok (pyDelSlice (colIter pages) s) ↔ DelExact pages (s.indices (colLen pages)).1 (s.indices (colLen pages)).2.1 s.stepOr1 :=
  ⟨(del_core ps hps pages s hs hne).1 hd, (del_core ps hps pages s hs hne).2⟩

example : DelExact [[], [0,1,2], [], [3,4], [5]] 1 5 2 := .front [[]] [0,1,2] [[]] [[3,4],[5]] rfl rfl rfl (by decide) (.inr ⟨[3,4], [[5]], rfl, by decide⟩)
example : (delSlice 3 [[], [0,1,2], [], [3,4], [5]] { start := some 1, stop := some 5, step := some 2 }).map colIter = .ok [0,2,4,5] := by decide
/-- all values of the last two pages -/
example : (delSlice 3 [[0,1,2], [3,4], [5]] { start := some 3, stop := some 6 }).map colIter = .ok [0,1,2] := by decide

end Tablite
