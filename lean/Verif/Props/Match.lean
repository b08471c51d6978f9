import Mathlib.Data.String.Basic
import Verif.Props.Pivot
import Verif.Model.Match
/-!
# C64 match: which rows are joined
-/

namespace Tablite
set_option linter.unusedSectionVars false

section
variable {α : Type} [LinearOrder α]

/-- what `np.argsort` promises: an order of all positions in which the values ascend -/
def ArgsortOk (argsort : List α → List Nat) : Prop :=
  ∀ x, (argsort x).Perm (List.range x.length) ∧ ((argsort x).filterMap fun i => x[i]?).Pairwise (· ≤ ·)

theorem argsort_length {argsort : List α → List Nat} (h : ArgsortOk argsort) (x : List α) : (argsort x).length = x.length := by
  rw [(h x).1.length_eq, List.length_range]

theorem searchLeft_found (s : List α) (hs : s.Pairwise (· ≤ ·)) (y : α) (h : y ∈ s) : s[searchLeft s y]? = some y := by
  unfold searchLeft
  have e := List.takeWhile_append_dropWhile (p := fun v => decide (v < y)) (l := s)
  have hd : y ∈ s.dropWhile fun v => decide (v < y) := by
    have h' := h
    rw [← e] at h'
    rcases List.mem_append.1 h' with h1 | h1
    · have := (List.all_eq_true.1 List.all_takeWhile) y h1
      simp at this
    · exact h1
  cases hdw : s.dropWhile (fun v => decide (v < y)) with
  | nil => rw [hdw] at hd; simp at hd
  | cons a u =>
    have hna : ¬ a < y := by
      have h1 := List.head?_dropWhile_not (fun v => decide (v < y)) s
      rw [hdw] at h1
      simpa using h1
    have hle : a ≤ y := by
      rw [hdw] at hd
      rcases List.mem_cons.1 hd with h1 | h1
      · exact le_of_eq h1.symm
      · have hp : (a :: u).Pairwise (· ≤ ·) := by
          rw [← hdw]
          exact hs.sublist (List.dropWhile_sublist _)
        exact (List.pairwise_cons.1 hp).1 y h1
    have hay : a = y := le_antisymm hle (not_lt.1 hna)
    have hs' : s = s.takeWhile (fun v => decide (v < y)) ++ a :: u := by rw [← hdw]; exact e.symm
    conv_lhs => rw [hs']
    rw [List.getElem?_append_right (by rw [← hs'])]
    rw [← hs']
    simp [hay]

/-- one value: the index found holds the value, and there is one if the value occurs -/
theorem findOne_ok {argsort : List α → List Nat} (h : ArgsortOk argsort) (x : List α) (hx : x ≠ []) (y : α) :
    ∃ r, findOne (argsort x) x y = .ok r ∧ (∀ j, r = some j → x[j]? = some y) ∧ (r = none → y ∉ x) := by
  have hlen := argsort_length h x
  have hpos : 0 < x.length := List.length_pos_iff.2 hx
  have hin : ∀ i ∈ argsort x, i < x.length := fun i hi => List.mem_range.1 ((h x).1.mem_iff.1 hi)
  unfold findOne
  dsimp only
  generalize hk : searchLeft ((argsort x).filterMap fun i => x[i]?) y = k
  have hk' : min k ((argsort x).length - 1) < (argsort x).length := by omega
  rw [List.getElem?_eq_getElem hk']
  dsimp only
  have hj := hin _ (List.getElem_mem hk')
  rw [List.getElem?_eq_getElem hj]
  refine ⟨_, rfl, ?_, ?_⟩
  · intro j e
    split at e
    · rename_i hv
      cases e
      rw [List.getElem?_eq_getElem hj, hv]
    · cases e
  · intro e hy
    have hfm : ((argsort x).filterMap fun i => x[i]?) = (argsort x).pmap (fun i hi => x[i]'hi) hin := by
      generalize argsort x = l at hin
      clear * -
      induction l with
      | nil => rfl
      | cons a u ih =>
        rw [List.filterMap_cons, List.getElem?_eq_getElem (hin a (by simp)), List.pmap_cons]
        rw [ih]
    have hys : y ∈ ((argsort x).filterMap fun i => x[i]?) := by
      obtain ⟨i, hi, e⟩ := List.mem_iff_getElem.1 hy
      refine List.mem_filterMap.2 ⟨i, (h x).1.mem_iff.2 (List.mem_range.2 hi), ?_⟩
      rw [List.getElem?_eq_getElem hi, e]
    have hf := searchLeft_found _ (h x).2 y hys
    rw [hk, hfm] at hf
    obtain ⟨hkl, hf⟩ := List.getElem?_eq_some_iff.1 hf
    rw [List.length_pmap] at hkl
    have hmin : min k ((argsort x).length - 1) = k := by omega
    rw [List.getElem_pmap] at hf
    rw [if_pos (by simp only [hmin]; exact hf)] at e
    cases e

/-- an index into `x` for every value of `y` -/
def Finds (x y : List α) (r : List (Option Nat)) : Prop := List.Forall₂ (fun v o => (∀ j, o = some j → x[j]? = some v) ∧ (o = none → v ∉ x)) y r

theorem findIndices_ok {argsort : List α → List Nat} (h : ArgsortOk argsort) (x y : List α) (hx : x ≠ []) :
    ∃ r, findIndices argsort x y = .ok r ∧ Finds x y r := by
  unfold findIndices
  induction y with
  | nil => exact ⟨[], rfl, List.Forall₂.nil⟩
  | cons a u ih =>
    obtain ⟨r, h1, h2⟩ := ih
    obtain ⟨o, h3, h4⟩ := findOne_ok h x hx a
    refine ⟨o :: r, ?_, List.Forall₂.cons h4 h2⟩
    rw [List.mapM_cons, h3]
    simp only [bind, Except.bind]
    rw [h1]
    rfl

theorem findIndices_empty (argsort : List α → List Nat) (h : ArgsortOk argsort) (y : List α) (hy : y ≠ []) : findIndices argsort [] y = .error .index := by
  match y, hy with
  | a :: u, _ =>
    unfold findIndices
    rw [List.mapM_cons]
    have : argsort [] = [] := by
      have := argsort_length h ([] : List α)
      exact List.length_eq_zero_iff.1 this
    rw [this]
    rfl

end

/-! ### selecting -/

/-- the pairs (left row, right row) an index list stands for; `k` is the number of its first row -/
def pairsFrom : Nat → List (Option Nat) → List (Nat × Nat)
  | _, [] => []
  | k, some j :: r => (k, j) :: pairsFrom (k + 1) r
  | k, none :: r => pairsFrom (k + 1) r

theorem mem_pairsFrom (k : Nat) (idx : List (Option Nat)) (p : Nat × Nat) : p ∈ pairsFrom k idx ↔ k ≤ p.1 ∧ idx[p.1 - k]? = some (some p.2) := by
  induction idx generalizing k with
  | nil => simp [pairsFrom]
  | cons a u ih =>
    have hstep : k + 1 ≤ p.1 → (a :: u)[p.1 - k]? = u[p.1 - (k + 1)]? := by
      intro h
      obtain ⟨d, hd⟩ : ∃ d, p.1 - k = d + 1 := ⟨p.1 - k - 1, by omega⟩
      rw [hd, List.getElem?_cons_succ]
      congr 1
      omega
    cases a with
    | none =>
      rw [pairsFrom, ih]
      constructor
      · rintro ⟨h1, h2⟩
        exact ⟨by omega, by rw [hstep h1]; exact h2⟩
      · rintro ⟨h1, h2⟩
        by_cases hk : p.1 = k
        · rw [hk, Nat.sub_self] at h2
          simp at h2
        · exact ⟨by omega, by rw [← hstep (by omega)]; exact h2⟩
    | some j =>
      rw [pairsFrom, List.mem_cons, ih]
      constructor
      · rintro (h | ⟨h1, h2⟩)
        · subst h; simp
        · exact ⟨by omega, by rw [hstep h1]; exact h2⟩
      · rintro ⟨h1, h2⟩
        by_cases hk : p.1 = k
        · left
          rw [hk, Nat.sub_self] at h2
          simp at h2
          rw [h2, ← hk]
        · exact Or.inr ⟨by omega, by rw [← hstep (by omega)]; exact h2⟩

theorem pairsFrom_fst (k : Nat) (idx : List (Option Nat)) : (pairsFrom k idx).map (·.1) = ((List.range idx.length).filter fun i => (idx[i]?.join).isSome).map (k + ·) := by
  induction idx generalizing k with
  | nil => rfl
  | cons a u ih =>
    rw [List.length_cons, List.range_succ_eq_map, List.filter_cons]
    have hrest : ((List.range u.length).map Nat.succ).filter (fun i => ((a :: u)[i]?.join).isSome) = ((List.range u.length).filter fun i => (u[i]?.join).isSome).map Nat.succ := by
      rw [List.filter_map]
      congr 1
    rw [hrest]
    have hk : ((List.range u.length).filter fun i => (u[i]?.join).isSome).map (k + 1 + ·) = (((List.range u.length).filter fun i => (u[i]?.join).isSome).map Nat.succ).map (k + ·) := by
      rw [List.map_map]
      apply List.map_congr_left
      intro i _
      show k + 1 + i = k + (i + 1)
      omega
    cases a with
    | none =>
      rw [pairsFrom, ih, hk]
      simp
    | some j =>
      rw [pairsFrom, List.map_cons, ih, hk]
      simp

theorem pairsFrom_snd (k : Nat) (idx : List (Option Nat)) : (pairsFrom k idx).map (·.2) = idx.filterMap id := by
  induction idx generalizing k with
  | nil => rfl
  | cons a u ih =>
    cases a with
    | none => rw [pairsFrom, ih]; rfl
    | some j => rw [pairsFrom, List.map_cons, ih]; rfl

theorem compress_ok {β : Type} (nul : β) (idx : List (Option Nat)) (k : Nat) (pre l : List β) (hk : pre.length = k) (h : idx.length = l.length) :
    compress (idx.map (·.isSome)) l = .ok ((pairsFrom k idx).map fun p => (pre ++ l).getD p.1 nul) := by
  induction idx generalizing k pre l with
  | nil => rfl
  | cons a u ih =>
    match l, h with
    | v :: l, h =>
      have hl : pre ++ v :: l = (pre ++ [v]) ++ l := by simp
      have := ih (k + 1) (pre ++ [v]) l (by simp [hk]) (by simpa using h)
      cases a with
      | none =>
        rw [List.map_cons, pairsFrom]
        show compress (u.map (·.isSome)) l = _
        rw [this, hl]
      | some j =>
        rw [List.map_cons, pairsFrom, List.map_cons]
        show (compress (u.map (·.isSome)) l).bind _ = _
        rw [this, ← hl]
        show Except.ok _ = _
        congr 2
        simp [List.getD_eq_getElem?_getD, ← hk]

theorem npTake_ok {β : Type} (nul : β) (l : List β) (ix : List Nat) (h : ∀ i ∈ ix, i < l.length) : npTake l ix = .ok (ix.map fun i => l.getD i nul) := by
  unfold npTake
  apply mapM_ok
  intro i hi
  rw [List.getElem?_eq_getElem (h i hi)]
  simp [List.getD_eq_getElem?_getD, List.getElem?_eq_getElem (h i hi)]

section
variable {ν α : Type} [DecidableEq ν] [LinearOrder α]

/-- two rows agree on a criterion -/
def Agree (nul : α) (t o : Tbl ν α) (c : ν × ν) (i j : Nat) : Prop := cell nul t c.1 i = cell nul o c.2 j

/-- Spec: row `j` agrees with row `i` on the first of the criteria on which any right row agrees with row `i` -/
def FirstAgree (nul : α) (t o : Tbl ν α) (m : Nat) (cs : List (ν × ν)) (i j : Nat) : Prop :=
  ∃ pre c post, cs = pre ++ c :: post ∧ Agree nul t o c i j ∧ ∀ c' ∈ pre, ∀ k < m, ¬ Agree nul t o c' i k

theorem FirstAgree.some {nul : α} {t o : Tbl ν α} {m : Nat} {cs : List (ν × ν)} {i j : Nat} (h : FirstAgree nul t o m cs i j) : ∃ c ∈ cs, Agree nul t o c i j := by
  obtain ⟨pre, c, post, rfl, h1, -⟩ := h
  exact ⟨c, by simp, h1⟩

/-- what the indices mean after some criteria: an index belongs to a row that agrees on the first of them on which any row agrees, no index means no row agrees on any -/
def MatchInv (nul : α) (t o : Tbl ν α) (n m : Nat) (cs : List (ν × ν)) (idx : List (Option Nat)) : Prop :=
  idx.length = n ∧ ∀ i < n, (∀ j, idx[i]? = some (some j) → j < m ∧ FirstAgree nul t o m cs i j) ∧ (idx[i]? = some none → ∀ c ∈ cs, ∀ j < m, ¬ Agree nul t o c i j)

theorem matchCriterion_ok (nul : α) {argsort : List α → List Nat} (hsort : ArgsortOk argsort) (t o : Tbl ν α) (n m : Nat) (hm : 0 < m) (c : ν × ν) (cs : List (ν × ν))
    (hp : ∃ p, dGet c.1 t = some p ∧ colLen p = n) (hq : ∃ q, dGet c.2 o = some q ∧ colLen q = m) (idx : List (Option Nat)) (hinv : MatchInv nul t o n m cs idx) :
    ∃ idx', matchCriterion argsort t o idx c = .ok idx' ∧ MatchInv nul t o n m (cs ++ [c]) idx' := by
  obtain ⟨p, hp, hpn⟩ := hp
  obtain ⟨q, hq, hqm⟩ := hq
  have hpl : (colIter p).length = n := by rw [← hpn, colLen_eq, colIter_eq]
  have hql : (colIter q).length = m := by rw [← hqm, colLen_eq, colIter_eq]
  obtain ⟨r, h1, h2⟩ := findIndices_ok hsort (colIter q) (colIter p) (by intro e; rw [e] at hql; simp at hql; omega)
  have hrl : r.length = n := by rw [← hpl]; exact h2.length_eq.symm
  have hcell : ∀ i (hi : i < n), (colIter p)[i]'(by omega) = cell nul t c.1 i := by
    intro i hi
    unfold cell
    rw [hp]
    simp [List.getD_eq_getElem?_getD, List.getElem?_eq_getElem (show i < (colIter p).length by omega)]
  have hcello : ∀ j (hj : j < m), (colIter q)[j]'(by omega) = cell nul o c.2 j := by
    intro i hi
    unfold cell
    rw [hq]
    simp [List.getD_eq_getElem?_getD, List.getElem?_eq_getElem (show i < (colIter q).length by omega)]
  unfold matchCriterion
  rw [hp, hq]
  dsimp only
  rw [h1]
  simp only [bind, Except.bind]
  unfold mergeIndices
  rw [if_pos (by rw [hinv.1, hrl])]
  refine ⟨_, rfl, by simp [hinv.1, hrl], ?_⟩
  intro i hi
  have hi1 : i < idx.length := by rw [hinv.1]; exact hi
  have hi2 : i < r.length := by omega
  have hri := (List.forall₂_iff_get.1 h2).2 i (by omega) hi2
  simp only [List.get_eq_getElem] at hri
  rw [hcell i hi] at hri
  have hget : (idx.zipWith orIndex r)[i]? = some (orIndex idx[i] r[i]) := by
    rw [List.getElem?_eq_getElem (by simp; omega), List.getElem_zipWith]
  rw [hget]
  obtain ⟨hs, hnone⟩ := hinv.2 i hi
  rw [List.getElem?_eq_getElem hi1] at hs hnone
  cases hidx : idx[i] with
  | some k =>
    rw [hidx] at hs
    show _ ∧ (some (some k) = some none → _)
    refine ⟨?_, fun h => by simp at h⟩
    intro j hj
    have : k = j := by simpa [orIndex] using hj
    subst this
    obtain ⟨h3, pre, c', post, hc', h4⟩ := hs k rfl
    exact ⟨h3, pre, c', post ++ [c], by simp [hc'], h4⟩
  | none =>
    rw [hidx] at hnone
    show (∀ j, some r[i] = some (some j) → _) ∧ (some r[i] = some none → _)
    constructor
    · intro j hj
      have hj' : r[i] = some j := by simpa using hj
      have := hri.1 j hj'
      obtain ⟨hjl, he⟩ := List.getElem?_eq_some_iff.1 this
      have hjm : j < m := by omega
      refine ⟨hjm, cs, c, [], rfl, ?_, fun c' hc' k hk => hnone rfl c' hc' k hk⟩
      unfold Agree
      rw [← he, hcello j hjm]
    · intro hr c' hc' j hj hag
      rcases List.mem_append.1 hc' with h | h
      · exact hnone rfl c' h j hj hag
      · simp only [List.mem_singleton] at h
        subst h
        apply hri.2 (by simpa using hr)
        unfold Agree at hag
        rw [hag, ← hcello j hj]
        exact List.getElem_mem _

theorem matchCriteria_ok (nul : α) {argsort : List α → List Nat} (hsort : ArgsortOk argsort) (t o : Tbl ν α) (n m : Nat) (hm : 0 < m) (criteria : List (ν × ν))
    (hp : ∀ c ∈ criteria, ∃ p, dGet c.1 t = some p ∧ colLen p = n) (hq : ∀ c ∈ criteria, ∃ q, dGet c.2 o = some q ∧ colLen q = m) :
    ∃ idx, criteria.foldlM (matchCriterion argsort t o) (List.replicate n none) = .ok idx ∧ MatchInv nul t o n m criteria idx := by
  have H : ∀ (todo done : List (ν × ν)) (idx : List (Option Nat)), (∀ c ∈ todo, ∃ p, dGet c.1 t = some p ∧ colLen p = n) →
      (∀ c ∈ todo, ∃ q, dGet c.2 o = some q ∧ colLen q = m) → MatchInv nul t o n m done idx →
      ∃ idx', todo.foldlM (matchCriterion argsort t o) idx = .ok idx' ∧ MatchInv nul t o n m (done ++ todo) idx' := by
    intro todo
    induction todo with
    | nil => intro done idx _ _ h; exact ⟨idx, rfl, by simpa using h⟩
    | cons c rest ih =>
      intro done idx h1 h2 h
      obtain ⟨idx1, e1, i1⟩ := matchCriterion_ok nul hsort t o n m hm c done (h1 c (by simp)) (h2 c (by simp)) idx h
      obtain ⟨idx2, e2, i2⟩ := ih (done ++ [c]) idx1 (fun x hx => h1 x (by simp [hx])) (fun x hx => h2 x (by simp [hx])) i1
      refine ⟨idx2, ?_, by simpa using i2⟩
      rw [List.foldlM_cons, e1]
      exact e2
  have := H criteria [] (List.replicate n none) hp hq ⟨by simp, by
    intro i hi
    constructor
    · intro j h
      simp [List.getElem?_replicate, hi] at h
    · intro _ c hc
      simp at hc⟩
  simpa using this

/-- C64: the outcome of `match`, for any criteria: every left row with a right row that agrees on some criterion is joined once, with one right row that agrees
on the first criterion on which any right row does -/
theorem C64_pairs (nul : α) (ps : Nat) (hps : 0 < ps) (mk : ν → Nat → ν) (hmk : ∀ d a b, mk d a = mk d b → a = b) {argsort : List α → List Nat} (hsort : ArgsortOk argsort)
    (t o : Tbl ν α) (n m : Nat) (hm : 0 < m) (ht : TblWF t) (ho : TblWF o) (ht0 : t ≠ []) (hrt : Rect t n) (hro : Rect o m) (criteria : List (ν × ν))
    (hc : ∀ c ∈ criteria, c.1 ∈ t.map (·.1) ∧ c.2 ∈ o.map (·.1)) (kl kr : Option (List ν))
    (hkl : ∀ x ∈ kl.getD (t.map (·.1)), x ∈ t.map (·.1)) (hkr : ∀ x ∈ kr.getD (o.map (·.1)), x ∈ o.map (·.1)) :
    ∃ (t' : Tbl ν α) (sel : List (Nat × Nat)) (names : List ν), tblMatch ps mk argsort t o criteria kl kr = .ok t' ∧
      tview t' = ((t.filter fun c => c.1 ∈ kl.getD (t.map (·.1))).map fun c => (c.1, sel.map fun p => cell nul t c.1 p.1)) ++
        names.zip ((o.filter fun c => c.1 ∈ kr.getD (o.map (·.1))).map fun c => sel.map fun p => cell nul o c.1 p.2) ∧
      names.length = (o.filter fun c => c.1 ∈ kr.getD (o.map (·.1))).length ∧
      ((t.filter fun c => c.1 ∈ kl.getD (t.map (·.1))).map (·.1) ++ names).Nodup ∧
      (∀ i, (∃ j, (i, j) ∈ sel) ↔ i < n ∧ ∃ c ∈ criteria, ∃ j < m, Agree nul t o c i j) ∧
      (sel.map (·.1)).Pairwise (· < ·) ∧
      ∀ p ∈ sel, p.2 < m ∧ FirstAgree nul t o m criteria p.1 p.2 := by
  have hget : ∀ (u : Tbl ν α) (k : Nat), Rect u k → ∀ x ∈ u.map (·.1), ∃ p, dGet x u = some p ∧ colLen p = k := by
    intro u k hr x hx
    obtain ⟨p, hp⟩ := Option.isSome_iff_exists.1 ((dGet_isSome x u).2 hx)
    exact ⟨p, hp, hr _ (dGet_mem x u p hp)⟩
  obtain ⟨idx, e1, inv⟩ := matchCriteria_ok nul hsort t o n m hm criteria (fun c h => hget t n hrt _ (hc c h).1) (fun c h => hget o m hro _ (hc c h).2)
  have hmemsel : ∀ p, p ∈ pairsFrom 0 idx ↔ idx[p.1]? = some (some p.2) := by
    intro p
    rw [mem_pairsFrom]
    simp
  have hlt : ∀ p ∈ pairsFrom 0 idx, p.1 < n := by
    intro p hp
    obtain ⟨h, _⟩ := List.getElem?_eq_some_iff.1 ((hmemsel p).1 hp)
    rw [← inv.1]; exact h
  have hsel : ∀ p ∈ pairsFrom 0 idx, p.2 < m ∧ FirstAgree nul t o m criteria p.1 p.2 := by
    intro p hp
    exact (inv.2 p.1 (hlt p hp)).1 p.2 ((hmemsel p).1 hp)
  have hcellt : ∀ c ∈ t, ∀ i, (colIter c.2).getD i nul = cell nul t c.1 i := by
    intro c hcm i
    unfold cell
    rw [dGet_of_mem t ht c hcm]
    rfl
  have hcello : ∀ c ∈ o, ∀ i, (colIter c.2).getD i nul = cell nul o c.1 i := by
    intro c hcm i
    unfold cell
    rw [dGet_of_mem o ho c hcm]
    rfl
  unfold tblMatch
  dsimp only
  rw [if_neg (by simpa using hkl), if_neg (by simpa using hkr), tblLen_rect t n hrt ht0, e1]
  dsimp only [bind, Except.bind]
  have hleft : (t.filter fun c => c.1 ∈ kl.getD (t.map (·.1))).mapM (fun c => (compress (idx.map (·.isSome)) (colIter c.2)).bind fun v => Except.ok (c.1, v)) =
      .ok ((t.filter fun c => c.1 ∈ kl.getD (t.map (·.1))).map fun c => (c.1, (pairsFrom 0 idx).map fun p => cell nul t c.1 p.1)) := by
    apply mapM_ok
    intro c hcm
    have hcm' := (List.mem_filter.1 hcm).1
    have hl : (colIter c.2).length = n := by rw [← hrt c hcm', colLen_eq, colIter_eq]
    rw [compress_ok nul idx 0 [] (colIter c.2) rfl (by rw [hl, inv.1])]
    show Except.ok _ = _
    simp only [List.nil_append, hcellt c hcm']
  have hleft' := hleft
  simp only [Except.bind] at hleft'
  rw [hleft']
  dsimp only
  have hnames : ((t.filter fun c => c.1 ∈ kl.getD (t.map (·.1))).map fun c => (c.1, (pairsFrom 0 idx).map fun p => cell nul t c.1 p.1)).map (·.1) =
      (t.filter fun c => c.1 ∈ kl.getD (t.map (·.1))).map (·.1) := by
    rw [List.map_map]
    rfl
  have hnd : ((t.filter fun c => c.1 ∈ kl.getD (t.map (·.1))).map (·.1)).Nodup := List.Nodup.sublist (List.Sublist.map _ List.filter_sublist) ht
  have hv := setCols_view ps hps ((t.filter fun c => c.1 ∈ kl.getD (t.map (·.1))).map fun c => (c.1, (pairsFrom 0 idx).map fun p => cell nul t c.1 p.1)) ([] : Tbl ν α)
    (by rw [hnames]; simpa using hnd)
  have hright := foldlM_addUnique ps mk (fun c : ν × Pages α => c.1) (fun c => npTake (colIter c.2) (idx.filterMap id))
    (fun c => (pairsFrom 0 idx).map fun p => cell nul o c.1 p.2) (o.filter fun c => c.1 ∈ kr.getD (o.map (·.1))) (by
      intro c hcm
      have hcm' := (List.mem_filter.1 hcm).1
      have hl : (colIter c.2).length = m := by rw [← hro c hcm', colLen_eq, colIter_eq]
      rw [← pairsFrom_snd 0 idx, npTake_ok nul _ _ (by
        intro i hi
        obtain ⟨p, hp, rfl⟩ := List.mem_map.1 hi
        rw [hl]
        exact (hsel p hp).1), List.map_map]
      congr 1
      apply List.map_congr_left
      intro p _
      exact hcello c hcm' p.2)
  generalize hB : ((t.filter fun c => c.1 ∈ kl.getD (t.map (·.1))).map fun c => (c.1, (pairsFrom 0 idx).map fun p => cell nul t c.1 p.1)).foldl
    (fun new c => tblSet new c.1 (paginate ps c.2)) ([] : Tbl ν α) = B at hv ⊢
  have hBn : B.map (·.1) = (t.filter fun c => c.1 ∈ kl.getD (t.map (·.1))).map (·.1) := by
    rw [← tview_names, hv, List.map_append, hnames]
    simp [tview]
  refine ⟨_, pairsFrom 0 idx, nameSeq mk (B.map (·.1)) ((o.filter fun c => c.1 ∈ kr.getD (o.map (·.1))).map (·.1)), hright B, ?_, ?_, ?_, ?_, ?_, hsel⟩
  · rw [addUnique_fold ps hps mk hmk, hv, List.map_map, List.map_map]
    rfl
  · rw [nameSeq_length, List.length_map]
  · rw [← hBn]
    exact nameSeq_nodup mk hmk _ _ (by rw [hBn]; exact hnd)
  · intro i
    constructor
    · rintro ⟨j, hj⟩
      obtain ⟨h1, hfa⟩ := hsel _ hj
      obtain ⟨c, h2, h3⟩ := hfa.some
      exact ⟨hlt _ hj, c, h2, j, h1, h3⟩
    · rintro ⟨hi, c, hcc, j, hj, hag⟩
      have hi' : i < idx.length := by rw [inv.1]; exact hi
      cases hx : idx[i] with
      | some k => exact ⟨k, (hmemsel _).2 (by rw [List.getElem?_eq_getElem hi', hx])⟩
      | none => exact absurd hag ((inv.2 i hi).2 (by rw [List.getElem?_eq_getElem hi', hx]) c hcc j hj)
  · rw [pairsFrom_fst]
    simp only [Nat.zero_add, List.map_id']
    exact List.Pairwise.sublist List.filter_sublist List.pairwise_lt_range

/-- C64 for one criterion: every left row whose value occurs in the right column is joined once, and joined rows agree.  Missing from the full statement: several
criteria, of which joined rows may satisfy only one. -/
theorem C64_partial (nul : α) (ps : Nat) (hps : 0 < ps) (mk : ν → Nat → ν) (hmk : ∀ d a b, mk d a = mk d b → a = b) {argsort : List α → List Nat} (hsort : ArgsortOk argsort)
    (t o : Tbl ν α) (n m : Nat) (hm : 0 < m) (ht : TblWF t) (ho : TblWF o) (ht0 : t ≠ []) (hrt : Rect t n) (hro : Rect o m) (a b : ν)
    (ha : a ∈ t.map (·.1)) (hb : b ∈ o.map (·.1)) :
    ∃ (t' : Tbl ν α) (sel : List (Nat × Nat)) (names : List ν), tblMatch ps mk argsort t o [(a, b)] none none = .ok t' ∧
      tview t' = (t.map fun c => (c.1, sel.map fun p => cell nul t c.1 p.1)) ++ names.zip (o.map fun c => sel.map fun p => cell nul o c.1 p.2) ∧
      names.length = o.length ∧ (t.map (·.1) ++ names).Nodup ∧
      (∀ i, (∃ j, (i, j) ∈ sel) ↔ i < n ∧ ∃ j < m, cell nul t a i = cell nul o b j) ∧ (sel.map (·.1)).Pairwise (· < ·) ∧
      ∀ p ∈ sel, p.2 < m ∧ cell nul t a p.1 = cell nul o b p.2 := by
  obtain ⟨t', sel, names, h1, h2, h3, h4, h5, h6, h7⟩ := C64_pairs nul ps hps mk hmk hsort t o n m hm ht ho ht0 hrt hro [(a, b)]
    (by intro c hc; simp only [List.mem_singleton] at hc; subst hc; exact ⟨ha, hb⟩) none none (fun x hx => hx) (fun x hx => hx)
  have ft : (t.filter fun c => c.1 ∈ (none : Option (List ν)).getD (t.map (·.1))) = t := by
    rw [List.filter_eq_self]
    intro c hc
    simpa using ⟨c.2, hc⟩
  have fo : (o.filter fun c => c.1 ∈ (none : Option (List ν)).getD (o.map (·.1))) = o := by
    rw [List.filter_eq_self]
    intro c hc
    simpa using ⟨c.2, hc⟩
  rw [ft, fo] at h2
  rw [fo] at h3
  rw [ft] at h4
  refine ⟨t', sel, names, h1, h2, h3, h4, ?_, h6, ?_⟩
  · intro i
    rw [h5 i]
    simp only [List.mem_singleton, exists_eq_left]
    rfl
  · intro p hp
    obtain ⟨h8, hfa⟩ := h7 p hp
    obtain ⟨c, hc, h9⟩ := hfa.some
    simp only [List.mem_singleton] at hc
    subst hc
    exact ⟨h8, h9⟩

/-- **C64** (exact) if no value occurs twice in a right column of the criteria, the joined rows agree on all criteria exactly when, for every left row, the right row found by the first criterion that finds
one agrees on all others -/
theorem C64_exact (nul : α) (ps : Nat) (hps : 0 < ps) (mk : ν → Nat → ν) (hmk : ∀ d a b, mk d a = mk d b → a = b) {argsort : List α → List Nat} (hsort : ArgsortOk argsort)
    (t o : Tbl ν α) (n m : Nat) (hm : 0 < m) (ht : TblWF t) (ho : TblWF o) (ht0 : t ≠ []) (hrt : Rect t n) (hro : Rect o m) (criteria : List (ν × ν))
    (hc : ∀ c ∈ criteria, c.1 ∈ t.map (·.1) ∧ c.2 ∈ o.map (·.1)) (hu : ∀ c ∈ criteria, ∀ j < m, ∀ k < m, cell nul o c.2 j = cell nul o c.2 k → j = k) :
    ∃ (t' : Tbl ν α) (sel : List (Nat × Nat)) (names : List ν), tblMatch ps mk argsort t o criteria none none = .ok t' ∧
      tview t' = (t.map fun c => (c.1, sel.map fun p => cell nul t c.1 p.1)) ++ names.zip (o.map fun c => sel.map fun p => cell nul o c.1 p.2) ∧
      names.length = o.length ∧
      ((∀ p ∈ sel, ∀ c ∈ criteria, Agree nul t o c p.1 p.2) ↔ ∀ i < n, ∀ j < m, FirstAgree nul t o m criteria i j → ∀ c ∈ criteria, Agree nul t o c i j) := by
  obtain ⟨t', sel, names, h1, h2, h3, -, h5, h6, h7⟩ := C64_pairs nul ps hps mk hmk hsort t o n m hm ht ho ht0 hrt hro criteria hc none none (fun x hx => hx) (fun x hx => hx)
  have ft : (t.filter fun c => c.1 ∈ (none : Option (List ν)).getD (t.map (·.1))) = t := by
    rw [List.filter_eq_self]
    intro c hc
    simpa using ⟨c.2, hc⟩
  have fo : (o.filter fun c => c.1 ∈ (none : Option (List ν)).getD (o.map (·.1))) = o := by
    rw [List.filter_eq_self]
    intro c hc
    simpa using ⟨c.2, hc⟩
  rw [ft, fo] at h2
  rw [fo] at h3
  refine ⟨t', sel, names, h1, h2, h3, ?_, ?_⟩
  · intro h i hi j hj hfa
    obtain ⟨c, hcm, hcj⟩ := hfa.some
    obtain ⟨k, hk⟩ := (h5 i).2 ⟨hi, c, hcm, j, hj, hcj⟩
    obtain ⟨hkm, pre', c', post', e', a', b'⟩ := h7 _ hk
    obtain ⟨pre, d, post, e, a, b⟩ := hfa
    have hd : d = c' := by
      rw [e] at e'
      rcases List.append_eq_append_iff.1 e' with ⟨l, l1, l2⟩ | ⟨l, l1, l2⟩
      · cases l with
        | nil => simp only [List.nil_append, List.cons.injEq] at l2; exact l2.1
        | cons x l =>
          simp only [List.cons_append, List.cons.injEq] at l2
          exact absurd a (l2.1 ▸ b' x (by rw [l1]; simp) j hj)
      · cases l with
        | nil => simp only [List.nil_append, List.cons.injEq] at l2; exact l2.1.symm
        | cons x l =>
          simp only [List.cons_append, List.cons.injEq] at l2
          exact absurd a' (l2.1 ▸ b x (by rw [l1]; simp) k hkm)
    subst hd
    have hjk : j = k := hu d (by rw [e]; simp) j hj k hkm (a.symm.trans a')
    subst hjk
    exact h _ hk
  · intro h p hp
    obtain ⟨hpm, hfa⟩ := h7 p hp
    exact h p.1 ((h5 p.1).1 ⟨p.2, hp⟩).1 p.2 hpm hfa

/-- C64: a right table without rows is an IndexError as soon as the left table has a row -/
theorem C64_empty_raises (ps : Nat) (mk : ν → Nat → ν) {argsort : List α → List Nat} (hsort : ArgsortOk argsort) (t o : Tbl ν α) (n : Nat) (hn : 0 < n)
    (hrt : Rect t n) (hro : Rect o 0) (a b : ν) (ha : a ∈ t.map (·.1)) (hb : b ∈ o.map (·.1)) (rest : List (ν × ν)) :
    tblMatch ps mk argsort t o ((a, b) :: rest) none none = .error .index := by
  obtain ⟨p, hp⟩ := Option.isSome_iff_exists.1 ((dGet_isSome a t).2 ha)
  obtain ⟨q, hq⟩ := Option.isSome_iff_exists.1 ((dGet_isSome b o).2 hb)
  have hpl : (colIter p).length = n := by rw [← hrt _ (dGet_mem a t p hp), colLen_eq, colIter_eq]
  have hql : (colIter q).length = 0 := by rw [← hro _ (dGet_mem b o q hq), colLen_eq, colIter_eq]
  have hq0 : colIter q = [] := List.length_eq_zero_iff.1 hql
  unfold tblMatch
  dsimp only
  rw [if_neg (by simp), if_neg (by simp), List.foldlM_cons]
  have : matchCriterion argsort t o (List.replicate (tblLen t) none) (a, b) = .error .index := by
    unfold matchCriterion
    rw [hp, hq]
    dsimp only
    rw [hq0, findIndices_empty argsort hsort _ (by intro e; rw [e] at hpl; simp at hpl; omega)]
    rfl
  rw [this]
  rfl

end

/-! ### the full statement -/

/-- the full claim: joined rows agree on all criteria -/
def C64_statement : Prop :=
  ∀ (ps : Nat) (argsort : List Int → List Nat) (t o : Tbl String Int) (n m : Nat) (criteria : List (String × String)), 0 < ps → ArgsortOk argsort → TblWF t → TblWF o →
    Rect t n → Rect o m → 0 < m → t ≠ [] → criteria ≠ [] → (∀ c ∈ criteria, c.1 ∈ t.map (·.1) ∧ c.2 ∈ o.map (·.1)) →
    ∃ (t' : Tbl String Int) (sel : List (Nat × Nat)) (names : List String), tblMatch ps suffixed argsort t o criteria none none = .ok t' ∧
      tview t' = (t.map fun c => (c.1, sel.map fun p => cell 0 t c.1 p.1)) ++ List.zip names (o.map fun c => sel.map fun p => cell 0 o c.1 p.2) ∧
      ∀ p ∈ sel, p.2 < m ∧ ∀ c ∈ criteria, Agree 0 t o c p.1 p.2

/-- an argsort: insertion sort of the positions -/
def sortPositions (x : List Int) : List Nat := (List.range x.length).insertionSort fun a b => x.getD a 0 ≤ x.getD b 0

theorem sortPositions_ok : ArgsortOk sortPositions := by
  intro x
  have hperm := List.perm_insertionSort (fun a b => x.getD a 0 ≤ x.getD b 0) (List.range x.length)
  refine ⟨hperm, ?_⟩
  have hs : (sortPositions x).Pairwise fun a b => x.getD a 0 ≤ x.getD b 0 := by
    have : Std.Total fun a b : Nat => x.getD a 0 ≤ x.getD b 0 := ⟨fun a b => le_total _ _⟩
    have : IsTrans Nat fun a b : Nat => x.getD a 0 ≤ x.getD b 0 := ⟨fun a b c h1 h2 => le_trans h1 h2⟩
    exact List.pairwise_insertionSort _ _
  have hin : ∀ i ∈ sortPositions x, i < x.length := fun i hi => List.mem_range.1 (hperm.mem_iff.1 hi)
  have : ((sortPositions x).filterMap fun i => x[i]?) = (sortPositions x).map fun i => x.getD i 0 := by
    generalize sortPositions x = l at hin
    clear hs hperm
    induction l with
    | nil => rfl
    | cons a u ih =>
      rw [List.filterMap_cons, List.getElem?_eq_getElem (hin a (by simp)), List.map_cons]
      simp only [List.getD_eq_getElem?_getD, List.getElem?_eq_getElem (hin a (by simp)), Option.getD_some]
      rw [ih fun i hi => hin i (by simp [hi])]
      simp [List.getD_eq_getElem?_getD]
  rw [this, List.pairwise_map]
  exact hs

def matchLeft : Tbl String Int := [("a", [[1]]), ("b", [[2]])]
def matchRight : Tbl String Int := [("c", [[1]]), ("d", [[3]])]

/-- two criteria of which one holds: the rows are joined -/
theorem C64_fails : ¬ C64_statement := by
  intro h
  obtain ⟨t', sel, names, h1, h2, h3⟩ := h 10 sortPositions matchLeft matchRight 1 1 [("a", "c"), ("b", "d")] (by decide) sortPositions_ok (by unfold TblWF; decide)
    (by unfold TblWF; decide) (by unfold Rect; decide) (by unfold Rect; decide) (by decide) (by decide) (by decide) (by decide)
  have hv : viewOf (tblMatch 10 suffixed sortPositions matchLeft matchRight [("a", "c"), ("b", "d")] none none) =
      (matchLeft.map fun c => (c.1, sel.map fun p => cell 0 matchLeft c.1 p.1)) ++ List.zip names (matchRight.map fun c => sel.map fun p => cell 0 matchRight c.1 p.2) := by
    rw [h1]; exact h2
  have hc : viewOf (tblMatch 10 suffixed sortPositions matchLeft matchRight [("a", "c"), ("b", "d")] none none) = [("a", [1]), ("b", [2]), ("c", [1]), ("d", [3])] := by decide +kernel
  rw [hc] at hv
  cases sel with
  | nil => simp [matchLeft] at hv
  | cons p rest =>
    have hp := h3 p (by simp)
    have hb := hp.2 ("b", "d") (by simp)
    have hlen : p.2 = 0 := by omega
    have hpa : cell 0 matchLeft "b" p.1 = 2 := by
      have := congrArg (fun v => ((v.drop 1).head?.map (·.2)).getD []) hv
      simp [matchLeft] at this
      exact this.1.symm
    unfold Agree at hb
    dsimp only at hb
    rw [hpa, hlen] at hb
    revert hb
    decide

example : Rect matchLeft 1 ∧ Rect matchRight 1 ∧ TblWF matchLeft ∧ ArgsortOk sortPositions := by
  refine ⟨by unfold Rect; decide, by unfold Rect; decide, by unfold TblWF; decide, sortPositions_ok⟩

/-- `C64_exact`: the condition fails for the tables of `C64_fails`, and holds if the second columns agree -/
example : (¬ ∀ i < 1, ∀ j < 1, FirstAgree 0 matchLeft matchRight 1 [("a", "c"), ("b", "d")] i j → ∀ c ∈ [("a", "c"), ("b", "d")], Agree 0 matchLeft matchRight c i j) ∧
    ∀ i < 1, ∀ j < 1, FirstAgree 0 matchLeft ([("c", [[1]]), ("d", [[2]])] : Tbl String Int) 1 [("a", "c"), ("b", "d")] i j → ∀ c ∈ [("a", "c"), ("b", "d")], Agree 0 matchLeft ([("c", [[1]]), ("d", [[2]])] : Tbl String Int) c i j := by
  refine ⟨fun h => ?_, fun i hi j hj _ c hc => ?_⟩
  · have := h 0 (by omega) 0 (by omega) ⟨[], ("a", "c"), [("b", "d")], rfl, by unfold Agree; decide, by simp⟩ ("b", "d") (by simp)
    revert this
    unfold Agree
    decide
  · obtain rfl : i = 0 := by omega
    obtain rfl : j = 0 := by omega
    revert c
    unfold Agree
    decide

example : sortPositions [3, 5, 7, 1, 9, 8, 6, 6] = [3, 0, 1, 6, 7, 2, 5, 4] := by decide

end Tablite
