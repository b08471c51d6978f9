import Verif.Props.Sort
import Verif.Props.Filter
import Verif.Props.Reindex
import Verif.Props.Select
/-!
# Laws between operations: sorting, filtering and removing duplicates (C110)

No new model: the operations of `Model/Sort.lean`, `Model/Filter.lean` and `Model/Table.lean` are composed.  Tables are compared by their contents (`tview`): names, order of columns and values;
how the values are split into pages is not compared.
-/

namespace Tablite

section
variable {ν α κ : Type} [DecidableEq ν]

/-! ## a table of rows of another table -/

theorem rowsOf_tview (nul : α) (t : Tbl ν α) (rows : List Nat) : rowsOf nul t rows = (tview t).map fun c => (c.1, rows.map fun i => c.2.getD i nul) := by
  unfold rowsOf tview
  rw [List.map_map]
  rfl

theorem cell_tview (nul : α) (t : Tbl ν α) (a : ν) (i : Nat) : cell nul t a i = ((dGet a (tview t)).getD []).getD i nul := by
  unfold cell
  rw [dGet_tview]
  cases dGet a t <;> rfl

theorem names_tview (t : Tbl ν α) : (tview t).map (·.1) = t.map (·.1) := by
  unfold tview
  rw [List.map_map]
  rfl

theorem names_view {nul : α} {t t' : Tbl ν α} {idx : List Nat} (h : tview t' = rowsOf nul t idx) : t'.map (·.1) = t.map (·.1) := by
  rw [← names_tview, h]
  unfold rowsOf
  rw [List.map_map]
  rfl

theorem ne_nil_view {nul : α} {t t' : Tbl ν α} {idx : List Nat} (h : tview t' = rowsOf nul t idx) (hne : t ≠ []) : t' ≠ [] := by
  rintro rfl
  have := names_view h
  cases t with
  | nil => exact hne rfl
  | cons c u => cases this

theorem rect_view {nul : α} {t t' : Tbl ν α} {idx : List Nat} (h : tview t' = rowsOf nul t idx) : Rect t' idx.length := by
  intro c hc
  have h1 : (c.1, colIter c.2) ∈ tview t' := List.mem_map.2 ⟨c, hc, rfl⟩
  rw [h] at h1
  obtain ⟨d, -, e⟩ := List.mem_map.1 h1
  have e2 := (Prod.ext_iff.1 e).2
  dsimp only at e2
  rw [colLen_eq, ← colIter_eq, ← e2, List.length_map]

/-- the value in row `i` of the new table is that in row `idx[i]` of the old one -/
theorem cell_view {nul : α} {t t' : Tbl ν α} {idx : List Nat} (h : tview t' = rowsOf nul t idx) (a : ν) (i : Nat) (hi : i < idx.length) :
    cell nul t' a i = cell nul t a (idx.getD i 0) := by
  rw [cell_tview, h, cell_tview, rowsOf_tview, dGet_map_val (fun (l : List α) => idx.map fun i => l.getD i nul)]
  cases dGet a (tview t) with
  | none => simp
  | some l => simp [List.getD_eq_getElem?_getD, List.getElem?_eq_getElem hi]

theorem rowsOf_view {nul : α} {t t' : Tbl ν α} {idx : List Nat} (h : tview t' = rowsOf nul t idx) (rows : List Nat) (hr : ∀ i ∈ rows, i < idx.length) :
    rowsOf nul t' rows = rowsOf nul t (rows.map fun i => idx.getD i 0) := by
  rw [rowsOf_tview, h, rowsOf_tview, rowsOf_tview, List.map_map]
  apply List.map_congr_left
  intro c _
  simp only [Function.comp, List.map_map, Prod.mk.injEq, true_and]
  apply List.map_congr_left
  intro i hi
  have := hr i hi
  simp [List.getD_eq_getElem?_getD, List.getElem?_eq_getElem this]

theorem fVal_view {nul : α} {t t' : Tbl ν α} {idx : List Nat} (h : tview t' = rowsOf nul t idx) (i : Nat) (hi : i < idx.length) (o : FOperand ν α) :
    fVal nul t' i o = fVal nul t (idx.getD i 0) o := by
  cases o with
  | col x => exact cell_view h x i hi
  | val v => rfl

theorem rowHolds_view {nul : α} {t t' : Tbl ν α} {idx : List Nat} (h : tview t' = rowsOf nul t idx) (cmp : κ → α → α → Bool) (all : Bool) (es : List (FExpr ν α κ)) (i : Nat)
    (hi : i < idx.length) : rowHolds nul cmp all es t' i = rowHolds nul cmp all es t (idx.getD i 0) := by
  unfold rowHolds
  simp only [fVal_view h i hi]

theorem filter_positions (idx : List Nat) (p : Nat → Bool) : ((List.range idx.length).filter fun i => p (idx.getD i 0)).map (fun i => idx.getD i 0) = idx.filter p := by
  have e := List.filter_map (f := fun i => idx.getD i 0) (p := p) (l := List.range idx.length)
  refine e.symm.trans ?_
  congr 1
  apply List.ext_getElem
  · simp
  · intro i h1 h2
    simp [List.getD_eq_getElem?_getD, List.getElem?_eq_getElem h2]

theorem filter_map_congr (idx : List Nat) (p q : Nat → Bool) (h : ∀ i < idx.length, q i = p (idx.getD i 0)) :
    ((List.range idx.length).filter q).map (fun i => idx.getD i 0) = idx.filter p := by
  refine Eq.trans ?_ (filter_positions idx p)
  congr 1
  apply List.filter_congr
  intro i hi
  exact h i (List.mem_range.1 hi)

/-! ## the order of sorting -/

/-- `same` is symmetric and values that are not `same` are ordered -/
def OrderOk (same lt : α → α → Bool) (nul : α) (t : Tbl ν α) (n : Nat) (mapping : List (ν × Bool)) : Prop :=
  ∀ k ∈ mapping, ∀ i < n, ∀ j < n, same (cell nul t k.1 i) (cell nul t k.1 j) = same (cell nul t k.1 j) (cell nul t k.1 i) ∧
    (same (cell nul t k.1 i) (cell nul t k.1 j) = false → lt (cell nul t k.1 i) (cell nul t k.1 j) = true ∨ lt (cell nul t k.1 j) (cell nul t k.1 i) = true)

theorem InOrder.antisymm {same lt : α → α → Bool} {nul : α} {t : Tbl ν α} {n : Nat} {mapping : List (ν × Bool)} (ho : OrderOk same lt nul t n mapping) {i j : Nat} (hi : i < n) (hj : j < n)
    (h1 : InOrder same lt nul t i j mapping) (h2 : InOrder same lt nul t j i mapping) : False := by
  induction mapping with
  | nil => simp only [InOrder] at h1 h2; omega
  | cons k ks ih =>
    obtain ⟨a, rev⟩ := k
    obtain ⟨o1, o2⟩ := ho (a, rev) (by simp) i hi j hj
    unfold InOrder at h1 h2
    rw [← o1] at h2
    by_cases hs : same (cell nul t a i) (cell nul t a j) = true
    · rw [if_pos hs] at h1 h2
      exact ih (fun k hk => ho k (by simp [hk])) h1 h2
    · rw [if_neg hs] at h1 h2
      have := o2 (by simpa using hs)
      cases rev <;> simp at h1 h2 <;> rw [h1, h2] at this <;> simp at this

/-- there is one arrangement of given rows that is in order -/
theorem sorted_unique {same lt : α → α → Bool} {nul : α} {t : Tbl ν α} {n : Nat} {mapping : List (ν × Bool)} (ho : OrderOk same lt nul t n mapping) {l m : List Nat}
    (hl : l.Pairwise fun i j => InOrder same lt nul t i j mapping) (hm : m.Pairwise fun i j => InOrder same lt nul t i j mapping) (hp : l.Perm m) (hn : ∀ i ∈ l, i < n) : l = m := by
  refine hp.eq_of_pairwise ?_ hl hm
  intro a b ha hb h1 h2
  exact (InOrder.antisymm ho (hn a ha) (hn b (hp.mem_iff.2 hb)) h1 h2).elim

/-- the order of rows of a table of rows of another table, sorted by `ks`, where rows equal on `ks` stand in an order by `ls` -/
theorem InOrder.view {same lt : α → α → Bool} {nul : α} {t t' : Tbl ν α} {idx : List Nat} (h : tview t' = rowsOf nul t idx) (ls : List (ν × Bool))
    (hp : idx.Pairwise fun i j => InOrder same lt nul t i j ls) (ks : List (ν × Bool)) {i j : Nat} (hi : i < idx.length) (hj : j < idx.length)
    (ho : InOrder same lt nul t' i j ks) : InOrder same lt nul t (idx.getD i 0) (idx.getD j 0) (ks ++ ls) := by
  induction ks with
  | nil =>
    simp only [InOrder] at ho
    simp only [List.nil_append, List.getD_eq_getElem?_getD, List.getElem?_eq_getElem hi, List.getElem?_eq_getElem hj, Option.getD_some]
    exact List.pairwise_iff_getElem.1 hp i j hi hj ho
  | cons k ks ih =>
    obtain ⟨a, rev⟩ := k
    rw [List.cons_append]
    unfold InOrder at ho ⊢
    rw [cell_view h a i hi, cell_view h a j hj] at ho
    split
    · next hs => rw [if_pos hs] at ho; exact ih ho
    · next hs => rw [if_neg hs] at ho; exact ho

theorem pairwise_view {same lt : α → α → Bool} {nul : α} {t t' : Tbl ν α} {idx : List Nat} (h : tview t' = rowsOf nul t idx) (ls ks : List (ν × Bool))
    (hp : idx.Pairwise fun i j => InOrder same lt nul t i j ls) {l : List Nat} (hl : ∀ i ∈ l, i < idx.length) (ho : l.Pairwise fun i j => InOrder same lt nul t' i j ks) :
    (l.map fun i => idx.getD i 0).Pairwise fun i j => InOrder same lt nul t i j (ks ++ ls) := by
  rw [List.pairwise_map]
  exact ho.imp_of_mem fun ha hb hab => InOrder.view h ls hp ks (hl _ ha) (hl _ hb) hab

theorem InOrder.of_view {same lt : α → α → Bool} {nul : α} {t t' : Tbl ν α} {idx : List Nat} (h : tview t' = rowsOf nul t idx) (ks : List (ν × Bool)) {i j : Nat} (hij : i < j)
    (hj : j < idx.length) (ho : InOrder same lt nul t (idx.getD i 0) (idx.getD j 0) ks) : InOrder same lt nul t' i j ks := by
  induction ks with
  | nil => exact hij
  | cons k ks ih =>
    obtain ⟨a, rev⟩ := k
    unfold InOrder at ho ⊢
    rw [cell_view h a i (hij.trans hj), cell_view h a j hj]
    split
    · next hs => rw [if_pos hs] at ho; exact ih ho
    · next hs => rw [if_neg hs] at ho; exact ho

theorem rowsOf_all (nul : α) (t : Tbl ν α) (n : Nat) (ht : Rect t n) : rowsOf nul t (List.range n) = tview t := by
  unfold rowsOf tview
  apply List.map_congr_left
  intro c hc
  have hl : (colIter c.2).length = n := by rw [colIter_eq, ← colLen_eq]; exact ht c hc
  rw [Prod.mk.injEq]
  refine ⟨rfl, ?_⟩
  apply List.ext_getElem
  · simp [hl]
  · intro i h1 h2
    simp [List.getD_eq_getElem?_getD, List.getElem?_eq_getElem h2]

theorem perm_view {idx l : List Nat} (hl : l.Perm (List.range idx.length)) : (l.map fun i => idx.getD i 0).Perm idx := by
  have := hl.map (fun i => idx.getD i 0)
  have e := filter_positions idx (fun _ => true)
  simp only [List.filter_true] at e
  rw [e] at this
  exact this

theorem OrderOk.view {same lt : α → α → Bool} {nul : α} {t t' : Tbl ν α} {n : Nat} {mapping : List (ν × Bool)} (ho : OrderOk same lt nul t n mapping) {idx : List Nat}
    (h : tview t' = rowsOf nul t idx) (hn : ∀ i ∈ idx, i < n) : OrderOk same lt nul t' idx.length mapping := by
  intro k hk i hi j hj
  rw [cell_view h k.1 i hi, cell_view h k.1 j hj]
  have : ∀ i, i < idx.length → idx.getD i 0 < n := by
    intro i hi
    rw [List.getD_eq_getElem?_getD, List.getElem?_eq_getElem hi]
    exact hn _ (List.getElem_mem hi)
  exact ho k hk _ (this i hi) _ (this j hj)

theorem filter_perm_range {l : List Nat} {n : Nat} (h : l.Perm (List.range n)) (p : Nat → Bool) : (l.filter p).Perm ((List.range n).filter p) := h.filter p

theorem range_filter_lt (n : Nat) (p : Nat → Bool) : ((List.range n).filter p).Pairwise (· < ·) := List.pairwise_lt_range.sublist List.filter_sublist

end

/-! ## C110 -/

section
variable {K : Type} [LinearOrder K] {ν κ : Type} [DecidableEq ν]

/-- columns for which sorting in Excel order is defined (the conditions of C32): no two values of incomparable types with the same sort value, no number equal to a bool -/
def ExcelOk (t : Tbl ν SVal) (n : Nat) (mapping : List (ν × Bool)) : Prop :=
  ∀ k ∈ mapping, ∀ i < n, ∀ j < n, numClash (cell .none t k.1 i) (cell .none t k.1 j) = false ∧
    ((cell .none t k.1 i).pyEq (cell .none t k.1 j) = true → xgroup (cell .none t k.1 i) = xgroup (cell .none t k.1 j))

theorem ExcelOk.view {t t' : Tbl ν SVal} {n : Nat} {mapping : List (ν × Bool)} (ho : ExcelOk t n mapping) {idx : List Nat}
    (h : tview t' = rowsOf .none t idx) (hn : ∀ i ∈ idx, i < n) : ExcelOk t' idx.length mapping := by
  intro k hk i hi j hj
  rw [cell_view h k.1 i hi, cell_view h k.1 j hj]
  have : ∀ i, i < idx.length → idx.getD i 0 < n := by
    intro i hi
    rw [List.getD_eq_getElem?_getD, List.getElem?_eq_getElem hi]
    exact hn _ (List.getElem_mem hi)
  exact ho k hk _ (this i hi) _ (this j hj)

theorem pyEq_comm (a b : SVal) : a.pyEq b = b.pyEq a := by
  rw [Bool.eq_iff_iff]
  exact ⟨pyEq_symm a b, pyEq_symm b a⟩

theorem SVal.same_comm (a b : SVal) : a.same b = b.same a := by
  unfold SVal.same
  rw [pyEq_comm a b]
  congr 1
  exact decide_eq_decide.2 eq_comm

theorem excelLt_total (key : String → K) (hkey : ∀ a b, key a = key b → a = b) (a b : SVal) (hcl : numClash a b = false) (hs : a.same b = false) :
    excelLt key a b = true ∨ excelLt key b a = true := by
  unfold excelLt
  simp only [Bool.or_eq_true, decide_eq_true_eq, Bool.and_eq_true]
  rcases lt_trichotomy (xgroup a) (xgroup b) with h | h | h
  · exact Or.inl (Or.inl h)
  · cases a <;> cases b <;> simp [xgroup] at h <;> simp [xgroup, within, SVal.same, SVal.pyEq, numClash] at *
    · rename_i ty v f ty' v' f'
      rcases lt_trichotomy v v' with h | h | h
      · exact Or.inl (Or.inl h)
      · subst h
        rcases lt_trichotomy f f' with h | h | h
        · simp [h]
        · subst h
          have := hcl rfl
          simp [this] at hs
        · simp [h]
      · exact Or.inr (Or.inl h)
    · rename_i a b
      exact fun h => hs (hkey _ _ h)
    · rename_i a b
      cases a <;> cases b <;> simp at *
  · exact Or.inr (Or.inl h)

theorem ExcelOk.order {key : String → K} (hkey : ∀ a b, key a = key b → a = b) {t : Tbl ν SVal} {n : Nat} {mapping : List (ν × Bool)} (h : ExcelOk t n mapping) :
    OrderOk SVal.same (excelLt key) .none t n mapping := fun k hk i hi j hj =>
  ⟨SVal.same_comm _ _, fun hs => excelLt_total key hkey _ _ (h k hk i hi j hj).1 hs⟩

theorem excelSort_ok (key : String → K) (ord : List SVal → List SVal) (hord : ∀ l v, v ∈ ord l ↔ v ∈ l) (ps : Nat) (hps : 0 < ps) (t : Tbl ν SVal)
    (n : Nat) (hrect : Rect t n) (mapping : List (ν × Bool)) (hne : mapping ≠ []) (hk : ∀ k ∈ mapping, k.1 ∈ t.map (·.1)) (hx : ExcelOk t n mapping) :
    ∃ idx t', tblSort (excelRank key ord) ps .none t mapping = .ok t' ∧ idx.Perm (List.range n) ∧ tview t' = rowsOf .none t idx ∧
      idx.Pairwise fun i j => InOrder SVal.same (excelLt key) .none t i j mapping :=
  C32_excel_partial key ord hord ps hps t n hrect mapping hne hk (fun k hk i hi j hj => (hx k hk i hi j hj).1) (fun k hk i hi j hj => (hx k hk i hi j hj).2)

/-- the rows of a filtered table in order are the rows of the ordered table filtered -/
theorem sort_selected {key : String → K} (hkey : ∀ a b, key a = key b → a = b) {t u v : Tbl ν SVal} {n : Nat} {mapping : List (ν × Bool)} (hx : ExcelOk t n mapping) {idx jdx : List Nat}
    (hp : idx.Perm (List.range n)) (ho : idx.Pairwise fun i j => InOrder SVal.same (excelLt key) .none t i j mapping) (P : Nat → Bool)
    (hu : tview u = rowsOf .none t ((List.range n).filter P)) (hj : jdx.Perm (List.range ((List.range n).filter P).length)) (hv : tview v = rowsOf .none u jdx)
    (hjo : jdx.Pairwise fun i j => InOrder SVal.same (excelLt key) .none u i j mapping) : tview v = rowsOf .none t (idx.filter P) := by
  have hlt : ∀ i ∈ jdx, i < ((List.range n).filter P).length := fun i hi => List.mem_range.1 (hj.subset hi)
  rw [hv, rowsOf_view hu jdx hlt]
  congr 1
  have h1 := pairwise_view hu [] mapping (range_filter_lt n P) hlt hjo
  rw [List.append_nil] at h1
  refine sorted_unique (hx.order hkey) h1 (ho.sublist List.filter_sublist) ((perm_view hj).trans (hp.filter P).symm) ?_
  intro i hi
  have := (perm_view hj).subset hi
  exact List.mem_range.1 (List.mem_filter.1 this).1

/-- **C110** sorting and filtering in either order give the same two tables -/
theorem C110_sort_filter (key : String → K) (hkey : ∀ a b, key a = key b → a = b) (ord : List SVal → List SVal) (hord : ∀ l v, v ∈ ord l ↔ v ∈ l) (ps : Nat) (hps : 0 < ps)
    (cmp : κ → SVal → SVal → Bool) (all : Bool) (t : Tbl ν SVal) (n : Nat) (hrect : Rect t n) (mapping : List (ν × Bool)) (hne : mapping ≠ []) (hk : ∀ k ∈ mapping, k.1 ∈ t.map (·.1))
    (hx : ExcelOk t n mapping) (es : List (FExpr ν SVal κ)) (he : ∃ e ∈ es, ∃ x, e.left = .col x ∨ e.right = .col x)
    (hcols : ∀ e ∈ es, ∀ x, e.left = .col x ∨ e.right = .col x → x ∈ t.map (·.1)) :
    ∃ s p f p' f' q r, tblSort (excelRank key ord) ps .none t mapping = .ok s ∧ tblFilter .none cmp ps all s es = .ok (p, f) ∧
      tblFilter .none cmp ps all t es = .ok (p', f') ∧ tblSort (excelRank key ord) ps .none p' mapping = .ok q ∧ tblSort (excelRank key ord) ps .none f' mapping = .ok r ∧
      tview p = tview q ∧ tview f = tview r := by
  have htne : t ≠ [] := by
    rintro rfl
    cases mapping with
    | nil => exact hne rfl
    | cons k _ => simpa using hk k (by simp)
  obtain ⟨idx, s, s1, s2, s3, s4⟩ := excelSort_ok key ord hord ps hps t n hrect mapping hne hk hx
  have hlen : idx.length = n := by simpa using s2.length_eq
  have hn : ∀ i ∈ idx, i < n := fun i hi => List.mem_range.1 (s2.subset hi)
  have hcs : ∀ e ∈ es, ∀ x, e.left = .col x ∨ e.right = .col x → x ∈ s.map (·.1) := by rw [names_view s3]; exact hcols
  obtain ⟨p, f, f1, f2, f3⟩ := C29_filter_partial .none cmp ps hps all s idx.length (rect_view s3) (ne_nil_view s3 htne) es he hcs
  obtain ⟨p', f', g1, g2, g3⟩ := C29_filter_partial .none cmp ps hps all t n hrect htne es he hcols
  have sub : ∀ (P : Nat → Bool), ∀ i ∈ (List.range n).filter P, i < n := fun P i hi => List.mem_range.1 (List.mem_filter.1 hi).1
  obtain ⟨jp, q, q1, q2, q3, q4⟩ := excelSort_ok key ord hord ps hps p' _ (rect_view g2) mapping hne (by rw [names_view g2]; exact hk) (hx.view g2 (sub _))
  obtain ⟨jf, r, r1, r2, r3, r4⟩ := excelSort_ok key ord hord ps hps f' _ (rect_view g3) mapping hne (by rw [names_view g3]; exact hk) (hx.view g3 (sub _))
  refine ⟨s, p, f, p', f', q, r, s1, f1, g1, q1, r1, ?_, ?_⟩
  · rw [sort_selected hkey hx s2 s4 _ g2 q2 q3 q4, f2, rowsOf_view s3 _ (fun i hi => List.mem_range.1 (List.mem_filter.1 hi).1)]
    congr 1
    exact filter_map_congr idx _ _ fun i hi => rowHolds_view s3 cmp all es i hi
  · rw [sort_selected hkey hx s2 s4 _ g3 r2 r3 r4, f3, rowsOf_view s3 _ (fun i hi => List.mem_range.1 (List.mem_filter.1 hi).1)]
    congr 1
    exact filter_map_congr idx (fun i => !rowHolds .none cmp all es t i) _ fun i hi => congrArg (!·) (rowHolds_view s3 cmp all es i hi)

/-- **C110** sorting by some columns and then by others is sorting by the others first -/
theorem C110_sort_sort (key : String → K) (hkey : ∀ a b, key a = key b → a = b) (ord : List SVal → List SVal) (hord : ∀ l v, v ∈ ord l ↔ v ∈ l) (ps : Nat) (hps : 0 < ps)
    (t : Tbl ν SVal) (n : Nat) (hrect : Rect t n) (ks ls : List (ν × Bool)) (hks : ks ≠ []) (hls : ls ≠ []) (hk : ∀ k ∈ ks ++ ls, k.1 ∈ t.map (·.1)) (hx : ExcelOk t n (ks ++ ls)) :
    ∃ s u v, tblSort (excelRank key ord) ps .none t ls = .ok s ∧ tblSort (excelRank key ord) ps .none s ks = .ok u ∧
      tblSort (excelRank key ord) ps .none t (ks ++ ls) = .ok v ∧ tview u = tview v := by
  obtain ⟨idx, s, s1, s2, s3, s4⟩ := excelSort_ok key ord hord ps hps t n hrect ls hls (fun k h => hk k (by simp [h])) (fun k h => hx k (by simp [h]))
  have hn : ∀ i ∈ idx, i < n := fun i hi => List.mem_range.1 (s2.subset hi)
  have hx1 : ExcelOk t n ks := fun k h => hx k (by simp [h])
  obtain ⟨jdx, u, u1, u2, u3, u4⟩ := excelSort_ok key ord hord ps hps s _ (rect_view s3) ks hks (by rw [names_view s3]; exact fun k h => hk k (by simp [h])) (hx1.view s3 hn)
  obtain ⟨kdx, v, v1, v2, v3, v4⟩ := excelSort_ok key ord hord ps hps t n hrect (ks ++ ls) (by simp [hks]) hk hx
  have hlt : ∀ i ∈ jdx, i < idx.length := fun i hi => List.mem_range.1 (u2.subset hi)
  refine ⟨s, u, v, s1, u1, v1, ?_⟩
  rw [u3, v3, rowsOf_view s3 jdx hlt]
  congr 1
  exact sorted_unique (hx.order hkey) (pairwise_view s3 ls ks s4 hlt u4) v4 ((perm_view u2).trans (s2.trans v2.symm)) fun i hi => hn i ((perm_view u2).subset hi)

/-- **C110** a sorted table is sorted, and sorting it again changes nothing -/
theorem C110_sort_again (key : String → K) (hkey : ∀ a b, key a = key b → a = b) (ord : List SVal → List SVal) (hord : ∀ l v, v ∈ ord l ↔ v ∈ l) (ps : Nat) (hps : 0 < ps)
    (t : Tbl ν SVal) (n : Nat) (hrect : Rect t n) (mapping : List (ν × Bool)) (hne : mapping ≠ []) (hk : ∀ k ∈ mapping, k.1 ∈ t.map (·.1)) (hx : ExcelOk t n mapping) :
    ∃ s u, tblSort (excelRank key ord) ps .none t mapping = .ok s ∧ tblIsSorted (excelRank key ord) s mapping = .ok true ∧
      tblSort (excelRank key ord) ps .none s mapping = .ok u ∧ tview u = tview s := by
  obtain ⟨idx, s, s1, s2, s3, s4⟩ := excelSort_ok key ord hord ps hps t n hrect mapping hne hk hx
  have hn : ∀ i ∈ idx, i < n := fun i hi => List.mem_range.1 (s2.subset hi)
  have hxs := hx.view s3 hn
  have hks : ∀ k ∈ mapping, k.1 ∈ s.map (·.1) := by rw [names_view s3]; exact hk
  have hord' : ∀ i j, i < j → j < idx.length → InOrder SVal.same (excelLt key) .none s i j mapping := by
    intro i j hij hj
    apply InOrder.of_view s3 mapping hij hj
    simp only [List.getD_eq_getElem?_getD, List.getElem?_eq_getElem (hij.trans hj), List.getElem?_eq_getElem hj, Option.getD_some]
    exact List.pairwise_iff_getElem.1 s4 i j (hij.trans hj) hj hij
  obtain ⟨b, b1, b2⟩ := C32_is_sorted key hkey ord hord s idx.length (rect_view s3) mapping hne hks (fun k hk i hi j hj => (hxs k hk i hi j hj).1) (fun k hk i hi j hj => (hxs k hk i hi j hj).2)
  obtain ⟨jdx, u, u1, u2, u3, u4⟩ := excelSort_ok key ord hord ps hps s _ (rect_view s3) mapping hne hks hxs
  rw [b2.2 hord'] at b1
  refine ⟨s, u, s1, b1, u1, ?_⟩
  have hr : (List.range idx.length).Pairwise fun i j => InOrder SVal.same (excelLt key) .none s i j mapping := by
    refine List.pairwise_lt_range.imp_of_mem ?_
    intro i j _ hj hij
    exact hord' i j hij (List.mem_range.1 hj)
  rw [u3, sorted_unique (hxs.order hkey) u4 hr u2 (fun i hi => List.mem_range.1 (u2.subset hi)), rowsOf_all _ _ _ (rect_view s3)]

/-! ## filters -/

section
variable {α : Type}

theorem filter_view_rows {nul : α} {t u : Tbl ν α} {n : Nat} {P : Nat → Bool} (hu : tview u = rowsOf nul t ((List.range n).filter P)) (Q R : Nat → Bool)
    (hQ : ∀ i < ((List.range n).filter P).length, R i = Q (((List.range n).filter P).getD i 0)) :
    rowsOf nul u ((List.range ((List.range n).filter P).length).filter R) = rowsOf nul t ((List.range n).filter fun i => P i && Q i) := by
  rw [rowsOf_view hu _ (fun i hi => List.mem_range.1 (List.mem_filter.1 hi).1)]
  congr 1
  rw [filter_map_congr _ Q R hQ, List.filter_filter]
  congr 1
  funext i
  exact Bool.and_comm _ _

/-- **C110** a filter of the rows that pass a filter: the rows that pass both, and of those that pass the first the rows that fail the second -/
theorem C110_filter_filter (nul : α) (cmp : κ → α → α → Bool) (ps : Nat) (hps : 0 < ps) (a b : Bool) (t : Tbl ν α) (n : Nat) (ht : Rect t n) (hne : t ≠ []) (es fs : List (FExpr ν α κ))
    (he : ∃ e ∈ es, ∃ x, e.left = .col x ∨ e.right = .col x) (hce : ∀ e ∈ es, ∀ x, e.left = .col x ∨ e.right = .col x → x ∈ t.map (·.1))
    (hf : ∃ e ∈ fs, ∃ x, e.left = .col x ∨ e.right = .col x) (hcf : ∀ e ∈ fs, ∀ x, e.left = .col x ∨ e.right = .col x → x ∈ t.map (·.1)) :
    ∃ p f p' f', tblFilter nul cmp ps a t es = .ok (p, f) ∧ tblFilter nul cmp ps b p fs = .ok (p', f') ∧
      tview p' = rowsOf nul t ((List.range n).filter fun i => rowHolds nul cmp a es t i && rowHolds nul cmp b fs t i) ∧
      tview f' = rowsOf nul t ((List.range n).filter fun i => rowHolds nul cmp a es t i && !rowHolds nul cmp b fs t i) := by
  obtain ⟨p, f, h1, h2, -⟩ := C29_filter_partial nul cmp ps hps a t n ht hne es he hce
  obtain ⟨p', f', g1, g2, g3⟩ := C29_filter_partial nul cmp ps hps b p _ (rect_view h2) (ne_nil_view h2 hne) fs hf (by rw [names_view h2]; exact hcf)
  refine ⟨p, f, p', f', h1, g1, ?_, ?_⟩
  · rw [g2]
    exact filter_view_rows h2 _ _ fun i hi => rowHolds_view h2 cmp b fs i hi
  · rw [g3]
    exact filter_view_rows h2 (fun i => !rowHolds nul cmp b fs t i) _ fun i hi => congrArg (!·) (rowHolds_view h2 cmp b fs i hi)

/-- **C110** filtering for all of some conditions and then for all of others is filtering for all of both, and the order does not matter -/
theorem C110_filter_all (nul : α) (cmp : κ → α → α → Bool) (ps : Nat) (hps : 0 < ps) (t : Tbl ν α) (n : Nat) (ht : Rect t n) (hne : t ≠ []) (es fs : List (FExpr ν α κ))
    (he : ∃ e ∈ es, ∃ x, e.left = .col x ∨ e.right = .col x) (hce : ∀ e ∈ es, ∀ x, e.left = .col x ∨ e.right = .col x → x ∈ t.map (·.1))
    (hf : ∃ e ∈ fs, ∃ x, e.left = .col x ∨ e.right = .col x) (hcf : ∀ e ∈ fs, ∀ x, e.left = .col x ∨ e.right = .col x → x ∈ t.map (·.1)) :
    ∃ p f p' f' q r q' r' z y, tblFilter nul cmp ps true t es = .ok (p, f) ∧ tblFilter nul cmp ps true p fs = .ok (p', f') ∧ tblFilter nul cmp ps true t fs = .ok (q, r) ∧
      tblFilter nul cmp ps true q es = .ok (q', r') ∧ tblFilter nul cmp ps true t (es ++ fs) = .ok (z, y) ∧ tview p' = tview z ∧ tview q' = tview z := by
  obtain ⟨p, f, p', f', h1, h2, h3, -⟩ := C110_filter_filter nul cmp ps hps true true t n ht hne es fs he hce hf hcf
  obtain ⟨q, r, q', r', g1, g2, g3, -⟩ := C110_filter_filter nul cmp ps hps true true t n ht hne fs es hf hcf he hce
  obtain ⟨z, y, k1, k2, -⟩ := C29_filter_partial nul cmp ps hps true t n ht hne (es ++ fs) (by obtain ⟨e, m, h⟩ := he; exact ⟨e, by simp [m], h⟩)
    (by intro e m; rcases List.mem_append.1 m with m | m; exacts [hce e m, hcf e m])
  refine ⟨p, f, p', f', q, r, q', r', z, y, h1, h2, g1, g2, k1, ?_, ?_⟩
  · rw [h3, k2]
    congr 2
    funext i
    simp [rowHolds]
  · rw [g3, k2]
    congr 2
    funext i
    simp [rowHolds, Bool.and_comm]

/-- **C110** what fails a filter for any of some conditions and then one for any of others fails a filter for any of both -/
theorem C110_filter_any (nul : α) (cmp : κ → α → α → Bool) (ps : Nat) (hps : 0 < ps) (t : Tbl ν α) (n : Nat) (ht : Rect t n) (hne : t ≠ []) (es fs : List (FExpr ν α κ))
    (he : ∃ e ∈ es, ∃ x, e.left = .col x ∨ e.right = .col x) (hce : ∀ e ∈ es, ∀ x, e.left = .col x ∨ e.right = .col x → x ∈ t.map (·.1))
    (hf : ∃ e ∈ fs, ∃ x, e.left = .col x ∨ e.right = .col x) (hcf : ∀ e ∈ fs, ∀ x, e.left = .col x ∨ e.right = .col x → x ∈ t.map (·.1)) :
    ∃ p f p' f' z y, tblFilter nul cmp ps false t es = .ok (p, f) ∧ tblFilter nul cmp ps false f fs = .ok (p', f') ∧ tblFilter nul cmp ps false t (es ++ fs) = .ok (z, y) ∧ tview f' = tview y := by
  obtain ⟨p, f, h1, -, h2⟩ := C29_filter_partial nul cmp ps hps false t n ht hne es he hce
  obtain ⟨p', f', g1, -, g3⟩ := C29_filter_partial nul cmp ps hps false f _ (rect_view h2) (ne_nil_view h2 hne) fs hf (by rw [names_view h2]; exact hcf)
  obtain ⟨z, y, k1, -, k2⟩ := C29_filter_partial nul cmp ps hps false t n ht hne (es ++ fs) (by obtain ⟨e, m, h⟩ := he; exact ⟨e, by simp [m], h⟩)
    (by intro e m; rcases List.mem_append.1 m with m | m; exacts [hce e m, hcf e m])
  refine ⟨p, f, p', f', z, y, h1, g1, k1, ?_⟩
  rw [g3, k2, filter_view_rows h2 (fun i => !rowHolds nul cmp false fs t i) _ fun i hi => congrArg (!·) (rowHolds_view h2 cmp false fs i hi)]
  congr 2
  funext i
  simp [rowHolds]

/-! ## duplicates -/

/-- row `i` as a list of values -/
def rowAt (nul : α) (t : Tbl ν α) (i : Nat) : List α := t.map fun c => (colIter c.2).getD i nul

/-- no earlier row equals row `i` -/
def isFirst [DecidableEq α] (nul : α) (t : Tbl ν α) (i : Nat) : Bool := (List.range i).all fun j => decide (rowAt nul t j ≠ rowAt nul t i)

theorem rowAt_cells (nul : α) (t : Tbl ν α) (hwf : TblWF t) (i : Nat) : (t.map (·.1)).map (fun a => cell nul t a i) = rowAt nul t i := by
  unfold rowAt
  rw [List.map_map]
  apply List.map_congr_left
  intro c hc
  simp only [Function.comp, cell]
  rw [dGet_of_mem t hwf c hc]
  rfl

/-- removing duplicates keeps the rows that equal no earlier row -/
theorem dropDup_view {η : Type} [DecidableEq η] [DecidableEq α] (hash : List α → η) (ps : Nat) (hps : 0 < ps) (nul : α) (t : Tbl ν α) (n : Nat) (hwf : TblWF t) (hr : Rect t n) (hne : t ≠ [])
    (hinj : ∀ i < n, ∀ j < n, hash (rowAt nul t i) = hash (rowAt nul t j) → rowAt nul t i = rowAt nul t j) :
    ∃ t', dropDuplicates hash ps nul t [] = .ok t' ∧ tview t' = rowsOf nul t ((List.range n).filter (isFirst nul t)) := by
  have hnames : t.map (·.1) ≠ [] := by simpa using hne
  obtain ⟨out, o1, o2, o3⟩ := C20_unique_index_partial hash nul t n hr (t.map (·.1)) hnames (fun a ha => ha) (by
    intro a ha b hb hab
    obtain ⟨i, hi, rfl⟩ := List.mem_map.1 ha
    obtain ⟨j, hj, rfl⟩ := List.mem_map.1 hb
    rw [rowAt_cells nul t hwf, rowAt_cells nul t hwf] at hab ⊢
    exact hinj i (List.mem_range.1 hi) j (List.mem_range.1 hj) hab)
  have ho : out = (List.range n).filter (isFirst nul t) := by
    refine List.Perm.eq_of_pairwise (le := (· < ·)) (fun a b _ _ h1 h2 => by omega) o2 (range_filter_lt n _) ?_
    rw [List.perm_ext_iff_of_nodup (o2.imp fun h => by omega) ((range_filter_lt n _).imp fun h => by omega)]
    intro i
    rw [o3, List.mem_filter, List.mem_range]
    simp only [rowAt_cells nul t hwf, isFirst, List.all_eq_true, List.mem_range, decide_eq_true_eq]
  have hlt : ∀ i ∈ out, i < n := fun i hi => ((o3 i).1 hi).1
  obtain ⟨t', h1, h2⟩ := C62_reindex_partial ps hps nul t (out.map fun (m : Nat) => (m : Int)) (by
    intro c hc i hi
    obtain ⟨m, hm, rfl⟩ := List.mem_map.1 hi
    right
    rw [hr c hc]
    exact ⟨by omega, by exact_mod_cast hlt m hm⟩) (by
    intro h
    obtain ⟨m, -, e⟩ := List.mem_map.1 h
    omega)
  refine ⟨t', ?_, ?_⟩
  · unfold dropDuplicates
    rw [if_pos rfl, o1]
    exact h1
  · rw [h2, ← ho]
    unfold rowsOf
    apply List.map_congr_left
    intro c _
    rw [List.map_map, Prod.mk.injEq]
    refine ⟨rfl, List.map_congr_left fun m _ => ?_⟩
    simp only [Function.comp, pick]
    rw [if_neg (by omega), Int.toNat_natCast]

theorem rowAt_view {nul : α} {t t' : Tbl ν α} {idx : List Nat} (h : tview t' = rowsOf nul t idx) (i : Nat) (hi : i < idx.length) : rowAt nul t' i = rowAt nul t (idx.getD i 0) := by
  have e : ∀ (u : Tbl ν α) (i : Nat), rowAt nul u i = (tview u).map fun c => c.2.getD i nul := by
    intro u i
    unfold rowAt tview
    rw [List.map_map]
    rfl
  rw [e, h, rowsOf_tview, e, List.map_map]
  apply List.map_congr_left
  intro c _
  simp [List.getD_eq_getElem?_getD, List.getElem?_eq_getElem hi]

theorem range_filter_rows (n : Nat) (p : Nat → Bool) (R : Nat → Nat → Prop) : ((List.range n).filter p).Pairwise fun a b => R a b → a < b := by
  refine (range_filter_lt n p).imp ?_
  intro a b h _
  exact h

/-- equal rows have equal values in every column -/
theorem cell_rowAt {nul : α} {t : Tbl ν α} {i j : Nat} (h : rowAt nul t i = rowAt nul t j) (a : ν) : cell nul t a i = cell nul t a j := by
  unfold cell
  cases hg : dGet a t with
  | none => rfl
  | some c =>
    have hm := dGet_some_mem a t c hg
    exact List.map_inj_left.1 h _ hm

/-- rows taken in such a way that equal rows are taken together and stay in order: the first ones are those that were first before -/
theorem isFirst_view [DecidableEq α] {nul : α} {t t' : Tbl ν α} {idx : List Nat} {n : Nat} (h : tview t' = rowsOf nul t idx) (hn : ∀ i ∈ idx, i < n)
    (hc : ∀ a < n, ∀ b ∈ idx, rowAt nul t a = rowAt nul t b → a < b → a ∈ idx) (hp : idx.Pairwise fun a b => rowAt nul t a = rowAt nul t b → a < b)
    (i : Nat) (hi : i < idx.length) : isFirst nul t' i = isFirst nul t (idx.getD i 0) := by
  have hget : ∀ j (hj : j < idx.length), idx.getD j 0 = idx[j] := fun j hj => by rw [List.getD_eq_getElem?_getD, List.getElem?_eq_getElem hj]; rfl
  have hpw := List.pairwise_iff_getElem.1 hp
  rw [Bool.eq_iff_iff]
  simp only [isFirst, List.all_eq_true, List.mem_range, decide_eq_true_eq]
  rw [rowAt_view h i hi, hget i hi]
  constructor
  · intro hf a ha e
    have hb := List.getElem_mem hi
    obtain ⟨k, hk, rfl⟩ := List.mem_iff_getElem.1 (hc a (ha.trans (hn _ hb)) _ hb e ha)
    rcases Nat.lt_trichotomy k i with hki | hki | hki
    · apply hf k hki
      rw [rowAt_view h k hk, hget k hk]
      exact e
    · subst hki; omega
    · have := hpw i k hi hk hki e.symm
      omega
  · intro hf j hj e
    have hjl := hj.trans hi
    rw [rowAt_view h j hjl, hget j hjl] at e
    exact hf _ (hpw j i hjl hi hj e) e

theorem wf_view {nul : α} {t t' : Tbl ν α} {idx : List Nat} (h : tview t' = rowsOf nul t idx) (hwf : TblWF t) : TblWF t' := by
  unfold TblWF
  rw [names_view h]
  exact hwf

theorem hash_view {η : Type} (hash : List α → η) {nul : α} {t t' : Tbl ν α} {idx : List Nat} {n : Nat} (h : tview t' = rowsOf nul t idx) (hn : ∀ i ∈ idx, i < n)
    (hinj : ∀ i < n, ∀ j < n, hash (rowAt nul t i) = hash (rowAt nul t j) → rowAt nul t i = rowAt nul t j) :
    ∀ i < idx.length, ∀ j < idx.length, hash (rowAt nul t' i) = hash (rowAt nul t' j) → rowAt nul t' i = rowAt nul t' j := by
  intro i hi j hj
  rw [rowAt_view h i hi, rowAt_view h j hj]
  have : ∀ i, i < idx.length → idx.getD i 0 < n := by
    intro i hi
    rw [List.getD_eq_getElem?_getD, List.getElem?_eq_getElem hi]
    exact hn _ (List.getElem_mem hi)
  exact hinj _ (this i hi) _ (this j hj)

theorem mem_first [DecidableEq α] {nul : α} {t : Tbl ν α} {n b : Nat} (h : b ∈ (List.range n).filter (isFirst nul t)) : b < n ∧ ∀ a < b, rowAt nul t a ≠ rowAt nul t b := by
  obtain ⟨h1, h2⟩ := List.mem_filter.1 h
  simp only [isFirst, List.all_eq_true, List.mem_range, decide_eq_true_eq] at h2
  exact ⟨List.mem_range.1 h1, h2⟩

/-- **C110** removing duplicates again changes nothing -/
theorem C110_drop_drop {η : Type} [DecidableEq η] [DecidableEq α] (hash : List α → η) (ps : Nat) (hps : 0 < ps) (nul : α) (t : Tbl ν α) (n : Nat) (hwf : TblWF t) (hr : Rect t n) (hne : t ≠ [])
    (hinj : ∀ i < n, ∀ j < n, hash (rowAt nul t i) = hash (rowAt nul t j) → rowAt nul t i = rowAt nul t j) :
    ∃ d e, dropDuplicates hash ps nul t [] = .ok d ∧ dropDuplicates hash ps nul d [] = .ok e ∧ tview e = tview d := by
  obtain ⟨d, d1, d2⟩ := dropDup_view hash ps hps nul t n hwf hr hne hinj
  have hn : ∀ i ∈ (List.range n).filter (isFirst nul t), i < n := fun i hi => (mem_first hi).1
  obtain ⟨e, e1, e2⟩ := dropDup_view hash ps hps nul d _ (wf_view d2 hwf) (rect_view d2) (ne_nil_view d2 hne) (hash_view hash d2 hn hinj)
  refine ⟨d, e, d1, e1, ?_⟩
  rw [e2, rowsOf_view d2 _ (fun i hi => List.mem_range.1 (List.mem_filter.1 hi).1),
    filter_map_congr _ (isFirst nul t) _ (isFirst_view d2 hn (fun a _ b hb e hab => absurd e ((mem_first hb).2 a hab)) (range_filter_rows n _ _)), List.filter_filter, d2]
  simp

/-- **C110** removing duplicates and filtering in either order give the same tables -/
theorem C110_drop_filter {η : Type} [DecidableEq η] [DecidableEq α] (hash : List α → η) (ps : Nat) (hps : 0 < ps) (nul : α) (cmp : κ → α → α → Bool) (all : Bool) (t : Tbl ν α) (n : Nat)
    (hwf : TblWF t) (hr : Rect t n) (hne : t ≠ []) (hinj : ∀ i < n, ∀ j < n, hash (rowAt nul t i) = hash (rowAt nul t j) → rowAt nul t i = rowAt nul t j)
    (es : List (FExpr ν α κ)) (he : ∃ e ∈ es, ∃ x, e.left = .col x ∨ e.right = .col x) (hcols : ∀ e ∈ es, ∀ x, e.left = .col x ∨ e.right = .col x → x ∈ t.map (·.1)) :
    ∃ d p f p' f' q r, dropDuplicates hash ps nul t [] = .ok d ∧ tblFilter nul cmp ps all d es = .ok (p, f) ∧ tblFilter nul cmp ps all t es = .ok (p', f') ∧
      dropDuplicates hash ps nul p' [] = .ok q ∧ dropDuplicates hash ps nul f' [] = .ok r ∧ tview p = tview q ∧ tview f = tview r := by
  obtain ⟨d, d1, d2⟩ := dropDup_view hash ps hps nul t n hwf hr hne hinj
  have hn : ∀ (P : Nat → Bool), ∀ i ∈ (List.range n).filter P, i < n := fun P i hi => List.mem_range.1 (List.mem_filter.1 hi).1
  obtain ⟨p, f, f1, f2, f3⟩ := C29_filter_partial nul cmp ps hps all d _ (rect_view d2) (ne_nil_view d2 hne) es he (by rw [names_view d2]; exact hcols)
  obtain ⟨p', f', g1, g2, g3⟩ := C29_filter_partial nul cmp ps hps all t n hr hne es he hcols
  have hsame : ∀ a b, rowAt nul t a = rowAt nul t b → rowHolds nul cmp all es t a = rowHolds nul cmp all es t b := by
    intro a b h
    have hv : ∀ o : FOperand ν α, fVal nul t a o = fVal nul t b o := by
      intro o
      cases o with
      | col x => exact cell_rowAt h x
      | val v => rfl
    unfold rowHolds
    simp only [hv]
  have key : ∀ (P : Nat → Bool) (u v : Tbl ν α), (∀ a b, rowAt nul t a = rowAt nul t b → P a = P b) → tview u = rowsOf nul t ((List.range n).filter P) →
      ∀ (R : Nat → Bool), (∀ i < ((List.range n).filter (isFirst nul t)).length, R i = P (((List.range n).filter (isFirst nul t)).getD i 0)) →
      tview v = rowsOf nul d ((List.range ((List.range n).filter (isFirst nul t)).length).filter R) → ∃ w, dropDuplicates hash ps nul u [] = .ok w ∧ tview v = tview w := by
    intro P u v hP hu R hR hv
    obtain ⟨w, w1, w2⟩ := dropDup_view hash ps hps nul u _ (wf_view hu hwf) (rect_view hu) (ne_nil_view hu hne) (hash_view hash hu (hn P) hinj)
    refine ⟨w, w1, ?_⟩
    rw [hv, w2, rowsOf_view d2 _ (fun i hi => List.mem_range.1 (List.mem_filter.1 hi).1), filter_map_congr _ P R hR,
      rowsOf_view hu _ (fun i hi => List.mem_range.1 (List.mem_filter.1 hi).1),
      filter_map_congr _ (isFirst nul t) _ (isFirst_view hu (hn P) ?_ (range_filter_rows n P _)), List.filter_filter, List.filter_filter]
    · congr 2
      funext i
      exact Bool.and_comm _ _
    · intro a ha b hb e _
      rw [List.mem_filter] at hb ⊢
      exact ⟨List.mem_range.2 ha, by rw [hP a b e]; exact hb.2⟩
  obtain ⟨q, q1, q2⟩ := key _ p' p hsame g2 _ (fun i hi => rowHolds_view d2 cmp all es i hi) f2
  obtain ⟨r, r1, r2⟩ := key (fun i => !rowHolds nul cmp all es t i) f' f (fun a b h => congrArg (!·) (hsame a b h)) g3 _ (fun i hi => congrArg (!·) (rowHolds_view d2 cmp all es i hi)) f3
  exact ⟨d, p, f, p', f', q, r, d1, f1, g1, q1, r1, q2, r2⟩

end

theorem SVal.same_refl (a : SVal) : a.same a = true := by
  cases a <;> simp [SVal.same, SVal.pyEq, tyComparable]

theorem inOrder_equal {lt : SVal → SVal → Bool} {t : Tbl ν SVal} {a b : Nat} (e : rowAt .none t a = rowAt .none t b) (mapping : List (ν × Bool))
    (h : InOrder SVal.same lt .none t a b mapping) : a < b := by
  induction mapping with
  | nil => exact h
  | cons k ks ih =>
    obtain ⟨x, rev⟩ := k
    unfold InOrder at h
    rw [cell_rowAt e x, if_pos (SVal.same_refl _)] at h
    exact ih h

/-- **C110** removing duplicates and sorting in either order give the same table -/
theorem C110_drop_sort {η : Type} [DecidableEq η] (hash : List SVal → η) (key : String → K) (hkey : ∀ a b, key a = key b → a = b) (ord : List SVal → List SVal)
    (hord : ∀ l v, v ∈ ord l ↔ v ∈ l) (ps : Nat) (hps : 0 < ps) (t : Tbl ν SVal) (n : Nat) (hwf : TblWF t) (hrect : Rect t n) (mapping : List (ν × Bool)) (hne : mapping ≠ [])
    (hk : ∀ k ∈ mapping, k.1 ∈ t.map (·.1)) (hx : ExcelOk t n mapping) (hinj : ∀ i < n, ∀ j < n, hash (rowAt .none t i) = hash (rowAt .none t j) → rowAt .none t i = rowAt .none t j) :
    ∃ s d e u, tblSort (excelRank key ord) ps .none t mapping = .ok s ∧ dropDuplicates hash ps .none s [] = .ok d ∧ dropDuplicates hash ps .none t [] = .ok e ∧
      tblSort (excelRank key ord) ps .none e mapping = .ok u ∧ tview d = tview u := by
  have htne : t ≠ [] := by
    rintro rfl
    cases mapping with
    | nil => exact hne rfl
    | cons k _ => simpa using hk k (by simp)
  obtain ⟨idx, s, s1, s2, s3, s4⟩ := excelSort_ok key ord hord ps hps t n hrect mapping hne hk hx
  have hn : ∀ i ∈ idx, i < n := fun i hi => List.mem_range.1 (s2.subset hi)
  obtain ⟨d, d1, d2⟩ := dropDup_view hash ps hps .none s _ (wf_view s3 hwf) (rect_view s3) (ne_nil_view s3 htne) (hash_view hash s3 hn hinj)
  obtain ⟨e, e1, e2⟩ := dropDup_view hash ps hps .none t n hwf hrect htne hinj
  obtain ⟨jdx, u, u1, u2, u3, u4⟩ := excelSort_ok key ord hord ps hps e _ (rect_view e2) mapping hne (by rw [names_view e2]; exact hk) (hx.view e2 fun i hi => (mem_first hi).1)
  refine ⟨s, d, e, u, s1, d1, e1, u1, ?_⟩
  rw [sort_selected hkey hx s2 s4 _ e2 u2 u3 u4, d2, rowsOf_view s3 _ (fun i hi => List.mem_range.1 (List.mem_filter.1 hi).1)]
  congr 1
  refine filter_map_congr idx _ _ (isFirst_view s3 hn (fun a ha b _ _ _ => s2.mem_iff.2 (List.mem_range.2 ha)) (s4.imp ?_))
  exact fun hab e => inOrder_equal e mapping hab

/-- an example: two pages, equal rows, texts and numbers -/
def lawTable : Tbl String SVal :=
  [("a", [[.num .int 2 2, .str "x"], [.num .int 2 2, .num .float 1 1]]), ("b", [[.bool true, .none], [.bool true, .none]])]

example : Rect lawTable 4 ∧ TblWF lawTable ∧ ExcelOk lawTable 4 [("a", true), ("b", false)] ∧ (∀ k ∈ [("a", true), ("b", false)], k.1 ∈ lawTable.map (·.1)) :=
  ⟨by unfold Rect; decide, by unfold TblWF; decide, by unfold ExcelOk; decide +kernel, by decide⟩

example : (∃ e ∈ [(⟨.col "a", (), .val .none⟩ : FExpr String SVal Unit)], ∃ x, e.left = .col x ∨ e.right = .col x) ∧
    ∀ i < 4, ∀ j < 4, id (rowAt .none lawTable i) = id (rowAt .none lawTable j) → rowAt .none lawTable i = rowAt .none lawTable j :=
  ⟨⟨_, List.mem_singleton.2 rfl, "a", Or.inl rfl⟩, fun _ _ _ _ h => h⟩

/-- in the example each step changes the table -/
example : (List.range 4).filter (isFirst .none lawTable) = [0, 1, 3] := by decide +kernel

end

end Tablite
