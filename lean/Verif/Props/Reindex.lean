import Verif.Props.TableOps
/-!
# C20 duplicate removal, C62 reindex, C63 where
-/

namespace Tablite

set_option linter.unusedSectionVars false

section
variable {ν α : Type} [DecidableEq ν]

/-! ## C62 reindex -/

theorem foldlM_extend {β : Type} (ps : Nat) (hps : 0 < ps) (steps : List β) (f : β → Except Err (List α)) (g : β → List α)
    (h : ∀ s ∈ steps, f s = .ok (g s)) (init : Pages α) :
    ∃ q, steps.foldlM (fun new s => do let v ← f s; Except.ok (extend ps new v)) init = .ok q ∧ colIter q = colIter init ++ (steps.map g).flatten := by
  induction steps generalizing init with
  | nil => exact ⟨init, rfl, by simp⟩
  | cons a t ih =>
    obtain ⟨q, h1, h2⟩ := ih (fun s hs => h s (by simp [hs])) (extend ps init (g a))
    refine ⟨q, ?_, ?_⟩
    · rw [List.foldlM_cons, h a (by simp)]
      exact h1
    · rw [h2, colIter_extend ps hps]
      simp

theorem zipWith_map_none {β : Type} (f : Int → Option β → Option β) (idx : List Int) :
    List.zipWith f idx (idx.map fun _ => none) = idx.map fun i => f i none := by
  induction idx with
  | nil => rfl
  | cons i t ih => rw [List.map_cons, List.zipWith_cons_cons, ih, List.map_cons]

/-- what row number `i` should read: None for -1, otherwise the value of that row (spec vocabulary) -/
def pick (nul : α) (l : List α) (i : Int) : α := if i = -1 then nul else l.getD i.toNat nul

theorem getByIndices_ok (pages : Pages α) (idx : List Int) (hne : -1 ∈ idx → ∀ p ∈ pages, p ≠ []) :
    getByIndices pages idx = .ok (idx.map fun i => slotVal 0 pages.flatten i none) := by
  unfold getByIndices
  rw [gatherLoop_eq idx 0 (by omega) pages _ (by simp) hne, zipWith_map_none]

theorem slotVal_getD (nul : α) (l : List α) (i : Int) (h : 0 ≤ i ∧ i < l.length) : (slotVal 0 l i none).getD nul = pick nul l i := by
  unfold slotVal pick
  have h1 : ¬ i = -1 := by omega
  have h2 : (0 ≤ i ∧ i < 0 + (l.length : Int)) := by omega
  simp only [h1, h2, if_false, if_true, and_self]
  rw [getI?_of_nonneg _ (by omega)]
  simp [List.getD_eq_getElem?_getD]

theorem stretch_self {β : Type} (l : List β) : stretch l l.length = l := by
  unfold stretch; simp

theorem npWhere_same (mask : List Bool) (x y : List α) (hx : x.length = mask.length) (hy : y.length = mask.length) :
    npWhere mask x y = .ok (List.zipWith (fun (m : Bool) (p : α × α) => if m then p.1 else p.2) mask (x.zip y)) := by
  unfold npWhere bcast
  simp only [hx, hy, if_true, bind, Except.bind]
  unfold stretch
  simp [hx, hy]

theorem zipWith_mask (nul : α) (chunk : List Int) (f : Int → α) :
    List.zipWith (fun (m : Bool) (p : α × α) => if m then p.1 else p.2) (chunk.map fun i => decide (i = -1))
      ((List.replicate chunk.length nul).zip (chunk.map f)) = chunk.map fun i => if i = -1 then nul else f i := by
  induction chunk with
  | nil => rfl
  | cons i t ih => simp [List.replicate_succ, ih]

theorem reindexChunk_ok (nul : α) (pages : Pages α) (total : Nat) (chunk : List Int)
    (hv : ∀ i ∈ chunk, i = -1 ∨ (0 ≤ i ∧ i < colLen pages)) (hne : -1 ∈ chunk → ∀ p ∈ pages, p ≠ [])
    (ht : -1 ∈ chunk → total = chunk.length) :
    reindexChunk nul pages total chunk = .ok (chunk.map (pick nul (colIter pages))) := by
  rw [colLen_eq] at hv
  unfold reindexChunk
  rw [getByIndices_ok pages chunk hne, colIter_eq]
  simp only [bind, Except.bind]
  split
  · rename_i h
    have hm : -1 ∈ chunk := by
      simp only [List.any_map, List.any_eq_true, Function.comp, id_eq, decide_eq_true_eq] at h
      obtain ⟨x, hx, rfl⟩ := h
      exact hx
    rw [ht hm, npWhere_same _ _ _ (by simp) (by simp), List.map_map, zipWith_mask]
    congr 1
    apply List.map_congr_left
    intro i hi
    rcases hv i hi with rfl | h
    · rfl
    · rw [if_neg (by omega)]
      exact slotVal_getD nul _ i h
  · rename_i h
    rw [List.map_map]
    congr 1
    apply List.map_congr_left
    intro i hi
    rcases hv i hi with rfl | h'
    · exfalso
      apply h
      simp only [List.any_map, List.any_eq_true, Function.comp, id_eq, decide_eq_true_eq]
      exact ⟨_, hi, rfl⟩
    · exact slotVal_getD nul _ i h'

theorem pageSteps_small (ps n : Nat) (h : n ≤ ps) : pageSteps ps n = [(0, n)] := by
  unfold pageSteps
  simp only [pageStepsLoop, Nat.zero_add]
  rw [Nat.min_eq_right h]
  simp

theorem reindexCol_ok (ps : Nat) (hps : 0 < ps) (nul : α) (pages : Pages α) (index : List Int)
    (hv : ∀ i ∈ index, i = -1 ∨ (0 ≤ i ∧ i < colLen pages))
    (hm : -1 ∈ index → index.length ≤ ps ∧ ∀ p ∈ pages, p ≠ []) :
    ∃ q, reindexCol ps nul pages index = .ok q ∧ colIter q = index.map (pick nul (colIter pages)) := by
  unfold reindexCol
  obtain ⟨q, h1, h2⟩ := foldlM_extend ps hps (pageSteps ps index.length)
    (fun se => reindexChunk nul pages index.length ((index.take se.2).drop se.1))
    (fun se => ((index.map (pick nul (colIter pages))).take se.2).drop se.1) (by
      intro se hse
      have hsub : ∀ i ∈ (index.take se.2).drop se.1, i ∈ index := fun i hi => List.mem_of_mem_take (List.mem_of_mem_drop hi)
      rw [reindexChunk_ok nul pages _ _ (fun i hi => hv i (hsub i hi)) (fun h => (hm (hsub _ h)).2) (by
        intro h
        have := (hm (hsub _ h)).1
        rw [pageSteps_small ps _ this, List.mem_singleton] at hse
        subst hse
        simp)]
      rw [List.map_drop, List.map_take]) []
  refine ⟨q, h1, ?_⟩
  rw [h2]
  have := pageSteps_slices ps hps (index.map (pick nul (colIter pages)))
  rw [List.length_map] at this
  rw [this]
  rfl

/-- C62 (partial): `t.reindex(index)` gives every column's values at the given rows in that order, None at -1, for every layout and page
size: for indices without -1 always, with -1 if the index fits one page and no page is empty.  Missing: -1 in an index longer than a page
(`C62_raises`, `C62_fails`). -/
theorem C62_reindex_partial (ps : Nat) (hps : 0 < ps) (nul : α) (t : Tbl ν α) (index : List Int)
    (hv : ∀ c ∈ t, ∀ i ∈ index, i = -1 ∨ (0 ≤ i ∧ i < colLen c.2))
    (hm : -1 ∈ index → index.length ≤ ps ∧ ∀ c ∈ t, ∀ p ∈ c.2, p ≠ []) :
    ∃ t', tblReindex ps nul t index = .ok t' ∧ tview t' = t.map fun c => (c.1, index.map (pick nul (colIter c.2))) := by
  unfold tblReindex
  induction t with
  | nil => exact ⟨[], rfl, rfl⟩
  | cons c u ih =>
    obtain ⟨t', h1, h2⟩ := ih (fun d hd => hv d (by simp [hd])) (fun h => ⟨(hm h).1, fun d hd => (hm h).2 d (by simp [hd])⟩)
    obtain ⟨q, q1, q2⟩ := reindexCol_ok ps hps nul c.2 index (hv c (by simp)) (fun h => ⟨(hm h).1, (hm h).2 c (by simp)⟩)
    refine ⟨(c.1, q) :: t', ?_, ?_⟩
    · rw [List.mapM_cons, q1, h1]; rfl
    · rw [List.map_cons, ← h2, ← q2]; rfl

theorem pageSteps_head (ps n : Nat) (h : ps < n) : ∃ rest, pageSteps ps n = (0, ps) :: rest := by
  unfold pageSteps
  refine ⟨if min (0 + ps) n = n then [] else pageStepsLoop ps n (n / ps) (min (0 + ps) n), ?_⟩
  rw [pageStepsLoop]
  simp only [Nat.zero_add]
  rw [Nat.min_eq_left (by omega)]

/-- C62 fails generally: with more than one page of row numbers (page size ≥ 2) and a -1 among the first page of them, `reindex` raises
ValueError, for every table with a column. -/
theorem C62_raises (ps : Nat) (hps : 1 < ps) (nul : α) (t : Tbl ν α) (hne : t ≠ []) (index : List Int) (hlen : ps < index.length)
    (hm : -1 ∈ index.take ps) (hp : ∀ c ∈ t, ∀ p ∈ c.2, p ≠ []) : tblReindex ps nul t index = .error .value := by
  unfold tblReindex
  apply mapM_error _ _ _ hne
  intro c hc
  obtain ⟨rest, hr⟩ := pageSteps_head ps index.length hlen
  have : reindexCol ps nul c.2 index = .error .value := by
    unfold reindexCol
    rw [hr, List.foldlM_cons]
    have : reindexChunk nul c.2 index.length ((index.take ps).drop 0) = .error .value := by
      unfold reindexChunk
      rw [List.drop_zero, getByIndices_ok _ _ (fun _ => hp c hc)]
      simp only [bind, Except.bind]
      rw [if_pos (by
        simp only [List.any_map, List.any_eq_true, Function.comp, id_eq, decide_eq_true_eq]
        exact ⟨_, hm, rfl⟩)]
      unfold npWhere bcast
      simp only [List.length_map, List.length_take, List.length_replicate]
      rw [Nat.min_eq_left (by omega), if_neg (by omega), if_neg (by omega), if_neg (by omega)]
      rfl
    rw [this]
    rfl
  rw [this]
  rfl

/-- C62 in full -/
def C62_statement : Prop :=
  ∀ (ν α : Type) [DecidableEq ν] (ps : Nat), 0 < ps → ∀ (nul : α) (t : Tbl ν α) (index : List Int),
    (∀ c ∈ t, ∀ i ∈ index, i = -1 ∨ (0 ≤ i ∧ i < colLen c.2)) →
    ∃ t', tblReindex ps nul t index = .ok t' ∧ tview t' = t.map fun c => (c.1, index.map (pick nul (colIter c.2)))

theorem C62_fails : ¬ C62_statement := by
  intro h
  obtain ⟨t', h1, _⟩ := h String Nat 2 (by omega) 0 [("a", [[5, 6]])] [0, -1, 1] (by decide)
  rw [C62_raises 2 (by omega) 0 _ (by simp) _ (by decide) (by decide) (by decide)] at h1
  cases h1

/-- C62: the other failure: a -1 alone in the last page of row numbers silently yields too many rows. -/
theorem C62_fails_extra_rows : (tblReindex 2 0 [("a", [[5, 6]])] [0, 1, -1]).map tview = .ok [("a", [5, 6, 0, 0, 0])] := by decide

example : (tblReindex 3 0 [("a", [[5, 6], [7]]), ("b", [[1, 2, 3]])] [2, -1, 0]).map tview = .ok [("a", [7, 0, 5]), ("b", [3, 0, 1])] := by decide
example : (tblReindex 2 0 [("a", [[5, 6], [7]])] [2, 2, 0, 1, 0]).map tview = .ok [("a", [7, 7, 5, 6, 5])] := by decide

/-! ## C20 duplicate removal -/

theorem uniqueLoop_spec {η : Type} [DecidableEq η] [DecidableEq α] (hash : List α → η) (rows : List (List α)) (k : Nat) (seen : List η)
    (hinj : ∀ a ∈ rows, ∀ b ∈ rows, hash a = hash b → a = b) :
    (∀ i, i ∈ uniqueLoop hash seen (rows.zipIdx k) ↔
      ∃ a, k ≤ i ∧ rows[i - k]? = some a ∧ hash a ∉ seen ∧ ∀ j, j < i - k → rows[j]? ≠ some a) ∧
    (uniqueLoop hash seen (rows.zipIdx k)).Pairwise (· < ·) ∧
    (uniqueLoop hash seen (rows.zipIdx k)).filterMap (fun i => rows[i - k]?) = (firstOccs rows).filter (fun a => hash a ∉ seen) := by
  induction rows generalizing k seen with
  | nil => simp [uniqueLoop, firstOccs]
  | cons a t ih =>
    simp only [List.zipIdx_cons, uniqueLoop]
    have hinj' : ∀ x ∈ t, ∀ y ∈ t, hash x = hash y → x = y := fun x hx y hy => hinj x (by simp [hx]) y (by simp [hy])
    have shift : ∀ (i : Nat), k + 1 ≤ i → (a :: t)[i - k]? = t[i - (k + 1)]? := by
      intro i hi
      rw [show i - k = (i - (k + 1)) + 1 by omega, List.getElem?_cons_succ]
    have hgeM : ∀ (s : List η) (i : Nat), i ∈ uniqueLoop hash s (t.zipIdx (k + 1)) → k + 1 ≤ i := by
      intro s i hi
      obtain ⟨_, h, _⟩ := ((ih (k + 1) s hinj').1 i).1 hi
      exact h
    have fm : ∀ s : List η, (uniqueLoop hash s (t.zipIdx (k + 1))).filterMap (fun i => (a :: t)[i - k]?) =
        (firstOccs t).filter (fun b => hash b ∉ s) := by
      intro s
      rw [← (ih (k + 1) s hinj').2.2]
      apply filterMap_congr'
      intro i hi
      exact shift i (hgeM s i hi)
    by_cases h : hash a ∈ seen
    · rw [if_pos h]
      obtain ⟨i1, i2, i3⟩ := ih (k + 1) seen hinj'
      refine ⟨?_, i2, ?_⟩
      · intro i
        rw [i1]
        constructor
        · rintro ⟨b, h1, h2, h3, h4⟩
          refine ⟨b, by omega, by rw [shift i h1]; exact h2, h3, ?_⟩
          intro j hj
          cases j with
          | zero =>
            simp only [List.getElem?_cons_zero, ne_eq, Option.some.injEq]
            rintro rfl; exact h3 h
          | succ j => simpa using h4 j (by omega)
        · rintro ⟨b, h1, h2, h3, h4⟩
          have hik : i ≠ k := by
            rintro rfl
            simp only [Nat.sub_self, List.getElem?_cons_zero, Option.some.injEq] at h2
            subst h2; exact h3 h
          refine ⟨b, by omega, by rw [← shift i (by omega)]; exact h2, h3, ?_⟩
          intro j hj
          simpa using h4 (j + 1) (by omega)
      · rw [fm seen]
        simp only [firstOccs, List.filter_cons, h, not_true_eq_false, decide_false, Bool.false_eq_true, if_false, List.filter_filter]
        apply List.filter_congr
        intro b _
        by_cases hb : hash b ∈ seen
        · simp [hb]
        · have : b ≠ a := by rintro rfl; exact hb h
          simp [hb, this]
    · rw [if_neg h]
      obtain ⟨i1, i2, i3⟩ := ih (k + 1) (hash a :: seen) hinj'
      refine ⟨?_, ?_, ?_⟩
      · intro i
        rw [List.mem_cons, i1]
        constructor
        · rintro (rfl | ⟨b, h1, h2, h3, h4⟩)
          · exact ⟨a, by omega, by simp, h, fun j hj => by omega⟩
          · simp only [List.mem_cons, not_or] at h3
            refine ⟨b, by omega, by rw [shift i h1]; exact h2, h3.2, ?_⟩
            intro j hj
            cases j with
            | zero =>
              simp only [List.getElem?_cons_zero, ne_eq, Option.some.injEq]
              rintro rfl; exact h3.1 rfl
            | succ j => simpa using h4 j (by omega)
        · rintro ⟨b, h1, h2, h3, h4⟩
          by_cases hik : i = k
          · exact Or.inl hik
          · right
            have h2' : t[i - (k + 1)]? = some b := by rw [← shift i (by omega)]; exact h2
            refine ⟨b, by omega, h2', ?_, ?_⟩
            · simp only [List.mem_cons, not_or]
              refine ⟨?_, h3⟩
              intro e
              have hba := hinj b (by simp [List.mem_of_getElem? h2']) a (by simp) e
              subst hba
              exact h4 0 (by omega) (by simp)
            · intro j hj
              simpa using h4 (j + 1) (by omega)
      · rw [List.pairwise_cons]
        exact ⟨fun i hi => by have := hgeM _ i hi; omega, i2⟩
      · rw [List.filterMap_cons]
        simp only [Nat.sub_self, List.getElem?_cons_zero]
        rw [fm]
        simp only [firstOccs, List.filter_cons, h, not_false_eq_true, decide_true, if_true, List.filter_filter]
        congr 1
        apply List.filter_congr
        intro b hb
        rw [mem_firstOccs] at hb
        have : hash b = hash a ↔ b = a := ⟨fun e => hinj b (by simp [hb]) a (by simp) e, fun e => by rw [e]⟩
        simp only [List.mem_cons, not_or, this]
        by_cases e : b = a <;> simp [e]

/-- C20 (partial): if no two different keys of the table have the same hash, `unique_index(cols)` is the ascending list of exactly those
rows whose key occurs in no earlier row. -/
theorem C20_unique_index_partial {η : Type} [DecidableEq η] [DecidableEq α] (hash : List α → η) (nul : α) (t : Tbl ν α) (n : Nat)
    (hr : Rect t n) (args : List ν) (hne : args ≠ []) (h : ∀ a ∈ args, a ∈ t.map (·.1))
    (hinj : ∀ a ∈ keyRows nul t args n, ∀ b ∈ keyRows nul t args n, hash a = hash b → a = b) :
    ∃ out, uniqueIndex hash t args = .ok out ∧ out.Pairwise (· < ·) ∧
      ∀ i, i ∈ out ↔ i < n ∧ ∀ j, j < i → (args.map fun a => cell nul t a j) ≠ args.map fun a => cell nul t a i := by
  unfold uniqueIndex
  rw [if_neg hne, tblPick_ok t args h]
  simp only [bind, Except.bind]
  rw [zipRows_pick nul t n hr args hne h]
  obtain ⟨s1, s2, _⟩ := uniqueLoop_spec hash (keyRows nul t args n) 0 [] hinj
  have hget : ∀ i : Nat, i < n → (keyRows nul t args n)[i]? = some (args.map fun a => cell nul t a i) := by
    intro i hi
    unfold keyRows
    rw [List.getElem?_map, List.getElem?_range hi]
    rfl
  have hlen : (keyRows nul t args n).length = n := by simp [keyRows]
  refine ⟨_, rfl, s2, ?_⟩
  intro i
  rw [s1]
  simp only [Nat.sub_zero]
  constructor
  · rintro ⟨a, _, h2, _, h4⟩
    have hi : i < n := by
      have := (List.getElem?_eq_some_iff.1 h2).1
      omega
    refine ⟨hi, ?_⟩
    intro j hj e
    rw [hget i hi] at h2
    apply h4 j hj
    rw [hget j (by omega), e, h2]
  · rintro ⟨hi, h2⟩
    refine ⟨_, by omega, hget i hi, by simp, ?_⟩
    intro j hj e
    rw [hget j (by omega)] at e
    injection e with e
    exact h2 j hj e

theorem filterMap_rows (idx : List Nat) (f : Nat → List α) (n : Nat) (h : ∀ i ∈ idx, i < n) :
    idx.filterMap (fun i => ((List.range n).map f)[i]?) = idx.map f := by
  induction idx with
  | nil => rfl
  | cons i t ih =>
    rw [List.filterMap_cons, List.getElem?_map, List.getElem?_range (h i (by simp)), ih (fun j hj => h j (by simp [hj]))]
    rfl

/-- C20 (partial): if no two different rows have the same hash, `drop_duplicates()` returns a table with the same columns whose rows are the
distinct rows in first-occurrence order. -/
theorem C20_drop_duplicates_partial {η : Type} [DecidableEq η] [DecidableEq α] (hash : List α → η) (ps : Nat) (hps : 0 < ps) (nul : α)
    (t : Tbl ν α) (n : Nat) (hwf : TblWF t) (hr : Rect t n) (hne : t ≠ [])
    (rows : List (List α)) (hrows : tblRows nul t = .ok rows)
    (hinj : ∀ a ∈ rows, ∀ b ∈ rows, hash a = hash b → a = b) :
    ∃ t', dropDuplicates hash ps nul t [] = .ok t' ∧ t'.map (·.1) = t.map (·.1) ∧ tblRows nul t' = .ok (firstOccs rows) := by
  have hnames : t.map (·.1) ≠ [] := by simpa using hne
  have hkey : keyRows nul t (t.map (·.1)) n = rows := by
    rw [C15_rows, tblLen_rect t n hr hne] at hrows
    injection hrows with e
    rw [← e]
    unfold keyRows
    apply List.map_congr_left
    intro i _
    rw [List.map_map]
    apply List.map_congr_left
    intro c hc
    simp only [Function.comp, cell]
    rw [dGet_of_mem t hwf c hc]
    rfl
  obtain ⟨s1, s2, s3⟩ := uniqueLoop_spec hash rows 0 [] hinj
  have hlen : rows.length = n := by rw [← hkey]; simp [keyRows]
  have hu : uniqueIndex hash t (t.map (·.1)) = .ok (uniqueLoop hash [] rows.zipIdx) := by
    unfold uniqueIndex
    rw [if_neg hnames, tblPick_ok t _ (fun a ha => ha)]
    simp only [bind, Except.bind]
    rw [zipRows_pick nul t n hr _ hnames (fun a ha => ha), hkey]
  generalize uniqueLoop hash [] rows.zipIdx = idx at *
  have hidx : ∀ i ∈ idx, i < n := by
    intro i hi
    obtain ⟨a, _, h2, _⟩ := (s1 i).1 hi
    have := (List.getElem?_eq_some_iff.1 h2).1
    omega
  obtain ⟨t', h1, h2⟩ := C62_reindex_partial ps hps nul t (idx.map fun (m : Nat) => (m : Int)) (by
    intro c hc i hi
    obtain ⟨m, hm, rfl⟩ := List.mem_map.1 hi
    have := hidx m hm
    have := hr c hc
    omega) (by
    intro h
    obtain ⟨m, _, e⟩ := List.mem_map.1 h
    omega)
  have hval : tview t' = t.map fun c => (c.1, idx.map fun i => (colIter c.2).getD i nul) := by
    rw [h2]
    apply List.map_congr_left
    intro c _
    rw [List.map_map]
    congr 1
  refine ⟨t', ?_, ?_, ?_⟩
  · unfold dropDuplicates
    rw [if_pos rfl, hu]
    exact h1
  · have := congrArg (List.map (·.1)) h2
    simpa [tview, Function.comp_def] using this
  · have hrect : Rect t' idx.length := by
      intro c hc
      have : (c.1, colIter c.2) ∈ tview t' := List.mem_map.2 ⟨c, hc, rfl⟩
      rw [hval] at this
      obtain ⟨d, _, e⟩ := List.mem_map.1 this
      injection e with _ e2
      rw [colLen_eq, ← colIter_eq, ← e2, List.length_map]
    have ht'ne : t' ≠ [] := by
      rintro rfl
      have := congrArg List.length hval
      simp only [tview, List.map_nil, List.length_nil, List.length_map] at this
      exact hne (List.length_eq_zero_iff.1 this.symm)
    rw [C15_rows, tblLen_rect t' _ hrect ht'ne]
    congr 1
    have hrow : ∀ i, t'.map (fun c => (colIter c.2).getD i nul) = t.map fun c => (idx.map fun k => (colIter c.2).getD k nul).getD i nul := by
      intro i
      have : (tview t').map (fun c => c.2.getD i nul) = t.map fun c => (idx.map fun k => (colIter c.2).getD k nul).getD i nul := by
        rw [hval, List.map_map]; rfl
      rw [← this]
      unfold tview
      rw [List.map_map]; rfl
    simp only [hrow]
    have s3' : idx.map (fun i => t.map fun c => (colIter c.2).getD i nul) = firstOccs rows := by
      have e1 : (firstOccs rows).filter (fun a => decide (hash a ∉ ([] : List η))) = firstOccs rows := by
        rw [List.filter_eq_self]; intro a _; simp
      rw [e1] at s3
      rw [← s3]
      have e2 : rows = (List.range n).map fun i => t.map fun c => (colIter c.2).getD i nul := by
        rw [C15_rows, tblLen_rect t n hr hne] at hrows
        injection hrows with e
        exact e.symm
      simp only [Nat.sub_zero]
      rw [e2, filterMap_rows idx _ n hidx]
    rw [← s3']
    apply List.ext_getElem (by simp)
    intro i hi1 hi2
    simp only [List.length_map, List.length_range] at hi1
    simp only [List.getElem_map, List.getElem_range]
    apply List.map_congr_left
    intro c _
    rw [List.getD_eq_getElem?_getD, List.getElem?_map, List.getElem?_eq_getElem hi1]
    rfl

/-- CPython: `hash(n) = n` for small integers except `hash(-1) = -2` -/
def pyHashInt (n : Int) : Int := if n = -1 then -2 else n

/-- C20 in full, for single integer keys under CPython's integer hash -/
def C20_statement : Prop :=
  ∀ (t : Tbl String Int) (n : Nat), Rect t n → t ≠ [] → TblWF t →
    ∃ out, uniqueIndex (fun k => k.map pyHashInt) t (t.map (·.1)) = .ok out ∧
      ∀ i, i ∈ out ↔ i < n ∧ ∀ j, j < i → ((t.map (·.1)).map fun a => cell 0 t a j) ≠ (t.map (·.1)).map fun a => cell 0 t a i

/-- C20 fails: -1 and -2 have the same hash, so the row with -2 is dropped as a duplicate of the row with -1.  (The tuple hash is a function
of the hashes of the elements.) -/
theorem C20_fails : ¬ C20_statement := by
  intro h
  obtain ⟨out, h1, h2⟩ := h [("a", [[-1, -2]])] 2 (by unfold Rect; decide) (by decide) (by unfold TblWF; decide)
  have e : uniqueIndex (fun k => k.map pyHashInt) [("a", [[-1, -2]])] ["a"] = .ok [0] := by decide
  have h1' : uniqueIndex (fun k => k.map pyHashInt) [("a", [[-1, -2]])] ["a"] = .ok out := h1
  rw [e] at h1'
  injection h1' with h1'
  subst h1'
  have := (h2 1).2 (by decide)
  revert this
  decide

example : (dropDuplicates id 2 0 [("a", [[1, 2], [1]]), ("b", [[4, 5, 4]])] []).map tview = .ok [("a", [1, 2]), ("b", [4, 5])] := by decide

/-! ## C63 where -/

theorem pySlice_nat (l : List α) (a b : Nat) (hab : a ≤ b) :
    pySlice l { start := some (a : Int), stop := some (b : Int) } = (l.take b).drop a := by
  have hind : ({ start := some (a : Int), stop := some (b : Int) } : PySlice).indices l.length =
      (((min a l.length : Nat) : Int), ((min b l.length : Nat) : Int), 1) := by
    have h : ∀ x : Nat, adjustBound l.length 0 l.length (x : Int) = ((min x l.length : Nat) : Int) := by
      intro x
      unfold adjustBound
      rw [if_neg (by omega)]
      split <;> omega
    rw [← h, ← h]
    rfl
  unfold pySlice
  rw [hind]
  simp only
  have e : (l.take b).drop a = (l.take (min b l.length)).drop (min a l.length) := by
    apply List.ext_getElem?
    intro i
    simp only [List.getElem?_drop, List.getElem?_take]
    by_cases h : a ≤ l.length
    · rw [Nat.min_eq_left h]
      by_cases h2 : a + i < min b l.length
      · rw [if_pos h2, if_pos (by omega)]
      · rw [if_neg h2]
        split
        · rw [List.getElem?_eq_none (by omega)]
        · rfl
    · rw [Nat.min_eq_right (by omega)]
      rw [List.getElem?_eq_none (by omega : l.length ≤ a + i), List.getElem?_eq_none (by omega : l.length ≤ l.length + i)]
      simp
  rw [e]
  generalize hA : min a l.length = A
  generalize hB : min b l.length = B
  have hAB : A ≤ B := by omega
  have hBl : B ≤ l.length := by omega
  have : rangeList (A : Int) (B : Int) 1 = (List.range' A (B - A)).map fun (n : Nat) => (n : Int) := by
    unfold rangeList rangeLen
    rw [if_pos (by omega)]
    rw [show ((B : Int) - A + 1 - 1) / 1 = ((B - A : Nat) : Int) by omega, Int.toNat_natCast]
    rw [List.range'_eq_map_range, List.map_map]
    apply List.map_congr_left
    intro i _
    simp
  rw [this, List.filterMap_map, take_drop_eq_range']
  apply filterMap_congr'
  intro i _
  simp [getI?_of_nonneg]

/-- the values `where` should produce, row by row (spec vocabulary) -/
def chosen (nul : α) (crit : List Bool) (l r : List α) : List α :=
  (List.range crit.length).map fun i => if crit.getD i false then l.getD i nul else r.getD i nul

theorem zipWith_chosen (nul : α) (crit : List Bool) (l r : List α) (hl : l.length = crit.length) (hr : r.length = crit.length) :
    List.zipWith (fun (m : Bool) (p : α × α) => if m then p.1 else p.2) crit (l.zip r) = chosen nul crit l r := by
  unfold chosen
  apply List.ext_getElem (by simp [hl, hr])
  intro i h1 h2
  simp only [List.length_map, List.length_range] at h2
  simp only [List.getElem_zipWith, List.getElem_zip, List.getElem_map, List.getElem_range, List.getD_eq_getElem?_getD]
  rw [List.getElem?_eq_getElem h2, List.getElem?_eq_getElem (by omega : i < l.length), List.getElem?_eq_getElem (by omega : i < r.length)]
  rfl

theorem getSlice_nat (pages : Pages α) (a b : Nat) (hab : a ≤ b) :
    getSlice pages { start := some (a : Int), stop := some (b : Int) } = .ok (((colIter pages).take b).drop a) := by
  rw [C02_slice_read_partial _ _ (by simp [PySlice.stepOr1]), pySlice_nat _ a b hab]

theorem whereLoop_ok (ps : Nat) (hps : 0 < ps) (nul : α) (crit : List Bool) (l r : Pages α) (hn : crit.length ≤ ps)
    (hl : colLen l = crit.length) (hr : colLen r = crit.length) :
    ∃ q, whereLoop ps crit l r = .ok q ∧ colIter q = chosen nul crit (colIter l) (colIter r) := by
  rw [colLen_eq, ← colIter_eq] at hl hr
  unfold whereLoop
  rw [pageSteps_small ps _ hn, List.foldlM_cons]
  simp only [getSlice_nat _ 0 crit.length (by omega), bind, Except.bind, List.drop_zero]
  rw [List.take_of_length_le (by omega), List.take_of_length_le (by omega), npWhere_same _ _ _ hl hr, zipWith_chosen nul _ _ _ hl hr]
  refine ⟨_, rfl, ?_⟩
  rw [colIter_extend ps hps]
  rfl

theorem dGet_tview (t : Tbl ν α) (x : ν) : dGet x (tview t) = (dGet x t).map colIter := by
  unfold tview
  induction t with
  | nil => rfl
  | cons c u ih =>
    obtain ⟨k, v⟩ := c
    simp only [List.map_cons, dGet, ih]
    split <;> rfl

theorem tblSet_view (t : Tbl ν α) (x : ν) (p : Pages α) (ks : List ν) (hks : ks.Nodup) (g : ν → List α)
    (h : tview t = ks.map fun y => (y, g y)) :
    tview (tblSet t x p) = (if x ∈ ks then ks else ks ++ [x]).map fun y => (y, if y = x then colIter p else g y) := by
  unfold tblSet tview
  rw [dUpd_map_snd colIter _ (fun _ => colIter p) (fun _ => rfl)]
  have h' : t.map (fun c => (c.1, colIter c.2)) = ks.map fun y => (y, if y ∈ ks then g y else []) := by
    rw [show t.map (fun c => (c.1, colIter c.2)) = ks.map fun y => (y, g y) from h]
    apply List.map_congr_left
    intro y hy
    rw [if_pos hy]
  rw [h', dUpd_eq _ _ _ ks hks (fun y => if y ∈ ks then g y else []) (fun hx => by simp [hx, colIter])]
  apply List.map_congr_left
  intro y hy
  by_cases e : y = x
  · simp [e]
  · simp only [e, if_false]
    rw [if_pos]
    split at hy
    · exact hy
    · simpa [e] using hy

theorem tblDel_view (t : Tbl ν α) (x : ν) (ks : List ν) (g : ν → List α) (h : tview t = ks.map fun y => (y, g y)) (hx : x ∈ ks) :
    ∃ t', tblDel t x = .ok t' ∧ tview t' = (ks.filter (fun y => y ≠ x)).map fun y => (y, g y) := by
  have hn : t.map (·.1) = ks := by
    have := congrArg (List.map (·.1)) h
    simpa [tview, Function.comp_def] using this
  unfold tblDel
  rw [if_pos (by rw [hn]; exact hx)]
  refine ⟨_, rfl, ?_⟩
  have e1 : tview (t.filter fun c => c.1 ≠ x) = (tview t).filter fun c => c.1 ≠ x := by
    unfold tview
    rw [List.filter_map]
    rfl
  rw [e1, h, List.filter_map]
  rfl

theorem tview_repr (nul : α) (t : Tbl ν α) (ht : TblWF t) (n : Nat) : tview t = (t.map (·.1)).map fun x => (x, valsOr nul t n x) := by
  unfold tview
  rw [List.map_map]
  apply List.map_congr_left
  intro c hc
  simp only [Function.comp, valsOr]
  rw [dGet_of_mem t ht c hc]
  rfl

/-- C63 (partial): for tables no longer than a page, `where` produces `left[i]` where the criterion holds and `right[i]` elsewhere, under
the new name, removes the two source columns (unless one of them is the target) and leaves all other columns alone.  Missing: tables longer
than a page (`C63_raises`) and a target name that already belongs to a third column (`C63_fails_leftover`). -/
theorem C63_where_partial (ps : Nat) (hps : 0 < ps) (mk : ν → Nat → ν) (nul : α) (t : Tbl ν α) (crit : List Bool) (left right new : ν)
    (hmk : ∀ a b, mk new a = mk new b → a = b) (ht : TblWF t) (hr : Rect t crit.length) (hn : crit.length ≤ ps)
    (hl : left ∈ t.map (·.1)) (hrt : right ∈ t.map (·.1)) (hlr : left ≠ right) (hnew : new = left ∨ new = right ∨ new ∉ t.map (·.1)) :
    ∃ t', tblWhere ps mk t crit left right new = .ok t' ∧
      tview t' = (if new = right then (t.map (·.1)).filter (fun x => x ≠ left)
          else if new = left then (t.map (·.1)).filter (fun x => x ≠ right)
          else (t.map (·.1)).filter (fun x => x ≠ left ∧ x ≠ right) ++ [new]).map fun x =>
        (x, if x = new then chosen nul crit (valsOr nul t crit.length left) (valsOr nul t crit.length right) else valsOr nul t crit.length x) := by
  unfold tblWhere
  dsimp only
  obtain ⟨u1, u2, _⟩ := C47_unique_name mk new (t.map (·.1)) hmk
  have hview := tview_repr nul t ht crit.length
  generalize uniqueName mk new (t.map (·.1)) = uq at *
  have hv1 := tblSet_view t uq [] _ ht _ hview
  rw [if_neg u1] at hv1
  have hks1 : (t.map (·.1) ++ [uq]).Nodup := by
    rw [List.nodup_append]
    refine ⟨ht, by simp, ?_⟩
    intro a ha b hb e
    simp only [List.mem_singleton] at hb
    subst hb; subst e; exact u1 ha
  generalize hks : t.map (·.1) = ks at *
  have hget : ∀ x ∈ ks, ∃ p, dGet x (tblSet t uq []) = some p ∧ colIter p = valsOr nul t crit.length x := by
    intro x hx
    have h1 := dGet_tview (tblSet t uq []) x
    rw [hv1, dGet_map, if_pos (by simp [hx]), if_neg (by rintro rfl; exact u1 hx)] at h1
    cases e : dGet x (tblSet t uq []) with
    | none => rw [e] at h1; cases h1
    | some p => rw [e] at h1; injection h1 with h1; exact ⟨p, rfl, h1.symm⟩
  have hlen : ∀ x ∈ ks, (valsOr nul t crit.length x).length = crit.length := by
    intro x hx
    unfold valsOr
    cases e : dGet x t with
    | none => simp
    | some p =>
      have := hr _ (dGet_mem x t p e)
      simp only [Option.elim]
      rw [colIter_eq, ← colLen_eq]
      exact this
  obtain ⟨lp, hlp, hlv⟩ := hget left hl
  obtain ⟨rp, hrp, hrv⟩ := hget right hrt
  rw [hlp, hrp]
  simp only
  obtain ⟨col, hc1, hc2⟩ := whereLoop_ok ps hps nul crit lp rp hn (by rw [colLen_eq, ← colIter_eq, hlv, hlen _ hl])
    (by rw [colLen_eq, ← colIter_eq, hrv, hlen _ hrt])
  rw [hlv, hrv] at hc2
  rw [hc1]
  simp only [bind, Except.bind]
  have hv2 := tblSet_view (tblSet t uq []) uq col _ hks1 _ hv1
  rw [if_pos (by simp)] at hv2
  have hlu : left ≠ uq := by rintro rfl; exact u1 hl
  have hru : right ≠ uq := by rintro rfl; exact u1 hrt
  -- filters that drop the temporary column
  have hdrop : (ks ++ [uq]).filter (fun y => decide (y ≠ uq)) = ks := by
    rw [List.filter_append, List.filter_eq_self.2]
    · simp
    · intro a ha
      simp only [decide_eq_true_eq]
      rintro rfl; exact u1 ha
  by_cases c1 : new = right
  · have hv3 := tblSet_view _ right col _ hks1 _ hv2
    rw [if_pos (by simp [hrt])] at hv3
    obtain ⟨t4, h4, hv4⟩ := tblDel_view _ uq _ _ hv3 (by simp)
    rw [hdrop] at hv4
    obtain ⟨t5, h5, hv5⟩ := tblDel_view t4 left _ _ hv4 hl
    rw [if_pos c1, h4]
    simp only
    refine ⟨t5, h5, ?_⟩
    rw [hv5, if_pos c1]
    apply List.map_congr_left
    intro x hx
    have hx' : x ∈ ks := List.mem_of_mem_filter hx
    have hxu : x ≠ uq := by rintro rfl; exact u1 hx'
    simp only [c1, hc2, hxu, if_false]
  · rw [if_neg c1]
    by_cases c2 : new = left
    · have hv3 := tblSet_view _ left col _ hks1 _ hv2
      rw [if_pos (by simp [hl])] at hv3
      obtain ⟨t4, h4, hv4⟩ := tblDel_view _ uq _ _ hv3 (by simp)
      rw [hdrop] at hv4
      obtain ⟨t5, h5, hv5⟩ := tblDel_view t4 right _ _ hv4 hrt
      rw [if_pos c2, h4]
      simp only
      refine ⟨t5, h5, ?_⟩
      rw [hv5, if_neg c1, if_pos c2]
      apply List.map_congr_left
      intro x hx
      have hx' : x ∈ ks := List.mem_of_mem_filter hx
      have hxu : x ≠ uq := by rintro rfl; exact u1 hx'
      simp only [c2, hc2, hxu, if_false]
    · have hnk : new ∉ ks := by
        rcases hnew with h | h | h
        · exact absurd h c2
        · exact absurd h c1
        · exact h
      have hun : uq = new := u2 hnk
      subst hun
      have hv3 := tblSet_view _ uq col _ hks1 _ hv2
      rw [if_pos (by simp)] at hv3
      obtain ⟨t4, h4, hv4⟩ := tblDel_view _ left _ _ hv3 (by simp [hl])
      obtain ⟨t5, h5, hv5⟩ := tblDel_view t4 right _ _ hv4 (by
        rw [List.mem_filter]
        exact ⟨by simp [hrt], by simpa using hlr.symm⟩)
      rw [if_neg c2, h4]
      simp only
      refine ⟨t5, h5, ?_⟩
      rw [hv5, if_neg c1, if_neg c2]
      have hnames : ((ks ++ [uq]).filter (fun y => decide (y ≠ left))).filter (fun y => decide (y ≠ right)) =
          ks.filter (fun x => decide (x ≠ left ∧ x ≠ right)) ++ [uq] := by
        rw [List.filter_filter, List.filter_append]
        congr 1
        · apply List.filter_congr
          intro x _
          by_cases a : x = left <;> by_cases b : x = right <;> simp [a, b]
        · simp [hlu.symm, hru.symm]
      rw [hnames]
      apply List.map_congr_left
      intro x _
      by_cases e : x = uq
      · simp [e, hc2]
      · simp [e]

/-- C63 fails generally: for every table longer than a page (page size ≥ 2) `where` raises ValueError. -/
theorem C63_raises (ps : Nat) (hps : 1 < ps) (crit : List Bool) (l r : Pages α) (hn : ps < crit.length)
    (hl : colLen l = crit.length) (hr : colLen r = crit.length) : whereLoop ps crit l r = .error .value := by
  rw [colLen_eq, ← colIter_eq] at hl hr
  unfold whereLoop
  obtain ⟨rest, hs⟩ := pageSteps_head ps crit.length hn
  rw [hs, List.foldlM_cons]
  have : npWhere crit ((colIter l).take ps) ((colIter r).take ps) = .error .value := by
    unfold npWhere bcast
    rw [List.length_take, Nat.min_eq_left (by omega), if_neg (by omega), if_neg (by omega), if_neg (by omega)]
    rfl
  simp only [getSlice_nat _ 0 ps (by omega), bind, Except.bind, List.drop_zero, this]

/-- C63 in full: the column computed by `where` for tables of any length -/
def C63_statement : Prop :=
  ∀ (α : Type) (nul : α) (ps : Nat), 0 < ps → ∀ (crit : List Bool) (l r : Pages α), colLen l = crit.length → colLen r = crit.length →
    ∃ q, whereLoop ps crit l r = .ok q ∧ colIter q = chosen nul crit (colIter l) (colIter r)

theorem C63_fails : ¬ C63_statement := by
  intro h
  obtain ⟨q, h1, _⟩ := h Nat 0 2 (by omega) [true, false, true] [[1, 2, 3]] [[4, 5, 6]] (by decide) (by decide)
  rw [C63_raises 2 (by omega) _ _ _ (by decide) (by decide) (by decide)] at h1
  cases h1

/-- C63: a target name that already names a third column leaves a second copy of the result behind under a generated name. -/
theorem C63_fails_leftover :
    (tblWhere 4 (fun d i => d * 100 + i) [(1, [[10, 11]]), (2, [[20, 21]]), (3, [[30, 31]])] [true, false] 1 2 3).map tview =
      .ok [(3, [10, 21]), (301, [10, 21])] := by decide

example : (tblWhere 4 (fun d i => d * 100 + i) [(1, [[10], [11]]), (2, [[20, 21]]), (3, [[30, 31]])] [true, false] 1 2 9).map tview =
      .ok [(3, [30, 31]), (9, [10, 21])] := by decide
example : (tblWhere 4 (fun d i => d * 100 + i) [(1, [[10], [11]]), (2, [[20, 21]]), (3, [[30, 31]])] [true, false] 1 2 2).map tview =
      .ok [(2, [10, 21]), (3, [30, 31])] := by decide

end

end Tablite
