import Verif.Props.Join
import Verif.Props.Lookup
import Verif.Props.Laws
/-!
# Laws of joins (C111)

No new model.  Rows of tables are compared as lists up to order (`List.Perm`).
-/

namespace Tablite

set_option linter.unusedSectionVars false

section
variable {ν α κ : Type} [DecidableEq ν] [DecidableEq α]

/-- row `i` of the left table beside row `j` of the right one; None where there is no row -/
def joinRow (nul : α) (t o : Tbl ν α) (lc rc : List ν) (p : Option Nat × Option Nat) : List α :=
  lc.map (fun x => optCell nul t x p.1) ++ rc.map fun x => optCell nul o x p.2

/-- the keys of row `i` and row `j` are equal -/
def keysMeet (nul : α) (t o : Tbl ν α) (lk rk : List ν) (i j : Nat) : Bool := decide ((lk.map fun a => cell nul t a i) = rk.map fun a => cell nul o a j)

/-- what an inner join is: for each row of the left table, each row of the right table with the same keys -/
def nestedLoop (nul : α) (t o : Tbl ν α) (n m : Nat) (lk rk lc rc : List ν) : List (List α) :=
  (List.range n).flatMap fun i => ((List.range m).filter fun j => keysMeet nul t o lk rk i j).map fun j => joinRow nul t o lc rc (some i, some j)

/-- the rows of the left table without a partner -/
def unmatched (nul : α) (t o : Tbl ν α) (n m : Nat) (lk rk : List ν) : List Nat := (List.range n).filter fun i => (List.range m).all fun j => !keysMeet nul t o lk rk i j

theorem joined_rect {mk : ν → Nat → ν} {nul : α} {t o t' : Tbl ν α} {lc rc : List ν} {pairs : List (Option Nat × Option Nat)} (h : tview t' = joinedView mk nul t o lc rc pairs) :
    Rect t' pairs.length := by
  intro c hc
  have h1 : (c.1, colIter c.2) ∈ tview t' := List.mem_map.2 ⟨c, hc, rfl⟩
  rw [h] at h1
  rw [colLen_eq, ← colIter_eq]
  rcases List.mem_append.1 h1 with h1 | h1
  · obtain ⟨d, -, e⟩ := List.mem_map.1 h1
    have := (Prod.ext_iff.1 e).2
    dsimp only at this
    rw [← this, List.length_map]
  · obtain ⟨d, -, e⟩ := List.mem_map.1 h1
    have := (Prod.ext_iff.1 e).2
    dsimp only at this
    rw [← this, List.length_map]

theorem rows_tview (nul : α) (t : Tbl ν α) (n : Nat) (hr : Rect t n) (hne : t ≠ []) : tblRows nul t = .ok ((List.range n).map fun i => (tview t).map fun c => c.2.getD i nul) := by
  rw [C15_rows, tblLen_rect t n hr hne]
  congr 1
  apply List.map_congr_left
  intro i _
  unfold tview
  rw [List.map_map]
  rfl

theorem joined_rows {mk : ν → Nat → ν} {nul : α} {t o t' : Tbl ν α} {lc rc : List ν} {pairs : List (Option Nat × Option Nat)} (h : tview t' = joinedView mk nul t o lc rc pairs) (hlc : lc ≠ []) :
    tblRows nul t' = .ok (pairs.map (joinRow nul t o lc rc)) := by
  have hne : t' ≠ [] := by
    rintro rfl
    cases lc with
    | nil => exact hlc rfl
    | cons a l => cases h
  rw [rows_tview nul t' _ (joined_rect h) hne, h]
  congr 1
  apply List.ext_getElem
  · simp
  · intro k h1 h2
    have hk : k < pairs.length := by simpa using h1
    simp only [List.getElem_map, List.getElem_range, joinedView, List.map_append, List.map_map, joinRow]
    congr 1
    · apply List.map_congr_left
      intro x _
      simp [List.getD_eq_getElem?_getD, List.getElem?_eq_getElem hk]
    · have e : (rc.zip (rightNames mk lc rc)).map (fun x => x.1) = rc := by rw [List.map_fst_zip (by rw [rightNames_length])]
      have e2 : rc.map (fun x => optCell nul o x pairs[k].2) = ((rc.zip (rightNames mk lc rc)).map (fun x => x.1)).map fun x => optCell nul o x pairs[k].2 := by rw [e]
      rw [e2, List.map_map]
      apply List.map_congr_left
      intro x _
      simp [List.getD_eq_getElem?_getD, List.getElem?_eq_getElem hk]

/-- the pairs of rows with equal keys, by nested loops -/
def loopPairs (nul : α) (t o : Tbl ν α) (n m : Nat) (lk rk : List ν) : List (Nat × Nat) :=
  (List.range n).flatMap fun i => ((List.range m).filter fun j => keysMeet nul t o lk rk i j).map fun j => (i, j)

theorem mem_loopPairs {nul : α} {t o : Tbl ν α} {n m : Nat} {lk rk : List ν} {i j : Nat} : (i, j) ∈ loopPairs nul t o n m lk rk ↔ i < n ∧ j < m ∧ keysMeet nul t o lk rk i j = true := by
  unfold loopPairs
  simp only [List.mem_flatMap, List.mem_map, List.mem_filter, List.mem_range, Prod.mk.injEq]
  constructor
  · rintro ⟨a, ha, b, ⟨hb, hm⟩, rfl, rfl⟩
    exact ⟨ha, hb, hm⟩
  · rintro ⟨ha, hb, hm⟩
    exact ⟨i, ha, j, ⟨hb, hm⟩, rfl, rfl⟩

theorem nodup_loopPairs (nul : α) (t o : Tbl ν α) (n m : Nat) (lk rk : List ν) : (loopPairs nul t o n m lk rk).Nodup := by
  unfold loopPairs
  rw [List.Nodup, List.pairwise_flatMap]
  constructor
  · intro i _
    rw [List.pairwise_map]
    exact (List.nodup_range.filter _).imp fun h e => h (Prod.mk.inj e).2
  · refine List.nodup_range.imp ?_
    intro a b hab x hx y hy e
    obtain ⟨_, _, rfl⟩ := List.mem_map.1 hx
    obtain ⟨_, _, rfl⟩ := List.mem_map.1 hy
    exact hab (Prod.mk.inj e).1

theorem nestedLoop_pairs (nul : α) (t o : Tbl ν α) (n m : Nat) (lk rk lc rc : List ν) :
    nestedLoop nul t o n m lk rk lc rc = (loopPairs nul t o n m lk rk).map fun p => joinRow nul t o lc rc (some p.1, some p.2) := by
  unfold nestedLoop loopPairs
  rw [List.map_flatMap]
  simp only [List.map_map]
  rfl

/-- **C111** an inner join has the rows of the nested loops, each as often -/
theorem C111_inner (ps : Nat) (hps : 0 < ps) (mk : ν → Nat → ν) (hmk : ∀ d a b, mk d a = mk d b → a = b) (ord : List (List α) → List (List α))
    (nul : α) (t o : Tbl ν α) (n m : Nat) (ht : Rect t n) (ho : Rect o m) (lk rk lc rc : List ν) (h : JoinOk t o lk rk lc rc) :
    ∃ t' rows, tblJoin ps mk ord nul .inner t o lk rk lc rc = .ok t' ∧ tblRows nul t' = .ok rows ∧ rows.Perm (nestedLoop nul t o n m lk rk lc rc) := by
  obtain ⟨pairs, p1, p2, t', p3, p4⟩ := C23_inner ps hps mk hmk ord nul t o n m ht ho lk rk lc rc h
  refine ⟨t', _, p3, joined_rows p4 h.lcne, ?_⟩
  rw [nestedLoop_pairs, List.map_map]
  apply List.Perm.map
  rw [List.perm_ext_iff_of_nodup p1 (nodup_loopPairs ..)]
  rintro ⟨i, j⟩
  rw [p2, mem_loopPairs, keysMeet, decide_eq_true_eq]

/-- **C111** a left join is the inner join and the rows of the left table without a partner -/
theorem C111_left (ps : Nat) (hps : 0 < ps) (mk : ν → Nat → ν) (hmk : ∀ d a b, mk d a = mk d b → a = b) (ord : List (List α) → List (List α))
    (nul : α) (t o : Tbl ν α) (n m : Nat) (ht : Rect t n) (ho : Rect o m) (lk rk lc rc : List ν) (h : JoinOk t o lk rk lc rc) (hpg : ∀ c ∈ o, ∀ q ∈ c.2, q ≠ []) :
    ∃ a b ra rb, tblJoin ps mk ord nul .inner t o lk rk lc rc = .ok a ∧ tblRows nul a = .ok ra ∧ tblJoin ps mk ord nul .left t o lk rk lc rc = .ok b ∧ tblRows nul b = .ok rb ∧
      rb.Perm (ra ++ (unmatched nul t o n m lk rk).map fun i => joinRow nul t o lc rc (some i, none)) := by
  obtain ⟨pairs, p1, p2, a, p3, p4⟩ := C23_inner ps hps mk hmk ord nul t o n m ht ho lk rk lc rc h
  obtain ⟨qairs, q1, q2, b, q3, q4⟩ := C24_left_partial ps hps mk hmk ord nul t o n m ht ho lk rk lc rc h hpg
  refine ⟨a, b, _, _, p3, joined_rows p4 h.lcne, q3, joined_rows q4 h.lcne, ?_⟩
  have e : (unmatched nul t o n m lk rk).map (fun i => joinRow nul t o lc rc (some i, none)) =
      ((unmatched nul t o n m lk rk).map fun i => ((some i, none) : Option Nat × Option Nat)).map (joinRow nul t o lc rc) := by
    rw [List.map_map]; rfl
  rw [e, ← List.map_append]
  apply List.Perm.map
  rw [List.perm_ext_iff_of_nodup q1 ?_]
  · rintro ⟨r, s⟩
    rw [q2, List.mem_append, List.mem_map, List.mem_map]
    constructor
    · rintro ⟨i, rfl, hi, ⟨j, rfl, hj, hm⟩ | ⟨rfl, hm⟩⟩
      · exact Or.inl ⟨(i, j), (p2 i j).2 ⟨hi, hj, hm⟩, rfl⟩
      · refine Or.inr ⟨i, ?_, rfl⟩
        simp only [unmatched, keysMeet, List.mem_filter, List.mem_range, List.all_eq_true, Bool.not_eq_true', decide_eq_false_iff_not]
        exact ⟨hi, hm⟩
    · rintro (⟨⟨i, j⟩, hm, e⟩ | ⟨i, hm, e⟩)
      · cases e
        obtain ⟨hi, hj, hm⟩ := (p2 i j).1 hm
        exact ⟨i, rfl, hi, Or.inl ⟨j, rfl, hj, hm⟩⟩
      · cases e
        simp only [unmatched, keysMeet, List.mem_filter, List.mem_range, List.all_eq_true, Bool.not_eq_true', decide_eq_false_iff_not] at hm
        exact ⟨i, rfl, hm.1, Or.inr ⟨rfl, hm.2⟩⟩
  · rw [List.nodup_append]
    refine ⟨p1.map ?_, (List.nodup_range.filter _).map ?_, ?_⟩
    · rintro ⟨a, b⟩ ⟨c, d⟩ e
      cases e; rfl
    · intro a b e
      cases e; rfl
    · rintro x hx y hy rfl
      obtain ⟨_, _, rfl⟩ := List.mem_map.1 hx
      obtain ⟨_, _, e⟩ := List.mem_map.1 hy
      cases e

/-- the right columns of a row before the left ones -/
def swapRow (k : Nat) (r : List α) : List α := r.drop k ++ r.take k

/-- **C111** exchanging the two tables of an inner join only exchanges the columns -/
theorem C111_swap (ps : Nat) (hps : 0 < ps) (mk : ν → Nat → ν) (hmk : ∀ d a b, mk d a = mk d b → a = b) (ord : List (List α) → List (List α))
    (nul : α) (t o : Tbl ν α) (n m : Nat) (ht : Rect t n) (ho : Rect o m) (lk rk lc rc : List ν) (h : JoinOk t o lk rk lc rc) (hrc : rc.Nodup) :
    ∃ a b ra rb, tblJoin ps mk ord nul .inner t o lk rk lc rc = .ok a ∧ tblRows nul a = .ok ra ∧ tblJoin ps mk ord nul .inner o t rk lk rc lc = .ok b ∧ tblRows nul b = .ok rb ∧
      ra.Perm (rb.map (swapRow rc.length)) := by
  have h' : JoinOk o t rk lk rc lc := ⟨h.rkIn, h.lkIn, h.len.symm, by
    intro e
    have := h.len
    rw [e] at this
    exact h.key (List.length_eq_zero_iff.1 this), h.rcIn, h.lcIn, h.rcne, h.lcne, hrc⟩
  obtain ⟨a, ra, a1, a2, a3⟩ := C111_inner ps hps mk hmk ord nul t o n m ht ho lk rk lc rc h
  obtain ⟨b, rb, b1, b2, b3⟩ := C111_inner ps hps mk hmk ord nul o t m n ho ht rk lk rc lc h'
  refine ⟨a, b, ra, rb, a1, a2, b1, b2, a3.trans (List.Perm.trans ?_ (b3.map _).symm)⟩
  rw [nestedLoop_pairs, nestedLoop_pairs, List.map_map]
  have e : (loopPairs nul t o n m lk rk).Perm ((loopPairs nul o t m n rk lk).map Prod.swap) := by
    rw [List.perm_ext_iff_of_nodup (nodup_loopPairs ..) ((nodup_loopPairs ..).map Prod.swap_injective)]
    rintro ⟨i, j⟩
    rw [mem_loopPairs, List.mem_map]
    constructor
    · rintro ⟨hi, hj, hm⟩
      refine ⟨(j, i), mem_loopPairs.2 ⟨hj, hi, ?_⟩, rfl⟩
      rw [keysMeet, decide_eq_true_eq] at hm ⊢
      exact hm.symm
    · rintro ⟨⟨a, b⟩, hm, e⟩
      cases e
      obtain ⟨hi, hj, hm⟩ := mem_loopPairs.1 hm
      rw [keysMeet, decide_eq_true_eq] at hm ⊢
      exact ⟨hj, hi, hm.symm⟩
  refine (e.map _).trans ?_
  rw [List.map_map]
  apply List.Perm.of_eq
  apply List.map_congr_left
  rintro ⟨i, j⟩ _
  simp [swapRow, joinRow]

/-- a column of the left table in the joined table -/
theorem joined_left {mk : ν → Nat → ν} {nul : α} {t o t' : Tbl ν α} {lc rc : List ν} {pairs : List (Option Nat × Option Nat)} (h : tview t' = joinedView mk nul t o lc rc pairs)
    (x : ν) (hx : x ∈ lc) (k : Nat) (hk : k < pairs.length) : cell nul t' x k = optCell nul t x pairs[k].1 := by
  rw [cell_tview, h, joinedView, dGet_app, dGet_map, if_pos hx]
  simp [List.getD_eq_getElem?_getD, List.getElem?_eq_getElem hk]

theorem joined_names {mk : ν → Nat → ν} {nul : α} {t o t' : Tbl ν α} {lc rc : List ν} {pairs : List (Option Nat × Option Nat)} (h : tview t' = joinedView mk nul t o lc rc pairs) :
    t'.map (·.1) = lc ++ rightNames mk lc rc := by
  rw [← names_tview, h, joinedView, List.map_append, List.map_map, List.map_map]
  congr 1
  · exact List.map_id _
  · have e : (rc.zip (rightNames mk lc rc)).map (fun x => x.2) = rightNames mk lc rc := by rw [List.map_snd_zip (by rw [rightNames_length])]
    conv_rhs => rw [← e]
    rfl

theorem select_filter {β : Type} (l : List β) (d : β) (p : β → Bool) (q : Nat → Bool) (h : ∀ i < l.length, q i = p (l.getD i d)) :
    ((List.range l.length).filter q).map (fun i => l.getD i d) = l.filter p := by
  have e0 : (List.range l.length).map (fun i => l.getD i d) = l := by
    apply List.ext_getElem
    · simp
    · intro k h1 h2
      simp [List.getD_eq_getElem?_getD, List.getElem?_eq_getElem h2]
  have e := List.filter_map (f := fun i => l.getD i d) (p := p) (l := List.range l.length)
  rw [e0] at e
  rw [e]
  congr 1
  apply List.filter_congr
  intro i hi
  exact h i (List.mem_range.1 hi)

/-- some rows of a joined table -/
theorem rowsOf_joined {mk : ν → Nat → ν} {nul : α} {t o t' : Tbl ν α} {lc rc : List ν} {pairs : List (Option Nat × Option Nat)} (h : tview t' = joinedView mk nul t o lc rc pairs)
    (idx : List Nat) (hi : ∀ i ∈ idx, i < pairs.length) : rowsOf nul t' idx = joinedView mk nul t o lc rc (idx.map fun k => pairs.getD k (none, none)) := by
  rw [rowsOf_tview, h, joinedView, joinedView, List.map_append, List.map_map, List.map_map]
  congr 1
  · apply List.map_congr_left
    intro x _
    simp only [Function.comp, List.map_map, Prod.mk.injEq, true_and]
    apply List.map_congr_left
    intro k hk
    simp [List.getD_eq_getElem?_getD, List.getElem?_eq_getElem (hi k hk)]
  · apply List.map_congr_left
    intro x _
    simp only [Function.comp, List.map_map, Prod.mk.injEq, true_and]
    apply List.map_congr_left
    intro k hk
    simp [List.getD_eq_getElem?_getD, List.getElem?_eq_getElem (hi k hk)]

/-- filtering a joined table keeps the pairs which satisfy the condition -/
theorem filter_joined {mk : ν → Nat → ν} {nul : α} {t o t' : Tbl ν α} {lc rc : List ν} {pairs : List (Nat × Nat)}
    (h : tview t' = joinedView mk nul t o lc rc (pairs.map fun p => (some p.1, some p.2))) (hlc : lc ≠ []) (cmp : κ → α → α → Bool) (ps : Nat) (hps : 0 < ps) (all : Bool)
    (es : List (FExpr ν α κ)) (he : ∃ e ∈ es, ∃ x, e.left = .col x ∨ e.right = .col x) (hcols : ∀ e ∈ es, ∀ x, e.left = .col x ∨ e.right = .col x → x ∈ t'.map (·.1))
    (P : Nat × Nat → Bool) (hP : ∀ k (hk : k < pairs.length), rowHolds nul cmp all es t' k = P pairs[k]) :
    ∃ p f, tblFilter nul cmp ps all t' es = .ok (p, f) ∧ tblRows nul p = .ok ((pairs.filter P).map fun q => joinRow nul t o lc rc (some q.1, some q.2)) := by
  have hne : t' ≠ [] := by
    rintro rfl
    obtain ⟨e, he, x, hx⟩ := he
    simpa using hcols e he x hx
  have hr := joined_rect h
  rw [List.length_map] at hr
  obtain ⟨p, f, h1, h2, -⟩ := C29_filter_partial nul cmp ps hps all t' _ hr hne es he hcols
  refine ⟨p, f, h1, ?_⟩
  rw [rowsOf_joined h _ (by intro i hi; simpa using (List.mem_filter.1 hi).1)] at h2
  rw [joined_rows h2 hlc]
  congr 1
  rw [← select_filter pairs (0, 0) P (fun i => rowHolds nul cmp all es t' i) (by
    intro i hi
    have := hP i hi
    rw [this]
    simp [List.getD_eq_getElem?_getD, List.getElem?_eq_getElem hi]), List.map_map, List.map_map]
  apply List.map_congr_left
  intro k hk
  have hk : k < pairs.length := by simpa using (List.mem_filter.1 hk).1
  simp [List.getD_eq_getElem?_getD, List.getElem?_eq_getElem hk]

/-- **C111** filtering the left table before an inner join is filtering the joined table -/
theorem C111_filter (ps : Nat) (hps : 0 < ps) (mk : ν → Nat → ν) (hmk : ∀ d a b, mk d a = mk d b → a = b) (ord : List (List α) → List (List α))
    (nul : α) (t o : Tbl ν α) (n m : Nat) (ht : Rect t n) (ho : Rect o m) (lk rk lc rc : List ν) (h : JoinOk t o lk rk lc rc) (cmp : κ → α → α → Bool) (all : Bool)
    (es : List (FExpr ν α κ)) (he : ∃ e ∈ es, ∃ x, e.left = .col x ∨ e.right = .col x) (hcols : ∀ e ∈ es, ∀ x, e.left = .col x ∨ e.right = .col x → x ∈ lc) :
    ∃ p f b a c d rb rc', tblFilter nul cmp ps all t es = .ok (p, f) ∧ tblJoin ps mk ord nul .inner p o lk rk lc rc = .ok b ∧ tblRows nul b = .ok rb ∧
      tblJoin ps mk ord nul .inner t o lk rk lc rc = .ok a ∧ tblFilter nul cmp ps all a es = .ok (c, d) ∧ tblRows nul c = .ok rc' ∧ rb.Perm rc' := by
  have hne : t ≠ [] := by
    rintro rfl
    obtain ⟨x, hx⟩ := List.exists_mem_of_ne_nil lc h.lcne
    simpa using h.lcIn x hx
  obtain ⟨p, f, f1, f2, -⟩ := C29_filter_partial nul cmp ps hps all t n ht hne es he fun e he x hx => h.lcIn x (hcols e he x hx)
  have h' : JoinOk p o lk rk lc rc := ⟨by rw [names_view f2]; exact h.lkIn, h.rkIn, h.len, h.key, by rw [names_view f2]; exact h.lcIn, h.rcIn, h.lcne, h.rcne, h.lcnd⟩
  obtain ⟨b, rb, b1, b2, b3⟩ := C111_inner ps hps mk hmk ord nul p o _ m (rect_view f2) ho lk rk lc rc h'
  obtain ⟨pairs, p1, p2, a, p3, p4⟩ := C23_inner ps hps mk hmk ord nul t o n m ht ho lk rk lc rc h
  obtain ⟨c, d, c1, c2⟩ := filter_joined p4 h.lcne cmp ps hps all es he (by
    intro e he x hx
    rw [joined_names p4]
    exact List.mem_append.2 (Or.inl (hcols e he x hx))) (fun q => rowHolds nul cmp all es t q.1) (by
    intro k hk
    have hv : ∀ e ∈ es, fVal nul a k e.left = fVal nul t pairs[k].1 e.left ∧ fVal nul a k e.right = fVal nul t pairs[k].1 e.right := by
      intro e he
      have hv : ∀ q : FOperand ν α, (∀ x, q = .col x → x ∈ lc) → fVal nul a k q = fVal nul t pairs[k].1 q := by
        intro q hq
        cases q with
        | val v => rfl
        | col x =>
          have := joined_left p4 x (hq x rfl) k (by simpa using hk)
          simpa [fVal, optCell] using this
      exact ⟨hv _ fun x hx => hcols e he x (Or.inl hx), hv _ fun x hx => hcols e he x (Or.inr hx)⟩
    unfold rowHolds
    split
    · rw [Bool.eq_iff_iff, List.all_eq_true, List.all_eq_true]
      constructor
      · intro h e he; rw [← (hv e he).1, ← (hv e he).2]; exact h e he
      · intro h e he; rw [(hv e he).1, (hv e he).2]; exact h e he
    · rw [Bool.eq_iff_iff, List.any_eq_true, List.any_eq_true]
      constructor
      · rintro ⟨e, he, h⟩; exact ⟨e, he, by rw [← (hv e he).1, ← (hv e he).2]; exact h⟩
      · rintro ⟨e, he, h⟩; exact ⟨e, he, by rw [(hv e he).1, (hv e he).2]; exact h⟩)
  refine ⟨p, f, b, a, c, d, rb, _, f1, b1, b2, p3, c1, c2, b3.trans ?_⟩
  rw [nestedLoop_pairs]
  generalize hidx : (List.range n).filter (rowHolds nul cmp all es t) = idx at *
  have hin : ∀ i < idx.length, idx.getD i 0 ∈ idx := by
    intro i hi
    simp [List.getD_eq_getElem?_getD, List.getElem?_eq_getElem hi]
  have hmem : ∀ i ∈ idx, i < n ∧ rowHolds nul cmp all es t i = true := by
    intro i hi
    rw [← hidx, List.mem_filter, List.mem_range] at hi
    exact hi
  have e1 : (loopPairs nul p o idx.length m lk rk).map (fun q => joinRow nul p o lc rc (some q.1, some q.2)) =
      ((loopPairs nul p o idx.length m lk rk).map fun q => (idx.getD q.1 0, q.2)).map fun q => joinRow nul t o lc rc (some q.1, some q.2) := by
    rw [List.map_map]
    apply List.map_congr_left
    rintro ⟨i, j⟩ hm
    have hi := (mem_loopPairs.1 hm).1
    simp only [joinRow, Function.comp, optCell, cell_view f2 _ i hi]
  have hkey : ∀ i < idx.length, ∀ j, keysMeet nul p o lk rk i j = keysMeet nul t o lk rk (idx.getD i 0) j := by
    intro i hi j
    simp only [keysMeet, cell_view f2 _ i hi]
  rw [e1]
  apply List.Perm.map
  rw [List.perm_ext_iff_of_nodup _ (p1.filter _)]
  · rintro ⟨i, j⟩
    rw [List.mem_map, List.mem_filter, p2]
    constructor
    · rintro ⟨⟨a, b⟩, hm, e⟩
      cases e
      obtain ⟨ha, hb, hm⟩ := mem_loopPairs.1 hm
      rw [hkey a ha, keysMeet, decide_eq_true_eq] at hm
      exact ⟨⟨(hmem _ (hin a ha)).1, hb, hm⟩, (hmem _ (hin a ha)).2⟩
    · rintro ⟨⟨hi, hj, hm⟩, hh⟩
      have : i ∈ idx := by rw [← hidx, List.mem_filter, List.mem_range]; exact ⟨hi, hh⟩
      obtain ⟨k, hk, rfl⟩ := List.mem_iff_getElem.1 this
      have e : idx.getD k 0 = idx[k] := by simp [List.getD_eq_getElem?_getD, List.getElem?_eq_getElem hk]
      refine ⟨(k, j), mem_loopPairs.2 ⟨hk, hj, ?_⟩, by rw [e]⟩
      rw [hkey k hk, e, keysMeet, decide_eq_true_eq]
      exact hm
  · apply List.Nodup.map_on _ (nodup_loopPairs ..)
    rintro ⟨a, b⟩ ha ⟨c, d⟩ hc e
    have hnd : idx.Nodup := by rw [← hidx]; exact List.nodup_range.filter _
    have ha := (mem_loopPairs.1 ha).1
    have hc := (mem_loopPairs.1 hc).1
    obtain ⟨e1, e2⟩ := Prod.mk.inj e
    simp only [List.getD_eq_getElem?_getD, List.getElem?_eq_getElem ha, List.getElem?_eq_getElem hc, Option.getD_some] at e1
    rw [(hnd.getElem_inj_iff).1 e1, show b = d from e2]

/-- the name of a column of the right table in the joined table -/
def newName (mk : ν → Nat → ν) (lc rc : List ν) (y : ν) : ν := (dGet y (rc.zip (rightNames mk lc rc))).getD y

/-- a column of the right table in the joined table -/
theorem joined_right {mk : ν → Nat → ν} (hmk : ∀ d a b, mk d a = mk d b → a = b) {nul : α} {t o t' : Tbl ν α} {lc rc : List ν} (hlc : lc.Nodup) {pairs : List (Option Nat × Option Nat)}
    (h : tview t' = joinedView mk nul t o lc rc pairs) (y : ν) (hy : y ∈ rc) :
    newName mk lc rc y ∈ rightNames mk lc rc ∧ ∀ k (hk : k < pairs.length), cell nul t' (newName mk lc rc y) k = optCell nul o y pairs[k].2 := by
  have hnd := rightNames_nodup mk hmk lc rc hlc
  have hz : (rc.zip (rightNames mk lc rc)).map (·.1) = rc := List.map_fst_zip (by rw [rightNames_length])
  obtain ⟨z, hz2⟩ : ∃ z, dGet y (rc.zip (rightNames mk lc rc)) = some z := by
    apply Option.isSome_iff_exists.1
    rw [dGet_isSome, hz]
    exact hy
  have hm : (y, z) ∈ rc.zip (rightNames mk lc rc) := dGet_some_mem y _ z hz2
  have hzr : z ∈ rightNames mk lc rc := (List.of_mem_zip hm).2
  have hnew : newName mk lc rc y = z := by unfold newName; rw [hz2]; rfl
  rw [hnew]
  refine ⟨hzr, fun k hk => ?_⟩
  have hmem : (z, pairs.map fun p => optCell nul o y p.2) ∈ tview t' := by
    rw [h, joinedView, List.mem_append, List.mem_map, List.mem_map]
    exact Or.inr ⟨(y, z), hm, rfl⟩
  have hnn : ((tview t').map (·.1)).Nodup := by rw [names_tview, joined_names h]; exact hnd
  rw [cell_tview, dGet_of_mem _ hnn _ hmem]
  simp [List.getD_eq_getElem?_getD, List.getElem?_eq_getElem hk]

/-- **C111** an inner join is the cross join filtered by equality of the keys -/
theorem C111_cross (ps : Nat) (hps : 0 < ps) (mk : ν → Nat → ν) (hmk : ∀ d a b, mk d a = mk d b → a = b) (ord : List (List α) → List (List α))
    (nul : α) (t o : Tbl ν α) (n m : Nat) (ht : Rect t n) (ho : Rect o m) (hn : 0 < n) (hm : 0 < m) (lk rk lc rc : List ν) (h : JoinOk t o lk rk lc rc)
    (hl : ∀ x ∈ lk, x ∈ lc) (hr : ∀ y ∈ rk, y ∈ rc) (cmp : κ → α → α → Bool) (eq : κ) (heq : ∀ a b, cmp eq a b = decide (a = b)) :
    ∃ a c p f ra rp, tblJoin ps mk ord nul .inner t o lk rk lc rc = .ok a ∧ tblRows nul a = .ok ra ∧ tblJoin ps mk ord nul .cross t o lk rk lc rc = .ok c ∧
      tblFilter nul cmp ps true c ((lk.zip rk).map fun x => ⟨.col x.1, eq, .col (newName mk lc rc x.2)⟩) = .ok (p, f) ∧ tblRows nul p = .ok rp ∧ ra.Perm rp := by
  obtain ⟨a, ra, a1, a2, a3⟩ := C111_inner ps hps mk hmk ord nul t o n m ht ho lk rk lc rc h
  obtain ⟨c, c1, c2⟩ := C26_cross_partial ps hps mk hmk ord nul t o n m ht ho hn hm lk rk lc rc h
  have e0 : ((List.range (n * m)).map fun k => ((some (k / m), some (k % m)) : Option Nat × Option Nat)) = ((List.range (n * m)).map fun k => (k / m, k % m)).map fun p => (some p.1, some p.2) := by
    rw [List.map_map]; rfl
  rw [e0] at c2
  generalize hprs : (List.range (n * m)).map (fun k => (k / m, k % m)) = prs at *
  have hz : ∀ x ∈ lk.zip rk, x.1 ∈ lc ∧ x.2 ∈ rc := fun x hx => ⟨hl _ (List.of_mem_zip hx).1, hr _ (List.of_mem_zip hx).2⟩
  obtain ⟨p, f, f1, f2⟩ := filter_joined c2 h.lcne cmp ps hps true ((lk.zip rk).map fun x => ⟨.col x.1, eq, .col (newName mk lc rc x.2)⟩) (by
    cases hlk : lk with
    | nil => exact absurd hlk h.key
    | cons x l =>
      cases hrk : rk with
      | nil => have := h.len; rw [hlk, hrk] at this; cases this
      | cons y l' => exact ⟨⟨.col x, eq, .col (newName mk lc rc y)⟩, by simp, x, Or.inl rfl⟩) (by
    intro e he x hx
    obtain ⟨⟨y, z⟩, hyz, rfl⟩ := List.mem_map.1 he
    rw [joined_names c2, List.mem_append]
    rcases hx with hx | hx <;> cases hx
    · exact Or.inl (hz _ hyz).1
    · exact Or.inr (joined_right hmk h.lcnd c2 z (hz _ hyz).2).1) (fun q => keysMeet nul t o lk rk q.1 q.2) (by
    intro k hk
    have hk' : k < (prs.map fun p => ((some p.1, some p.2) : Option Nat × Option Nat)).length := by simpa using hk
    rw [Bool.eq_iff_iff, keysMeet, decide_eq_true_eq]
    simp only [rowHolds, if_true, List.all_map, List.all_eq_true, Function.comp, heq, decide_eq_true_eq, fVal]
    have hc : ∀ x ∈ lk.zip rk, (cell nul c x.1 k = cell nul c (newName mk lc rc x.2) k ↔ cell nul t x.1 prs[k].1 = cell nul o x.2 prs[k].2) := by
      intro x hx
      rw [joined_left c2 x.1 (hz x hx).1 k hk', (joined_right hmk h.lcnd c2 x.2 (hz x hx).2).2 k hk']
      simp [optCell]
    have hlen := h.len
    clear hz hprs a1 a2 a3 c1 c2 h
    rw [show (∀ x ∈ lk.zip rk, cell nul c x.1 k = cell nul c (newName mk lc rc x.2) k) ↔ ∀ x ∈ lk.zip rk, cell nul t x.1 prs[k].1 = cell nul o x.2 prs[k].2 from
      ⟨fun h x hx => (hc x hx).1 (h x hx), fun h x hx => (hc x hx).2 (h x hx)⟩]
    clear hc hl hr
    induction lk generalizing rk with
    | nil => cases rk with
      | nil => simp
      | cons y l => cases hlen
    | cons x l ih =>
      cases rk with
      | nil => cases hlen
      | cons y l' =>
        simp only [List.zip_cons_cons, List.forall_mem_cons, List.map_cons, List.cons.injEq]
        exact and_congr Iff.rfl (ih l' (by simpa using hlen)))
  refine ⟨a, c, p, f, ra, _, a1, a2, c1, f1, f2, a3.trans ?_⟩
  rw [nestedLoop_pairs]
  apply List.Perm.map
  have hnd : prs.Nodup := by
    rw [← hprs]
    apply List.Nodup.map _ List.nodup_range
    intro a b e
    obtain ⟨e1, e2⟩ := Prod.mk.inj e
    rw [← Nat.div_add_mod a m, ← Nat.div_add_mod b m, e1, e2]
  rw [List.perm_ext_iff_of_nodup (nodup_loopPairs ..) (hnd.filter _)]
  rintro ⟨i, j⟩
  rw [mem_loopPairs, List.mem_filter, ← hprs, List.mem_map]
  constructor
  · rintro ⟨hi, hj, hk⟩
    refine ⟨⟨i * m + j, List.mem_range.2 ?_, ?_⟩, hk⟩
    · calc i * m + j < i * m + m := by omega
        _ = (i + 1) * m := by rw [Nat.add_mul, Nat.one_mul]
        _ ≤ n * m := Nat.mul_le_mul_right m hi
    · rw [Nat.add_comm, Nat.add_mul_div_right _ _ hm, Nat.add_mul_mod_self_right, Nat.div_eq_of_lt hj, Nat.mod_eq_of_lt hj, Nat.zero_add]
  · rintro ⟨⟨k, hk, e⟩, hh⟩
    cases e
    exact ⟨(Nat.div_lt_iff_lt_mul hm).2 (List.mem_range.1 hk), Nat.mod_lt _ hm, hh⟩

/-- **C111** an inner join of two tables stacked is the join of the first and the join of the second -/
theorem C111_stack (ps : Nat) (hps : 0 < ps) (mk : ν → Nat → ν) (hmk : ∀ d a b, mk d a = mk d b → a = b) (ord : List (List α) → List (List α))
    (nul : α) (t u o : Tbl ν α) (n k m : Nat) (ht : Rect t n) (hu : Rect u k) (ho : Rect o m) (wt : TblWF t) (wu : TblWF u) (hnames : ∀ x, x ∈ t.map (·.1) ↔ x ∈ u.map (·.1))
    (lk rk lc rc : List ν) (h : JoinOk t o lk rk lc rc) :
    ∃ a b c ra rb rc', tblJoin ps mk ord nul .inner t o lk rk lc rc = .ok a ∧ tblRows nul a = .ok ra ∧ tblJoin ps mk ord nul .inner u o lk rk lc rc = .ok b ∧ tblRows nul b = .ok rb ∧
      tblJoin ps mk ord nul .inner (tblStack ps nul t u) o lk rk lc rc = .ok c ∧ tblRows nul c = .ok rc' ∧ rc'.Perm (ra ++ rb) := by
  have hv := C17_stack ps hps nul t u wt wu
  have hf : (u.map (·.1)).filter (fun x => x ∉ t.map (·.1)) = [] := by
    rw [List.filter_eq_nil_iff]
    intro x hx
    simpa using (hnames x).2 hx
  rw [hf, List.append_nil] at hv
  have hne : t ≠ [] := by
    rintro rfl
    obtain ⟨x, hx⟩ := List.exists_mem_of_ne_nil lc h.lcne
    simpa using h.lcIn x hx
  have hune : u ≠ [] := by
    rintro rfl
    obtain ⟨x, hx⟩ := List.exists_mem_of_ne_nil lc h.lcne
    simpa using (hnames x).1 (h.lcIn x hx)
  rw [tblLen_rect t n ht hne, tblLen_rect u k hu hune] at hv
  generalize hs : tblStack ps nul t u = s at *
  have hsn : s.map (·.1) = t.map (·.1) := by
    rw [← names_tview, hv, List.map_map]
    exact List.map_id _
  have hlen : ∀ (t : Tbl ν α) (n : Nat), Rect t n → ∀ x, (valsOr nul t n x).length = n := by
    intro t n hr x
    unfold valsOr
    cases hx : dGet x t with
    | none => simp
    | some c => simpa [colIter_eq, colLen_eq] using hr _ (dGet_some_mem x t c hx)
  have hrs : Rect s (n + k) := by
    intro c hc
    have h1 : (c.1, colIter c.2) ∈ tview s := List.mem_map.2 ⟨c, hc, rfl⟩
    rw [hv] at h1
    obtain ⟨d, -, e⟩ := List.mem_map.1 h1
    have := (Prod.ext_iff.1 e).2
    dsimp only at this
    rw [colLen_eq, ← colIter_eq, ← this, List.length_append, hlen t n ht, hlen u k hu]
  have hcv : ∀ (t : Tbl ν α) (n : Nat) x i, x ∈ t.map (·.1) → (valsOr nul t n x).getD i nul = cell nul t x i := by
    intro t n x i hx
    unfold valsOr cell
    obtain ⟨c, hc⟩ := Option.isSome_iff_exists.1 ((dGet_isSome x t).2 hx)
    rw [hc]
    rfl
  have hcell : ∀ x ∈ t.map (·.1), ∀ i, cell nul s x i = (valsOr nul t n x ++ valsOr nul u k x).getD i nul := by
    intro x hx i
    have hm : (x, valsOr nul t n x ++ valsOr nul u k x) ∈ tview s := by rw [hv]; exact List.mem_map.2 ⟨x, hx, rfl⟩
    rw [cell_tview, dGet_of_mem _ (by rw [names_tview, hsn]; exact wt) _ hm]
    rfl
  have hc1 : ∀ x ∈ t.map (·.1), ∀ i < n, cell nul s x i = cell nul t x i := by
    intro x hx i hi
    rw [hcell x hx, ← hcv t n x i hx, List.getD_eq_getElem?_getD, List.getElem?_append_left (by rw [hlen t n ht]; exact hi), ← List.getD_eq_getElem?_getD]
  have hc2 : ∀ x ∈ t.map (·.1), ∀ i, cell nul s x (n + i) = cell nul u x i := by
    intro x hx i
    rw [hcell x hx, ← hcv u k x i ((hnames x).1 hx), List.getD_eq_getElem?_getD, List.getElem?_append_right (by rw [hlen t n ht]; omega), hlen t n ht, Nat.add_sub_cancel_left, ← List.getD_eq_getElem?_getD]
  have h1 : JoinOk u o lk rk lc rc := ⟨fun a ha => (hnames a).1 (h.lkIn a ha), h.rkIn, h.len, h.key, fun a ha => (hnames a).1 (h.lcIn a ha), h.rcIn, h.lcne, h.rcne, h.lcnd⟩
  have h2 : JoinOk s o lk rk lc rc := ⟨by rw [hsn]; exact h.lkIn, h.rkIn, h.len, h.key, by rw [hsn]; exact h.lcIn, h.rcIn, h.lcne, h.rcne, h.lcnd⟩
  obtain ⟨a, ra, a1, a2, a3⟩ := C111_inner ps hps mk hmk ord nul t o n m ht ho lk rk lc rc h
  obtain ⟨b, rb, b1, b2, b3⟩ := C111_inner ps hps mk hmk ord nul u o k m hu ho lk rk lc rc h1
  obtain ⟨c, rc', c1, c2, c3⟩ := C111_inner ps hps mk hmk ord nul s o (n + k) m hrs ho lk rk lc rc h2
  refine ⟨a, b, c, ra, rb, rc', a1, a2, b1, b2, c1, c2, c3.trans (List.Perm.trans (List.Perm.of_eq ?_) (a3.append b3).symm)⟩
  unfold nestedLoop
  rw [List.range_add, List.flatMap_append, List.flatMap_map]
  congr 1
  · apply List.flatMap_congr
    intro i hi
    have hi := List.mem_range.1 hi
    have e1 : (fun j => keysMeet nul s o lk rk i j) = fun j => keysMeet nul t o lk rk i j := by
      funext j
      unfold keysMeet
      rw [List.map_congr_left fun x hx => hc1 x (h.lkIn x hx) i hi]
    have e2 : (fun j => joinRow nul s o lc rc (some i, some j)) = fun j => joinRow nul t o lc rc (some i, some j) := by
      funext j
      simp only [joinRow, optCell]
      rw [List.map_congr_left fun x hx => hc1 x (h.lcIn x hx) i hi]
    rw [e1, e2]
  · apply List.flatMap_congr
    intro i hi
    have e1 : (fun j => keysMeet nul s o lk rk (n + i) j) = fun j => keysMeet nul u o lk rk i j := by
      funext j
      unfold keysMeet
      rw [List.map_congr_left fun x hx => hc2 x (h.lkIn x hx) i]
    have e2 : (fun j => joinRow nul s o lc rc (some (n + i), some j)) = fun j => joinRow nul u o lc rc (some i, some j) := by
      funext j
      simp only [joinRow, optCell]
      rw [List.map_congr_left fun x hx => hc2 x (h.lcIn x hx) i]
    rw [e1, e2]

/-- **C111** if no key is twice in the right table, a left join has exactly one row for each row of the left table -/
theorem C111_unique (ps : Nat) (hps : 0 < ps) (mk : ν → Nat → ν) (hmk : ∀ d a b, mk d a = mk d b → a = b) (ord : List (List α) → List (List α))
    (nul : α) (t o : Tbl ν α) (n m : Nat) (ht : Rect t n) (ho : Rect o m) (lk rk lc rc : List ν) (h : JoinOk t o lk rk lc rc) (hpg : ∀ c ∈ o, ∀ q ∈ c.2, q ≠ [])
    (hu : ∀ i < m, ∀ j < m, (rk.map fun a => cell nul o a i) = (rk.map fun a => cell nul o a j) → i = j) :
    ∃ b rb, tblJoin ps mk ord nul .left t o lk rk lc rc = .ok b ∧ tblRows nul b = .ok rb ∧ rb.length = n ∧
      rb.Perm ((List.range n).map fun i => joinRow nul t o lc rc (some i, (List.range m).find? fun j => keysMeet nul t o lk rk i j)) := by
  obtain ⟨pairs, q1, q2, b, q3, q4⟩ := C24_left_partial ps hps mk hmk ord nul t o n m ht ho lk rk lc rc h hpg
  have hp : pairs.Perm ((List.range n).map fun i => (some i, (List.range m).find? fun j => keysMeet nul t o lk rk i j)) := by
    rw [List.perm_ext_iff_of_nodup q1 (List.nodup_range.map (by intro a b e; exact Option.some.inj (Prod.mk.inj e).1))]
    rintro ⟨r, s⟩
    rw [q2, List.mem_map]
    have hf : ∀ i j, (List.range m).find? (fun j => keysMeet nul t o lk rk i j) = some j ↔ j < m ∧ (lk.map fun a => cell nul t a i) = rk.map fun a => cell nul o a j := by
      intro i j
      constructor
      · intro e
        have h1 := List.find?_some e
        have h2 := List.mem_of_find?_eq_some e
        rw [keysMeet, decide_eq_true_eq] at h1
        exact ⟨List.mem_range.1 h2, h1⟩
      · rintro ⟨hj, e⟩
        have : ((List.range m).find? fun j => keysMeet nul t o lk rk i j).isSome = true := by
          rw [List.find?_isSome]
          exact ⟨j, List.mem_range.2 hj, by rw [keysMeet, decide_eq_true_eq]; exact e⟩
        obtain ⟨j', hj'⟩ := Option.isSome_iff_exists.1 this
        have h1 := List.find?_some hj'
        have h2 := List.mem_of_find?_eq_some hj'
        rw [keysMeet, decide_eq_true_eq] at h1
        rw [hj', hu j' (List.mem_range.1 h2) j hj (h1.symm.trans e)]
    have hf0 : ∀ i, (List.range m).find? (fun j => keysMeet nul t o lk rk i j) = none ↔ ∀ j, j < m → (lk.map fun a => cell nul t a i) ≠ rk.map fun a => cell nul o a j := by
      intro i
      rw [List.find?_eq_none]
      simp [keysMeet]
    constructor
    · rintro ⟨i, rfl, hi, ⟨j, rfl, hj, e⟩ | ⟨rfl, hno⟩⟩
      · exact ⟨i, List.mem_range.2 hi, by rw [(hf i j).2 ⟨hj, e⟩]⟩
      · exact ⟨i, List.mem_range.2 hi, by rw [(hf0 i).2 hno]⟩
    · rintro ⟨i, hi, e⟩
      obtain ⟨rfl, rfl⟩ := Prod.mk.inj e
      refine ⟨i, rfl, List.mem_range.1 hi, ?_⟩
      cases hc : (List.range m).find? fun j => keysMeet nul t o lk rk i j with
      | none => exact Or.inr ⟨rfl, (hf0 i).1 hc⟩
      | some j => exact Or.inl ⟨j, rfl, (hf i j).1 hc⟩
  refine ⟨b, _, q3, joined_rows q4 h.lcne, ?_, ?_⟩
  · rw [List.length_map, hp.length_eq, List.length_map, List.length_range]
  · have := hp.map (joinRow nul t o lc rc)
    rw [List.map_map] at this
    exact this

/-- **C111** exchanging the two tables of an outer join only exchanges the columns -/
theorem C111_outer_swap (ps : Nat) (hps : 0 < ps) (mk : ν → Nat → ν) (hmk : ∀ d a b, mk d a = mk d b → a = b) (ord : List (List α) → List (List α)) (hord : ∀ l, (ord l).Perm l)
    (nul : α) (t o : Tbl ν α) (n m : Nat) (ht : Rect t n) (ho : Rect o m) (lk rk lc rc : List ν) (h : JoinOk t o lk rk lc rc) (hrc : rc.Nodup)
    (hpgl : ∀ c ∈ t, ∀ q ∈ c.2, q ≠ []) (hpg : ∀ c ∈ o, ∀ q ∈ c.2, q ≠ []) :
    ∃ a b ra rb, tblJoin ps mk ord nul .outer t o lk rk lc rc = .ok a ∧ tblRows nul a = .ok ra ∧ tblJoin ps mk ord nul .outer o t rk lk rc lc = .ok b ∧ tblRows nul b = .ok rb ∧
      ra.Perm (rb.map (swapRow rc.length)) := by
  have h' : JoinOk o t rk lk rc lc := ⟨h.rkIn, h.lkIn, h.len.symm, by
    intro e
    have := h.len
    rw [e] at this
    exact h.key (List.length_eq_zero_iff.1 this), h.rcIn, h.lcIn, h.rcne, h.lcne, hrc⟩
  obtain ⟨lp, rest, a1, a2, a3, a4, a, -, a5, a6, -⟩ := C25_outer ps hps mk hmk ord hord nul t o n m ht ho lk rk lc rc h hpgl hpg
  obtain ⟨mp, sest, b1, b2, b3, b4, b, -, b5, b6, -⟩ := C25_outer ps hps mk hmk ord hord nul o t m n ho ht rk lk rc lc h' hpg hpgl
  refine ⟨a, b, _, _, a5, joined_rows a6 h.lcne, b5, joined_rows b6 h'.lcne, ?_⟩
  have hrow : ((mp ++ sest.map fun j => (none, some j)).map (joinRow nul o t rc lc)).map (swapRow rc.length) =
      ((mp ++ sest.map fun j => ((none, some j) : Option Nat × Option Nat)).map Prod.swap).map (joinRow nul t o lc rc) := by
    rw [List.map_map, List.map_map]
    apply List.map_congr_left
    rintro ⟨r, s⟩ _
    simp [swapRow, joinRow]
  rw [hrow]
  apply List.Perm.map
  have hnd : ∀ (lp : List (Option Nat × Option Nat)) (rest : List Nat), lp.Nodup → rest.Nodup → (∀ r s, (r, s) ∈ lp → r ≠ none) →
      (lp ++ rest.map fun j => ((none, some j) : Option Nat × Option Nat)).Nodup := by
    intro lp rest h1 h2 h3
    rw [List.nodup_append]
    refine ⟨h1, h2.map (by intro a b e; cases e; rfl), ?_⟩
    rintro ⟨r, s⟩ hx y hy rfl
    obtain ⟨j, _, e⟩ := List.mem_map.1 hy
    cases e
    exact h3 _ _ hx rfl
  rw [List.perm_ext_iff_of_nodup (hnd lp rest a1 a2 (by rintro r s hm rfl; obtain ⟨i, e, -⟩ := (a3 _ _).1 hm; cases e))
    ((hnd mp sest b1 b2 (by rintro r s hm rfl; obtain ⟨i, e, -⟩ := (b3 _ _).1 hm; cases e)).map Prod.swap_injective)]
  rintro ⟨r, s⟩
  have hsw : (r, s) ∈ (mp ++ sest.map fun j => ((none, some j) : Option Nat × Option Nat)).map Prod.swap ↔ (s, r) ∈ mp ++ sest.map fun j => ((none, some j) : Option Nat × Option Nat) := by
    rw [List.mem_map]
    constructor
    · rintro ⟨⟨x, y⟩, hm, e⟩
      cases e
      exact hm
    · intro hm
      exact ⟨_, hm, rfl⟩
  rw [hsw, List.mem_append, List.mem_append, a3, b3, List.mem_map, List.mem_map]
  constructor
  · rintro (⟨i, rfl, hi, ⟨j, rfl, hj, e⟩ | ⟨rfl, hno⟩⟩ | ⟨j, hj, e⟩)
    · exact Or.inl ⟨j, rfl, hj, Or.inl ⟨i, rfl, hi, e.symm⟩⟩
    · exact Or.inr ⟨i, (b4 i).2 ⟨hi, fun j hj e => hno j hj e.symm⟩, rfl⟩
    · cases e
      obtain ⟨hj, hno⟩ := (a4 j).1 hj
      exact Or.inl ⟨j, rfl, hj, Or.inr ⟨rfl, fun i hi e => hno i hi e.symm⟩⟩
  · rintro (⟨j, rfl, hj, ⟨i, rfl, hi, e⟩ | ⟨rfl, hno⟩⟩ | ⟨i, hi, e⟩)
    · exact Or.inl ⟨i, rfl, hi, Or.inl ⟨j, rfl, hj, e.symm⟩⟩
    · exact Or.inr ⟨j, (a4 j).2 ⟨hj, fun i hi e => hno i hi e.symm⟩, rfl⟩
    · cases e
      obtain ⟨hi, hno⟩ := (b4 i).1 hi
      exact Or.inl ⟨i, rfl, hi, Or.inr ⟨rfl, fun j hj e => hno j hj e.symm⟩⟩

/-- the whole table in the order of its rows -/
theorem tview_cells (nul : α) (t : Tbl ν α) (n : Nat) (ht : Rect t n) (wt : TblWF t) : tview t = (t.map (·.1)).map fun x => (x, (List.range n).map fun i => cell nul t x i) := by
  rw [← rowsOf_all nul t n ht, rowsOf, List.map_map]
  apply List.map_congr_left
  intro c hc
  simp only [Function.comp, cell, dGet_of_mem t wt c hc]
  rfl

/-- **C111** a lookup by equal keys in a table where no key is twice is a left join: the same columns and rows -/
theorem C111_lookup {η : Type} [DecidableEq η] (hash : List α → η) (sord : List ν → List ν) (hsord : ∀ l, (sord l).Perm l)
    (ps : Nat) (hps : 0 < ps) (mk : ν → Nat → ν) (hmk : ∀ d a b, mk d a = mk d b → a = b) (ord : List (List α) → List (List α))
    (nul : α) (t o : Tbl ν α) (n m : Nat) (ht : Rect t n) (ho : Rect o m) (wt : TblWF t) (wo : TblWF o) (lk rk : List ν) (h : JoinOk t o lk rk (t.map (·.1)) (o.map (·.1)))
    (hpg : ∀ c ∈ o, ∀ q ∈ c.2, q ≠ []) (hu : ∀ i < m, ∀ j < m, (rk.map fun a => cell nul o a i) = (rk.map fun a => cell nul o a j) → i = j)
    (hinj : ∀ names : List ν, ∀ i i', i < n → i' < n → hash (names.map fun x => cell nul t x i) = hash (names.map fun x => cell nul t x i') →
      (names.map fun x => cell nul t x i) = names.map fun x => cell nul t x i')
    (hmiss : unmatched nul t o n m lk rk ≠ [] → n ≤ ps) :
    ∃ a b ra rb, tblLookup hash sord ps mk nul true t o ((lk.zip rk).map fun x => ⟨fun a b => decide (a = b), .name x.1 nul, .name x.2 nul⟩) = .ok a ∧ tblRows nul a = .ok ra ∧
      tblJoin ps mk ord nul .left t o lk rk (t.map (·.1)) (o.map (·.1)) = .ok b ∧ tblRows nul b = .ok rb ∧ a.map (·.1) = b.map (·.1) ∧ ra.Perm rb := by
  have hmatch : ∀ i j, rowMatch nul true t o ((lk.zip rk).map fun x => ⟨fun a b => decide (a = b), .name x.1 nul, .name x.2 nul⟩) i j ↔ keysMeet nul t o lk rk i j = true := by
    intro i j
    have hlen := h.len
    have h1 := h.lkIn
    have h2 := h.rkIn
    simp only [rowMatch, if_true, List.forall_mem_map, decide_eq_true_eq, keysMeet]
    clear hmiss hinj hu hpg h
    induction lk generalizing rk with
    | nil => cases rk with
      | nil => simp
      | cons y l => cases hlen
    | cons x l ih =>
      cases rk with
      | nil => cases hlen
      | cons y l' =>
        simp only [List.zip_cons_cons, List.forall_mem_cons, List.map_cons, List.cons.injEq]
        refine and_congr ?_ (ih l' (by simpa using hlen) (fun a ha => h1 a (by simp [ha])) fun a ha => h2 a (by simp [ha]))
        simp only [opVal, if_pos (h1 x (by simp)), if_pos (h2 y (by simp))]
  obtain ⟨b, rb, b1, b2, -, b3⟩ := C111_unique ps hps mk hmk ord nul t o n m ht ho lk rk _ _ h hpg hu
  obtain ⟨pairs, -, -, b', q3, q4⟩ := C24_left_partial ps hps mk hmk ord nul t o n m ht ho lk rk _ _ h hpg
  have hbb : b' = b := by rw [b1] at q3; exact (Except.ok.inj q3).symm
  rw [hbb] at q4
  have hx : ∃ x y, (x, y) ∈ lk.zip rk := by
    cases hlk : lk with
    | nil => exact absurd hlk h.key
    | cons x l =>
      cases hrk : rk with
      | nil => have := h.len; rw [hlk, hrk] at this; cases this
      | cons y l' => exact ⟨x, y, by simp⟩
  obtain ⟨x, y, hxy⟩ := hx
  obtain ⟨rows, r1, r2, a, a1, a2⟩ := C28_lookup_partial hash sord hsord ps hps mk hmk nul true t o n m ht ho wo
    ((lk.zip rk).map fun x => ⟨fun a b => decide (a = b), .name x.1 nul, .name x.2 nul⟩)
    ⟨x, nul, List.mem_map.2 ⟨_, List.mem_map.2 ⟨_, hxy, rfl⟩, rfl⟩, h.lkIn x (List.of_mem_zip hxy).1⟩
    ⟨y, nul, List.mem_map.2 ⟨_, List.mem_map.2 ⟨_, hxy, rfl⟩, rfl⟩, h.rkIn y (List.of_mem_zip hxy).2⟩ hinj (by
      rintro ⟨i, hi, hno⟩
      refine ⟨hmiss ?_, hpg⟩
      apply List.ne_nil_of_mem (a := i)
      simp only [unmatched, List.mem_filter, List.mem_range, List.all_eq_true, Bool.not_eq_true']
      refine ⟨hi, fun j hj => ?_⟩
      have := hno j hj
      rw [hmatch] at this
      simpa using this)
  have hrow : ∀ i (hi : i < n), rows[i]'(by omega) = (List.range m).find? fun j => keysMeet nul t o lk rk i j := by
    intro i hi
    have hf := r2 i (rows[i]'(by omega)) (List.getElem?_eq_getElem (by omega))
    cases hr : rows[i]'(by omega) with
    | none =>
      rw [hr] at hf
      symm
      rw [List.find?_eq_none]
      intro j hj
      rw [← hmatch]
      exact hf j (List.mem_range.1 hj)
    | some j =>
      rw [hr] at hf
      obtain ⟨hj, hm, hlt⟩ := hf
      symm
      rw [List.find?_range_eq_some]
      exact ⟨(hmatch i j).1 hm, List.mem_range.2 hj, fun k hk => by have := hlt k hk; rw [hmatch] at this; simpa using this⟩
  have hrows : rows = (List.range n).map fun i => (List.range m).find? fun j => keysMeet nul t o lk rk i j := by
    apply List.ext_getElem
    · simp [r1]
    · intro i h1 h2
      simp [hrow i (by omega)]
  have hv : tview a = joinedView mk nul t o (t.map (·.1)) (o.map (·.1)) ((List.range n).map fun i => (some i, (List.range m).find? fun j => keysMeet nul t o lk rk i j)) := by
    rw [a2, joinedView, tview_cells nul t n ht wt, hrows]
    simp only [List.map_map]
    rfl
  refine ⟨a, b, _, rb, a1, joined_rows hv h.lcne, b1, b2, ?_, ?_⟩
  · rw [joined_names hv, joined_names q4]
  · refine List.Perm.trans (List.Perm.of_eq ?_) b3.symm
    rw [List.map_map]
    rfl

/-! ## Examples -/

/-- orders with the number of a customer -/
def orders : Tbl String Nat := [("customer", [[5, 6], [5]]), ("amount", [[1, 2, 3]])]

/-- customers -/
def customers : Tbl String Nat := [("customer", [[5, 7]]), ("age", [[80], [90]])]

example : JoinOk orders customers ["customer"] ["customer"] ["customer", "amount"] ["customer", "age"] :=
  ⟨by decide, by decide, by decide, by decide, by decide, by decide, by decide, by decide, by decide⟩

example : Rect orders 3 ∧ Rect customers 2 ∧ TblWF orders ∧ (∀ c ∈ customers, ∀ q ∈ c.2, q ≠ []) ∧ (∀ c ∈ orders, ∀ q ∈ c.2, q ≠ []) ∧
    ∀ i < 2, ∀ j < 2, (["customer"].map fun a => cell 0 customers a i) = (["customer"].map fun a => cell 0 customers a j) → i = j :=
  ⟨by unfold Rect; decide, by unfold Rect; decide, by unfold TblWF; decide, by decide, by decide, by decide⟩

example : nestedLoop 0 orders customers 3 2 ["customer"] ["customer"] ["customer", "amount"] ["customer", "age"] = [[5, 1, 5, 80], [5, 3, 5, 80]] ∧
    unmatched 0 orders customers 3 2 ["customer"] ["customer"] = [1] := by decide

example : newName (fun d i => d ++ "_" ++ toString i) ["customer", "amount"] ["customer", "age"] "customer" = "customer_1" := by decide +kernel

end

end Tablite
