import Verif.Props.Pivot
import Verif.Props.GroupCut
/-!
# C59: exactly when a pivot counts every row

A pivot is made of a group-by, so it loses the rows that the group-by loses: those behind the ends of the shortest pages of the columns used.
-/

namespace Tablite

theorem sum_parts {ι κ : Type} [DecidableEq κ] (key : ι → κ) (K : List κ) (hK : K.Nodup) (l : List ι) (h : ∀ x ∈ l, key x ∈ K) : (K.map fun k => (l.filter fun x => key x = k).length).sum = l.length := by
  induction l with
  | nil =>
    have e : (K.map fun k => (([] : List ι).filter fun x => key x = k).length) = K.map fun _ => 0 := List.map_congr_left fun _ _ => rfl
    rw [e]
    clear e hK h
    induction K with
    | nil => rfl
    | cons a K ih => rw [List.map_cons, List.sum_cons, ih]; rfl
  | cons x l ih =>
    have e : ∀ M : List κ, (M.map fun k => ((x :: l).filter fun y => key y = k).length).sum = (M.map fun k => (l.filter fun y => key y = k).length).sum + M.count (key x) := by
      intro M
      induction M with
      | nil => rfl
      | cons a M ihM =>
        rw [List.map_cons, List.sum_cons, ihM, List.map_cons, List.sum_cons, List.filter_cons, List.count_cons]
        by_cases hx : key x = a
        · simp [hx]; omega
        · have : ¬ a = key x := fun e => hx e.symm
          simp [hx, this]; omega
    rw [e, ih (fun y hy => h y (by simp [hy])), List.count_eq_one_of_mem hK (h x (by simp)), List.length_cons]

/-- the number in a cell -/
def cellCount : GVal → Nat
  | .int i => i.toNat
  | _ => 0

section
variable {ν : Type} [DecidableEq ν]

/-- the counts of a pivot add up to the number of rows -/
theorem pivot_total (fnVal : ν × Acc → GVal) (t : Tbl ν GVal) (n : Nat) (rows columns : List ν) (c : ν) :
    (((pivotRowsView fnVal .none t n rows columns [(c, Acc.count)] fun _ k => .int (rowsWith .none t (rows ++ columns) n k).length).drop (rows.length + 1)).map fun col => (col.map cellCount).sum).sum = n := by
  unfold pivotRowsView
  rw [List.drop_left' (by simp), List.map_map]
  have hcell : ∀ rk ∈ firstOccs (keyRows GVal.none t rows n), ∀ ck,
      (pivotCell GVal.none t n rows columns [(c, Acc.count)] (fun _ k => GVal.int (rowsWith .none t (rows ++ columns) n k).length) rk ck).map cellCount =
        [(((List.range n).filter fun i => keyAt GVal.none t columns i = ck).filter fun i => keyAt GVal.none t rows i = rk).length] := by
    intro rk hrk ck
    have hl := mem_keyRows_length GVal.none t rows n rk (mem_firstOccs.1 hrk)
    have hf : rowsWith GVal.none t (rows ++ columns) n (rk ++ ck) = ((List.range n).filter fun i => keyAt GVal.none t columns i = ck).filter fun i => keyAt GVal.none t rows i = rk := by
      unfold rowsWith
      rw [List.filter_filter]
      refine List.filter_congr fun i _ => ?_
      rw [← Bool.decide_and, decide_eq_decide]
      unfold keyAt
      rw [List.map_append]
      constructor
      · intro h
        obtain ⟨h1, h2⟩ := List.append_inj h (by simpa using hl.symm)
        exact ⟨h1, h2⟩
      · rintro ⟨h1, h2⟩
        rw [h1, h2]
    unfold pivotCell
    split
    · simp only [List.map_cons, List.map_nil, cellCount, hf, Int.toNat_natCast]
    · rename_i hno
      simp only [List.map_cons, List.map_nil, cellCount]
      rw [List.filter_filter, List.filter_eq_nil_iff.2, List.length_nil]
      intro i hi
      simp only [Bool.and_eq_true, decide_eq_true_eq]
      rintro ⟨h1, h2⟩
      exact hno ⟨i, List.mem_range.1 hi, h1, h2⟩
  have hcol : ∀ ck ∈ firstOccs (keyRows GVal.none t columns n), ((fun col => (List.map cellCount col).sum) ∘ fun ck => (firstOccs (keyRows GVal.none t rows n)).flatMap fun rk =>
      pivotCell GVal.none t n rows columns [(c, Acc.count)] (fun _ k => GVal.int (rowsWith .none t (rows ++ columns) n k).length) rk ck) ck = ((List.range n).filter fun i => keyAt GVal.none t columns i = ck).length := by
    intro ck _
    rw [← sum_parts (fun i => keyAt GVal.none t rows i) (firstOccs (keyRows GVal.none t rows n)) (nodup_firstOccs _) _ (fun i hi =>
      mem_firstOccs.2 (List.mem_map.2 ⟨i, (List.mem_filter.1 hi).1, rfl⟩))]
    show (List.map cellCount (List.flatMap _ _)).sum = _
    rw [List.map_flatMap, List.flatMap_def, List.map_congr_left fun rk hrk => hcell rk hrk ck, List.sum_flatten, List.map_map]
    congr 1
  rw [List.map_congr_left hcol]
  rw [sum_parts (fun i => keyAt GVal.none t columns i) (firstOccs (keyRows GVal.none t columns n)) (nodup_firstOccs _) (List.range n) (fun i hi => mem_firstOccs.2 (List.mem_map.2 ⟨i, hi, rfl⟩)), List.length_range]

end

/-- **C59** (exact) a pivot that counts rows is right exactly when the pages of the columns used have the same lengths up to empty pages, so that no row is lost -/
theorem C59_exact (txt : GVal → String) (sqrt : Rat → Rat) (ps : Nat) (hps : 0 < ps) (t : Tbl String GVal) (n : Nat) (hn : 0 < n) (ht : Rect t n) (rows columns : List String) (c : String)
    (hnames : ∀ a ∈ rows ++ columns ++ [c], a ∈ t.map (·.1)) (hnd : (rows ++ columns ++ [accName .count c]).Nodup) :
    PivotRowsOk txt sqrt ps t n rows columns [(c, .count)] ↔ cutRows t (rows ++ columns) [(c, Acc.count)] = n := by
  have hnames' : ∀ a ∈ (rows ++ columns) ++ [(c, Acc.count)].map (·.1), a ∈ t.map (·.1) := by simpa using hnames
  have hnd' : ((rows ++ columns) ++ [(c, Acc.count)].map fun f => accName f.2 f.1).Nodup := by simpa using hnd
  have hcount : ∀ (u : Tbl String GVal) (m : Nat), ∀ f ∈ [(c, Acc.count)], ∀ k ∈ keyRows GVal.none u (rows ++ columns) m,
      aggOf accInit accUpdate (accValue sqrt) f.2 ((rowsWith .none u (rows ++ columns) m k).map fun i => cell .none u f.1 i) = .ok (GVal.int (rowsWith .none u (rows ++ columns) m k).length) := by
    intro u m f hf k _
    simp only [List.mem_singleton] at hf
    subst hf
    rw [aggOf_acc, C34_count, List.length_map]
  constructor
  · intro h
    obtain ⟨t', names, h1, h2, h3, -⟩ := h (fun _ k => GVal.int (rowsWith .none t (rows ++ columns) n k).length) (hcount t n)
    obtain ⟨g, h4, h5⟩ := C33_effect .none accInit accUpdate (accValue sqrt) accName ps hps t (rows ++ columns) [(c, Acc.count)] (by simp) hnames' hnd'
      (fun _ k => GVal.int (rowsWith .none (cutTbl t (rows ++ columns) [(c, Acc.count)]) (rows ++ columns) (cutRows t (rows ++ columns) [(c, Acc.count)]) k).length) (hcount _ _)
    have hvlen : ∀ (u : Tbl String GVal) (m : Nat) agg, (pivotRowsView (textNames txt).fnVal GVal.none u m rows columns [(c, Acc.count)] agg).length = rows.length + 1 + (firstOccs (keyRows GVal.none u columns m)).length := by
      intro u m agg
      simp [pivotRowsView]
      omega
    rcases Nat.eq_zero_or_pos (cutRows t (rows ++ columns) [(c, Acc.count)]) with h0 | hpos
    · exfalso
      rw [h0] at h5
      have hz : tblLen g = 0 := by
        have hall : ∀ x ∈ tview g, x.2 = [] := by
          rw [h5]
          intro x hx
          simp only [groupView, keyRows, List.range_zero, List.map_nil, firstOccs, List.mem_append, List.mem_map, List.mem_singleton] at hx
          rcases hx with ⟨_, -, rfl⟩ | ⟨_, -, rfl⟩ <;> rfl
        have : ∀ x ∈ g, colLen x.2 = 0 := by
          intro x hx
          have : colIter x.2 = [] := hall (x.1, colIter x.2) (List.mem_map.2 ⟨x, hx, rfl⟩)
          rw [colLen_eq, ← colIter_eq, this]
          rfl
        unfold tblLen
        rw [List.map_congr_left this]
        clear * -
        induction g with
        | nil => rfl
        | cons a g ih => simpa using ih
      rw [h4] at h1
      have e : pivot ps suffixed (textNames txt) GVal.none (.ok g) rows columns [(c, Acc.count)] true = .ok [] := by
        show (if tblLen g = 0 then _ else _) = _
        rw [if_pos hz]
      rw [e] at h1
      injection h1 with h1
      subst h1
      have hl := congrArg List.length h2
      rw [List.length_zip, h3, hvlen, Nat.min_self] at hl
      simp only [tview, List.map_nil, List.length_nil] at hl
      omega
    · obtain ⟨t'', names', h6, h7, h8, -⟩ := pivot_of_groups ps hps suffixed suffixed_inj (textNames txt) .none accName (cutTbl t (rows ++ columns) [(c, Acc.count)]) _ hpos rows columns [(c, Acc.count)] (by simp) _ _ g h4 h5
      rw [h1] at h6
      injection h6 with h6
      rw [← h6, h2] at h7
      have h9 := congrArg (List.map (·.2)) h7
      rw [List.map_snd_zip (by rw [hvlen, h3]), List.map_snd_zip (by rw [hvlen, h8])] at h9
      have h10 := congrArg (fun v => ((v.drop (rows.length + 1)).map fun col : List GVal => (col.map cellCount).sum).sum) h9
      rw [pivot_total, pivot_total] at h10
      exact h10.symm
  · intro h agg hagg
    obtain ⟨g, h1, h2⟩ := C33_layout .none accInit accUpdate (accValue sqrt) accName ps hps t n ht (rows ++ columns) [(c, Acc.count)] (by simp) hnames' hnd' h agg hagg
    obtain ⟨t', names, h3, h4, h5, h6, -⟩ := pivot_of_groups ps hps suffixed suffixed_inj (textNames txt) .none accName t n hn rows columns [(c, Acc.count)] (by simp) agg _ g h1 h2
    exact ⟨t', names, h3, h4, h5, h6⟩

/-- `C59_exact` on three tables: the same pages, an empty page at the end, and pages that end at different rows -/
example : (PivotRowsOk (fun _ => "") id 10 pivotSource 3 ["a"] ["b"] [("v", .count)]) ∧
    (PivotRowsOk (fun _ => "") id 10 [("k", [[GVal.int 1, .int 2], [.int 1]]), ("v", [[.int 10, .int 20], [.int 30], []])] 3 ["k"] [] [("v", .count)]) ∧
    ¬ PivotRowsOk (fun _ => "") id 10 misaligned 3 ["k"] [] [("v", .count)] := by
  refine ⟨(C59_exact _ _ 10 (by omega) _ 3 (by omega) (by unfold Rect; decide) _ _ _ (by decide) (by decide +kernel)).2 (by decide +kernel),
    (C59_exact _ _ 10 (by omega) _ 3 (by omega) (by unfold Rect; decide) _ _ _ (by decide) (by decide +kernel)).2 (by decide +kernel),
    fun h => absurd ((C59_exact _ _ 10 (by omega) _ 3 (by omega) (by unfold Rect; decide +kernel) _ _ _ (by decide +kernel) (by decide +kernel)).1 h) (by decide +kernel)⟩

end Tablite
