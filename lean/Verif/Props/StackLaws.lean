import Verif.Props.JoinLaws
import Verif.Props.Display
import Verif.Props.Exact2
/-!
# Laws of stacking, adding, repeating, slicing and reindexing tables (C114)

No new model: the operations of `Model/Table.lean` and `Model/Filter.lean` are composed.  Tables are compared by their contents (`tview`): names, order of columns and values.
-/

namespace Tablite

section
variable {ν α κ : Type} [DecidableEq ν]

/-! ## the contents of a stack -/

theorem names_stack (ps : Nat) (hps : 0 < ps) (nul : α) (t u : Tbl ν α) (wt : TblWF t) (wu : TblWF u) :
    (tblStack ps nul t u).map (·.1) = t.map (·.1) ++ (u.map (·.1)).filter (fun x => x ∉ t.map (·.1)) := by
  rw [← names_tview, C17_stack ps hps nul t u wt wu, List.map_map]
  exact List.map_id _

theorem wf_stack (ps : Nat) (hps : 0 < ps) (nul : α) (t u : Tbl ν α) (wt : TblWF t) (wu : TblWF u) : TblWF (tblStack ps nul t u) := by
  unfold TblWF
  rw [names_stack ps hps nul t u wt wu, List.nodup_append]
  refine ⟨wt, List.Nodup.filter _ wu, ?_⟩
  intro a ha b hb e
  have := (List.mem_filter.1 hb).2
  simp only [decide_eq_true_eq] at this
  exact this (e ▸ ha)

theorem valsOr_length (nul : α) (t : Tbl ν α) (n : Nat) (hr : Rect t n) (x : ν) : (valsOr nul t n x).length = n := by
  unfold valsOr
  cases hx : dGet x t with
  | none => simp
  | some c => simpa [colIter_eq, colLen_eq] using hr _ (dGet_some_mem x t c hx)

theorem rect_stack (ps : Nat) (hps : 0 < ps) (nul : α) (t u : Tbl ν α) (wt : TblWF t) (wu : TblWF u) (ht : Rect t (tblLen t)) (hu : Rect u (tblLen u)) :
    Rect (tblStack ps nul t u) (tblLen t + tblLen u) := by
  intro c hc
  have h1 : (c.1, colIter c.2) ∈ tview (tblStack ps nul t u) := List.mem_map.2 ⟨c, hc, rfl⟩
  rw [C17_stack ps hps nul t u wt wu] at h1
  obtain ⟨d, -, e⟩ := List.mem_map.1 h1
  have := (Prod.ext_iff.1 e).2
  dsimp only at this
  rw [colLen_eq, ← colIter_eq, ← this, List.length_append, valsOr_length nul t _ ht, valsOr_length nul u _ hu]

/-- **C114** a stack of two tables has the rows of both -/
theorem C114_len (ps : Nat) (hps : 0 < ps) (nul : α) (t u : Tbl ν α) (wt : TblWF t) (wu : TblWF u) (ht : Rect t (tblLen t)) (hu : Rect u (tblLen u)) :
    tblLen (tblStack ps nul t u) = tblLen t + tblLen u := by
  by_cases hne : tblStack ps nul t u = []
  · have h := names_stack ps hps nul t u wt wu
    rw [hne] at h
    have h1 : t.map (·.1) = [] := (List.append_eq_nil_iff.1 h.symm).1
    have h2 := (List.append_eq_nil_iff.1 h.symm).2
    have e1 : t = [] := List.map_eq_nil_iff.1 h1
    subst e1
    rw [List.filter_eq_nil_iff] at h2
    cases u with
    | nil => rw [hne]; rfl
    | cons c u => exact absurd (h2 c.1 (by simp)) (by simp)
  · exact tblLen_rect _ _ (rect_stack ps hps nul t u wt wu ht hu) hne

theorem valsOr_stack (ps : Nat) (hps : 0 < ps) (nul : α) (t u : Tbl ν α) (wt : TblWF t) (wu : TblWF u) (x : ν) :
    valsOr nul (tblStack ps nul t u) (tblLen t + tblLen u) x = valsOr nul t (tblLen t) x ++ valsOr nul u (tblLen u) x := by
  have hv := C17_stack ps hps nul t u wt wu
  have hn := names_stack ps hps nul t u wt wu
  by_cases hx : x ∈ (tblStack ps nul t u).map (·.1)
  · have hm : (x, valsOr nul t (tblLen t) x ++ valsOr nul u (tblLen u) x) ∈ tview (tblStack ps nul t u) := by
      rw [hv]
      exact List.mem_map.2 ⟨x, hn ▸ hx, rfl⟩
    have h1 := dGet_of_mem _ (by rw [names_tview]; exact wf_stack ps hps nul t u wt wu) _ hm
    rw [dGet_tview] at h1
    unfold valsOr at h1 ⊢
    cases hg : dGet x (tblStack ps nul t u) with
    | none => rw [hg] at h1; cases h1
    | some p => rw [hg] at h1; exact Option.some.inj h1
  · have hx' := hx
    rw [hn, List.mem_append, List.mem_filter] at hx'
    have h1 : x ∉ t.map (·.1) := fun h => hx' (Or.inl h)
    have h2 : x ∉ u.map (·.1) := fun h => hx' (Or.inr ⟨h, by simpa using h1⟩)
    unfold valsOr
    rw [(dGet_none x _).2 hx, (dGet_none x t).2 h1, (dGet_none x u).2 h2]
    simp

/-- **C114** stacking is associative: `t.stack(u).stack(v)` and `t.stack(u.stack(v))` have the same columns in the same order with the same values -/
theorem C114_stack_assoc (ps : Nat) (hps : 0 < ps) (nul : α) (t u v : Tbl ν α) (wt : TblWF t) (wu : TblWF u) (wv : TblWF v)
    (ht : Rect t (tblLen t)) (hu : Rect u (tblLen u)) (hv : Rect v (tblLen v)) :
    tview (tblStack ps nul (tblStack ps nul t u) v) = tview (tblStack ps nul t (tblStack ps nul u v)) := by
  rw [C17_stack ps hps nul _ v (wf_stack ps hps nul t u wt wu) wv, C17_stack ps hps nul t _ wt (wf_stack ps hps nul u v wu wv), names_stack ps hps nul t u wt wu,
    names_stack ps hps nul u v wu wv, C114_len ps hps nul t u wt wu ht hu, C114_len ps hps nul u v wu wv hu hv]
  have e : t.map (·.1) ++ (u.map (·.1)).filter (fun x => x ∉ t.map (·.1)) ++
        (v.map (·.1)).filter (fun x => x ∉ t.map (·.1) ++ (u.map (·.1)).filter (fun x => x ∉ t.map (·.1))) =
      t.map (·.1) ++ (u.map (·.1) ++ (v.map (·.1)).filter (fun x => x ∉ u.map (·.1))).filter (fun x => x ∉ t.map (·.1)) := by
    rw [List.filter_append, List.append_assoc, List.filter_filter]
    congr 2
    apply List.filter_congr
    intro x _
    rw [Bool.eq_iff_iff]
    simp only [decide_eq_true_eq, Bool.and_eq_true, List.mem_append, List.mem_filter]
    tauto
  rw [e]
  apply List.map_congr_left
  intro x _
  rw [valsOr_stack ps hps nul t u wt wu, valsOr_stack ps hps nul u v wu wv, List.append_assoc]

/-- **C114** stacking on or under a table without columns changes nothing -/
theorem C114_stack_empty (ps : Nat) (hps : 0 < ps) (nul : α) (t : Tbl ν α) (wt : TblWF t) :
    tview (tblStack ps nul t []) = tview t ∧ tview (tblStack ps nul [] t) = tview t := by
  have hr : tview t = (t.map (·.1)).map fun x => (x, valsOr nul t (tblLen t) x) := by
    have := tbl_repr (tview t) (by rw [names_tview]; exact wt) (valsOr nul t (tblLen t)) (by
      intro x b hb
      rw [dGet_tview] at hb
      unfold valsOr
      cases hx : dGet x t with
      | none => rw [hx] at hb; cases hb
      | some p => rw [hx] at hb; exact Option.some.inj hb)
    rwa [names_tview] at this
  constructor
  · rw [C17_stack ps hps nul t [] wt (by unfold TblWF; exact List.nodup_nil), hr]
    simp only [List.map_nil, List.filter_nil, List.append_nil]
    apply List.map_congr_left
    intro x _
    simp [valsOr, dGet, tblLen]
  · rw [C17_stack ps hps nul [] t (by unfold TblWF; exact List.nodup_nil) wt, hr]
    simp only [List.map_nil, List.nil_append, List.not_mem_nil, not_false_eq_true, decide_true, List.filter_true]
    apply List.map_congr_left
    intro x _
    simp [valsOr, dGet, tblLen]

/-! ## adding -/

theorem add_view (t u : Tbl ν α) (hn : ∀ x, x ∈ t.map (·.1) ↔ x ∈ u.map (·.1)) :
    ∃ s, tblIAdd t u = .ok s ∧ tview s = t.map fun c => (c.1, colIter c.2 ++ ((dGet c.1 u).elim [] colIter)) := by
  refine ⟨t.map fun c => (c.1, c.2 ++ (dGet c.1 u).getD []), ?_, ?_⟩
  · unfold tblIAdd
    rw [if_pos, if_pos]
    · apply mapM_ok
      intro c hc
      have : (dGet c.1 u).isSome = true := by
        rw [dGet_isSome, ← hn]; exact List.mem_map.2 ⟨c, hc, rfl⟩
      cases e : dGet c.1 u with
      | none => rw [e] at this; cases this
      | some p => simp
    · rw [List.all_eq_true]
      intro c hc
      rw [dGet_isSome, hn]; exact List.mem_map.2 ⟨c, hc, rfl⟩
    · rw [List.all_eq_true]
      intro c hc
      rw [dGet_isSome, ← hn]; exact List.mem_map.2 ⟨c, hc, rfl⟩
  · unfold tview
    rw [List.map_map]
    apply List.map_congr_left
    intro c _
    simp only [Function.comp, colIter_append]
    cases dGet c.1 u <;> rfl

theorem dGet_view {t s : Tbl ν α} {f : ν → List α → List α} (h : tview s = t.map fun c => (c.1, f c.1 (colIter c.2))) (x : ν) :
    (dGet x s).elim [] colIter = (dGet x t).elim [] fun p => f x (colIter p) := by
  have h1 : dGet x (tview s) = (dGet x t).map fun p => f x (colIter p) := by
    rw [h]
    clear h
    induction t with
    | nil => rfl
    | cons c t ih =>
      obtain ⟨k, p⟩ := c
      simp only [List.map_cons, dGet]
      by_cases e : k = x
      · subst e; simp
      · simp [e, ih]
  rw [dGet_tview] at h1
  cases hs : dGet x s with
  | none =>
    rw [hs] at h1
    cases ht : dGet x t with
    | none => rfl
    | some p => rw [ht] at h1; cases h1
  | some q =>
    rw [hs] at h1
    cases ht : dGet x t with
    | none => rw [ht] at h1; cases h1
    | some p => rw [ht] at h1; exact Option.some.inj h1

/-- **C114** adding is associative, and the sums exist for tables with the same names in any order -/
theorem C114_add_assoc (t u v : Tbl ν α) (h1 : ∀ x, x ∈ t.map (·.1) ↔ x ∈ u.map (·.1)) (h2 : ∀ x, x ∈ u.map (·.1) ↔ x ∈ v.map (·.1)) :
    ∃ tu uv a b, tblIAdd t u = .ok tu ∧ tblIAdd u v = .ok uv ∧ tblIAdd tu v = .ok a ∧ tblIAdd t uv = .ok b ∧ tview a = tview b := by
  obtain ⟨tu, a1, a2⟩ := add_view t u h1
  obtain ⟨uv, b1, b2⟩ := add_view u v h2
  have n1 : tu.map (·.1) = t.map (·.1) := by rw [← names_tview, a2, List.map_map]; rfl
  have n2 : uv.map (·.1) = u.map (·.1) := by rw [← names_tview, b2, List.map_map]; rfl
  obtain ⟨a, c1, c2⟩ := add_view tu v (by intro x; rw [n1, h1, h2])
  obtain ⟨b, d1, d2⟩ := add_view t uv (by intro x; rw [n2]; exact h1 x)
  refine ⟨tu, uv, a, b, a1, b1, c1, d1, ?_⟩
  rw [c2, d2]
  have e : (tu.map fun c => (c.1, colIter c.2 ++ (dGet c.1 v).elim [] colIter)) = (tview tu).map fun c => (c.1, c.2 ++ (dGet c.1 v).elim [] colIter) := by
    unfold tview; rw [List.map_map]; rfl
  rw [e, a2, List.map_map]
  apply List.map_congr_left
  intro c hc
  simp only [Function.comp, List.append_assoc, Prod.mk.injEq, true_and, List.append_cancel_left_eq]
  rw [dGet_view (f := fun x l => l ++ (dGet x v).elim [] colIter) b2]
  have : (dGet c.1 u).isSome = true := by
    rw [dGet_isSome, ← h1]; exact List.mem_map.2 ⟨c, hc, rfl⟩
  obtain ⟨p, hp⟩ := Option.isSome_iff_exists.1 this
  rw [hp]
  rfl

/-- **C114** for tables with the same names adding is stacking -/
theorem C114_add_stack (ps : Nat) (hps : 0 < ps) (nul : α) (t u : Tbl ν α) (wt : TblWF t) (wu : TblWF u) (hn : ∀ x, x ∈ t.map (·.1) ↔ x ∈ u.map (·.1)) :
    ∃ s, tblIAdd t u = .ok s ∧ tview s = tview (tblStack ps nul t u) := by
  obtain ⟨s, s1, s2⟩ := add_view t u hn
  refine ⟨s, s1, ?_⟩
  have hf : (u.map (·.1)).filter (fun x => x ∉ t.map (·.1)) = [] := by
    rw [List.filter_eq_nil_iff]
    intro x hx
    simpa using (hn x).2 hx
  rw [s2, C17_stack ps hps nul t u wt wu, hf, List.append_nil, List.map_map]
  apply List.map_congr_left
  intro c hc
  have h1 := dGet_of_mem t wt c hc
  have h2 : (dGet c.1 u).isSome = true := by
    rw [dGet_isSome, ← hn]; exact List.mem_map.2 ⟨c, hc, rfl⟩
  obtain ⟨p, hp⟩ := Option.isSome_iff_exists.1 h2
  simp [valsOr, h1, hp]

/-! ## repeating -/

theorem flatten_replicate_mul (l : List α) (m n : Nat) : (List.replicate n (List.replicate m l).flatten).flatten = (List.replicate (m * n) l).flatten := by
  induction n with
  | zero => simp
  | succ n ih => rw [List.replicate_succ, List.flatten_cons, ih, Nat.mul_succ, Nat.add_comm (m * n), List.replicate_add, List.flatten_append]

/-- **C114** repeating twice is repeating once by the product -/
theorem C114_repeat (t : Tbl ν α) (m n : Nat) (hm : 0 < m) (hn : 0 < n) :
    ∃ a b c, tblIMul t m = .ok a ∧ tblIMul a n = .ok b ∧ tblIMul t (m * n : Nat) = .ok c ∧ tview b = tview c := by
  obtain ⟨a, a1, a2⟩ := (C09_table_repeat t m).1 (by omega)
  obtain ⟨b, b1, b2⟩ := (C09_table_repeat a n).1 (by omega)
  obtain ⟨c, c1, c2⟩ := (C09_table_repeat t (m * n : Nat)).1 (by have := Nat.mul_pos hm hn; omega)
  refine ⟨a, b, c, a1, b1, c1, ?_⟩
  unfold tview
  rw [b2, c2]
  have e : (a.map fun c => (c.1, (List.replicate (n : Int).toNat (colIter c.2)).flatten)) =
      (a.map fun c => (c.1, colIter c.2)).map fun c => (c.1, (List.replicate n c.2).flatten) := by
    rw [List.map_map]; rfl
  rw [e, a2, List.map_map]
  apply List.map_congr_left
  intro c _
  simp only [Function.comp, Int.toNat_natCast]
  rw [flatten_replicate_mul]

/-- **C114** one more repetition is one more addition: `t * (n + 1) = t * n + t` -/
theorem C114_repeat_succ (t : Tbl ν α) (wt : TblWF t) (n : Nat) (hn : 0 < n) :
    ∃ a b c, tblIMul t n = .ok a ∧ tblIAdd a t = .ok b ∧ tblIMul t (n + 1 : Nat) = .ok c ∧ tview b = tview c := by
  obtain ⟨a, a1, a2⟩ := (C09_table_repeat t n).1 (by omega)
  obtain ⟨c, c1, c2⟩ := (C09_table_repeat t (n + 1 : Nat)).1 (by omega)
  have hnames : a.map (·.1) = t.map (·.1) := by
    have := congrArg (List.map (·.1)) a2
    rw [List.map_map, List.map_map] at this
    exact this
  obtain ⟨b, b1, b2⟩ := add_view a t (by rw [hnames]; intro x; rfl)
  refine ⟨a, b, c, a1, b1, c1, ?_⟩
  rw [b2]
  unfold tview
  rw [c2]
  have e : (a.map fun c => (c.1, colIter c.2 ++ (dGet c.1 t).elim [] colIter)) =
      (a.map fun c => (c.1, colIter c.2)).map fun c => (c.1, c.2 ++ (dGet c.1 t).elim [] colIter) := by
    rw [List.map_map]; rfl
  rw [e, a2, List.map_map]
  apply List.map_congr_left
  intro c hc
  simp only [Function.comp, Int.toNat_natCast, dGet_of_mem t wt c hc, Option.elim_some, List.replicate_succ', List.flatten_append, List.flatten_cons, List.flatten_nil, List.append_nil]

/-! ## slicing -/

/-- where a cut falls in a list of `n` values -/
def sliceCut (n : Nat) (k : Int) : Nat := if k < 0 then (n + k).toNat else k.toNat

theorem pySlice_stop_int (l : List α) (k : Int) : pySlice l { stop := some k } = l.take (sliceCut l.length k) := by
  rw [← pySlice_stop]
  unfold pySlice
  have : ({ stop := some k } : PySlice).indices l.length = ({ stop := some ((sliceCut l.length k : Nat) : Int) } : PySlice).indices l.length := by
    simp only [PySlice.indices, PySlice.stepOr1, Option.getD_none, adjustBound, sliceCut]
    simp only [Int.reduceNeg, Int.reduceLT, if_false, Prod.mk.injEq, and_true, true_and]
    repeat' split
    all_goals omega
  rw [this]

theorem pySlice_start_int (l : List α) (k : Int) : pySlice l { start := some k } = l.drop (sliceCut l.length k) := by
  rw [← pySlice_start]
  unfold pySlice
  have : ({ start := some k } : PySlice).indices l.length = ({ start := some ((sliceCut l.length k : Nat) : Int) } : PySlice).indices l.length := by
    simp only [PySlice.indices, PySlice.stepOr1, Option.getD_none, adjustBound, sliceCut]
    simp only [Int.reduceNeg, Int.reduceLT, if_false, Prod.mk.injEq, and_true]
    repeat' split
    all_goals omega
  rw [this]

/-- **C114** a table cut at any place `k`, also counted from the end, and put together again is the table: `t[:k] + t[k:] = t` -/
theorem C114_cut (ps : Nat) (hps : 0 < ps) (t : Tbl ν α) (wt : TblWF t) (k : Int) :
    ∃ a b s, tblSlice ps t { stop := some k } = .ok a ∧ tblSlice ps t { start := some k } = .ok b ∧ tblIAdd a b = .ok s ∧ tview s = tview t := by
  obtain ⟨a, a1, a2⟩ := C16_slice_partial ps hps t { stop := some k } (by simp [PySlice.stepOr1])
  obtain ⟨b, b1, b2⟩ := C16_slice_partial ps hps t { start := some k } (by simp [PySlice.stepOr1])
  have na : a.map (·.1) = t.map (·.1) := by
    have := congrArg (List.map (·.1)) a2
    rw [List.map_map, List.map_map] at this
    exact this
  have nb : b.map (·.1) = t.map (·.1) := by
    have := congrArg (List.map (·.1)) b2
    rw [List.map_map, List.map_map] at this
    exact this
  obtain ⟨s, s1, s2⟩ := add_view a b (by rw [na, nb]; intro x; rfl)
  refine ⟨a, b, s, a1, b1, s1, ?_⟩
  rw [s2]
  have e : (a.map fun c => (c.1, colIter c.2 ++ (dGet c.1 b).elim [] colIter)) =
      (a.map fun c => (c.1, colIter c.2)).map fun c => (c.1, c.2 ++ (dGet c.1 b).elim [] colIter) := by
    rw [List.map_map]; rfl
  rw [e, a2, List.map_map]
  unfold tview
  apply List.map_congr_left
  intro c hc
  simp only [Function.comp, Prod.mk.injEq, true_and]
  rw [dGet_view (f := fun _ l => pySlice l { start := some k }) b2, dGet_of_mem t wt c hc]
  simp only [Option.elim_some]
  rw [pySlice_stop_int, pySlice_start_int, List.take_append_drop]

/-- **C114** a slice of a slice is a slice: `t[a:b][c:d] = t[a + c:min(a + d, b)]` -/
theorem C114_slice_slice (ps : Nat) (hps : 0 < ps) (t : Tbl ν α) (a b c d : Nat) (hab : a ≤ b) (hcd : c ≤ d) (h : a + c ≤ min (a + d) b) :
    ∃ s r q, tblSlice ps t { start := some (a : Int), stop := some (b : Int) } = .ok s ∧ tblSlice ps s { start := some (c : Int), stop := some (d : Int) } = .ok r ∧
      tblSlice ps t { start := some ((a + c : Nat) : Int), stop := some ((min (a + d) b : Nat) : Int) } = .ok q ∧ tview r = tview q := by
  obtain ⟨s, s1, s2⟩ := C16_slice_partial ps hps t { start := some (a : Int), stop := some (b : Int) } (by simp [PySlice.stepOr1])
  obtain ⟨r, r1, r2⟩ := C16_slice_partial ps hps s { start := some (c : Int), stop := some (d : Int) } (by simp [PySlice.stepOr1])
  obtain ⟨q, q1, q2⟩ := C16_slice_partial ps hps t { start := some ((a + c : Nat) : Int), stop := some ((min (a + d) b : Nat) : Int) } (by simp [PySlice.stepOr1])
  refine ⟨s, r, q, s1, r1, q1, ?_⟩
  unfold tview
  rw [r2, q2]
  have e : (s.map fun x => (x.1, pySlice (colIter x.2) { start := some (c : Int), stop := some (d : Int) })) =
      (s.map fun x => (x.1, colIter x.2)).map fun x => (x.1, pySlice x.2 { start := some (c : Int), stop := some (d : Int) }) := by
    rw [List.map_map]; rfl
  rw [e, s2, List.map_map]
  apply List.map_congr_left
  intro x _
  simp only [Function.comp, Prod.mk.injEq, true_and]
  rw [pySlice_nat _ a b hab, pySlice_nat _ c d hcd, pySlice_nat _ _ _ h]
  apply List.ext_getElem?
  intro i
  simp only [List.getElem?_drop, List.getElem?_take]
  by_cases h1 : c + i < d
  · by_cases h2 : a + (c + i) < b
    · rw [if_pos h1, if_pos h2, if_pos (by omega), Nat.add_assoc]
    · rw [if_pos h1, if_neg h2, if_neg (by omega)]
  · rw [if_neg h1, if_neg (by omega)]

/-! ## reindexing -/

theorem reindex_view (ps : Nat) (hps : 0 < ps) (nul : α) (t : Tbl ν α) (n : Nat) (hr : Rect t n) (idx : List Nat) (hi : ∀ i ∈ idx, i < n) :
    ∃ t', tblReindex ps nul t (idx.map fun (i : Nat) => (i : Int)) = .ok t' ∧ tview t' = rowsOf nul t idx := by
  obtain ⟨t', h1, h2⟩ := C62_reindex_partial ps hps nul t (idx.map fun (i : Nat) => (i : Int)) (by
    intro c hc i h
    obtain ⟨k, hk, rfl⟩ := List.mem_map.1 h
    have := hi k hk
    rw [hr c hc]
    right
    omega) (by
    intro h
    obtain ⟨k, -, e⟩ := List.mem_map.1 h
    omega)
  refine ⟨t', h1, h2.trans ?_⟩
  unfold rowsOf
  apply List.map_congr_left
  intro c _
  simp only [List.map_map, Prod.mk.injEq, true_and]
  apply List.map_congr_left
  intro i _
  simp only [Function.comp, pick]
  rw [if_neg (by omega), Int.toNat_natCast]

/-- **C114** reindexing twice is reindexing once with the rows the second index picks from the first -/
theorem C114_reindex_reindex (ps : Nat) (hps : 0 < ps) (nul : α) (t : Tbl ν α) (n : Nat) (hr : Rect t n) (idx jdx : List Nat) (hi : ∀ i ∈ idx, i < n) (hj : ∀ j ∈ jdx, j < idx.length) :
    ∃ s r q, tblReindex ps nul t (idx.map fun (i : Nat) => (i : Int)) = .ok s ∧ tblReindex ps nul s (jdx.map fun (i : Nat) => (i : Int)) = .ok r ∧
      tblReindex ps nul t ((jdx.map fun j => idx.getD j 0).map fun (i : Nat) => (i : Int)) = .ok q ∧ tview r = tview q := by
  obtain ⟨s, s1, s2⟩ := reindex_view ps hps nul t n hr idx hi
  obtain ⟨r, r1, r2⟩ := reindex_view ps hps nul s _ (rect_view s2) jdx hj
  obtain ⟨q, q1, q2⟩ := reindex_view ps hps nul t n hr (jdx.map fun j => idx.getD j 0) (by
    intro i h
    obtain ⟨j, h1, rfl⟩ := List.mem_map.1 h
    have h2 := hj j h1
    rw [List.getD_eq_getElem?_getD, List.getElem?_eq_getElem h2]
    exact hi _ (List.getElem_mem h2))
  exact ⟨s, r, q, s1, r1, q1, by rw [r2, q2, rowsOf_view s2 jdx hj]⟩

/-- **C114** a slice without a step is the reindexing by the rows of the slice -/
theorem C114_slice_reindex (ps : Nat) (hps : 0 < ps) (nul : α) (t : Tbl ν α) (n : Nat) (hr : Rect t n) (a b : Nat) (hab : a ≤ b) (hb : b ≤ n) :
    ∃ s r, tblSlice ps t { start := some (a : Int), stop := some (b : Int) } = .ok s ∧
      tblReindex ps nul t ((List.range' a (b - a)).map fun (i : Nat) => (i : Int)) = .ok r ∧ tview s = tview r := by
  obtain ⟨s, s1, s2⟩ := C16_slice_partial ps hps t { start := some (a : Int), stop := some (b : Int) } (by simp [PySlice.stepOr1])
  obtain ⟨r, r1, r2⟩ := reindex_view ps hps nul t n hr (List.range' a (b - a)) (by
    intro i hi
    have := List.mem_range'_1.1 hi
    omega)
  refine ⟨s, r, s1, r1, ?_⟩
  rw [r2]
  unfold tview
  rw [s2]
  unfold rowsOf
  apply List.map_congr_left
  intro c hc
  have hl := hr c hc
  rw [colLen_eq, ← colIter_eq] at hl
  simp only [Prod.mk.injEq, true_and]
  rw [pySlice_nat _ a b hab]
  apply List.ext_getElem
  · simp; omega
  · intro i h1 h2
    simp only [List.length_map, List.length_range'] at h2
    simp [List.getD_eq_getElem?_getD, List.getElem?_eq_getElem (show a + i < (colIter c.2).length by omega)]

/-! ## filtering a stack -/

/-- **C114** filtering a stack of two tables with the same names gives the stack of the filtered tables, for the rows that pass and for those that do not -/
theorem C114_filter_stack (nul : α) (cmp : κ → α → α → Bool) (ps : Nat) (hps : 0 < ps) (all : Bool) (t u : Tbl ν α) (wt : TblWF t) (wu : TblWF u) (ht : Rect t (tblLen t))
    (hu : Rect u (tblLen u)) (hnames : ∀ x, x ∈ t.map (·.1) ↔ x ∈ u.map (·.1)) (hne : t ≠ []) (es : List (FExpr ν α κ)) (hx : ∃ e ∈ es, ∃ x, e.left = .col x ∨ e.right = .col x)
    (hcols : ∀ e ∈ es, ∀ x, e.left = .col x ∨ e.right = .col x → x ∈ t.map (·.1)) :
    ∃ p f p1 f1 p2 f2, tblFilter nul cmp ps all (tblStack ps nul t u) es = .ok (p, f) ∧ tblFilter nul cmp ps all t es = .ok (p1, f1) ∧ tblFilter nul cmp ps all u es = .ok (p2, f2) ∧
      tview p = tview (tblStack ps nul p1 p2) ∧ tview f = tview (tblStack ps nul f1 f2) := by
  have hune : u ≠ [] := by
    rintro rfl
    obtain ⟨c, hc⟩ := List.exists_mem_of_ne_nil t hne
    simpa using (hnames c.1).1 (List.mem_map.2 ⟨c, hc, rfl⟩)
  have hf0 : ∀ (a b : Tbl ν α), (∀ x, x ∈ a.map (·.1) ↔ x ∈ b.map (·.1)) → (b.map (·.1)).filter (fun x => x ∉ a.map (·.1)) = [] := by
    intro a b h
    rw [List.filter_eq_nil_iff]
    intro x hx
    simpa using (h x).2 hx
  have hv := C17_stack ps hps nul t u wt wu
  have hsn := names_stack ps hps nul t u wt wu
  rw [hf0 t u hnames, List.append_nil] at hv hsn
  have hrs := rect_stack ps hps nul t u wt wu ht hu
  have hvs := valsOr_stack ps hps nul t u wt wu
  generalize hs : tblStack ps nul t u = s at *
  generalize hn : tblLen t = n at *
  generalize hk : tblLen u = k at *
  have hsne : s ≠ [] := by
    rintro rfl
    exact hne (List.map_eq_nil_iff.1 hsn.symm)
  have hcv : ∀ (t : Tbl ν α) (n : Nat) x i, x ∈ t.map (·.1) → (valsOr nul t n x).getD i nul = cell nul t x i := by
    intro t n x i hx
    unfold valsOr cell
    obtain ⟨c, hc⟩ := Option.isSome_iff_exists.1 ((dGet_isSome x t).2 hx)
    rw [hc]
    rfl
  have hc1 : ∀ x ∈ t.map (·.1), ∀ i < n, cell nul s x i = cell nul t x i := by
    intro x hx i hi
    rw [← hcv s (n + k) x i (hsn ▸ hx), hvs, ← hcv t n x i hx, List.getD_eq_getElem?_getD, List.getElem?_append_left (by rw [valsOr_length nul t n ht]; exact hi), ← List.getD_eq_getElem?_getD]
  have hc2 : ∀ x ∈ t.map (·.1), ∀ i, cell nul s x (n + i) = cell nul u x i := by
    intro x hx i
    rw [← hcv s (n + k) x _ (hsn ▸ hx), hvs, ← hcv u k x i ((hnames x).1 hx), List.getD_eq_getElem?_getD, List.getElem?_append_right (by rw [valsOr_length nul t n ht]; omega),
      valsOr_length nul t n ht, Nat.add_sub_cancel_left, ← List.getD_eq_getElem?_getD]
  have hfv : ∀ e ∈ es, ∀ i o, (o = e.left ∨ o = e.right) → (i < n → fVal nul s i o = fVal nul t i o) ∧ fVal nul s (n + i) o = fVal nul u i o := by
    intro e he i o ho
    cases o with
    | val v => exact ⟨fun _ => rfl, rfl⟩
    | col x =>
      have hx : x ∈ t.map (·.1) := hcols e he x (by rcases ho with h | h <;> simp [← h])
      exact ⟨fun hi => hc1 x hx i hi, hc2 x hx i⟩
  have hall : ∀ (p q : FExpr ν α κ → Bool), (∀ e ∈ es, p e = q e) → es.all p = es.all q ∧ es.any p = es.any q := by
    intro p q h
    constructor
    · rw [Bool.eq_iff_iff, List.all_eq_true, List.all_eq_true]
      exact ⟨fun h1 e he => h e he ▸ h1 e he, fun h1 e he => (h e he).symm ▸ h1 e he⟩
    · rw [Bool.eq_iff_iff, List.any_eq_true, List.any_eq_true]
      exact ⟨fun ⟨e, he, h1⟩ => ⟨e, he, h e he ▸ h1⟩, fun ⟨e, he, h1⟩ => ⟨e, he, (h e he).symm ▸ h1⟩⟩
  have hh1 : ∀ i < n, rowHolds nul cmp all es s i = rowHolds nul cmp all es t i := by
    intro i hi
    unfold rowHolds
    obtain ⟨q1, q2⟩ := hall (fun e => cmp e.op (fVal nul s i e.left) (fVal nul s i e.right)) (fun e => cmp e.op (fVal nul t i e.left) (fVal nul t i e.right)) (by
      intro e he
      rw [(hfv e he i e.left (Or.inl rfl)).1 hi, (hfv e he i e.right (Or.inr rfl)).1 hi])
    simp only [q1, q2]
  have hh2 : ∀ i, rowHolds nul cmp all es s (n + i) = rowHolds nul cmp all es u i := by
    intro i
    unfold rowHolds
    obtain ⟨q1, q2⟩ := hall (fun e => cmp e.op (fVal nul s (n + i) e.left) (fVal nul s (n + i) e.right)) (fun e => cmp e.op (fVal nul u i e.left) (fVal nul u i e.right)) (by
      intro e he
      rw [(hfv e he i e.left (Or.inl rfl)).2, (hfv e he i e.right (Or.inr rfl)).2])
    simp only [q1, q2]
  obtain ⟨p, f, a1, a2, a3⟩ := C29_filter_partial nul cmp ps hps all s (n + k) hrs hsne es hx (by rw [hsn]; exact hcols)
  obtain ⟨p1, f1, b1, b2, b3⟩ := C29_filter_partial nul cmp ps hps all t n ht hne es hx hcols
  obtain ⟨p2, f2, c1, c2, c3⟩ := C29_filter_partial nul cmp ps hps all u k hu hune es hx (fun e he x h => (hnames x).1 (hcols e he x h))
  refine ⟨p, f, p1, f1, p2, f2, a1, b1, c1, ?_⟩
  have key : ∀ (q : Nat → Bool) (q1 q2 : Nat → Bool) (P P1 P2 : Tbl ν α), (∀ i < n, q i = q1 i) → (∀ i, q (n + i) = q2 i) →
      tview P = rowsOf nul s ((List.range (n + k)).filter q) → tview P1 = rowsOf nul t ((List.range n).filter q1) → tview P2 = rowsOf nul u ((List.range k).filter q2) →
      tview P = tview (tblStack ps nul P1 P2) := by
    intro q q1 q2 P P1 P2 e1 e2 v0 v1 v2
    have n1 : P1.map (·.1) = t.map (·.1) := names_view v1
    have n2 : P2.map (·.1) = u.map (·.1) := names_view v2
    rw [C17_stack ps hps nul P1 P2 (by unfold TblWF; rw [n1]; exact wt) (by unfold TblWF; rw [n2]; exact wu), hf0 P1 P2 (by rw [n1, n2]; exact hnames), List.append_nil, n1, v0]
    unfold rowsOf
    have hs' : s.map (fun c => (c.1, ((List.range (n + k)).filter q).map fun i => (colIter c.2).getD i nul)) =
        (t.map (·.1)).map fun x => (x, ((List.range (n + k)).filter q).map fun i => cell nul s x i) := by
      rw [← hsn, List.map_map]
      apply List.map_congr_left
      intro c hc
      have hd := dGet_of_mem s (by rw [hsn]; exact wt) c hc
      simp only [Function.comp, cell, hd, Option.elim_some]
    rw [hs']
    apply List.map_congr_left
    intro x hx
    simp only [Prod.mk.injEq, true_and]
    rw [List.range_add, List.filter_append, List.map_append]
    have hview : ∀ (T P : Tbl ν α) (idx : List Nat), tview P = rowsOf nul T idx → x ∈ T.map (·.1) → valsOr nul P (tblLen P) x = idx.map fun i => cell nul T x i := by
      intro T P idx h hx
      have h1 : dGet x (tview P) = (dGet x T).map fun p => idx.map fun i => (colIter p).getD i nul := by
        rw [h]
        unfold rowsOf
        exact dGet_map_val (fun p : Pages α => idx.map fun i => (colIter p).getD i nul) T x
      rw [dGet_tview] at h1
      obtain ⟨c, hc⟩ := Option.isSome_iff_exists.1 ((dGet_isSome x T).2 hx)
      rw [hc] at h1
      unfold valsOr cell
      rw [hc]
      cases hP : dGet x P with
      | none => rw [hP] at h1; cases h1
      | some d => rw [hP] at h1; exact Option.some.inj h1
    rw [hview t P1 _ v1 hx, hview u P2 _ v2 ((hnames x).1 hx)]
    congr 1
    · rw [List.filter_congr fun i hi => e1 i (List.mem_range.1 hi)]
      apply List.map_congr_left
      intro i hi
      exact hc1 x hx i (List.mem_range.1 (List.mem_filter.1 hi).1)
    · rw [List.filter_map, List.map_map]
      have : (q ∘ fun i => n + i) = q2 := by funext i; exact e2 i
      rw [this]
      apply List.map_congr_left
      intro i _
      exact hc2 x hx i
  exact ⟨key _ _ _ p p1 p2 hh1 hh2 a2 b2 c2, key _ _ _ f f1 f2 (fun i hi => by rw [hh1 i hi]) (fun i => by rw [hh2 i]) a3 b3 c3⟩

/-! ## duplicates of a table added to itself -/

/-- **C114** adding a table to itself brings no new rows: without duplicates `t + t` is `t`, whatever the hash -/
theorem C114_drop_twice {η : Type} [DecidableEq η] (hash : List α → η) (ps : Nat) (hps : 0 < ps) (nul : α) (t : Tbl ν α) (n : Nat) (wt : TblWF t) (hr : Rect t n) (hne : t ≠ []) :
    ∃ s a b, tblIAdd t t = .ok s ∧ dropDuplicates hash ps nul s [] = .ok a ∧ dropDuplicates hash ps nul t [] = .ok b ∧ tview a = tview b := by
  obtain ⟨s, s1, s2⟩ := add_view t t (fun x => Iff.rfl)
  have s3 : tview s = t.map fun c => (c.1, colIter c.2 ++ colIter c.2) := by
    rw [s2]
    apply List.map_congr_left
    intro c hc
    rw [dGet_of_mem t wt c hc]
    rfl
  have hl : ∀ c ∈ t, (colIter c.2).length = n := by
    intro c hc
    have := hr c hc
    rwa [colLen_eq, ← colIter_eq] at this
  have hsn : s.map (·.1) = t.map (·.1) := by rw [← names_tview, s3, List.map_map]; rfl
  have hrs : Rect s (n + n) := by
    intro c hc
    have h1 : (c.1, colIter c.2) ∈ tview s := List.mem_map.2 ⟨c, hc, rfl⟩
    rw [s3] at h1
    obtain ⟨d, hd, e⟩ := List.mem_map.1 h1
    have := (Prod.ext_iff.1 e).2
    dsimp only at this
    rw [colLen_eq, ← colIter_eq, ← this, List.length_append, hl d hd]
  have hcell : ∀ x ∈ t.map (·.1), ∀ i, (i < n → cell nul s x i = cell nul t x i) ∧ cell nul s x (n + i) = cell nul t x i := by
    intro x hx i
    have h := dGet_view (f := fun _ l => l ++ l) s3 x
    obtain ⟨p, hp⟩ := Option.isSome_iff_exists.1 ((dGet_isSome x t).2 hx)
    have hlp := hl _ (dGet_some_mem x t p hp)
    dsimp only at hlp
    unfold cell
    rw [h, hp]
    simp only [Option.elim_some]
    constructor
    · intro hi
      rw [List.getD_eq_getElem?_getD, List.getElem?_append_left (by omega), ← List.getD_eq_getElem?_getD]
    · rw [List.getD_eq_getElem?_getD, List.getElem?_append_right (by omega), hlp, Nat.add_sub_cancel_left, ← List.getD_eq_getElem?_getD]
  have hnames : t.map (·.1) ≠ [] := by simpa using hne
  obtain ⟨o1, u1, u2, u3⟩ := C20_effect hash nul s (n + n) hrs (t.map (·.1)) hnames (by rw [hsn]; exact fun a h => h)
  obtain ⟨o2, w1, w2, w3⟩ := C20_effect hash nul t n hr (t.map (·.1)) hnames (fun a h => h)
  have k1 : ∀ i < n, ((t.map (·.1)).map fun a => cell nul s a i) = (t.map (·.1)).map fun a => cell nul t a i := fun i hi => List.map_congr_left fun x hx => (hcell x hx i).1 hi
  have k2 : ∀ i, ((t.map (·.1)).map fun a => cell nul s a (n + i)) = (t.map (·.1)).map fun a => cell nul t a i := fun i => List.map_congr_left fun x hx => (hcell x hx i).2
  have ho : o1 = o2 := by
    apply List.Perm.eq_of_pairwise (le := fun a b : Nat => a ≤ b) (fun a b _ _ h1 h2 => Nat.le_antisymm h1 h2) (u2.imp Nat.le_of_lt) (w2.imp Nat.le_of_lt)
    rw [List.perm_ext_iff_of_nodup (u2.imp Nat.ne_of_lt) (w2.imp Nat.ne_of_lt)]
    intro i
    rw [u3, w3]
    constructor
    · rintro ⟨h1, h2⟩
      by_cases hi : i < n
      · refine ⟨hi, fun j hj => ?_⟩
        have := h2 j hj
        rwa [k1 j (by omega), k1 i hi] at this
      · exfalso
        obtain ⟨m, rfl⟩ : ∃ m, i = n + m := ⟨i - n, by omega⟩
        apply h2 m (by omega)
        rw [k2, k1 m (by omega)]
    · rintro ⟨h1, h2⟩
      refine ⟨by omega, fun j hj => ?_⟩
      rw [k1 j (by omega), k1 i h1]
      exact h2 j hj
  subst ho
  obtain ⟨a, a1, a2⟩ := reindex_view ps hps nul s (n + n) hrs o1 (fun i hi => ((u3 i).1 hi).1)
  obtain ⟨b, b1, b2⟩ := reindex_view ps hps nul t n hr o1 (fun i hi => ((w3 i).1 hi).1)
  refine ⟨s, a, b, s1, ?_, ?_, ?_⟩
  · unfold dropDuplicates
    rw [if_pos rfl, hsn, u1]
    exact a1
  · unfold dropDuplicates
    rw [if_pos rfl, w1]
    exact b1
  · rw [a2, b2, rowsOf_tview, s3, List.map_map]
    unfold rowsOf
    apply List.map_congr_left
    intro c hc
    simp only [Function.comp, Prod.mk.injEq, true_and]
    apply List.map_congr_left
    intro i hi
    rw [List.getD_eq_getElem?_getD, List.getElem?_append_left (by rw [hl c hc]; exact ((w3 i).1 hi).1), ← List.getD_eq_getElem?_getD]

end

/-! ## ragged tables -/

/-- stacking as a user expects it: associative for all tables -/
def C114_ragged_statement : Prop :=
  ∀ (ps : Nat), 0 < ps → ∀ (t u v : Tbl String Nat), TblWF t → TblWF u → TblWF v → tview (tblStack ps 0 (tblStack ps 0 t u) v) = tview (tblStack ps 0 t (tblStack ps 0 u v))

/-- **C114** with columns of different lengths the order of stacking matters: the length of a stack is not the sum of the lengths -/
theorem C114_ragged_fails : ¬ C114_ragged_statement := by
  intro h
  have := h 2 (by decide) [("a", [[1]]), ("b", [[1, 1]])] [("a", [[2, 2], [2]]), ("b", [])] [("c", [[5]])] (by unfold TblWF; decide) (by unfold TblWF; decide) (by unfold TblWF; decide)
  revert this
  decide

/-! ## concrete cases -/

example : TblWF [("a", [[1, 2]]), ("b", [[3], [4]])] ∧ Rect [("a", [[1, 2]]), ("b", [[3], [4]])] (tblLen [("a", [[1, 2]]), ("b", [[3], [4]])]) := by
  constructor
  · unfold TblWF; decide
  · unfold Rect; decide
example : tview (tblStack 2 0 (tblStack 2 0 [("a", [[1, 2]])] [("b", [[3]])]) [("c", [[4]]), ("a", [[5]])]) = [("a", [1, 2, 0, 5]), ("b", [0, 0, 3, 0]), ("c", [0, 0, 0, 4])] := by decide
example : (tblSlice 2 [("a", [[1, 2], [3]])] { stop := some (-1) }).map tview = .ok [("a", [1, 2])] ∧ (tblSlice 2 [("a", [[1, 2], [3]])] { start := some (-1) }).map tview = .ok [("a", [3])] := by decide
example : ((tblIMul [("a", [[1, 2], [3]])] 2).bind fun a => tblIMul a 2).map tview = (tblIMul [("a", [[1, 2], [3]])] 4).map tview := by decide

end Tablite
