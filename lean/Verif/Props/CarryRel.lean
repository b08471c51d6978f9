import Verif.Props.PivotRel
import Verif.Props.PageLayout
/-!
# C56 in terms of rows

Carry forward imputation as a step from a list of rows to a list of rows, so that scripts (C128) may use it.  The columns filled are cut anew by the page size, the other columns keep their pages: the columns of the
result are cut at the same places if all columns are filled, or if all columns were cut by the page size before.
-/

namespace Tablite

variable {ν α : Type} [DecidableEq ν] [DecidableEq α]

/-- Spec: the value of the row nearest above that has a value in the column -/
def Rel.above (nul : α) (missing : α → Bool) (r : Rel ν α) (i : Nat) (x : ν) : Option α := ((r.rows.take i).reverse.map fun row => r.get nul row x).find? fun v => !missing v

/-- Spec: missing values of the columns `targets` replaced by the value nearest above, where there is one -/
def Rel.carry (nul : α) (missing : α → Bool) (targets : List ν) (r : Rel ν α) : Rel ν α :=
  ⟨r.names, r.rows.zipIdx.map fun p => r.names.map fun x => if x ∈ targets ∧ missing (r.get nul p.1 x) = true then (r.above nul missing p.2 x).getD (r.get nul p.1 x) else r.get nul p.1 x⟩

/-- Spec: the call makes sense: the columns exist, and a value is known in the first row, or None is what is missing and the arrays take it -/
structure Rel.CarryArgs (nul : α) (missing : α → Bool) (store : List α → Except Err α) (targets : List ν) (r : Rel ν α) : Prop where
  target : ∀ x ∈ targets, x ∈ r.names
  lead : (∀ x ∈ targets, ∀ row, r.rows.head? = some row → missing (r.get nul row x) = false) ∨
    ((∀ v, missing v = true → v = nul) ∧ ∀ x ∈ r.names, nul ∈ r.rows.map (fun row => r.get nul row x) → store (r.rows.map fun row => r.get nul row x) = .ok nul)

omit [DecidableEq α] in
theorem rel_get_names (nul : α) (names : List ν) (f : ν → α) {x : ν} (hx : x ∈ names) : (names.map f).getD (names.idxOf x) nul = f x := by
  have hi : names.idxOf x < names.length := List.idxOf_lt_length_iff.2 hx
  rw [List.getD_eq_getElem?_getD, List.getElem?_map, List.getElem?_eq_getElem hi, Option.map_some, Option.getD_some, List.getElem_idxOf]

omit [DecidableEq α] in
/-- the pages that carry forward leaves -/
theorem carryForward_pages (ps : Nat) (missing : α → Bool) (store : List α → Except Err α) (t t' : Tbl ν α) (targets : List ν) (ht : TblWF t) (h : carryForward ps missing store t targets = .ok t') :
    ∀ c' ∈ t', (c'.1 ∈ targets → ∃ v, c'.2 = paginate ps v) ∧ (c'.1 ∉ targets → c' ∈ t) := by
  rw [carryForward_eq ps missing store t targets ht] at h
  clear ht
  induction t generalizing t' with
  | nil =>
    cases h
    intro c hc
    cases hc
  | cons c rest ih =>
    rw [List.mapM_cons] at h
    cases hq : (if c.1 ∈ targets then carryCol ps missing store c.2 else .ok c.2 : Except Err (Pages α)) with
    | error e => rw [hq] at h; cases h
    | ok p =>
      rw [hq] at h
      simp only [Except.bind, bind] at h
      cases hr : (rest.mapM fun c => (if c.1 ∈ targets then carryCol ps missing store c.2 else .ok c.2 : Except Err (Pages α)).bind fun p => .ok (c.1, p)) with
      | error e => simp only [Except.bind] at hr; rw [hr] at h; cases h
      | ok u =>
        have hu := ih u hr
        simp only [Except.bind] at hr
        rw [hr] at h
        cases h
        intro c' hc'
        rcases List.mem_cons.1 hc' with rfl | hc'
        · constructor
          · intro hx
            rw [if_pos hx] at hq
            unfold carryCol at hq
            rw [getSlice_all] at hq
            simp only [bind, Except.bind] at hq
            cases hl : carryLoop missing (store (colIter c.2)) none (colIter c.2) with
            | error e => rw [hl] at hq; cases hq
            | ok v =>
              rw [hl] at hq
              cases hq
              exact ⟨v, rfl⟩
          · intro hx
            rw [if_neg hx] at hq
            cases hq
            exact List.mem_cons_self
        · obtain ⟨h1, h2⟩ := hu c' hc'
          exact ⟨h1, fun hx => List.mem_cons_of_mem _ (h2 hx)⟩

/-- the columns are cut by the page size, as if they were written at once -/
def CutByPageSize (ps : Nat) (t : Tbl ν α) : Prop := ∀ c ∈ t, c.2.map List.length = layoutOf ps (colLen c.2)

omit [DecidableEq ν] [DecidableEq α] in
theorem layoutOf_sum (ps n : Nat) (hps : 0 < ps) : (layoutOf ps n).sum = n := by
  unfold layoutOf
  rw [← List.length_flatten, paginate_flatten hps]
  simp

omit [DecidableEq ν] [DecidableEq α] in
/-- `reindex` cuts by the page size -/
theorem tblReindex_full (ps : Nat) (hps : 0 < ps) (nul : α) (t t' : Tbl ν α) (index : List Int) (hv : ∀ i ∈ index, 0 ≤ i) (h : tblReindex ps nul t index = .ok t') : CutByPageSize ps t' := by
  intro c hc
  obtain ⟨x, hx, e⟩ := mapM_mem _ _ _ h c hc
  obtain ⟨p, hp, e⟩ := ebind_ok e
  cases e
  have := reindexCol_shape ps nul x.2 p index hv hp
  rw [layoutOf_steps ps _ hps] at this
  dsimp only
  unfold colLen
  rw [this, layoutOf_sum ps _ hps]

/-- **C56** partial, in rows: carry forward gives a table with the rows of the spec; if all columns are filled, or were cut by the page size, its columns are cut at the same places.  Missing: leading missing values that are not None (`C56_fails`, `C56_raises`). -/
theorem C56_rows_partial {nul : α} {t : Tbl ν α} {r : Rel ν α} (h : Shows nul t r) (hso : Solid t) (ps : Nat) (hps : 0 < ps) (missing : α → Bool) (store : List α → Except Err α) (targets : List ν)
    (ok : r.CarryArgs nul missing store targets) :
    ∃ t', imputeCarry ps missing store t (.inr targets) = .ok t' ∧ Shows nul t' (r.carry nul missing targets) ∧ Solid t' ∧ ((∀ x ∈ r.names, x ∈ targets) ∨ CutByPageSize ps t → Aligned t') := by
  have hv := h.view
  have hmem : ∀ c ∈ tview t, c.1 ∈ r.names ∧ c.2 = r.rows.map fun row => r.get nul row c.1 := by
    intro c hc
    rw [hv, Rel.cols] at hc
    obtain ⟨x, hx, rfl⟩ := List.mem_map.1 hc
    exact ⟨hx, rfl⟩
  obtain ⟨t', h1, h2⟩ := C56_partial ps hps missing store nul t targets h.wf (fun x hx => h.2.1 ▸ ok.target x hx) (by
    rcases ok.lead with g | ⟨g, g'⟩
    · refine .inl fun c hc hx v hv' => ?_
      rw [(hmem c hc).2, List.head?_map] at hv'
      obtain ⟨row, hrow, rfl⟩ := Option.map_eq_some_iff.1 hv'
      exact g _ hx row hrow
    · refine .inr ⟨g, fun c hc hn => ?_⟩
      obtain ⟨e1, e2⟩ := hmem c hc
      rw [e2] at hn ⊢
      exact g' _ e1 hn)
  have hs : Shows nul t' (r.carry nul missing targets) := by
    rw [shows_iff]
    refine ⟨⟨h.1.1, h.1.2.1, ?_⟩, ?_⟩
    · intro row hrow
      obtain ⟨p, -, rfl⟩ := List.mem_map.1 hrow
      simp [Rel.carry]
    · rw [h2, carriedView, hv]
      simp only [Rel.cols, Rel.carry, List.map_map]
      apply List.map_congr_left
      intro x hx
      simp only [Function.comp, Prod.mk.injEq, true_and]
      have hg : ∀ p : List α × Nat, Rel.get nul (⟨r.names, r.rows.zipIdx.map fun p => r.names.map fun x => if x ∈ targets ∧ missing (r.get nul p.1 x) = true then (r.above nul missing p.2 x).getD (r.get nul p.1 x) else r.get nul p.1 x⟩ : Rel ν α)
          (r.names.map fun x => if x ∈ targets ∧ missing (r.get nul p.1 x) = true then (r.above nul missing p.2 x).getD (r.get nul p.1 x) else r.get nul p.1 x) x =
          if x ∈ targets ∧ missing (r.get nul p.1 x) = true then (r.above nul missing p.2 x).getD (r.get nul p.1 x) else r.get nul p.1 x :=
        fun p => rel_get_names nul r.names _ hx
      by_cases ht : x ∈ targets
      · rw [if_pos ht, List.zipIdx_map, List.map_map]
        apply List.map_congr_left
        intro p _
        refine Eq.trans ?_ (hg p).symm
        simp only [Function.comp, ht, true_and, carried, lastPresent, Rel.above, Prod.map, id, List.map_take, List.map_reverse]
      · rw [if_neg ht]
        have : (fun p : List α × Nat => r.get nul p.1 x) = (fun row => r.get nul row x) ∘ Prod.fst := rfl
        simp only [Function.comp_def, hg, ht, false_and, if_false]
        rw [this, ← List.map_map, List.zipIdx_map_fst]
  have hf : carryForward ps missing store t targets = .ok t' := by
    unfold imputeCarry at h1
    dsimp only at h1
    split at h1
    · exact h1
    · cases h1
  have hp := carryForward_pages ps missing store t t' targets h.wf hf
  refine ⟨t', h1, hs, ?_, ?_⟩
  · intro c hc p hpc
    by_cases hx : c.1 ∈ targets
    · obtain ⟨v, e⟩ := (hp c hc).1 hx
      rw [e] at hpc
      exact paginate_solid hps v p hpc
    · exact hso c ((hp c hc).2 hx) p hpc
  · intro hall
    refine ⟨layoutOf ps r.rows.length, fun c hc => ?_⟩
    have hcn : c.1 ∈ r.names := by
      have : c.1 ∈ t'.map (·.1) := List.mem_map.2 ⟨c, hc, rfl⟩
      rwa [hs.2.1] at this
    have hl := hs.2.2.1 c hc
    have hlr : (r.carry nul missing targets).rows.length = r.rows.length := by simp [Rel.carry]
    rw [hlr] at hl
    by_cases hx : c.1 ∈ targets
    · obtain ⟨v, e⟩ := (hp c hc).1 hx
      rw [colLen_eq, e, paginate_flatten hps] at hl
      rw [e, paginate_layout, hl]
    · rcases hall with hall | hall
      · exact absurd (hall c.1 hcn) hx
      · rw [hall c ((hp c hc).2 hx), hl]

/-- a table meets the conditions, and values are carried over the end of a page -/
example : (⟨["a", "b"], [[1, 5], [0, 0], [0, 7]]⟩ : Rel String Nat).CarryArgs 0 (· == 0) (fun _ => .error .type) ["a", "b"] ∧
    (⟨["a", "b"], [[1, 5], [0, 0], [0, 7]]⟩ : Rel String Nat).carry 0 (· == 0) ["a", "b"] = ⟨["a", "b"], [[1, 5], [1, 5], [1, 7]]⟩ := by
  refine ⟨⟨by decide, .inl (by decide)⟩, ?_⟩
  unfold Rel.carry
  rw [Rel.mk.injEq]
  exact ⟨rfl, by decide⟩

end Tablite
