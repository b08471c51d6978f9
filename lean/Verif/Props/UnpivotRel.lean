import Verif.Props.CarryRel
import Verif.Props.PivotTranspose
/-!
# C60 in terms of rows

`pivot_transpose` as a step from a list of rows to a list of rows, so that scripts (C128) may use it: the columns of the result are extended together, so they are cut at the same places.
-/

namespace Tablite

variable {ν α : Type} [DecidableEq ν] [DecidableEq α]

/-- Spec: for each row and each listed column a row with the kept values, the name of the column and its value -/
def Rel.unpivot (nul : α) (asVal : ν → α) (columns keep : List ν) (cn vn : ν) (r : Rel ν α) : Rel ν α :=
  ⟨keep ++ [cn, vn], r.rows.flatMap fun row => columns.map fun c => keep.map (r.get nul row) ++ [asVal c, r.get nul row c]⟩

/-- the name of the column with names, pivots.py:235-238 -/
def unpivotName (mk : ν → Nat → ν) (columns keep : List ν) (columnName : ν) : ν := if columnName ∈ keep ++ columns then uniqueName mk columnName (keep ++ columns) else columnName

/-- the name of the column with values, pivots.py:240-243 -/
def unpivotValue (mk : ν → Nat → ν) (columns keep : List ν) (columnName valueName : ν) : ν :=
  if valueName ∈ keep ++ columns ++ [unpivotName mk columns keep columnName] then uniqueName mk valueName (keep ++ columns) else valueName

/-- Spec: the call makes sense: the columns exist and are different, so are the new names, and `np.array` keeps the values -/
structure Rel.UnpivotArgs (nul : α) (asVal : ν → α) (npArr : List α → List α) (columns keep : List ν) (cn vn : ν) (r : Rel ν α) : Prop where
  inNames : ∀ x ∈ keep ++ columns, x ∈ r.names
  some : keep ++ columns ≠ []
  distinct : (keep ++ columns).Nodup
  fresh : (keep ++ [cn, vn]).Nodup
  kept : ∀ x ∈ keep ++ [cn, vn], ∀ l : List α, (∀ v ∈ l, v ∈ (r.unpivot nul asVal columns keep cn vn).rows.map fun row => (r.unpivot nul asVal columns keep cn vn).get nul row x) → npArr l = l

omit [DecidableEq α] in
theorem flush_pages (ps : Nat) (arr : List α → List α) (ks : List ν) (hn : ks.Nodup) (p : ν → Pages α) (q : ν → List α) :
    flush ps arr (ks.map fun x => (x, p x), ks.map fun x => (x, q x)) = (ks.map fun x => (x, p x ++ paginate ps (arr (q x))), ks.map fun x => (x, [])) := by
  unfold flush
  dsimp only
  rw [foldl_upd ([] : Pages α) (fun (v : List α) (b : Pages α) => extend ps b (arr v)) ks hn (ks.map fun x => (x, q x)) (by simpa [Function.comp_def] using hn)
    (by
      intro e he
      rw [List.mem_map] at he
      obtain ⟨x, hx, rfl⟩ := he
      exact hx)]
  congr 1
  · apply List.map_congr_left
    intro x hx
    simp only [dGet_map, if_pos hx]
    rfl
  · rw [List.map_map]
    rfl

/-- the columns have pages of these lengths, none empty, and the work lists this length -/
def InStep (ks : List ν) (L : List Nat) (m : Nat) (p : ν → Pages α) (q : ν → List α) : Prop :=
  ∀ x ∈ ks, (p x).map List.length = L ∧ (∀ g ∈ p x, g ≠ []) ∧ (q x).length = m

omit [DecidableEq ν] [DecidableEq α] in
theorem InStep.flush {ks : List ν} {L : List Nat} {m : Nat} {p : ν → Pages α} {q : ν → List α} (h : InStep ks L m p q) (ps : Nat) (hps : 0 < ps) :
    InStep ks (L ++ layoutOf ps m) 0 (fun x => p x ++ paginate ps (q x)) (fun _ => []) := by
  intro x hx
  obtain ⟨h1, h2, h3⟩ := h x hx
  refine ⟨by rw [List.map_append, h1, paginate_layout, h3], ?_, rfl⟩
  intro g hg
  rcases List.mem_append.1 hg with hg | hg
  · exact h2 g hg
  · exact paginate_solid hps _ g hg

omit [DecidableEq α] in
theorem ptLoop_inStep (ps limit : Nat) (hps : 0 < ps) (asVal : ν → α) (keep columns : List ν) (cn vn : ν) (hks : (keep ++ [cn, vn]).Nodup)
    (vals : List (ν → α)) (ix : Nat) (p : ν → Pages α) (q : ν → List α) (L : List Nat) (m : Nat) (h : InStep (keep ++ [cn, vn]) L m p q) :
    ∃ (p' : ν → Pages α) (q' : ν → List α) (L' : List Nat) (m' : Nat),
      ptLoop ps limit asVal keep columns cn vn ix (vals.map fun val => (keep ++ columns).map val)
        ((keep ++ [cn, vn]).map fun x => (x, p x), (keep ++ [cn, vn]).map fun x => (x, q x)) =
        ((keep ++ [cn, vn]).map fun x => (x, p' x), (keep ++ [cn, vn]).map fun x => (x, q' x)) ∧ InStep (keep ++ [cn, vn]) L' m' p' q' := by
  induction vals generalizing ix p q L m with
  | nil => exact ⟨p, q, L, m, rfl, h⟩
  | cons val rest ih =>
    rw [List.map_cons, ptLoop]
    rw [ptRow_ok asVal keep columns cn vn hks]
    have h' : InStep (keep ++ [cn, vn]) L (m + columns.length) p (fun x => q x ++ ptContrib asVal columns cn vn val x) := by
      intro x hx
      obtain ⟨h1, h2, h3⟩ := h x hx
      refine ⟨h1, h2, ?_⟩
      rw [List.length_append, h3]
      congr 1
      unfold ptContrib
      split
      · simp
      · split <;> simp
    by_cases hf : ix % limit = 0
    · rw [if_pos hf, flush_pages ps id _ hks]
      exact ih (ix + 1) _ (fun _ => []) _ _ (h'.flush ps hps)
    · rw [if_neg hf]
      exact ih (ix + 1) p _ _ _ h'

/-- the columns of the result are cut at the same places -/
theorem pivotTranspose_shape (ps limit : Nat) (hps : 0 < ps) (mk : ν → Nat → ν) (asVal : ν → α) (npArr : List α → List α) (nul : α) (t t' : Tbl ν α) (n : Nat)
    (columns keep : List ν) (columnName valueName : ν) (hnames : ∀ x ∈ keep ++ columns, ∃ p, dGet x t = some p ∧ colLen p = n) (hne : keep ++ columns ≠ []) (hnd : (keep ++ columns).Nodup)
    (hnew : (keep ++ [unpivotName mk columns keep columnName, unpivotValue mk columns keep columnName valueName]).Nodup) (hlen : ∀ l, (npArr l).length = l.length)
    (h : pivotTranspose ps limit mk asVal npArr nul t columns keep columnName valueName = .ok t') : Aligned t' ∧ Solid t' := by
  have hin : ∀ x ∈ keep ++ columns, x ∈ t.map (·.1) := by
    intro x hx
    obtain ⟨p, hp, _⟩ := hnames x hx
    exact (dGet_isSome x t).1 (by rw [hp]; rfl)
  unfold pivotTranspose at h
  rw [if_neg (not_not.2 (by
    rw [List.all_eq_true]
    intro x hx
    exact decide_eq_true (hin x (by simp [hx])))), if_neg (not_not.2 (List.nodup_append.1 hnd).2.1), if_neg (not_not.2 (by
    rw [List.all_eq_true]
    intro x hx
    exact decide_eq_true (hin x (by simp [hx]))))] at h
  dsimp only at h
  change (do
    let rows ← selectRows nul t (keep ++ columns)
    let s := ptLoop ps limit asVal keep columns (unpivotName mk columns keep columnName) (unpivotValue mk columns keep columnName valueName) 1 rows
      ((keep ++ [unpivotName mk columns keep columnName, unpivotValue mk columns keep columnName valueName]).foldl (fun t x => tblSet t x []) [],
        ((keep ++ [unpivotName mk columns keep columnName, unpivotValue mk columns keep columnName valueName]).foldl (fun t x => tblSet t x []) ([] : Tbl ν α)).map fun c => (c.1, ([] : List α)))
    .ok (flush ps npArr s).1 : Except Err (Tbl ν α)) = .ok t' at h
  rw [addNames _ hnew, selectRows_ok nul t n _ hne hnd hnames] at h
  simp only [bind, Except.bind, List.map_map] at h
  obtain ⟨p', q', L, m, h1, h2⟩ := ptLoop_inStep ps limit hps asVal keep columns _ _ hnew ((List.range n).map fun i x => cell nul t x i) 1 (fun _ => []) (fun _ => []) [] 0
    (by intro x _; exact ⟨rfl, by simp, rfl⟩)
  rw [List.map_map] at h1
  have e : ((fun val => (keep ++ columns).map val) ∘ fun (i : Nat) (x : ν) => cell nul t x i) = fun i => (keep ++ columns).map fun x => cell nul t x i := rfl
  rw [e] at h1
  have e2 : ((fun c : ν × Pages α => (c.1, ([] : List α))) ∘ fun x => (x, ([] : Pages α))) = fun x => (x, []) := rfl
  rw [e2, h1, flush_pages ps npArr _ hnew] at h
  cases h
  refine ⟨⟨L ++ layoutOf ps m, ?_⟩, ?_⟩
  · intro c hc
    obtain ⟨x, hx, rfl⟩ := List.mem_map.1 hc
    obtain ⟨g1, g2, g3⟩ := h2 x hx
    rw [List.map_append, g1, paginate_layout, hlen, g3]
  · intro c hc p hp
    obtain ⟨x, hx, rfl⟩ := List.mem_map.1 hc
    obtain ⟨g1, g2, g3⟩ := h2 x hx
    rcases List.mem_append.1 hp with hp | hp
    · exact g2 p hp
    · exact paginate_solid hps _ p hp

/-- the columns of the spec -/
theorem unpivot_cols {nul : α} (asVal : ν → α) {t : Tbl ν α} {r : Rel ν α} (h : Shows nul t r) (columns keep : List ν) (cn vn : ν) (hnew : (keep ++ [cn, vn]).Nodup) :
    ptView nul asVal t r.rows.length columns keep cn vn = (r.unpivot nul asVal columns keep cn vn).cols nul := by
  have hcv : cn ≠ vn := by
    have := (List.nodup_append.1 hnew).2.1
    simp at this
    exact this
  have hck : cn ∉ keep := fun h => (List.nodup_append.1 hnew).2.2 _ h _ (by simp) rfl
  have hvk : vn ∉ keep := fun h => (List.nodup_append.1 hnew).2.2 _ h _ (by simp) rfl
  have hrow : ∀ (row : List α) (c x : ν), x ∈ keep ++ [cn, vn] → (keep.map (r.get nul row) ++ [asVal c, r.get nul row c]).getD ((keep ++ [cn, vn]).idxOf x) nul =
      if x = cn then asVal c else if x = vn then r.get nul row c else r.get nul row x := by
    intro row c x hx
    have : keep.map (r.get nul row) ++ [asVal c, r.get nul row c] = (keep ++ [cn, vn]).map fun x => if x = cn then asVal c else if x = vn then r.get nul row c else r.get nul row x := by
      rw [List.map_append]
      congr 1
      · apply List.map_congr_left
        intro y hy
        have g1 : y ≠ cn := fun e => hck (e ▸ hy)
        have g2 : y ≠ vn := fun e => hvk (e ▸ hy)
        rw [if_neg g1, if_neg g2]
      · simp [Ne.symm hcv]
    rw [this]
    exact rel_get_names nul _ _ hx
  have hrange : ∀ {γ : Type} (f : List α → List γ), (List.range r.rows.length).flatMap (fun i => f (r.rows.getD i [])) = r.rows.flatMap f := by
    intro γ f
    have := getD_range_self r.rows r.rows.length [] rfl
    conv_rhs => rw [← this]
    rw [List.flatMap_map]
  unfold ptView Rel.cols Rel.unpivot
  dsimp only
  rw [List.map_append]
  have hcol : ∀ x ∈ keep ++ [cn, vn], (r.rows.flatMap fun row => columns.map fun c => keep.map (r.get nul row) ++ [asVal c, r.get nul row c]).map
      (fun row => Rel.get nul (⟨keep ++ [cn, vn], r.rows.flatMap fun row => columns.map fun c => keep.map (r.get nul row) ++ [asVal c, r.get nul row c]⟩ : Rel ν α) row x) =
      r.rows.flatMap fun row => columns.map fun c => if x = cn then asVal c else if x = vn then r.get nul row c else r.get nul row x := by
    intro x hx
    rw [List.map_flatMap]
    apply List.flatMap_congr
    intro row _
    rw [List.map_map]
    apply List.map_congr_left
    intro c _
    exact hrow row c x hx
  congr 1
  · apply List.map_congr_left
    intro x hx
    rw [hcol x (by simp [hx]), ← hrange]
    congr 1
    apply List.flatMap_congr
    intro i _
    rw [h.cell]
    simp only [if_neg (fun e => hck (e ▸ hx) : x ≠ cn), if_neg (fun e => hvk (e ▸ hx) : x ≠ vn)]
  · have e1 := hcol cn (by simp)
    have e2 := hcol vn (by simp)
    have f1 : ((List.range r.rows.length).flatMap fun _ => columns.map asVal) = r.rows.flatMap fun _ => columns.map asVal := hrange fun _ => columns.map asVal
    have f2 : ((List.range r.rows.length).flatMap fun i => columns.map fun c => r.get nul (r.rows.getD i []) c) = r.rows.flatMap fun row => columns.map fun c => r.get nul row c :=
      hrange fun row => columns.map fun c => r.get nul row c
    simp only [List.map_cons, List.map_nil, e1, e2, if_true, if_neg (Ne.symm hcv), h.cell, f1, f2]

/-- **C60** partial, in rows: `pivot_transpose` gives a table with the rows of the spec, its columns cut at the same places.  Missing: as in `C60_partial`. -/
theorem C60_rows_partial {nul : α} {t : Tbl ν α} {r : Rel ν α} (h : Shows nul t r) (ps limit : Nat) (hps : 0 < ps) (mk : ν → Nat → ν) (asVal : ν → α) (npArr : List α → List α) (hlen : ∀ l, (npArr l).length = l.length)
    (columns keep : List ν) (columnName valueName : ν) (cn vn : ν) (hcn : cn = unpivotName mk columns keep columnName) (hvn : vn = unpivotValue mk columns keep columnName valueName)
    (ok : r.UnpivotArgs nul asVal npArr columns keep cn vn) :
    ∃ t', pivotTranspose ps limit mk asVal npArr nul t columns keep columnName valueName = .ok t' ∧ Shows nul t' (r.unpivot nul asVal columns keep cn vn) ∧ Aligned t' ∧ Solid t' := by
  have hnames : ∀ x ∈ keep ++ columns, ∃ p, dGet x t = some p ∧ colLen p = r.rows.length := by
    intro x hx
    obtain ⟨p, hp⟩ := Option.isSome_iff_exists.1 ((dGet_isSome x t).2 (h.2.1 ▸ ok.inNames x hx))
    exact ⟨p, hp, h.2.2.1 _ (dGet_mem x t p hp)⟩
  have hcols := unpivot_cols asVal h columns keep cn vn ok.fresh
  obtain ⟨t', h1, h2⟩ := C60_partial ps limit hps mk asVal npArr nul t r.rows.length columns keep columnName valueName hnames ok.some ok.distinct cn vn hcn (by rw [hvn, unpivotValue, hcn]) ok.fresh (by
    intro c hc l hl
    rw [hcols] at hc
    obtain ⟨x, hx, rfl⟩ := List.mem_map.1 hc
    exact ok.kept x hx l hl)
  have hs := pivotTranspose_shape ps limit hps mk asVal npArr nul t t' r.rows.length columns keep columnName valueName hnames ok.some ok.distinct (by rw [← hcn, ← hvn]; exact ok.fresh) hlen h1
  refine ⟨t', h1, ?_, hs⟩
  rw [shows_iff]
  refine ⟨⟨by simp [Rel.unpivot], ok.fresh, ?_⟩, by rw [h2, hcols]⟩
  intro row hrow
  obtain ⟨row', -, hrow⟩ := List.mem_flatMap.1 hrow
  obtain ⟨c, -, rfl⟩ := List.mem_map.1 hrow
  simp [Rel.unpivot]

/-- a table with two kept rows and two listed columns gives four rows -/
example : (⟨["a", "b", "c"], [[1, 5, 6], [2, 7, 8]]⟩ : Rel String Nat).unpivot 0 (fun x => x.length) ["b", "c"] ["a"] "n" "v" = ⟨["a", "n", "v"], [[1, 1, 5], [1, 1, 6], [2, 1, 7], [2, 1, 8]]⟩ ∧
    (⟨["a", "b", "c"], [[1, 5, 6], [2, 7, 8]]⟩ : Rel String Nat).UnpivotArgs 0 (fun x => x.length) id ["b", "c"] ["a"] "n" "v" := by
  refine ⟨?_, ⟨by decide, by decide, by decide, by decide, fun _ _ _ _ => rfl⟩⟩
  rw [Rel.unpivot, Rel.mk.injEq]
  exact ⟨rfl, by decide⟩

end Tablite
