import Verif.Props.PageAgree
import Verif.Props.WidthExact
import Verif.Props.ImportScript
/-!
# C130: imports that skip rows
-/
namespace Tablite
set_option linter.unusedSectionVars false

/-- an import whose pages are all written as `f` of their texts, `f i` for the field `i` of the file, where every page has a row that is not skipped -/
theorem importWith_kept {β : Type} (page : List (Option (List Char)) → Except Err (List β)) (f : Nat → List Char → β) (mk : List Char → Nat → List Char)
    (num : Nat → List Char) (d : Dialect) (o : ImportOpts) (ps : Nat) (hps : 0 < ps) (lines : List (List Char)) (recs : List (List (List Char)))
    (hparse : parseLines d {} lines = .ok recs) (hhdr : o.headerRow < recs.length) (hkeep : KeptEach o ps recs)
    (hcols : ∀ c ∈ o.columns.getD (fieldNames mk num o.headers ((recs.getD o.headerRow []).map stripEscape)),
      c ∈ fieldNames mk num o.headers ((recs.getD o.headerRow []).map stripEscape))
    (hpage : ∀ i, (fieldNames mk num o.headers ((recs.getD o.headerRow []).map stripEscape)).getD i [] ∈
        o.columns.getD (fieldNames mk num o.headers ((recs.getD o.headerRow []).map stripEscape)) → ∀ cells, cells ≠ [] →
      (∀ c ∈ cells, ∃ r ∈ requestedRows o recs, c.getD [] = r.getD i []) → page cells = .ok (cells.map fun c => f i (c.getD []))) :
    let names := fieldNames mk num o.headers ((recs.getD o.headerRow []).map stripEscape)
    let cols := o.columns.getD names
    ∃ table, importWith page mk num d o ps lines = .ok table ∧ table.map (·.1) = uniqueNames mk cols ∧ table.length = cols.length ∧
      ∀ k, k < cols.length → ∀ col, table[k]? = some col →
        col.2.flatten = (requestedRows o recs).map (fun r => f (names.idxOf (cols.getD k [])) (r.getD (names.idxOf (cols.getD k [])) [])) := by
  intro names cols
  have hnames : fieldNames mk num o.headers ((recs.getD o.headerRow []).map stripEscape) = names := rfl
  have hcolsdef : o.columns.getD names = cols := rfl
  clear_value cols names
  rw [hnames, hcolsdef] at hcols hpage
  obtain ⟨offs, ho, hlen, hat⟩ := findNewlines_restart d lines recs hparse
  have hnl : offs.length - 1 = recs.length := by omega
  have hfirst : readColumns d lines (offs.getD o.headerRow 0) = .ok ((recs.getD o.headerRow []).map stripEscape) := by
    unfold readColumns
    rw [hat _ hhdr]
    simp only [bind, Except.bind]
    rw [List.drop_eq_getElem_cons hhdr, List.headD_cons, List.getD, List.getElem?_eq_getElem hhdr, Option.getD_some]
  have hul : ∀ l : List (List Char), (uniqueNames mk l).length = l.length := by
    intro l
    have : ∀ (l acc : List (List Char)), (l.foldl (fun fs n => fs ++ [uniqueName mk n fs]) acc).length = acc.length + l.length := by
      intro l
      induction l with
      | nil => intro acc; rfl
      | cons a t ih => intro acc; rw [List.foldl_cons, ih]; simp; omega
    simpa [uniqueNames] using this l []
  generalize hfields : ((List.range names.length).filter fun i => decide (names.getD i [] ∈ cols)) = fields
  generalize hoff : (if o.headers = true then 1 else 0) + o.headerRow = offsetRow
  generalize hmax : lastRow o.limit recs.length (o.start + offsetRow) = maxLine
  have hmaxle : maxLine ≤ recs.length := by
    rw [← hmax]
    unfold lastRow
    cases o.limit with
    | none => exact Nat.le_refl _
    | some l => exact Nat.min_le_left _ _
  have hbody : (recs.take maxLine).drop (o.start + offsetRow) = bodyRows o recs := by rw [← hmax, ← hoff]; exact body_lines o recs
  have hrows : ((recs.take maxLine).drop (o.start + offsetRow)).filter (fun r => !checkSkip o.skip r) = requestedRows o recs := by rw [hbody]; rfl
  have hplan := plan_rows recs ps maxLine hps hmaxle _ (o.start + offsetRow) (Nat.le_refl _)
  have hget : ∀ r j, j < fields.length → ((optRow fields r).getD j none).getD [] = r.getD (fields.getD j 0) [] := by
    intro r j hj
    have := importRow_get names.length (fun i => decide (names.getD i [] ∈ cols)) r j (by rw [hfields]; exact hj)
    rw [hfields, importRow_opt] at this
    rw [← this]
    simp only [List.getD_eq_getElem?_getD, List.getElem?_map]
    cases (optRow fields r)[j]? <;> rfl
  -- each task
  have htask : ∀ t ∈ planTasks ps maxLine (o.start + offsetRow),
      taskPages page d lines o.skip fields (offs.getD t.1 0) t.2 =
        .ok ((List.range fields.length).map fun j => (((recs.drop t.1).take t.2).filter fun r => !checkSkip o.skip r).map fun r => f (fields.getD j 0) (r.getD (fields.getD j 0) [])) := by
    intro t ht
    obtain ⟨_, h2, h3, _⟩ := plan_bounds ps maxLine _ _ (Nat.le_refl _) t ht
    unfold taskPages
    rw [hat t.1 (by omega)]
    simp only [bind, Except.bind, pageLoop_eq, Nat.sub_zero]
    apply mapM_ok
    intro j hj
    have hj' := List.mem_range.1 hj
    have hmem : fields.getD j 0 ∈ fields := by
      rw [List.getD_eq_getElem?_getD, List.getElem?_eq_getElem hj', Option.getD_some]
      exact List.getElem_mem _
    have hin : names.getD (fields.getD j 0) [] ∈ cols := by
      rw [← hfields] at hmem ⊢
      have := (List.mem_filter.1 hmem).2
      simpa using this
    rw [hpage _ hin]
    · simp only [List.map_map]
      congr 1
      apply List.map_congr_left
      intro r _
      simp only [Function.comp_apply]
      rw [hget r j hj']
    · intro e
      rw [List.map_map, List.map_eq_nil_iff] at e
      obtain ⟨k, hk, hw⟩ := plan_windows recs ps maxLine hps hmaxle _ _ (Nat.le_refl _) t ht
      rw [hbody] at hk hw
      obtain ⟨r, hr, hs⟩ := hkeep k hk
      have : r ∈ ((recs.drop t.1).take t.2).filter fun r => !checkSkip o.skip r := List.mem_filter.2 ⟨by rw [hw]; exact hr, by rw [hs]; rfl⟩
      rw [e] at this
      cases this
    · intro c hc
      rw [List.map_map] at hc
      obtain ⟨r, hr, rfl⟩ := List.mem_map.1 hc
      refine ⟨r, ?_, by simp only [Function.comp_apply]; rw [hget r j hj']⟩
      obtain ⟨hr1, hr2⟩ := List.mem_filter.1 hr
      rw [← hrows, ← hplan]
      exact List.mem_filter.2 ⟨List.mem_flatMap.2 ⟨t, ht, hr1⟩, hr2⟩
  let res := (planTasks ps maxLine (o.start + offsetRow)).map fun t =>
    (List.range fields.length).map fun j => (((recs.drop t.1).take t.2).filter fun r => !checkSkip o.skip r).map fun r => f (fields.getD j 0) (r.getD (fields.getD j 0) [])
  have hres : ((planTasks ps maxLine (o.start + offsetRow)).map fun t => (offs.getD t.1 0, t.2)).mapM
      (fun t => taskPages page d lines o.skip fields t.1 t.2) = .ok res := by
    rw [List.mapM_map]
    exact mapM_ok _ _ _ htask
  let dict := (List.range fields.length).map fun j => (names.getD (fields.getD j 0) [], res.map fun pages => pages.getD j [])
  let table := (uniqueNames mk cols).zip (cols.map fun c => (dict.find? fun p => decide (p.1 = c)).elim [] (·.2))
  have hlenz : table.length = cols.length := by
    simp only [table, List.length_zip, hul, List.length_map, Nat.min_self]
  have himp : importWith page mk num d o ps lines = .ok table := by
    unfold importWith
    rw [ho]
    simp only [bind, Except.bind]
    rw [hnl, if_pos ⟨by omega, hhdr⟩, hfirst]
    dsimp only
    rw [hnames, hcolsdef]
    have hall : (cols.all fun c => decide (c ∈ names)) = true := by
      rw [List.all_eq_true]
      intro c hc
      simpa using hcols c hc
    rw [if_pos hall]
    have hres' := hres
    rw [← hfields, ← hmax, ← hoff] at hres'
    rw [hres']
    simp only [table, dict, ← hfields]
  refine ⟨table, himp, ?_, hlenz, ?_⟩
  · simp only [table]
    rw [List.map_fst_zip (by simp [hul])]
  · intro k hk col hcol
    have hck : cols.getD k [] ∈ cols := by
      rw [List.getD, List.getElem?_eq_getElem hk, Option.getD_some]
      exact List.getElem_mem _
    have hcol2 : col.2 = (dict.find? fun p => decide (p.1 = cols.getD k [])).elim [] (·.2) := by
      have h1 : k < table.length := by omega
      rw [List.getElem?_eq_getElem h1] at hcol
      cases hcol
      simp only [table, List.getElem_zip, List.getElem_map]
      rw [List.getD, List.getElem?_eq_getElem hk, Option.getD_some]
    obtain ⟨j, hj, hje, hfind⟩ := find_columns names cols (cols.getD k []) hck (hcols _ hck) (fun j => res.map fun pages => pages.getD j [])
    rw [hfields] at hj hje hfind
    rw [hfind] at hcol2
    have hcol3 : col.2 = (planTasks ps maxLine (o.start + offsetRow)).map fun t => (((recs.drop t.1).take t.2).filter fun r => !checkSkip o.skip r).map fun r =>
        f (fields.getD j 0) (r.getD (fields.getD j 0) []) := by
      rw [hcol2]
      simp only [Option.elim_some, res, List.map_map]
      apply List.map_congr_left
      intro t _
      simp only [Function.comp_apply, List.getD, List.getElem?_map, List.getElem?_range hj, Option.map_some, Option.getD_some]
    rw [hcol3, ← List.flatMap_def, ← hrows, ← hplan, List.filter_flatMap, List.map_flatMap, hje]


/-- an import whose pages cannot be empty fails if all rows of a page are skipped -/
theorem importWith_skipped {β : Type} (page : List (Option (List Char)) → Except Err (List β)) (hpage : ∀ v, page [] ≠ .ok v) (mk : List Char → Nat → List Char)
    (num : Nat → List Char) (d : Dialect) (o : ImportOpts) (ps : Nat) (hps : 0 < ps) (lines : List (List Char)) (recs : List (List (List Char))) (h : Importable mk num d o lines recs)
    (table : List (List Char × List (List β))) (ht : importWith page mk num d o ps lines = .ok table) : KeptEach o ps recs := by
  intro k hk
  by_contra hno
  have hall : ∀ r ∈ ((bodyRows o recs).drop (k * ps)).take ps, checkSkip o.skip r = true := by
    intro r hr
    cases hs : checkSkip o.skip r with
    | true => rfl
    | false => exact absurd ⟨r, hr, hs⟩ hno
  obtain ⟨offs, ho, hlen, hat⟩ := findNewlines_restart d lines recs h.parse
  have hnl : offs.length - 1 = recs.length := by omega
  have hhdr := h.header
  have hfirst : readColumns d lines (offs.getD o.headerRow 0) = .ok ((recs.getD o.headerRow []).map stripEscape) := by
    unfold readColumns
    rw [hat _ hhdr]
    simp only [bind, Except.bind]
    rw [List.drop_eq_getElem_cons hhdr, List.headD_cons, List.getD, List.getElem?_eq_getElem hhdr, Option.getD_some]
  unfold importWith at ht
  rw [ho] at ht
  simp only [bind, Except.bind] at ht
  rw [hnl, if_pos ⟨by omega, hhdr⟩, hfirst] at ht
  dsimp only at ht
  have hcall : ((o.columns.getD (fieldNames mk num o.headers ((recs.getD o.headerRow []).map stripEscape))).all fun c =>
      decide (c ∈ fieldNames mk num o.headers ((recs.getD o.headerRow []).map stripEscape))) = true := by
    rw [List.all_eq_true]
    intro c hc
    exact decide_eq_true (h.wanted c hc)
  rw [if_pos hcall] at ht
  have hbody := body_lines o recs
  generalize hoff : (if o.headers = true then 1 else 0) + o.headerRow = offsetRow at ht hbody
  generalize hmax : lastRow o.limit recs.length (o.start + offsetRow) = maxLine at ht hbody
  have hmaxle : maxLine ≤ recs.length := by
    rw [← hmax]
    unfold lastRow
    cases o.limit with
    | none => exact Nat.le_refl _
    | some l => exact Nat.min_le_left _ _
  generalize hfields : ((List.range (fieldNames mk num o.headers ((recs.getD o.headerRow []).map stripEscape)).length).filter fun i =>
    decide ((fieldNames mk num o.headers ((recs.getD o.headerRow []).map stripEscape)).getD i [] ∈
      o.columns.getD (fieldNames mk num o.headers ((recs.getD o.headerRow []).map stripEscape)))) = fields at ht
  have hf0 : 0 < fields.length := by
    obtain ⟨c, l, e⟩ := List.exists_cons_of_ne_nil h.some
    have hc : c ∈ wantedNames mk num o recs := by rw [e]; exact List.mem_cons_self
    obtain ⟨i, hi, e2⟩ := List.getElem_of_mem (h.wanted c hc)
    apply List.length_pos_of_mem (a := i)
    rw [← hfields]
    refine List.mem_filter.2 ⟨List.mem_range.2 hi, ?_⟩
    rw [decide_eq_true_eq, List.getD_eq_getElem?_getD]
    show ((fileNames mk num o recs)[i]?).getD [] ∈ wantedNames mk num o recs
    rw [List.getElem?_eq_getElem hi, e2]
    exact hc
  obtain ⟨t, htm, hw⟩ := window_task recs ps maxLine hps hmaxle k (o.start + offsetRow) (by
    rw [← hbody, List.length_drop, List.length_take] at hk
    omega)
  rw [hbody] at hw
  cases hm : ((planTasks ps maxLine (o.start + offsetRow)).map fun t => (offs.getD t.1 0, t.2)).mapM (fun t => taskPages page d lines o.skip fields t.1 t.2) with
  | error e => rw [hm] at ht; cases ht
  | ok res =>
    rw [List.mapM_map] at hm
    obtain ⟨v, hv⟩ := mapM_each _ _ _ hm t htm
    obtain ⟨_, h2, h3, _⟩ := plan_bounds ps maxLine _ _ (Nat.le_refl _) t htm
    change taskPages page d lines o.skip fields (offs.getD t.1 0) t.2 = _ at hv
    unfold taskPages at hv
    rw [hat t.1 (by omega)] at hv
    simp only [bind, Except.bind, pageLoop_eq, Nat.sub_zero] at hv
    rw [hw, List.filter_eq_nil_iff.2 (by intro r hr; rw [hall r hr]; simp)] at hv
    obtain ⟨w, hw'⟩ := mapM_each _ _ _ hv 0 (List.mem_range.2 hf0)
    exact hpage w hw'

theorem typedCells_empty {inf : DType → List Char → Except Err InfVal} {vs : List InfVal} (h : typedCells inf [] = .ok vs) : False := by
  have h' := h
  unfold typedCells at h'
  obtain ⟨x, hx, h'⟩ := ebind_ok h'
  obtain ⟨p, hp, h'⟩ := ebind_ok h'
  exact typedCells_ne h (List.length_eq_zero_iff.1 (mapM_rel h').length_eq.symm)

end Tablite
