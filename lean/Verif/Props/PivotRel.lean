import Verif.Props.TableShape
import Verif.Props.Pivot
/-!
# C59 in terms of rows

`pivot` as a step from a list of rows to a list of rows, so that scripts (C128) may use it.  The table it makes is cut at the same places in all columns.
-/

namespace Tablite

section
variable {ν α φ σ : Type} [DecidableEq ν] [DecidableEq α]

/-- Spec: the value of a function on the rows with a row key and a column key, nothing without such rows -/
def Rel.pivotAt (nul : α) (r : Rel ν α) (rows columns : List ν) (agg : ν × φ → List α → α) (rk ck : List α) (f : ν × φ) : α :=
  if rk ++ ck ∈ r.keysOf nul (rows ++ columns) then agg f (rk ++ ck) else nul

/-- Spec: a pivot with values as columns: one row for each row key, with a value for each column key and function -/
def Rel.pivotCols (nul : α) (N : PivotNames ν α φ) (r : Rel ν α) (rows columns : List ν) (functions : List (ν × φ)) (agg : ν × φ → List α → α) : Rel ν α :=
  ⟨rows ++ (r.keysOf nul columns).flatMap fun ck => functions.map fun f => N.fnName f columns ck,
   (r.keysOf nul rows).map fun rk => rk ++ (r.keysOf nul columns).flatMap fun ck => functions.map fun f => r.pivotAt nul rows columns agg rk ck f⟩

/-- Spec: a pivot with values as rows: one row for each row key and function, with the name of the function and a value for each column key -/
def Rel.pivotRows (nul : α) (N : PivotNames ν α φ) (r : Rel ν α) (rows columns : List ν) (functions : List (ν × φ)) (agg : ν × φ → List α → α) : Rel ν α :=
  ⟨rows ++ [N.function] ++ (r.keysOf nul columns).map (N.keyName columns),
   (r.keysOf nul rows).flatMap fun rk => functions.map fun f => rk ++ [N.fnVal f] ++ (r.keysOf nul columns).map fun ck => r.pivotAt nul rows columns agg rk ck f⟩

/-- a table whose columns are made from the same items shows the rows of these items -/
theorem shows_of_items {γ : Type} (nul : α) (t : Tbl ν α) (names : List ν) (hn : names.Nodup) (hne : names ≠ []) (items : List γ) (fs : List (γ → α)) (hl : fs.length = names.length)
    (ht : tview t = names.zip (fs.map fun f => items.map f)) : Shows nul t ⟨names, items.map fun x => fs.map fun f => f x⟩ := by
  rw [shows_iff]
  refine ⟨⟨hne, hn, ?_⟩, ?_⟩
  · intro row hr
    obtain ⟨x, -, rfl⟩ := List.mem_map.1 hr
    simpa using hl
  · rw [ht]
    unfold Rel.cols
    apply List.ext_getElem
    · simp [hl]
    · intro i h1 h2
      have hi : i < names.length := by simpa using h2
      rw [List.getElem_zip, List.getElem_map, List.getElem_map]
      refine Prod.ext_iff.2 ⟨rfl, ?_⟩
      simp only [List.map_map]
      apply List.map_congr_left
      intro x _
      simp only [Function.comp, Rel.get, hn.idxOf_getElem i hi]
      rw [List.getD_eq_getElem?_getD, List.getElem?_map, List.getElem?_eq_getElem (by omega)]
      rfl

/-- every column of the table is a list of values cut into pages of the page size -/
def Paginated (ps : Nat) (t : Tbl ν α) : Prop := ∀ c ∈ t, ∃ v, c.2 = paginate ps v

theorem Paginated.set {ps : Nat} {t : Tbl ν α} (h : Paginated ps t) (x : ν) (v : List α) : Paginated ps (tblSet t x (paginate ps v)) := by
  intro c hc
  rcases mem_tblSet _ _ _ _ hc with rfl | hc
  · exact ⟨v, rfl⟩
  · exact h c hc

theorem Paginated.setAll {ps : Nat} (l : List (ν × List α)) {t : Tbl ν α} (h : Paginated ps t) : Paginated ps (l.foldl (fun t c => tblSet t c.1 (paginate ps c.2)) t) := by
  induction l generalizing t with
  | nil => exact h
  | cons c l ih => exact ih (h.set c.1 c.2)

theorem Paginated.addAll {ps : Nat} (mk : ν → Nat → ν) (l : List (ν × List α)) {t : Tbl ν α} (h : Paginated ps t) : Paginated ps (l.foldl (fun t c => addUnique ps mk t c.1 c.2) t) := by
  induction l generalizing t with
  | nil => exact h
  | cons c l ih => exact ih (h.set _ c.2)

theorem foldlM_keeps {β γ : Type} (P : β → Prop) (f : β → γ → Except Err β) (hf : ∀ b x b', P b → f b x = .ok b' → P b') (l : List γ) (b b' : β) (hb : P b) (h : l.foldlM f b = .ok b') : P b' := by
  induction l generalizing b with
  | nil => cases h; exact hb
  | cons x l ih =>
    rw [List.foldlM_cons] at h
    obtain ⟨c, hc, h⟩ := ebind_ok h
    exact ih c (hf b x c hb hc) h

/-- the columns that `pivot` makes are cut into pages of the page size -/
theorem pivot_paginated (ps : Nat) (mk : ν → Nat → ν) (N : PivotNames ν α φ) (nul : α) (g : Except Err (Tbl ν α)) (rows columns : List ν) (functions : List (ν × φ)) (asRows : Bool) (t : Tbl ν α)
    (h : pivot ps mk N nul g rows columns functions asRows = .ok t) : Paginated ps t := by
  unfold pivot at h
  obtain ⟨g', -, h⟩ := ebind_ok h
  split at h
  · cases h
    intro c hc
    cases hc
  · obtain ⟨rs, -, h⟩ := ebind_ok h
    obtain ⟨s, -, h⟩ := ebind_ok h
    split at h
    · unfold pivotAsRows at h
      refine foldlM_keeps (Paginated ps) _ ?_ _ _ _ (Paginated.addAll mk _ (by intro c hc; cases hc)) h
      intro b x b' hb hx
      obtain ⟨L, -, hx⟩ := ebind_ok hx
      cases hx
      exact hb.set _ L
    · unfold pivotAsCols at h
      refine foldlM_keeps (Paginated ps) _ ?_ _ _ _ (Paginated.setAll _ (by intro c hc; cases hc)) h
      intro b x b' hb hx
      obtain ⟨L, -, hx⟩ := ebind_ok hx
      cases hx
      exact hb.setAll _

/-- such a table with columns of one length is cut at the same places, without empty pages -/
theorem Paginated.shape {nul : α} {ps : Nat} (hps : 0 < ps) {t : Tbl ν α} {r : Rel ν α} (h : Paginated ps t) (hs : Shows nul t r) : Aligned t ∧ Solid t := by
  refine ⟨⟨(paginate ps (List.replicate r.rows.length nul)).map List.length, fun c hc => ?_⟩, fun c hc p hp => ?_⟩
  · obtain ⟨v, e⟩ := h c hc
    have hl := hs.2.2.1 c hc
    rw [colLen_eq, e, paginate_flatten hps] at hl
    rw [e, paginate_layout, paginate_layout, hl, List.length_replicate]
  · obtain ⟨v, e⟩ := h c hc
    rw [e] at hp
    exact paginate_solid hps v p hp

/-- Spec: the call makes sense: there are rows, the columns exist, the names of the result are different -/
structure Rel.PivotArgs (nul : α) (N : PivotNames ν α φ) (nm : φ → ν → ν) (r : Rel ν α) (rows columns : List ν) (functions : List (ν × φ)) (asRows : Bool) : Prop where
  some : r.rows ≠ []
  cols : ∀ a ∈ (rows ++ columns) ++ functions.map (·.1), a ∈ r.names
  keyed : rows ≠ [] ∨ functions ≠ []
  grouped : ((rows ++ columns) ++ functions.map fun f => nm f.2 f.1).Nodup
  named : if asRows then (rows ++ [N.function] ++ (r.keysOf nul columns).map (N.keyName columns)).Nodup
    else (rows ++ (r.keysOf nul columns).flatMap fun ck => functions.map fun f => N.fnName f columns ck).Nodup

omit [DecidableEq α] in
theorem getD_range_self (l : List α) (n : Nat) (nul : α) (h : l.length = n) : (List.range n).map (fun j => l.getD j nul) = l := by
  subst h
  apply List.ext_getElem
  · simp
  · intro i h1 h2
    simp [List.getD_eq_getElem?_getD, List.getElem?_eq_getElem h2]

/-- **C59** partial, in rows: a pivot of a table cut at the same places has the rows of the spec, and is again cut at the same places.  Missing: as in `C59_rows_partial` and `C59_cols_partial`, and pivots whose
columns get names that are taken. -/
theorem C59_relation_partial {nul : α} {t : Tbl ν α} {r : Rel ν α} (h : Shows nul t r) (ha : Aligned t) (init : φ → σ) (upd : φ → σ → α → Except Err σ) (val : φ → σ → Except Err α) (nm : φ → ν → ν)
    (ps : Nat) (hps : 0 < ps) (mk : ν → Nat → ν) (hmk : ∀ d a b, mk d a = mk d b → a = b) (N : PivotNames ν α φ) (rows columns : List ν) (functions : List (ν × φ)) (asRows : Bool)
    (ok : r.PivotArgs nul N nm rows columns functions asRows) (agg : ν × φ → List α → α)
    (hagg : ∀ f ∈ functions, ∀ k ∈ r.keysOf nul (rows ++ columns), aggOf init upd val f.2 ((r.withKey nul (rows ++ columns) k).map fun row => r.get nul row f.1) = .ok (agg f k)) :
    ∃ t', pivot ps mk N nul (groupby nul init upd val nm ps t (rows ++ columns) functions) rows columns functions asRows = .ok t' ∧
      Shows nul t' (if asRows then r.pivotRows nul N rows columns functions agg else r.pivotCols nul N rows columns functions agg) ∧ Aligned t' ∧ Solid t' := by
  obtain ⟨L, hL⟩ := ha
  have hn : L.sum = r.rows.length := by
    obtain ⟨c, hc⟩ := List.exists_mem_of_ne_nil t h.ne
    rw [← h.2.2.1 c hc, colLen_eq, List.length_flatten, hL c hc]
  have hpos : 0 < L.sum := by rw [hn]; exact List.length_pos_of_ne_nil ok.some
  have hnames : ∀ a ∈ (rows ++ columns) ++ functions.map (·.1), ∃ p, dGet a t = some p ∧ p.map List.length = L := by
    intro a ha
    obtain ⟨p, e⟩ := Option.isSome_iff_exists.1 ((dGet_isSome a t).2 (by rw [h.2.1]; exact ok.cols a ha))
    exact ⟨p, e, hL _ (dGet_some_mem _ _ _ e)⟩
  have hk : ∀ keys, firstOccs (keyRows nul t keys L.sum) = r.keysOf nul keys := by
    intro keys
    rw [hn, h.keyRows]
    rfl
  have hsome : (rows ++ columns).length + functions.length ≠ 0 := by
    rw [List.length_append]
    rcases ok.keyed with g | g
    · have := List.length_pos_of_ne_nil g
      omega
    · have := List.length_pos_of_ne_nil g
      omega
  have hagg' : ∀ f ∈ functions, ∀ k ∈ keyRows nul t (rows ++ columns) L.sum, aggOf init upd val f.2 ((rowsWith nul t (rows ++ columns) L.sum k).map fun i => cell nul t f.1 i) = .ok (agg f k) := by
    intro f hf k hkm
    rw [hn, h.withKey]
    refine hagg f hf k ?_
    rw [← hk, mem_firstOccs]
    exact hkm
  have hkl : ∀ keys, ∀ k ∈ r.keysOf nul keys, k.length = keys.length := by
    intro keys k hk'
    unfold Rel.keysOf at hk'
    rw [mem_firstOccs] at hk'
    obtain ⟨row, -, rfl⟩ := List.mem_map.1 hk'
    rw [List.length_map]
  have hcell : ∀ rk ∈ r.keysOf nul rows, ∀ ck, pivotCell nul t L.sum rows columns functions agg rk ck = functions.map fun f => r.pivotAt nul rows columns agg rk ck f := by
    intro rk hrk ck
    have := keyRows_append nul t rows columns L.sum rk ck (hkl _ _ hrk)
    have hmem : rk ++ ck ∈ r.keysOf nul (rows ++ columns) ↔ rk ++ ck ∈ keyRows nul t (rows ++ columns) L.sum := by rw [← hk, mem_firstOccs]
    unfold pivotCell Rel.pivotAt
    by_cases hc : rk ++ ck ∈ keyRows nul t (rows ++ columns) L.sum
    · rw [if_pos (this.1 hc)]
      exact List.map_congr_left fun f _ => (if_pos (hmem.2 hc)).symm
    · rw [if_neg (fun g => hc (this.2 g))]
      exact List.map_congr_left fun f _ => (if_neg (fun g => hc (hmem.1 g))).symm
  cases asRows with
  | true =>
    have hnm := ok.named
    rw [if_pos rfl] at hnm
    obtain ⟨t', names, h1, h2, -, -, h3⟩ := C59_rows_partial ps hps mk hmk N nul init upd val nm t L hpos rows columns functions hnames hsome ok.grouped agg hagg'
    rw [hk] at h3
    rw [h3 hnm] at h2
    have hs : Shows nul t' (r.pivotRows nul N rows columns functions agg) := by
      have := shows_of_items nul t' _ hnm (by simp) ((r.keysOf nul rows).flatMap fun rk => functions.map fun f => (rk, f))
        ((List.range rows.length).map (fun j => fun x : List α × (ν × φ) => x.1.getD j nul) ++ [fun x => N.fnVal x.2] ++ (r.keysOf nul columns).map fun ck => fun x => r.pivotAt nul rows columns agg x.1 ck x.2)
        (by simp) (by
          rw [h2]
          congr 1
          unfold pivotRowsView
          rw [hk, hk, List.map_append, List.map_append, List.map_map, List.map_map]
          congr 1
          · congr 1
            · apply List.map_congr_left
              intro j _
              simp [Function.comp_def, List.map_flatMap, List.map_map]
            · simp [Function.comp_def, List.map_flatMap, List.map_map]
          · apply List.map_congr_left
            intro ck _
            simp only [Function.comp_def, List.map_flatMap, List.map_map]
            rw [List.flatMap_def, List.flatMap_def]
            congr 1
            apply List.map_congr_left
            intro rk hrk
            exact hcell rk hrk ck)
      have e : r.pivotRows nul N rows columns functions agg = ⟨rows ++ [N.function] ++ (r.keysOf nul columns).map (N.keyName columns),
          ((r.keysOf nul rows).flatMap fun rk => functions.map fun f => (rk, f)).map fun x => ((List.range rows.length).map (fun j => fun x : List α × (ν × φ) => x.1.getD j nul) ++ [fun x : List α × (ν × φ) => N.fnVal x.2] ++
            (r.keysOf nul columns).map fun ck => fun x : List α × (ν × φ) => r.pivotAt nul rows columns agg x.1 ck x.2).map fun f => f x⟩ := by
        unfold Rel.pivotRows
        congr 1
        simp only [List.map_flatMap, List.map_map]
        rw [List.flatMap_def, List.flatMap_def]
        congr 1
        apply List.map_congr_left
        intro rk hrk
        apply List.map_congr_left
        intro f _
        simp only [Function.comp_def, List.map_append, List.map_map, List.map_cons, List.map_nil]
        rw [getD_range_self rk rows.length nul (hkl _ _ hrk)]
      rw [e]
      exact this
    rw [if_pos rfl]
    exact ⟨t', h1, hs, (pivot_paginated _ _ _ _ _ _ _ _ _ _ h1).shape hps hs⟩
  | false =>
    have hnm := ok.named
    rw [if_neg (by simp)] at hnm
    obtain ⟨t', h1, h2⟩ := C59_cols_partial ps hps mk hmk N nul init upd val nm t L hpos rows columns functions hnames hsome ok.grouped (by rw [hk]; exact hnm) agg hagg'
    have hne : rows ++ (r.keysOf nul columns).flatMap (fun ck => functions.map fun f => N.fnName f columns ck) ≠ [] := by
      rcases ok.keyed with g | g
      · simp [g]
      · obtain ⟨row, hrow⟩ := List.exists_mem_of_ne_nil _ ok.some
        intro e
        have hck : columns.map (r.get nul row) ∈ r.keysOf nul columns := by
          unfold Rel.keysOf
          rw [mem_firstOccs]
          exact List.mem_map.2 ⟨row, hrow, rfl⟩
        have := (List.append_eq_nil_iff.1 e).2
        rw [List.flatMap_eq_nil_iff] at this
        exact g (List.map_eq_nil_iff.1 (this _ hck))
    have hs : Shows nul t' (r.pivotCols nul N rows columns functions agg) := by
      have := shows_of_items nul t' _ hnm hne (r.keysOf nul rows)
        ((List.range rows.length).map (fun j => fun rk : List α => rk.getD j nul) ++ (r.keysOf nul columns).flatMap fun ck => functions.map fun f => fun rk => r.pivotAt nul rows columns agg rk ck f)
        (by simp [List.length_flatMap]) (by
          rw [h2, hk]
          congr 1
          unfold pivotColsView
          rw [hk, hk, List.map_append, List.map_map, List.map_flatMap]
          congr 1
          rw [List.flatMap_def, List.flatMap_def]
          congr 1
          apply List.map_congr_left
          intro ck _
          rw [List.map_map]
          apply List.ext_getElem
          · simp
          · intro i i1 i2
            simp only [List.getElem_map, List.getElem_range, Function.comp]
            apply List.map_congr_left
            intro rk hrk
            have hi : i < functions.length := by simpa using i1
            rw [hcell rk hrk ck, List.getD_eq_getElem?_getD, List.getElem?_map, List.getElem?_eq_getElem hi]
            rfl)
      have e : r.pivotCols nul N rows columns functions agg = ⟨rows ++ (r.keysOf nul columns).flatMap fun ck => functions.map fun f => N.fnName f columns ck,
          (r.keysOf nul rows).map fun x => ((List.range rows.length).map (fun j => fun rk : List α => rk.getD j nul) ++ (r.keysOf nul columns).flatMap fun ck => functions.map fun f => fun rk => r.pivotAt nul rows columns agg rk ck f).map
            fun f => f x⟩ := by
        unfold Rel.pivotCols
        congr 1
        apply List.map_congr_left
        intro rk hrk
        simp only [List.map_append, List.map_map, List.map_flatMap, Function.comp_def]
        rw [getD_range_self rk rows.length nul (hkl _ _ hrk)]
      rw [e]
      exact this
    rw [if_neg (by simp)]
    exact ⟨t', h1, hs, (pivot_paginated _ _ _ _ _ _ _ _ _ _ h1).shape hps hs⟩

end

end Tablite
