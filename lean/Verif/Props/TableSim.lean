import Verif.Props.JoinLaws
import Verif.Props.StackLaws
import Verif.Props.Replace
import Verif.Props.TableObj
import Verif.Props.GroupLaws
/-!
# C127: pipelines of table operations are pipelines of operations on lists of rows

No new model.  The specification knows names and rows only: no columns, no pages, no page size.
-/

namespace Tablite

set_option linter.unusedSectionVars false

/-! ## the specification -/

/-- Spec: a relation: names of columns and rows, in order -/
structure Rel (ν α : Type) where
  names : List ν
  rows : List (List α)

section
variable {ν α : Type} [DecidableEq ν] [DecidableEq α]

/-- the value of a row in the column of a name -/
def Rel.get (nul : α) (r : Rel ν α) (row : List α) (x : ν) : α := row.getD (r.names.idxOf x) nul

/-- at least one column, no two columns of the same name, a value for each name in each row -/
def Rel.WF (r : Rel ν α) : Prop := r.names ≠ [] ∧ r.names.Nodup ∧ ∀ row ∈ r.rows, row.length = r.names.length

/-- the table has these names and rows -/
def Shows (nul : α) (t : Tbl ν α) (r : Rel ν α) : Prop := r.WF ∧ t.map (·.1) = r.names ∧ Rect t r.rows.length ∧ tblRows nul t = .ok r.rows

theorem Rel.row_get {nul : α} {r : Rel ν α} (h : r.WF) {row : List α} (hr : row ∈ r.rows) : r.names.map (r.get nul row) = row := by
  have hl := h.2.2 row hr
  apply List.ext_getElem
  · simp [hl]
  · intro i h1 h2
    have hi : i < r.names.length := by simpa using h1
    simp only [List.getElem_map, Rel.get]
    rw [h.2.1.idxOf_getElem i hi, List.getD_eq_getElem?_getD, List.getElem?_eq_getElem h2]
    rfl

/-- the columns of a relation -/
def Rel.cols (nul : α) (r : Rel ν α) : List (ν × List α) := r.names.map fun x => (x, r.rows.map fun row => r.get nul row x)

theorem tbl_ne {t : Tbl ν α} {r : Rel ν α} (h : r.WF) (hn : t.map (·.1) = r.names) : t ≠ [] := by
  rintro rfl
  exact h.1 hn.symm

/-- a table has the rows of a relation if it has its columns -/
theorem shows_iff (nul : α) (t : Tbl ν α) (r : Rel ν α) : Shows nul t r ↔ r.WF ∧ tview t = r.cols nul := by
  constructor
  · rintro ⟨h, hn, hr, hs⟩
    refine ⟨h, ?_⟩
    have hne := tbl_ne h hn
    rw [rows_tview nul t _ hr hne] at hs
    injection hs with hs
    unfold Rel.cols
    rw [← hn]
    conv_rhs => rw [← names_tview, List.map_map]
    apply List.ext_getElem
    · simp
    · intro k h1 h2
      have hk : k < (tview t).length := h1
      have hkn : k < r.names.length := by rw [← hn, ← names_tview]; simpa using hk
      have hname : ((tview t)[k]).1 = r.names[k] := by
        have : ((tview t).map (·.1))[k]'(by simpa using hk) = r.names[k] := by
          simp only [names_tview, hn]
        simpa using this
      rw [List.getElem_map]
      refine Prod.ext_iff.2 ⟨rfl, ?_⟩
      simp only [Function.comp]
      have hlen : ((tview t)[k]).2.length = r.rows.length := by
        obtain ⟨c, hc, e⟩ := List.mem_map.1 (List.getElem_mem hk)
        rw [← e]
        dsimp only
        rw [colIter_eq, ← colLen_eq]
        exact hr c hc
      apply List.ext_getElem
      · rw [hlen, List.length_map]
      · intro i h3 h4
        have hi : i < r.rows.length := by omega
        have hrow : r.rows[i] = (tview t).map fun c => c.2.getD i nul := by
          have : ((List.range r.rows.length).map fun i => (tview t).map fun c => c.2.getD i nul)[i]'(by simpa using hi) = r.rows[i] := by
            simp only [hs]
          rw [← this]
          simp
        rw [List.getElem_map, Rel.get, hrow, hname, h.2.1.idxOf_getElem k hkn, List.getD_eq_getElem?_getD, List.getElem?_map, List.getElem?_eq_getElem hk]
        simp [List.getD_eq_getElem?_getD, List.getElem?_eq_getElem h3]
  · rintro ⟨h, hv⟩
    have hn : t.map (·.1) = r.names := by
      rw [← names_tview, hv, Rel.cols, List.map_map]
      exact List.map_id _
    have hr : Rect t r.rows.length := by
      intro c hc
      have h1 : (c.1, colIter c.2) ∈ tview t := List.mem_map.2 ⟨c, hc, rfl⟩
      rw [hv] at h1
      obtain ⟨d, -, e⟩ := List.mem_map.1 h1
      have := (Prod.ext_iff.1 e).2
      dsimp only at this
      rw [colLen_eq, ← colIter_eq, ← this, List.length_map]
    refine ⟨h, hn, hr, ?_⟩
    rw [rows_tview nul t _ hr (tbl_ne h hn), hv]
    congr 1
    apply List.ext_getElem
    · simp
    · intro i h1 h2
      rw [List.getElem_map, List.getElem_range, Rel.cols, List.map_map]
      conv_rhs => rw [← Rel.row_get (nul := nul) h (List.getElem_mem h2)]
      apply List.map_congr_left
      intro x _
      simp [List.getD_eq_getElem?_getD, List.getElem?_eq_getElem h2]

theorem Shows.view {nul : α} {t : Tbl ν α} {r : Rel ν α} (h : Shows nul t r) : tview t = r.cols nul := ((shows_iff ..).1 h).2
theorem Shows.ne {nul : α} {t : Tbl ν α} {r : Rel ν α} (h : Shows nul t r) : t ≠ [] := tbl_ne h.1 h.2.1
theorem Shows.wf {nul : α} {t : Tbl ν α} {r : Rel ν α} (h : Shows nul t r) : TblWF t := by
  unfold TblWF
  rw [h.2.1]
  exact h.1.2.1

/-- a cell of the table is a cell of the relation -/
theorem Shows.cell {nul : α} {t : Tbl ν α} {r : Rel ν α} (h : Shows nul t r) (x : ν) (i : Nat) : cell nul t x i = r.get nul (r.rows.getD i []) x := by
  rw [cell_tview, h.view, Rel.cols, dGet_map]
  by_cases hi : i < r.rows.length
  · rw [List.getD_eq_getElem?_getD (l := r.rows), List.getElem?_eq_getElem hi, Option.getD_some]
    by_cases hx : x ∈ r.names
    · rw [if_pos hx]
      simp [List.getD_eq_getElem?_getD, List.getElem?_eq_getElem hi]
    · rw [if_neg hx, Rel.get, List.idxOf_eq_length hx, ← h.1.2.2 _ (List.getElem_mem hi)]
      simp
  · have e : r.rows.getD i [] = [] := by simp [List.getD_eq_getElem?_getD, List.getElem?_eq_none (Nat.le_of_not_lt hi)]
    rw [e, Rel.get]
    split <;> simp [List.getD_eq_getElem?_getD, List.getElem?_eq_none (Nat.le_of_not_lt hi)]

theorem getD_mem {β : Type} (l : List β) (d : β) (i : Nat) (hi : i < l.length) : l.getD i d ∈ l := by
  rw [List.getD_eq_getElem?_getD, List.getElem?_eq_getElem hi]
  exact List.getElem_mem hi

/-- some rows of a table -/
theorem Shows.rowsOf {nul : α} {t t' : Tbl ν α} {r : Rel ν α} (h : Shows nul t r) {idx : List Nat} (hv : tview t' = rowsOf nul t idx) (hi : ∀ i ∈ idx, i < r.rows.length) :
    Shows nul t' ⟨r.names, idx.map fun i => r.rows.getD i []⟩ := by
  rw [shows_iff]
  refine ⟨⟨h.1.1, h.1.2.1, ?_⟩, ?_⟩
  · intro row hr
    obtain ⟨i, hm, rfl⟩ := List.mem_map.1 hr
    exact h.1.2.2 _ (getD_mem _ _ _ (hi i hm))
  · rw [hv, rowsOf_tview, h.view, Rel.cols, Rel.cols, List.map_map]
    apply List.map_congr_left
    intro x _
    simp only [Function.comp, List.map_map, Prod.mk.injEq, true_and]
    apply List.map_congr_left
    intro i hm
    simp only [Function.comp, List.getD_eq_getElem?_getD, List.getElem?_map, List.getElem?_eq_getElem (hi i hm)]
    rfl

theorem range_rows (l : List (List α)) : (List.range l.length).map (fun i => l.getD i []) = l := by
  apply List.ext_getElem
  · simp
  · intro k h1 h2
    simp [List.getD_eq_getElem?_getD, List.getElem?_eq_getElem h2]


/-! ### the operations on relations -/

/-- the value of an operand of an expression in a row -/
def Rel.operand (nul : α) (r : Rel ν α) (row : List α) : FOperand ν α → α
  | .col x => r.get nul row x
  | .val v => v

/-- a row satisfies all (any) of the expressions -/
def Rel.holds {κ : Type} (nul : α) (cmp : κ → α → α → Bool) (all : Bool) (es : List (FExpr ν α κ)) (r : Rel ν α) (row : List α) : Bool :=
  if all then es.all fun e => cmp e.op (r.operand nul row e.left) (r.operand nul row e.right)
  else es.any fun e => cmp e.op (r.operand nul row e.left) (r.operand nul row e.right)

/-- the numbered row `p` stands before `q`: the first key on which they differ decides, the numbers if there is none -/
def Rel.before (same lt : α → α → Bool) (nul : α) (r : Rel ν α) (p q : List α × Nat) : List (ν × Bool) → Prop
  | [] => p.2 < q.2
  | (a, rev) :: ks =>
    if same (r.get nul p.1 a) (r.get nul q.1 a) then r.before same lt nul p q ks
    else if rev then lt (r.get nul p.1 a) (r.get nul q.1 a) = false else lt (r.get nul q.1 a) (r.get nul p.1 a) = false

/-- the rows of `r` sorted by the keys, equal rows in the order in which they were -/
def Rel.SortedBy (same lt : α → α → Bool) (nul : α) (r : Rel ν α) (keys : List (ν × Bool)) (s : Rel ν α) : Prop :=
  ∃ l : List (List α × Nat), l.Perm r.rows.zipIdx ∧ l.Pairwise (fun p q => r.before same lt nul p q keys) ∧ s = ⟨r.names, l.map (·.1)⟩

/-- the same rows seen through other names; None in columns that are not there -/
def Rel.through (nul : α) (r : Rel ν α) (names : List ν) : List (List α) := r.rows.map fun row => names.map fun x => r.get nul row x

/-- a row of one relation beside a row of another -/
def Rel.beside (nul : α) (r s : Rel ν α) (lc rc : List ν) (a b : List α) : List α := lc.map (r.get nul a) ++ rc.map (s.get nul b)

theorem Shows.holds {κ : Type} {nul : α} {t : Tbl ν α} {r : Rel ν α} (h : Shows nul t r) (cmp : κ → α → α → Bool) (all : Bool) (es : List (FExpr ν α κ)) (i : Nat) :
    rowHolds nul cmp all es t i = r.holds nul cmp all es (r.rows.getD i []) := by
  have e : ∀ o, fVal nul t i o = r.operand nul (r.rows.getD i []) o := by
    intro o
    cases o with
    | col x => exact h.cell x i
    | val v => rfl
  unfold rowHolds Rel.holds
  simp only [e]

theorem Shows.filter {nul : α} {t t' : Tbl ν α} {r : Rel ν α} (h : Shows nul t r) (P : List α → Bool) (p : Nat → Bool) (hp : ∀ i < r.rows.length, p i = P (r.rows.getD i []))
    (hv : tview t' = Tablite.rowsOf nul t ((List.range r.rows.length).filter p)) : Shows nul t' ⟨r.names, r.rows.filter P⟩ := by
  have := h.rowsOf hv (fun i hi => List.mem_range.1 (List.mem_filter.1 hi).1)
  rwa [select_filter r.rows [] P p hp] at this

theorem pySlice_map' {β γ : Type} (f : β → γ) (l : List β) (s : PySlice) : pySlice (l.map f) s = (pySlice l s).map f := by
  unfold pySlice
  simp only [List.length_map]
  rw [List.map_filterMap]
  apply List.filterMap_congr
  intro i _
  unfold getI?
  split <;> simp

theorem pySlice_mem {β : Type} (l : List β) (s : PySlice) (x : β) (h : x ∈ pySlice l s) : x ∈ l := by
  unfold pySlice at h
  dsimp only at h
  obtain ⟨i, -, e⟩ := List.mem_filterMap.1 h
  unfold getI? at e
  split at e
  · cases e
  · exact List.mem_of_getElem? e

theorem Shows.slice {nul : α} {t t' : Tbl ν α} {r : Rel ν α} (h : Shows nul t r) (s : PySlice) (hv : tview t' = (tview t).map fun c => (c.1, pySlice c.2 s)) :
    Shows nul t' ⟨r.names, pySlice r.rows s⟩ := by
  rw [shows_iff]
  refine ⟨⟨h.1.1, h.1.2.1, fun row hr => h.1.2.2 row (pySlice_mem _ _ _ hr)⟩, ?_⟩
  rw [hv, h.view, Rel.cols, Rel.cols, List.map_map]
  apply List.map_congr_left
  intro x _
  simp only [Function.comp, pySlice_map', Prod.mk.injEq, true_and]
  rfl

theorem Shows.before {same lt : α → α → Bool} {nul : α} {t : Tbl ν α} {r : Rel ν α} (h : Shows nul t r) (i j : Nat) (ks : List (ν × Bool)) (ho : InOrder same lt nul t i j ks) :
    r.before same lt nul (r.rows.getD i [], i) (r.rows.getD j [], j) ks := by
  induction ks with
  | nil => exact ho
  | cons k ks ih =>
    obtain ⟨a, rev⟩ := k
    unfold InOrder at ho
    unfold Rel.before
    rw [h.cell, h.cell] at ho
    dsimp only
    split
    · next hs => rw [if_pos hs] at ho; exact ih ho
    · next hs => rw [if_neg hs] at ho; exact ho

theorem rows_zipIdx (l : List (List α)) : l.zipIdx = (List.range l.length).map fun i => (l.getD i [], i) := by
  apply List.ext_getElem
  · simp
  · intro k h1 h2
    have : k < l.length := by simpa using h1
    simp [List.getD_eq_getElem?_getD, List.getElem?_eq_getElem this]

theorem Shows.sorted {same lt : α → α → Bool} {nul : α} {t t' : Tbl ν α} {r : Rel ν α} (h : Shows nul t r) {ks : List (ν × Bool)} {idx : List Nat} (hp : idx.Perm (List.range r.rows.length))
    (hv : tview t' = Tablite.rowsOf nul t idx) (ho : idx.Pairwise fun i j => InOrder same lt nul t i j ks) :
    ∃ s, r.SortedBy same lt nul ks s ∧ Shows nul t' s := by
  refine ⟨_, ⟨idx.map fun i => (r.rows.getD i [], i), ?_, ?_, rfl⟩, ?_⟩
  · rw [rows_zipIdx]
    exact hp.map _
  · rw [List.pairwise_map]
    exact ho.imp fun hij => h.before _ _ _ hij
  · rw [List.map_map]
    exact h.rowsOf hv fun i hi => List.mem_range.1 (hp.subset hi)

theorem through_length {nul : α} {r : Rel ν α} {names : List ν} {row : List α} (h : row ∈ r.through nul names) : row.length = names.length := by
  obtain ⟨a, -, rfl⟩ := List.mem_map.1 h
  simp

/-- the values of a row made of names -/
theorem get_made {nul : α} (names : List ν) (rows : List (List α)) (f : ν → α) (x : ν) (hx : x ∈ names) : (⟨names, rows⟩ : Rel ν α).get nul (names.map f) x = f x := by
  unfold Rel.get
  have hi := List.idxOf_lt_length_iff.2 hx
  rw [List.getD_eq_getElem?_getD, List.getElem?_map, List.getElem?_eq_getElem hi]
  simp

theorem valsOr_shows {nul : α} {t : Tbl ν α} {r : Rel ν α} (h : Shows nul t r) (x : ν) : valsOr nul t (tblLen t) x = r.rows.map fun row => r.get nul row x := by
  have hl := tblLen_rect t _ h.2.2.1 h.ne
  apply List.ext_getElem
  · rw [hl, valsOr_length nul t _ h.2.2.1, List.length_map]
  · intro i h1 h2
    have hi : i < r.rows.length := by simpa using h2
    have e := h.cell x i
    rw [List.getD_eq_getElem?_getD (l := r.rows), List.getElem?_eq_getElem hi, Option.getD_some] at e
    have e2 : (valsOr nul t (tblLen t) x)[i] = (valsOr nul t (tblLen t) x).getD i nul := by
      rw [List.getD_eq_getElem?_getD, List.getElem?_eq_getElem h1]
      rfl
    rw [List.getElem_map, ← e, Tablite.cell, e2]
    unfold valsOr
    cases dGet x t with
    | none => simp [List.getD_eq_getElem?_getD, hl, hi]
    | some c => rfl

theorem Shows.stack {nul : α} {t u : Tbl ν α} {r s : Rel ν α} (ht : Shows nul t r) (hu : Shows nul u s) (ps : Nat) (hps : 0 < ps) :
    let names := r.names ++ s.names.filter (fun x => x ∉ r.names)
    Shows nul (tblStack ps nul t u) ⟨names, r.through nul names ++ s.through nul names⟩ := by
  intro names
  rw [shows_iff]
  have hnd : names.Nodup := by
    rw [List.nodup_append]
    refine ⟨ht.1.2.1, hu.1.2.1.filter _, ?_⟩
    intro a ha b hb e
    have := (List.mem_filter.1 hb).2
    simp only [decide_eq_true_eq] at this
    exact this (e ▸ ha)
  refine ⟨⟨by simp [names, ht.1.1], hnd, ?_⟩, ?_⟩
  · intro row hr
    rcases List.mem_append.1 hr with hr | hr <;> exact through_length hr
  · rw [C17_stack ps hps nul t u ht.wf hu.wf, ht.2.1, hu.2.1]
    apply List.map_congr_left
    intro x hx
    rw [valsOr_shows ht, valsOr_shows hu]
    simp only [Prod.mk.injEq, true_and, List.map_append, Rel.through, List.map_map]
    congr 1
    · apply List.map_congr_left
      intro row _
      exact (get_made names _ _ x hx).symm
    · apply List.map_congr_left
      intro row _
      exact (get_made names _ _ x hx).symm

theorem Shows.plus {nul : α} {t u : Tbl ν α} {r s : Rel ν α} (ht : Shows nul t r) (hu : Shows nul u s) (hn : ∀ x, x ∈ r.names ↔ x ∈ s.names) :
    ∃ v, tblIAdd t u = .ok v ∧ Shows nul v ⟨r.names, r.rows ++ s.through nul r.names⟩ := by
  obtain ⟨v, h1, h2⟩ := add_view t u (by rw [ht.2.1, hu.2.1]; exact hn)
  refine ⟨v, h1, (shows_iff ..).2 ⟨⟨ht.1.1, ht.1.2.1, ?_⟩, ?_⟩⟩
  · intro row hr
    rcases List.mem_append.1 hr with hr | hr
    · exact ht.1.2.2 row hr
    · exact through_length hr
  · have e : (t.map fun c => (c.1, colIter c.2 ++ ((dGet c.1 u).elim [] colIter))) = (tview t).map fun c => (c.1, c.2 ++ (dGet c.1 (tview u)).getD []) := by
      unfold tview
      rw [List.map_map]
      apply List.map_congr_left
      intro c _
      simp only [Function.comp]
      rw [show (u.map fun c => (c.1, colIter c.2)) = tview u from rfl, dGet_tview]
      cases dGet c.1 u <;> rfl
    rw [h2, e, ht.view, hu.view]
    simp only [Rel.cols, List.map_map]
    apply List.map_congr_left
    intro x hx
    simp only [Function.comp, dGet_map, if_pos ((hn x).1 hx), Option.getD_some, List.map_append, Prod.mk.injEq, true_and, Rel.through, List.map_map]
    congr 1
    apply List.map_congr_left
    intro row _
    exact (get_made r.names _ _ x hx).symm

theorem Shows.times {nul : α} {t : Tbl ν α} {r : Rel ν α} (ht : Shows nul t r) (n : Int) (hn : 0 < n) :
    ∃ v, tblIMul t n = .ok v ∧ Shows nul v ⟨r.names, (List.replicate n.toNat r.rows).flatten⟩ := by
  obtain ⟨v, h1, h2⟩ := (C09_table_repeat t n).1 hn
  refine ⟨v, h1, (shows_iff ..).2 ⟨⟨ht.1.1, ht.1.2.1, ?_⟩, ?_⟩⟩
  · intro row hr
    obtain ⟨l, hl, hr⟩ := List.mem_flatten.1 hr
    rw [List.eq_of_mem_replicate hl] at hr
    exact ht.1.2.2 row hr
  · have e : (t.map fun c => (c.1, (List.replicate n.toNat (colIter c.2)).flatten)) = (tview t).map fun c => (c.1, (List.replicate n.toNat c.2).flatten) := by
      unfold tview
      rw [List.map_map]
      rfl
    rw [show tview v = _ from h2, e, ht.view, Rel.cols, List.map_map, Rel.cols]
    apply List.map_congr_left
    intro x _
    simp only [Function.comp, Prod.mk.injEq, true_and, List.map_flatten, List.map_replicate]
    rfl

theorem rowAt_shows {nul : α} {t : Tbl ν α} {r : Rel ν α} (h : Shows nul t r) {i : Nat} (hi : i < r.rows.length) : rowAt nul t i = r.rows.getD i [] := by
  rw [← rowAt_cells nul t h.wf, h.2.1]
  conv_rhs => rw [← Rel.row_get (nul := nul) h.1 (getD_mem r.rows [] i hi)]
  apply List.map_congr_left
  intro x _
  exact h.cell x i

theorem Shows.unique {η : Type} [DecidableEq η] (hash : List α → η) (ps : Nat) (hps : 0 < ps) {nul : α} {t : Tbl ν α} {r : Rel ν α} (h : Shows nul t r)
    (hinj : ∀ a ∈ r.rows, ∀ b ∈ r.rows, hash a = hash b → a = b) :
    ∃ v, dropDuplicates hash ps nul t [] = .ok v ∧ Shows nul v ⟨r.names, firstOccs r.rows⟩ := by
  obtain ⟨v, h1, h2⟩ := dropDup_view hash ps hps nul t r.rows.length h.wf h.2.2.1 h.ne (by
    intro i hi j hj
    rw [rowAt_shows h hi, rowAt_shows h hj]
    exact hinj _ (getD_mem _ _ _ hi) _ (getD_mem _ _ _ hj))
  refine ⟨v, h1, ?_⟩
  have := h.rowsOf h2 (fun i hi => List.mem_range.1 (List.mem_filter.1 hi).1)
  have e := firstOccs_positions (fun i => r.rows.getD i []) r.rows.length
  rw [range_rows] at e
  rw [e]
  have e2 : (List.range r.rows.length).filter (isFirst nul t) = (List.range r.rows.length).filter fun i => (List.range i).all fun j => decide (r.rows.getD j [] ≠ r.rows.getD i []) := by
    apply List.filter_congr
    intro i hi
    have hi := List.mem_range.1 hi
    unfold isFirst
    rw [Bool.eq_iff_iff, List.all_eq_true, List.all_eq_true]
    constructor
    · intro H j hj
      have := H j hj
      rwa [rowAt_shows h hi, rowAt_shows h (lt_trans (List.mem_range.1 hj) hi)] at this
    · intro H j hj
      have := H j hj
      rwa [rowAt_shows h hi, rowAt_shows h (lt_trans (List.mem_range.1 hj) hi)]
  rwa [e2] at this

theorem Shows.pick (ps : Nat) (hps : 0 < ps) {nul : α} {t : Tbl ν α} {r : Rel ν α} (h : Shows nul t r) (index : List Int) (hi : ∀ i ∈ index, 0 ≤ i ∧ i < r.rows.length) :
    ∃ v, tblReindex ps nul t index = .ok v ∧ Shows nul v ⟨r.names, index.map fun i => r.rows.getD i.toNat []⟩ := by
  obtain ⟨v, h1, h2⟩ := C62_reindex_partial ps hps nul t index (fun c hc i hm => Or.inr (by rw [h.2.2.1 c hc]; exact hi i hm)) (fun hm => by have := (hi _ hm).1; omega)
  refine ⟨v, h1, ?_⟩
  have e : (index.map fun i => r.rows.getD i.toNat []) = (index.map Int.toNat).map fun i => r.rows.getD i [] := by
    rw [List.map_map]
    rfl
  rw [e]
  refine h.rowsOf ?_ ?_
  · rw [h2, Tablite.rowsOf]
    apply List.map_congr_left
    intro c _
    rw [List.map_map]
    refine Prod.ext_iff.2 ⟨rfl, ?_⟩
    apply List.map_congr_left
    intro i hm
    have := (hi i hm).1
    simp only [Function.comp, Tablite.pick]
    rw [if_neg (by omega)]
  · intro i hm
    obtain ⟨j, hj, rfl⟩ := List.mem_map.1 hm
    have := hi j hj
    omega

/-- the row with the values of the columns `ns` replaced -/
def Rel.replaced (nul : α) (mapping : List (α × α)) (ns : List ν) (r : Rel ν α) (row : List α) : List α :=
  r.names.map fun x => if x ∈ ns then mapped mapping (r.get nul row x) else r.get nul row x

theorem Shows.replace {nul : α} {t : Tbl ν α} {r : Rel ν α} (h : Shows nul t r) (mapping : List (α × α)) (ns : List ν) (hn : ns.Nodup) (hi : ∀ x ∈ ns, x ∈ r.names) :
    (tblReplace mapping (.many ns) t).2 = none ∧ Shows nul (tblReplace mapping (.many ns) t).1 ⟨r.names, r.rows.map (r.replaced nul mapping ns)⟩ := by
  have H := C104_partial mapping (.many ns) t h.wf hn
  rw [if_pos (by rw [h.2.1]; exact hi)] at H
  refine ⟨H.1, (shows_iff ..).2 ⟨⟨h.1.1, h.1.2.1, ?_⟩, ?_⟩⟩
  · intro row hr
    obtain ⟨a, -, rfl⟩ := List.mem_map.1 hr
    simp [Rel.replaced]
  · rw [H.2, h.view, Rel.cols, List.map_map, Rel.cols]
    apply List.map_congr_left
    intro x hx
    have e : ∀ row, (⟨r.names, r.rows.map (r.replaced nul mapping ns)⟩ : Rel ν α).get nul (r.replaced nul mapping ns row) x =
        if x ∈ ns then mapped mapping (r.get nul row x) else r.get nul row x := fun row => get_made r.names _ _ x hx
    simp only [Function.comp, List.map_map, meant]
    split
    · next hm =>
      refine Prod.ext_iff.2 ⟨rfl, List.map_congr_left fun row _ => ?_⟩
      rw [Function.comp, Function.comp, e, if_pos hm]
    · next hm =>
      refine Prod.ext_iff.2 ⟨rfl, List.map_congr_left fun row _ => ?_⟩
      rw [Function.comp, e, if_neg hm]

/-- the arguments of a join name columns of the two relations -/
structure Rel.JoinArgs (r s : Rel ν α) (lk rk lc rc : List ν) : Prop where
  lkIn : ∀ a ∈ lk, a ∈ r.names
  rkIn : ∀ a ∈ rk, a ∈ s.names
  len : lk.length = rk.length
  key : lk ≠ []
  lcIn : ∀ a ∈ lc, a ∈ r.names
  rcIn : ∀ a ∈ rc, a ∈ s.names
  lcne : lc ≠ []
  rcne : rc ≠ []
  lcnd : lc.Nodup

theorem Shows.joinOk {nul : α} {t u : Tbl ν α} {r s : Rel ν α} (ht : Shows nul t r) (hu : Shows nul u s) {lk rk lc rc : List ν} (h : Rel.JoinArgs r s lk rk lc rc) : JoinOk t u lk rk lc rc := by
  constructor
  · rw [ht.2.1]; exact h.lkIn
  · rw [hu.2.1]; exact h.rkIn
  · exact h.len
  · exact h.key
  · rw [ht.2.1]; exact h.lcIn
  · rw [hu.2.1]; exact h.rcIn
  · exact h.lcne
  · exact h.rcne
  · exact h.lcnd

theorem joinRow_shows {nul : α} {t u : Tbl ν α} {r s : Rel ν α} (ht : Shows nul t r) (hu : Shows nul u s) (lc rc : List ν) (i j : Nat) :
    joinRow nul t u lc rc (some i, some j) = r.beside nul s lc rc (r.rows.getD i []) (s.rows.getD j []) := by
  unfold joinRow Rel.beside optCell
  congr 1
  · exact List.map_congr_left fun x _ => ht.cell x i
  · exact List.map_congr_left fun x _ => hu.cell x j

/-- a joined table shows the rows of its pairs -/
theorem shows_joined {nul : α} {t u t' : Tbl ν α} {r s : Rel ν α} (ht : Shows nul t r) (hu : Shows nul u s) {mk : ν → Nat → ν} (hmk : ∀ d a b, mk d a = mk d b → a = b) {lc rc : List ν} (hne : lc ≠ [])
    (hnd : lc.Nodup) {pairs : List (Nat × Nat)} (hv : tview t' = joinedView mk nul t u lc rc (pairs.map fun p => (some p.1, some p.2))) :
    Shows nul t' ⟨lc ++ rightNames mk lc rc, pairs.map fun p => r.beside nul s lc rc (r.rows.getD p.1 []) (s.rows.getD p.2 [])⟩ := by
  refine ⟨⟨by simp [hne], rightNames_nodup mk hmk lc rc hnd, ?_⟩, joined_names hv, ?_, ?_⟩
  · intro row hr
    obtain ⟨p, -, rfl⟩ := List.mem_map.1 hr
    simp [Rel.beside, rightNames_length]
  · have := joined_rect hv
    simpa using this
  · rw [joined_rows hv hne, List.map_map]
    congr 1
    exact List.map_congr_left fun p _ => joinRow_shows ht hu lc rc p.1 p.2

/-- Spec: for each row of `r` each row of `s` with the same keys -/
def Rel.joined (nul : α) (r s : Rel ν α) (lk rk lc rc : List ν) : List (List α) :=
  r.rows.flatMap fun a => (s.rows.filter fun b => decide (lk.map (r.get nul a) = rk.map (s.get nul b))).map (r.beside nul s lc rc a)

theorem joined_spec {nul : α} {t u : Tbl ν α} {r s : Rel ν α} (ht : Shows nul t r) (hu : Shows nul u s) (lk rk lc rc : List ν) :
    nestedLoop nul t u r.rows.length s.rows.length lk rk lc rc = r.joined nul s lk rk lc rc := by
  unfold nestedLoop Rel.joined
  conv_rhs => rw [← range_rows r.rows]
  rw [List.flatMap_map]
  have : ∀ i, (((List.range s.rows.length).filter fun j => keysMeet nul t u lk rk i j).map fun j => joinRow nul t u lc rc (some i, some j)) =
      (s.rows.filter fun b => decide (lk.map (r.get nul (r.rows.getD i [])) = rk.map (s.get nul b))).map (r.beside nul s lc rc (r.rows.getD i [])) := by
    intro i
    rw [← select_filter s.rows [] _ (fun j => keysMeet nul t u lk rk i j), List.map_map]
    · exact List.map_congr_left fun j _ => joinRow_shows ht hu lc rc i j
    · intro j _
      unfold keysMeet
      congr 1
      rw [List.map_congr_left (fun a _ => ht.cell a i), List.map_congr_left (l := rk) (fun a _ => hu.cell a j)]
  simp only [this]

theorem Shows.inner {nul : α} {t u : Tbl ν α} {r s : Rel ν α} (ht : Shows nul t r) (hu : Shows nul u s) (ps : Nat) (hps : 0 < ps) (mk : ν → Nat → ν) (hmk : ∀ d a b, mk d a = mk d b → a = b)
    (ord : List (List α) → List (List α)) (lk rk lc rc : List ν) (h : Rel.JoinArgs r s lk rk lc rc) :
    ∃ t' rows, tblJoin ps mk ord nul .inner t u lk rk lc rc = .ok t' ∧ rows.Perm (r.joined nul s lk rk lc rc) ∧ Shows nul t' ⟨lc ++ rightNames mk lc rc, rows⟩ := by
  have hj := ht.joinOk hu h
  obtain ⟨pairs, -, -, t', h1, h2⟩ := C23_inner ps hps mk hmk ord nul t u _ _ ht.2.2.1 hu.2.2.1 lk rk lc rc hj
  obtain ⟨t'', rows, g1, g2, g3⟩ := C111_inner ps hps mk hmk ord nul t u _ _ ht.2.2.1 hu.2.2.1 lk rk lc rc hj
  rw [h1] at g1
  injection g1 with g1
  subst g1
  have hs := shows_joined ht hu hmk h.lcne h.lcnd h2
  refine ⟨t', _, h1, ?_, hs⟩
  have := hs.2.2.2
  rw [g2] at this
  injection this with this
  rw [← joined_spec ht hu]
  dsimp only at this
  rwa [← this]

/-- Spec: each row of `r` with each row of `s`, in order -/
def Rel.product (nul : α) (r s : Rel ν α) (lc rc : List ν) : List (List α) := r.rows.flatMap fun a => s.rows.map (r.beside nul s lc rc a)

theorem Shows.cross {nul : α} {t u : Tbl ν α} {r s : Rel ν α} (ht : Shows nul t r) (hu : Shows nul u s) (ps : Nat) (hps : 0 < ps) (mk : ν → Nat → ν) (hmk : ∀ d a b, mk d a = mk d b → a = b)
    (ord : List (List α) → List (List α)) (lk rk lc rc : List ν) (h : Rel.JoinArgs r s lk rk lc rc) (hn : r.rows ≠ []) (hm : s.rows ≠ []) :
    ∃ t', tblJoin ps mk ord nul .cross t u lk rk lc rc = .ok t' ∧ Shows nul t' ⟨lc ++ rightNames mk lc rc, r.product nul s lc rc⟩ := by
  have hj := ht.joinOk hu h
  have hm' := List.length_pos_of_ne_nil hm
  obtain ⟨t', h1, h2⟩ := C26_cross_partial ps hps mk hmk ord nul t u _ _ ht.2.2.1 hu.2.2.1 (List.length_pos_of_ne_nil hn) hm' lk rk lc rc hj
  refine ⟨t', h1, ?_⟩
  have hprod : ∀ n m : Nat, 0 < m → ((List.range n).flatMap fun i => (List.range m).map fun j => ((i : Nat), (j : Nat))) = (List.range (n * m)).map fun k => (k / m, k % m) := by
    intro n m hm
    induction n with
    | zero => simp
    | succ n ih =>
      rw [List.range_succ, List.flatMap_append, ih, Nat.add_mul, Nat.one_mul, List.range_add, List.map_append, List.map_map]
      congr 1
      simp only [List.flatMap_cons, List.flatMap_nil, List.append_nil]
      apply List.map_congr_left
      intro j hj
      rw [List.mem_range] at hj
      simp only [Function.comp]
      rw [Nat.mul_comm n m, Nat.mul_add_div hm, Nat.mul_add_mod, Nat.div_eq_of_lt hj, Nat.mod_eq_of_lt hj, Nat.add_zero]
  have e : (List.range (r.rows.length * s.rows.length)).map (fun k => ((some (k / s.rows.length) : Option Nat), (some (k % s.rows.length) : Option Nat))) =
      ((List.range (r.rows.length * s.rows.length)).map fun k => (k / s.rows.length, k % s.rows.length)).map fun p => (some p.1, some p.2) := by
    rw [List.map_map]
    rfl
  rw [e, ← hprod _ _ hm'] at h2
  have hs := shows_joined ht hu hmk h.lcne h.lcnd h2
  rw [List.map_flatMap] at hs
  unfold Rel.product
  conv => enter [3, 2]; rw [← range_rows r.rows]
  rw [List.flatMap_map]
  have : ∀ a, s.rows.map (r.beside nul s lc rc a) = ((List.range s.rows.length).map fun j => s.rows.getD j []).map (r.beside nul s lc rc a) := fun a => by rw [range_rows]
  simp only [this, List.map_map] at hs ⊢
  exact hs

/-- `t["a", "b", …]` on a table of values: its columns become objects, `tGet` takes some of them (Model/TableObj.lean), base.py:1205-1266 -/
def selectCols (ps : Nat) (t : Tbl ν α) (names : List ν) : Except Err (Tbl ν α) :=
  match tGet ps (t.map (·.2)) (t.zipIdx.map fun p => (p.1.1, p.2)) (names.map .name) with
  | .ok (h, .table u) => .ok (Tablite.view h u)
  | .ok _ => .error .type
  | .error e => .error e

theorem dGet_zipIdx (x : ν) (t : Tbl ν α) (k : Nat) (h : Heap α) (hh : ∀ i, i < t.length → colAt h (k + i) = (t[i]?.map (·.2)).getD []) :
    (dGet x ((t.zipIdx k).map fun p => (p.1.1, p.2))).map (colAt h) = dGet x t := by
  induction t generalizing k with
  | nil => rfl
  | cons c u ih =>
    obtain ⟨n, p⟩ := c
    simp only [List.zipIdx_cons, List.map_cons, dGet]
    split
    · have := hh 0 (by simp)
      simpa using this
    · refine ih (k + 1) ?_
      intro i hi
      have := hh (i + 1) (by simpa using hi)
      rw [show k + 1 + i = k + (i + 1) by omega, this]
      simp

theorem Shows.select {nul : α} {t : Tbl ν α} {r : Rel ν α} (ht : Shows nul t r) (ps : Nat) (names : List ν) (hl : 2 ≤ names.length) (hn : names.Nodup) (hin : ∀ x ∈ names, x ∈ r.names) :
    ∃ v, selectCols ps t names = .ok v ∧ Shows nul v ⟨names, r.through nul names⟩ := by
  have hnames : (t.zipIdx.map fun p => (p.1.1, p.2)).map (·.1) = r.names := by
    rw [← ht.2.1, List.map_map]
    conv_rhs => rw [← List.zipIdx_map_fst 0 t, List.map_map]
    rfl
  obtain ⟨u, h1, h2, h3⟩ := C74_names ps (t.map (·.2)) (t.zipIdx.map fun p => (p.1.1, p.2)) names hl hn (by rw [hnames]; exact hin)
  refine ⟨Tablite.view (t.map (·.2)) u, ?_, ?_⟩
  · unfold selectCols
    rw [h1]
  · have hview : ∀ x ∈ names, dGet x (Tablite.view (t.map (·.2)) u) = dGet x t := by
      intro x hx
      rw [← dGet_zipIdx x t 0 (t.map (·.2)) (by
        intro i hi
        simp [colAt, List.getD_eq_getElem?_getD]), ← h3 x hx]
      unfold Tablite.view
      exact dGet_map_val (colAt (t.map (·.2))) u x
    have hvn : (Tablite.view (t.map (·.2)) u).map (·.1) = names := by
      rw [← h2]
      unfold Tablite.view
      rw [List.map_map]
      rfl
    rw [shows_iff]
    refine ⟨⟨?_, hn, fun row hr => through_length hr⟩, ?_⟩
    · rintro rfl
      simp at hl
    · have hw : ((tview (Tablite.view (t.map (·.2)) u)).map (·.1)).Nodup := by rw [names_tview, hvn]; exact hn
      have hself : tview (Tablite.view (t.map (·.2)) u) = names.map fun x => (x, (dGet x (tview (Tablite.view (t.map (·.2)) u))).getD []) := by
        conv_rhs => rw [← hvn, ← names_tview, List.map_map]
        conv_lhs => rw [← List.map_id (tview (Tablite.view (t.map (·.2)) u))]
        apply List.map_congr_left
        intro c hc
        simp only [Function.comp, id]
        rw [dGet_of_mem _ hw c hc]
        rfl
      rw [hself]
      apply List.map_congr_left
      intro x hx
      rw [dGet_tview, hview x hx, ← dGet_tview, ht.view, Rel.cols, dGet_map, if_pos (hin x hx)]
      simp only [Option.getD_some, Rel.through, List.map_map, Prod.mk.injEq, true_and]
      apply List.map_congr_left
      intro row _
      exact (get_made names _ _ x hx).symm

end

/-! ## pipelines -/

/-- a pipeline of operations on tables; `table i` is the i-th of the tables at hand -/
inductive Query (ν κ : Type)
  | table (i : Nat)
  | filter (pass all : Bool) (es : List (FExpr ν SVal κ)) (q : Query ν κ)
  | sort (keys : List (ν × Bool)) (q : Query ν κ)
  | slice (s : PySlice) (q : Query ν κ)
  | pick (index : List Int) (q : Query ν κ)
  | unique (q : Query ν κ)
  | replace (mapping : List (SVal × SVal)) (ns : List ν) (q : Query ν κ)
  | select (names : List ν) (q : Query ν κ)
  | times (n : Int) (q : Query ν κ)
  | stack (q p : Query ν κ)
  | plus (q p : Query ν κ)
  | inner (lk rk lc rc : List ν) (q p : Query ν κ)
  | cross (lk rk lc rc : List ν) (q p : Query ν κ)

/-- what the operations depend on besides the tables: comparison operators of filters, collation of strings, iteration order of sets, hashes of rows, names of columns made unique -/
structure Surroundings (ν κ K η : Type) where
  cmp : κ → SVal → SVal → Bool
  key : String → K
  ord : List SVal → List SVal
  jord : List (List SVal) → List (List SVal)
  hash : List SVal → η
  fresh : ν → Nat → ν

section
variable {K : Type} [LinearOrder K] {ν κ η : Type} [DecidableEq ν] [DecidableEq η]

/-- Model: the operations one after the other, each by its model: `tblFilter` (filter.nim), `tblSort` (sortation.py), `tblSlice`, `tblReindex`, `dropDuplicates` (core.py), `tblReplace`, `tGet`,
`tblIMul`, `tblStack`, `tblIAdd` (base.py), `tblJoin` (joins.py) -/
def Query.run (S : Surroundings ν κ K η) (ps : Nat) (db : Nat → Tbl ν SVal) : Query ν κ → Except Err (Tbl ν SVal)
  | .table i => .ok (db i)
  | .filter pass all es q => do
    let t ← q.run S ps db
    let r ← tblFilter .none S.cmp ps all t es
    .ok (if pass then r.1 else r.2)
  | .sort keys q => do tblSort (excelRank S.key S.ord) ps .none (← q.run S ps db) keys
  | .slice s q => do tblSlice ps (← q.run S ps db) s
  | .pick index q => do tblReindex ps .none (← q.run S ps db) index
  | .unique q => do dropDuplicates S.hash ps .none (← q.run S ps db) []
  | .replace mapping ns q => do
    let t ← q.run S ps db
    match (tblReplace mapping (.many ns) t).2 with
    | none => .ok (tblReplace mapping (.many ns) t).1
    | some e => .error e
  | .select names q => do selectCols ps (← q.run S ps db) names
  | .times n q => do tblIMul (← q.run S ps db) n
  | .stack q p => do
    let t ← q.run S ps db
    let u ← p.run S ps db
    .ok (tblStack ps .none t u)
  | .plus q p => do
    let t ← q.run S ps db
    let u ← p.run S ps db
    tblIAdd t u
  | .inner lk rk lc rc q p => do
    let t ← q.run S ps db
    let u ← p.run S ps db
    tblJoin ps S.fresh S.jord .none .inner t u lk rk lc rc
  | .cross lk rk lc rc q p => do
    let t ← q.run S ps db
    let u ← p.run S ps db
    tblJoin ps S.fresh S.jord .none .cross t u lk rk lc rc

/-- Spec: `r` is a result of the pipeline on relations.  Rows of an inner join may come in any order, all else is determined. -/
def Query.Gives (S : Surroundings ν κ K η) (rels : Nat → Rel ν SVal) : Query ν κ → Rel ν SVal → Prop
  | .table i, r => r = rels i
  | .filter pass all es q, r => ∃ a, q.Gives S rels a ∧ r = ⟨a.names, a.rows.filter fun row => a.holds .none S.cmp all es row == pass⟩
  | .sort keys q, r => ∃ a, q.Gives S rels a ∧ a.SortedBy SVal.same (excelLt S.key) .none keys r
  | .slice s q, r => ∃ a, q.Gives S rels a ∧ r = ⟨a.names, pySlice a.rows s⟩
  | .pick index q, r => ∃ a, q.Gives S rels a ∧ r = ⟨a.names, index.map fun i => a.rows.getD i.toNat []⟩
  | .unique q, r => ∃ a, q.Gives S rels a ∧ r = ⟨a.names, firstOccs a.rows⟩
  | .replace mapping ns q, r => ∃ a, q.Gives S rels a ∧ r = ⟨a.names, a.rows.map (a.replaced .none mapping ns)⟩
  | .select names q, r => ∃ a, q.Gives S rels a ∧ r = ⟨names, a.through .none names⟩
  | .times n q, r => ∃ a, q.Gives S rels a ∧ r = ⟨a.names, (List.replicate n.toNat a.rows).flatten⟩
  | .stack q p, r => ∃ a b, q.Gives S rels a ∧ p.Gives S rels b ∧
      r = ⟨a.names ++ b.names.filter (fun x => x ∉ a.names), a.through .none (a.names ++ b.names.filter (fun x => x ∉ a.names)) ++ b.through .none (a.names ++ b.names.filter (fun x => x ∉ a.names))⟩
  | .plus q p, r => ∃ a b, q.Gives S rels a ∧ p.Gives S rels b ∧ r = ⟨a.names, a.rows ++ b.through .none a.names⟩
  | .inner lk rk lc rc q p, r => ∃ a b rows, q.Gives S rels a ∧ p.Gives S rels b ∧ rows.Perm (a.joined .none b lk rk lc rc) ∧ r = ⟨lc ++ rightNames S.fresh lc rc, rows⟩
  | .cross _ _ lc rc q p, r => ∃ a b, q.Gives S rels a ∧ p.Gives S rels b ∧ r = ⟨lc ++ rightNames S.fresh lc rc, a.product .none b lc rc⟩

/-- The operations have a meaning on the relations they get: the columns named exist, row numbers are in range, and so on.  With `strict` also the limits of the code are respected. -/
def Query.Ok (S : Surroundings ν κ K η) (strict : Bool) (rels : Nat → Rel ν SVal) : Query ν κ → Prop
  | .table _ => True
  | .filter _ _ es q => q.Ok S strict rels ∧ ∀ a, q.Gives S rels a →
      (∀ e ∈ es, ∀ x, e.left = .col x ∨ e.right = .col x → x ∈ a.names) ∧ (strict = true → ∃ e ∈ es, ∃ x, e.left = .col x ∨ e.right = .col x)
  | .sort keys q => q.Ok S strict rels ∧ keys ≠ [] ∧ ∀ a, q.Gives S rels a → ∀ k ∈ keys, k.1 ∈ a.names ∧ ∀ p ∈ a.rows, ∀ q ∈ a.rows,
      numClash (a.get .none p k.1) (a.get .none q k.1) = false ∧ ((a.get .none p k.1).pyEq (a.get .none q k.1) = true → xgroup (a.get .none p k.1) = xgroup (a.get .none q k.1))
  | .slice s q => q.Ok S strict rels ∧ s.stepOr1 ≠ 0 ∧ (strict = true → 0 < s.stepOr1 ∨ s.stepOr1 = -1)
  | .pick index q => q.Ok S strict rels ∧ ∀ a, q.Gives S rels a → ∀ i ∈ index, 0 ≤ i ∧ i < a.rows.length
  | .unique q => q.Ok S strict rels ∧ ∀ a, q.Gives S rels a → strict = true → ∀ p ∈ a.rows, ∀ q ∈ a.rows, S.hash p = S.hash q → p = q
  | .replace _ ns q => q.Ok S strict rels ∧ (strict = true → ns.Nodup) ∧ ∀ a, q.Gives S rels a → ∀ x ∈ ns, x ∈ a.names
  | .select names q => q.Ok S strict rels ∧ names.Nodup ∧ names ≠ [] ∧ (strict = true → names.length ≠ 1) ∧ ∀ a, q.Gives S rels a → ∀ x ∈ names, x ∈ a.names
  | .times n q => q.Ok S strict rels ∧ 0 ≤ n ∧ (strict = true → n ≠ 0)
  | .stack q p => q.Ok S strict rels ∧ p.Ok S strict rels
  | .plus q p => q.Ok S strict rels ∧ p.Ok S strict rels ∧ ∀ a b, q.Gives S rels a → p.Gives S rels b → ∀ x, x ∈ a.names ↔ x ∈ b.names
  | .inner lk rk lc rc q p => q.Ok S strict rels ∧ p.Ok S strict rels ∧ ∀ a b, q.Gives S rels a → p.Gives S rels b → Rel.JoinArgs a b lk rk lc rc
  | .cross lk rk lc rc q p => q.Ok S strict rels ∧ p.Ok S strict rels ∧ ∀ a b, q.Gives S rels a → p.Gives S rels b → Rel.JoinArgs a b lk rk lc rc ∧ (strict = true → a.rows ≠ [] ∧ b.rows ≠ [])

/-- **C127** (partial).  A pipeline of filters, sorts, slices, selections of rows and columns, replacements, repetitions, stacks, sums and joins, run on tables of any page sizes and layouts, gives a table with
the rows which the same pipeline gives on lists of rows, provided the limits of the code (`strict`) are respected at each step.  Missing: pipelines beyond those limits (`C127_fails`). -/
theorem C127_partial (S : Surroundings ν κ K η) (hmk : ∀ d a b, S.fresh d a = S.fresh d b → a = b) (hord : ∀ l v, v ∈ S.ord l ↔ v ∈ l) (ps : Nat) (hps : 0 < ps) (db : Nat → Tbl ν SVal) (rels : Nat → Rel ν SVal)
    (hdb : ∀ i, Shows .none (db i) (rels i)) (q : Query ν κ) (hq : q.Ok S true rels) :
    ∃ t r, q.run S ps db = .ok t ∧ q.Gives S rels r ∧ Shows .none t r := by
  induction q with
  | table i => exact ⟨_, _, rfl, rfl, hdb i⟩
  | filter pass all es q ih =>
    obtain ⟨hq, hc⟩ := hq
    obtain ⟨t, a, h1, h2, h3⟩ := ih hq
    obtain ⟨hc1, hc2⟩ := hc a h2
    obtain ⟨p, f, e1, e2, e3⟩ := C29_filter_partial .none S.cmp ps hps all t _ h3.2.2.1 h3.ne es (hc2 rfl) (by rw [h3.2.1]; exact hc1)
    have hp := h3.filter (fun row => a.holds .none S.cmp all es row == true) _ (fun i _ => by rw [h3.holds, beq_true]) e2
    have hf := h3.filter (fun row => a.holds .none S.cmp all es row == false) _ (fun i _ => by rw [h3.holds, beq_false]) e3
    refine ⟨if pass then p else f, _, ?_, ⟨a, h2, rfl⟩, ?_⟩
    · simp only [Query.run, h1, e1, bind, Except.bind]
    · cases pass with
      | true => exact hp
      | false => exact hf
  | sort keys q ih =>
    obtain ⟨hq, hne, hc⟩ := hq
    obtain ⟨t, a, h1, h2, h3⟩ := ih hq
    have hc := hc a h2
    obtain ⟨idx, t', e1, e2, e3, e4⟩ := excelSort_ok S.key S.ord hord ps hps t _ h3.2.2.1 keys hne (by rw [h3.2.1]; exact fun k hk => (hc k hk).1) (by
      intro k hk i hi j hj
      rw [h3.cell, h3.cell]
      exact (hc k hk).2 _ (getD_mem _ _ _ hi) _ (getD_mem _ _ _ hj))
    obtain ⟨s, g1, g2⟩ := h3.sorted e2 e3 e4
    refine ⟨t', s, ?_, ⟨a, h2, g1⟩, g2⟩
    simp only [Query.run, h1, bind, Except.bind]
    exact e1
  | slice s q ih =>
    obtain ⟨hq, -, hc⟩ := hq
    obtain ⟨t, a, h1, h2, h3⟩ := ih hq
    obtain ⟨t', e1, e2⟩ := C16_slice_partial ps hps t s (hc rfl)
    refine ⟨t', _, ?_, ⟨a, h2, rfl⟩, h3.slice s ?_⟩
    · simp only [Query.run, h1, bind, Except.bind]
      exact e1
    · rw [show tview t' = _ from e2]
      unfold tview
      rw [List.map_map]
      rfl
  | pick index q ih =>
    obtain ⟨hq, hc⟩ := hq
    obtain ⟨t, a, h1, h2, h3⟩ := ih hq
    obtain ⟨t', e1, e2⟩ := h3.pick ps hps index (hc a h2)
    refine ⟨t', _, ?_, ⟨a, h2, rfl⟩, e2⟩
    simp only [Query.run, h1, bind, Except.bind]
    exact e1
  | unique q ih =>
    obtain ⟨hq, hc⟩ := hq
    obtain ⟨t, a, h1, h2, h3⟩ := ih hq
    obtain ⟨t', e1, e2⟩ := h3.unique S.hash ps hps (hc a h2 rfl)
    refine ⟨t', _, ?_, ⟨a, h2, rfl⟩, e2⟩
    simp only [Query.run, h1, bind, Except.bind]
    exact e1
  | replace mapping ns q ih =>
    obtain ⟨hq, hn, hc⟩ := hq
    obtain ⟨t, a, h1, h2, h3⟩ := ih hq
    obtain ⟨e1, e2⟩ := h3.replace mapping ns (hn rfl) (hc a h2)
    refine ⟨_, _, ?_, ⟨a, h2, rfl⟩, e2⟩
    simp only [Query.run, h1, bind, Except.bind, e1]
  | select names q ih =>
    obtain ⟨hq, hnd, hne, hl, hc⟩ := hq
    obtain ⟨t, a, h1, h2, h3⟩ := ih hq
    have := List.length_pos_of_ne_nil hne
    have := hl rfl
    obtain ⟨t', e1, e2⟩ := h3.select ps names (by omega) hnd (hc a h2)
    refine ⟨t', _, ?_, ⟨a, h2, rfl⟩, e2⟩
    simp only [Query.run, h1, bind, Except.bind]
    exact e1
  | times n q ih =>
    obtain ⟨hq, h0, hn⟩ := hq
    obtain ⟨t, a, h1, h2, h3⟩ := ih hq
    have := hn rfl
    obtain ⟨t', e1, e2⟩ := h3.times n (by omega)
    refine ⟨t', _, ?_, ⟨a, h2, rfl⟩, e2⟩
    simp only [Query.run, h1, bind, Except.bind]
    exact e1
  | stack q p ihq ihp =>
    obtain ⟨hq, hp⟩ := hq
    obtain ⟨t, a, h1, h2, h3⟩ := ihq hq
    obtain ⟨u, b, g1, g2, g3⟩ := ihp hp
    refine ⟨_, _, ?_, ⟨a, b, h2, g2, rfl⟩, h3.stack g3 ps hps⟩
    simp only [Query.run, h1, g1, bind, Except.bind]
  | plus q p ihq ihp =>
    obtain ⟨hq, hp, hc⟩ := hq
    obtain ⟨t, a, h1, h2, h3⟩ := ihq hq
    obtain ⟨u, b, g1, g2, g3⟩ := ihp hp
    obtain ⟨v, e1, e2⟩ := h3.plus g3 (hc a b h2 g2)
    refine ⟨v, _, ?_, ⟨a, b, h2, g2, rfl⟩, e2⟩
    simp only [Query.run, h1, g1, bind, Except.bind]
    exact e1
  | inner lk rk lc rc q p ihq ihp =>
    obtain ⟨hq, hp, hc⟩ := hq
    obtain ⟨t, a, h1, h2, h3⟩ := ihq hq
    obtain ⟨u, b, g1, g2, g3⟩ := ihp hp
    obtain ⟨v, rows, e1, e2, e3⟩ := h3.inner g3 ps hps S.fresh hmk S.jord lk rk lc rc (hc a b h2 g2)
    refine ⟨v, _, ?_, ⟨a, b, rows, h2, g2, e2, rfl⟩, e3⟩
    simp only [Query.run, h1, g1, bind, Except.bind]
    exact e1
  | cross lk rk lc rc q p ihq ihp =>
    obtain ⟨hq, hp, hc⟩ := hq
    obtain ⟨t, a, h1, h2, h3⟩ := ihq hq
    obtain ⟨u, b, g1, g2, g3⟩ := ihp hp
    obtain ⟨hj, hn⟩ := hc a b h2 g2
    obtain ⟨v, e1, e2⟩ := h3.cross g3 ps hps S.fresh hmk S.jord lk rk lc rc hj (hn rfl).1 (hn rfl).2
    refine ⟨v, _, ?_, ⟨a, b, h2, g2, rfl⟩, e2⟩
    simp only [Query.run, h1, g1, bind, Except.bind]
    exact e1

/-! ### the result does not depend on pages -/

theorem Rel.before_antisymm (key : String → K) (hkey : ∀ a b, key a = key b → a = b) (r : Rel ν SVal) (keys : List (ν × Bool)) (p q : List SVal × Nat)
    (hc : ∀ k ∈ keys, numClash (r.get .none p.1 k.1) (r.get .none q.1 k.1) = false)
    (h1 : r.before SVal.same (excelLt key) .none p q keys) (h2 : r.before SVal.same (excelLt key) .none q p keys) : False := by
  induction keys with
  | nil => exact absurd (lt_trans h1 h2) (lt_irrefl _)
  | cons k ks ih =>
    obtain ⟨a, rev⟩ := k
    unfold Rel.before at h1 h2
    rw [SVal.same_comm (r.get .none q.1 a)] at h2
    split at h1
    · next hs =>
      rw [if_pos hs] at h2
      exact ih (fun k hk => hc k (by simp [hk])) h1 h2
    · next hs =>
      rw [if_neg hs] at h2
      have := excelLt_total key hkey _ _ (hc (a, rev) (by simp)) (by simpa using hs)
      cases rev <;> simp at h1 h2 <;> simp [h1, h2] at this

/-- no inner join -/
def Query.NoJoin : Query ν κ → Prop
  | .table _ => True
  | .filter _ _ _ q => q.NoJoin
  | .sort _ q => q.NoJoin
  | .slice _ q => q.NoJoin
  | .pick _ q => q.NoJoin
  | .unique q => q.NoJoin
  | .replace _ _ q => q.NoJoin
  | .select _ q => q.NoJoin
  | .times _ q => q.NoJoin
  | .stack q p => q.NoJoin ∧ p.NoJoin
  | .plus q p => q.NoJoin ∧ p.NoJoin
  | .inner .. => False
  | .cross _ _ _ _ q p => q.NoJoin ∧ p.NoJoin

/-- the specification leaves no choice but the order of the rows of inner joins -/
theorem gives_unique (S : Surroundings ν κ K η) (hkey : ∀ a b, S.key a = S.key b → a = b) (strict : Bool) (rels : Nat → Rel ν SVal) (q : Query ν κ) (hq : q.Ok S strict rels) (hj : q.NoJoin)
    (r s : Rel ν SVal) (hr : q.Gives S rels r) (hs : q.Gives S rels s) : r = s := by
  induction q generalizing r s with
  | table i => exact hr.trans hs.symm
  | filter pass all es q ih =>
    obtain ⟨a, ha, rfl⟩ := hr
    obtain ⟨b, hb, rfl⟩ := hs
    rw [ih hq.1 hj a b ha hb]
  | sort keys q ih =>
    obtain ⟨a, ha, l, l1, l2, rfl⟩ := hr
    obtain ⟨b, hb, m, m1, m2, rfl⟩ := hs
    have := ih hq.1 hj a b ha hb
    subst this
    have : l = m := by
      refine (l1.trans m1.symm).eq_of_pairwise ?_ l2 m2
      intro p q' hp hq' h1 h2
      have hmem : ∀ x ∈ a.rows.zipIdx, x.1 ∈ a.rows := by
        intro x hx
        have : x.1 ∈ a.rows.zipIdx.map (·.1) := List.mem_map.2 ⟨x, hx, rfl⟩
        rwa [List.zipIdx_map_fst] at this
      exact (Rel.before_antisymm S.key hkey a keys p q' (fun k hk => ((hq.2.2 a ha k hk).2 _ (hmem _ (l1.subset hp)) _ (hmem _ (m1.subset hq'))).1) h1 h2).elim
    rw [this]
  | slice _ q ih =>
    obtain ⟨a, ha, rfl⟩ := hr
    obtain ⟨b, hb, rfl⟩ := hs
    rw [ih hq.1 hj a b ha hb]
  | pick _ q ih =>
    obtain ⟨a, ha, rfl⟩ := hr
    obtain ⟨b, hb, rfl⟩ := hs
    rw [ih hq.1 hj a b ha hb]
  | unique q ih =>
    obtain ⟨a, ha, rfl⟩ := hr
    obtain ⟨b, hb, rfl⟩ := hs
    rw [ih hq.1 hj a b ha hb]
  | replace _ _ q ih =>
    obtain ⟨a, ha, rfl⟩ := hr
    obtain ⟨b, hb, rfl⟩ := hs
    rw [ih hq.1 hj a b ha hb]
  | select _ q ih =>
    obtain ⟨a, ha, rfl⟩ := hr
    obtain ⟨b, hb, rfl⟩ := hs
    rw [ih hq.1 hj a b ha hb]
  | times _ q ih =>
    obtain ⟨a, ha, rfl⟩ := hr
    obtain ⟨b, hb, rfl⟩ := hs
    rw [ih hq.1 hj a b ha hb]
  | stack q p ihq ihp =>
    obtain ⟨a, c, ha, hc, rfl⟩ := hr
    obtain ⟨b, d, hb, hd, rfl⟩ := hs
    rw [ihq hq.1 hj.1 a b ha hb, ihp hq.2 hj.2 c d hc hd]
  | plus q p ihq ihp =>
    obtain ⟨a, c, ha, hc, rfl⟩ := hr
    obtain ⟨b, d, hb, hd, rfl⟩ := hs
    rw [ihq hq.1 hj.1 a b ha hb, ihp hq.2.1 hj.2 c d hc hd]
  | inner => exact hj.elim
  | cross _ _ _ _ q p ihq ihp =>
    obtain ⟨a, c, ha, hc, rfl⟩ := hr
    obtain ⟨b, d, hb, hd, rfl⟩ := hs
    rw [ihq hq.1 hj.1 a b ha hb, ihp hq.2.1 hj.2 c d hc hd]

/-- **C127** (pages).  Two sets of tables with the same rows, cut into pages in any two ways, worked on with any two page sizes: a pipeline without inner joins gives the same rows in the same order. -/
theorem C127_pages (S : Surroundings ν κ K η) (hmk : ∀ d a b, S.fresh d a = S.fresh d b → a = b) (hord : ∀ l v, v ∈ S.ord l ↔ v ∈ l) (hkey : ∀ a b, S.key a = S.key b → a = b) (ps ps' : Nat) (hps : 0 < ps)
    (hps' : 0 < ps') (db db' : Nat → Tbl ν SVal) (rels : Nat → Rel ν SVal) (hdb : ∀ i, Shows .none (db i) (rels i)) (hdb' : ∀ i, Shows .none (db' i) (rels i)) (q : Query ν κ) (hq : q.Ok S true rels) (hj : q.NoJoin) :
    ∃ t t', q.run S ps db = .ok t ∧ q.run S ps' db' = .ok t' ∧ tview t = tview t' := by
  obtain ⟨t, r, h1, h2, h3⟩ := C127_partial S hmk hord ps hps db rels hdb q hq
  obtain ⟨t', r', g1, g2, g3⟩ := C127_partial S hmk hord ps' hps' db' rels hdb' q hq
  have := gives_unique S hkey true rels q hq hj r r' h2 g2
  subst this
  exact ⟨t, t', h1, g1, h3.view.trans g3.view.symm⟩

end

/-! ### the full statement -/

/-- C127, full statement: pipelines on tables give what they give on lists of rows, whenever that makes sense -/
def C127_statement : Prop :=
  ∀ (S : Surroundings String Unit Nat (List SVal)), (∀ d a b, S.fresh d a = S.fresh d b → a = b) → (∀ l v, v ∈ S.ord l ↔ v ∈ l) → ∀ (ps : Nat), 0 < ps → ∀ (db : Nat → Tbl String SVal) (rels : Nat → Rel String SVal),
    (∀ i, Shows .none (db i) (rels i)) → ∀ q : Query String Unit, q.Ok S false rels → ∃ t r, q.run S ps db = .ok t ∧ q.Gives S rels r ∧ Shows .none t r

/-- surroundings of examples: `!=` for filters, strings by length -/
def plainly : Surroundings String Unit Nat (List SVal) := ⟨fun _ a b => decide (a ≠ b), String.length, id, id, id, suffixed⟩

/-- a table of three rows -/
def threeRows : Tbl String SVal := [("a", [[.i 1, .i 2], [.i 3]]), ("b", [[.str "x"], [.str "y", .none]])]

theorem threeRows_shows : Shows .none threeRows ⟨["a", "b"], [[.i 1, .str "x"], [.i 2, .str "y"], [.i 3, .none]]⟩ := by
  refine ⟨⟨by decide, by decide, by decide⟩, rfl, by unfold Rect; decide, by decide +kernel⟩

theorem C127_fails : ¬ C127_statement := by
  intro h
  obtain ⟨t, r, h1, -, -⟩ := h plainly (fun d a b => suffixed_inj d a b) (fun l v => Iff.rfl) 2 (by omega) (fun _ => threeRows) (fun _ => _) (fun _ => threeRows_shows)
    (.times 0 (.table 0)) ⟨trivial, by omega, by simp⟩
  simp only [Query.run, bind, Except.bind] at h1
  rw [(C09_table_repeat threeRows 0).2 (by omega)] at h1
  cases h1

/-- **C127** (slices): a step of -2 gives other rows than the list of rows -/
theorem C127_slice_fails : ((Query.slice { step := some (-2) } (.table 0) : Query String Unit).run plainly 2 fun _ => threeRows).map tview =
      .ok [("a", [.i 3, .i 2, .i 1]), ("b", [.none, .str "y", .str "x"])] ∧
    (pySlice [[SVal.i 1, .str "x"], [.i 2, .str "y"], [.i 3, .none]] { step := some (-2) } = [[.i 3, .none], [.i 1, .str "x"]]) := by decide +kernel

/-- a pipeline: of the table stacked on itself, without the rows where `a` is 2, the first two by descending `a` -/
def onePipeline : Query String Unit :=
  .slice { stop := some 2 } (.sort [("a", true)] (.filter true true [⟨.col "a", (), .val (.i 2)⟩] (.stack (.table 0) (.table 0))))

theorem onePipeline_ok : onePipeline.Ok plainly true fun _ => ⟨["a", "b"], [[.i 1, .str "x"], [.i 2, .str "y"], [.i 3, .none]]⟩ := by
  refine ⟨⟨⟨⟨trivial, trivial⟩, ?_⟩, by decide, ?_⟩, by decide, fun _ => Or.inl (by decide)⟩
  · rintro a ⟨b, c, rfl, rfl, rfl⟩
    exact ⟨by simp, fun _ => ⟨_, List.mem_singleton.2 rfl, "a", Or.inl rfl⟩⟩
  · rintro a ⟨b, ⟨c, d, rfl, rfl, rfl⟩, rfl⟩
    decide +kernel

example : ∃ t r, onePipeline.run plainly 2 (fun _ => threeRows) = .ok t ∧ onePipeline.Gives plainly (fun _ => ⟨["a", "b"], [[.i 1, .str "x"], [.i 2, .str "y"], [.i 3, .none]]⟩) r ∧ Shows .none t r :=
  C127_partial plainly (fun d a b => suffixed_inj d a b) (fun _ _ => Iff.rfl) 2 (by omega) _ _ (fun _ => threeRows_shows) onePipeline onePipeline_ok

example : (onePipeline.run plainly 2 fun _ => threeRows).map tview = .ok [("a", [.i 3, .i 3]), ("b", [.none, .none])] := by decide +kernel

example : onePipeline.NoJoin := ⟨trivial, trivial⟩

/-- a join of the three rows with themselves on `a` -/
def oneJoin : Query String Unit := .unique (.inner ["a"] ["a"] ["a", "b"] ["b"] (.table 0) (.table 0))

theorem oneJoin_ok : oneJoin.Ok plainly true fun _ => ⟨["a", "b"], [[.i 1, .str "x"], [.i 2, .str "y"], [.i 3, .none]]⟩ := by
  refine ⟨⟨trivial, trivial, ?_⟩, fun _ _ _ _ _ _ _ h => h⟩
  rintro a b rfl rfl
  exact ⟨by decide, by decide, by decide, by decide, by decide, by decide, by decide, by decide, by decide⟩

example : (oneJoin.run plainly 2 fun _ => threeRows).map tview = .ok [("a", [.i 1, .i 2, .i 3]), ("b", [.str "x", .str "y", .none]), ("b_1", [.str "x", .str "y", .none])] := by decide +kernel

end Tablite
