import Verif.Props.SheetWrite
import Verif.Props.Hdf5
import Verif.Props.JsonTable
/-!
# Exact conditions for spreadsheets (C107), HDF5 (C103) and JSON (C76)
-/

namespace Tablite

variable {O : Type}

/-! ## C107 -/

theorem mapM_eq_ok {β γ : Type} (f : β → Except Err γ) : ∀ (l : List β) (r : List γ), l.mapM f = .ok r → List.Forall₂ (fun x y => f x = .ok y) l r
  | [], r, h => by cases h; exact .nil
  | x :: l, r, h => by
    rw [List.mapM_cons] at h
    cases hx : f x with
    | error e => rw [hx] at h; cases h
    | ok y =>
      rw [hx] at h
      cases hl : l.mapM f with
      | error e => rw [hl] at h; cases h
      | ok ys =>
        rw [hl] at h
        cases h
        exact .cons hx (mapM_eq_ok f l ys hl)

theorem bookCell_kept (R : Runtime O) (v : PV O) (j : JV) (h : bookCell R v = .ok j) (hv : jsonValue j = v) : SmallCell v := by
  cases v with
  | none => trivial
  | str s => trivial
  | int z =>
    change (if z < -4294967295 ∨ 4294967295 < z then Except.ok (JV.str (intText z)) else toJson R (.int z)) = .ok j at h
    split at h
    · cases h; cases hv
    · rename_i hz
      constructor <;> omega
  | float x =>
    change (if dblBig x = true then Except.ok (JV.str (R.text x)) else toJson R (.float x)) = .ok j at h
    split at h
    · cases h; cases hv
    · rename_i hz
      cases x with
      | fin q =>
        simp only [dblBig, Bool.or_eq_true, decide_eq_true_eq, not_or, not_lt] at hz
        exact hz
      | nan => trivial
      | posInf => exact absurd rfl hz
      | negInf => exact absurd rfl hz
  | bytes b => cases h
  | other o => cases h
  | bool b => cases h; cases hv
  | date d => cases h; cases hv
  | time d => cases h; cases hv
  | datetime d t => cases h; cases hv
  | timedelta d s u => cases h; cases hv

/-- **C107, exactly**: an .xls or .ods file shows the names and values of a table if and only if every one of them is None, a text, NaN, or a number up to 2^32 - 1 in size -/
theorem C107_exact [DecidableEq O] (R : Runtime O) (t : Tbl (PV O) (PV O)) :
    (bookRows R t).map bookSeen = .ok (sheetOf t) ↔ ∀ r ∈ sheetOf t, ∀ v ∈ r, SmallCell v := by
  constructor
  · intro h
    unfold bookRows at h
    rw [C15_rows] at h
    change Except.map _ (List.mapM _ (sheetOf t)) = _ at h
    cases hm : (sheetOf t).mapM (fun r => r.mapM (bookCell R)) with
    | error e => rw [hm] at h; cases h
    | ok rows =>
      rw [hm] at h
      have hseen : bookSeen rows = sheetOf t := Except.ok.inj h
      have h2 := mapM_eq_ok _ _ _ hm
      generalize sheetOf t = s at *
      clear hm h
      induction h2 with
      | nil => simp
      | @cons r j s rows hr _ ih =>
        simp only [bookSeen, List.map_cons, List.cons.injEq] at hseen
        have h3 := mapM_eq_ok _ _ _ hr
        have hrow : ∀ v ∈ r, SmallCell v := by
          have he := hseen.1
          clear ih hr hseen
          induction h3 with
          | nil => simp
          | @cons v w r j hv _ ih =>
            simp only [List.map_cons, List.cons.injEq] at he
            intro x hx
            rcases List.mem_cons.1 hx with rfl | hx
            · exact bookCell_kept R x w hv he.1
            · exact ih he.2 x hx
        intro x hx
        rcases List.mem_cons.1 hx with rfl | hx
        · exact hrow
        · exact ih hseen.2 x hx
  · intro h
    have hval : ∀ v : PV O, SmallCell v → bookCell R v = .ok (cellValue R v) ∧ jsonValue (cellValue R v) = v := by
      intro v h
      obtain ⟨j, h1, h2⟩ := bookCell_small R v h
      simp only [cellValue, h1]
      exact ⟨trivial, h2⟩
    unfold bookRows
    rw [C15_rows]
    change Except.map _ (List.mapM _ (sheetOf t)) = _
    rw [mapM_ok (sheetOf t) _ (fun r => r.map (cellValue R)) (fun r hr => mapM_ok r _ _ fun v hv => (hval v (h r hr v hv)).1)]
    simp only [Except.map, bookSeen, List.map_map]
    congr 1
    conv_rhs => rw [← List.map_id (sheetOf t)]
    refine List.map_congr_left fun r hr => ?_
    simp only [Function.comp, List.map_map, id]
    conv_rhs => rw [← List.map_id r]
    exact List.map_congr_left fun v hv => (hval v (h r hr v hv)).2

/-! ## C103 -/

theorem nameLe_antisymm (a b : PyText) (h1 : nameLe a b = true) (h2 : nameLe b a = true) : a = b := by
  induction a generalizing b with
  | nil => cases b with
    | nil => rfl
    | cons y b => exact absurd h2 (by simp [nameLe])
  | cons x a ih =>
    cases b with
    | nil => exact absurd h1 (by simp [nameLe])
    | cons y b =>
      simp only [nameLe, Bool.or_eq_true, Bool.and_eq_true, decide_eq_true_eq] at h1 h2
      have : x = y := by omega
      subst this
      rw [ih b (h1.resolve_left (by omega)).2 (h2.resolve_left (by omega)).2]

/-- **C103, exactly**, for tables whose columns an HDF5 file can hold: the columns come back in their order if and only if their names are in alphabetical order -/
theorem C103_exact (R : GuessRt O) (str numText : PV O → PyText) (hstr : StrOk str) (toFloat : Int → Dbl) (ps : Nat) (hps : 0 < ps) (t : Tbl PyText (PV O))
    (hd : (t.map (·.1)).Nodup) (hn : ∀ c ∈ t, 47 ∉ c.1) (h : ∀ c ∈ t, H5Kept R (colIter c.2)) :
    ∃ t', h5Round R str numText toFloat ps t = .ok t' ∧ (tview t' = tview t ↔ (t.map (·.1)).Pairwise fun a b => nameLe a b = true) := by
  obtain ⟨t', h1, h2, h3⟩ := C103_partial R str numText hstr toFloat ps hps t hn h
  refine ⟨t', h1, ?_, ?_⟩
  · intro e
    rw [e] at h3
    have : t.map (·.1) = (tview t).map (·.1) := by unfold tview; rw [List.map_map]; rfl
    rw [this, List.pairwise_map]
    exact h3
  · intro hs
    have hs' : (tview t).Pairwise fun x y => nameLe x.1 y.1 = true := by
      unfold tview
      rw [List.pairwise_map]
      rw [List.pairwise_map] at hs
      exact hs
    refine h2.eq_of_pairwise ?_ h3 hs'
    intro a b ha hb hab hba
    have hkey := nameLe_antisymm _ _ hab hba
    have ha' := h2.subset ha
    have hd' : ((tview t).map (·.1)).Nodup := by
      have : t.map (·.1) = (tview t).map (·.1) := by unfold tview; rw [List.map_map]; rfl
      rw [← this]; exact hd
    exact List.inj_on_of_nodup_map hd' ha' hb hkey

/-- two columns in alphabetical order, and the same columns in the other order -/
example : ((["a", "b"].map txt).Pairwise fun a b => nameLe a b = true) ∧ ¬ (["b", "a"].map txt).Pairwise fun a b => nameLe a b = true := by decide

/-! ## C76 -/

section
variable {ν : Type} [DecidableEq ν]

/-- values that JSON or a text can stand for -/
def HasJson : PV O → Prop
  | .bytes _ | .other _ => False
  | _ => True

/-- **C76, exactly**: a table without a column "row id", of values with a form in JSON, comes back through JSON behind the new column "row id" if and only if
every value is None, an integer, a float or a text -/
theorem C76_exact (R : Runtime O) (ps : Nat) (hps : 0 < ps) (mk : ν → Nat → ν) (hinj : ∀ d a b, mk d a = mk d b → a = b) (rowId : ν)
    (t : Tbl ν (PV O)) (hn : (rowId :: t.map (·.1)).Nodup) (hv : ∀ c ∈ t, ∀ v ∈ colIter c.2, HasJson v) :
    ∃ r, jsonRoundtrip R ps mk rowId t = .ok r ∧
      (lists r.1 r.2 = (rowId, (List.range (tblLen t)).map fun i : Nat => .int ((i : Int) + 1)) :: t.map (fun c => (c.1, colIter c.2)) ↔
        ∀ c ∈ t, ∀ v ∈ colIter c.2, JsonVal v) := by
  let toJ : PV O → JV := fun v => ((toJson R v).toOption).getD .null
  have hconv : ∀ c ∈ t, ∀ v ∈ colIter c.2, toJson R v = .ok (toJ v) := by
    intro c hc v hvm
    have := hv c hc v hvm
    cases v <;> first | rfl | exact this.elim
  have hfix : ∀ v : PV O, HasJson v → (jsonValue (O := O) (toJ v) = v ↔ JsonVal v) := by
    intro v hv
    constructor
    · intro e
      cases v <;> first | trivial | exact hv.elim | cases e
    · intro e
      cases v <;> first | rfl | exact e.elim
  obtain ⟨names, h1, -, -, h4⟩ := C76_serializable mk hinj (toJson R) toJ .int rowId t (List.nodup_cons.1 hn).2 hconv
  have h5 := h4 (List.nodup_cons.1 hn).1
  subst h5
  rw [jsonRoundtrip, h1]
  dsimp only [Except.bind]
  have he : ((t.map (·.1)).zip (t.map fun c => (colIter c.2).map toJ)) = t.map fun c => (c.1, (colIter c.2).map toJ) := by
    rw [List.zip_map']
  rw [he]
  obtain ⟨r, hr1, hr2⟩ := C73_columns ps hps ([] : Heap (PV O))
    ((rowId, (List.range (tblLen t)).map fun i : Nat => PV.int ((i : Int) + 1)) :: t.map fun c => (c.1, (colIter c.2).map fun v => jsonValue (toJ v)))
    (by simpa [Function.comp_def] using hn)
  refine ⟨r, ?_, ?_⟩
  · rw [← hr1]
    congr 1
    simp only [List.map_cons, List.map_map, Function.comp_def, jsonValue]
  · rw [hr2, List.cons.injEq]
    constructor
    · rintro ⟨_, e⟩ c hc v hvm
      have hc' := List.map_inj_left.1 e c hc
      simp only [Prod.mk.injEq, true_and] at hc'
      rw [← List.map_id (colIter c.2)] at hc'
      rw [List.map_map] at hc'
      have := List.map_inj_left.1 hc' v hvm
      exact (hfix v (hv c hc v hvm)).1 this
    · intro h
      refine ⟨rfl, List.map_congr_left fun c hc => ?_⟩
      congr 1
      refine (List.map_congr_left (g := id) ?_).trans (List.map_id _)
      intro v hvm
      exact (hfix v (hv c hc v hvm)).2 (h c hc v hvm)

/-- C76: a table with a value that has no form in JSON raises TypeError -/
theorem C76_raises (R : Runtime O) (v : PV O) : toJson R v = .error .type ↔ ¬ HasJson v := by
  cases v <;> simp [toJson, HasJson]

/-- a table that comes back and one that does not -/
example : ∃ r, jsonRoundtrip exactRuntime 2 suffixed "row id" ([("a", [[.int 1], [.none]])] : Tbl String (PV Unit)) = .ok r ∧
    lists r.1 r.2 = [("row id", [.int 1, .int 2]), ("a", [.int 1, .none])] := by
  obtain ⟨r, h1, h2⟩ := C76_exact exactRuntime 2 (by decide) suffixed (fun d a b h => suffixed_inj d a b h) "row id" ([("a", [[.int 1], [.none]])] : Tbl String (PV Unit))
    (by decide) (by intro c hc v hv; simp only [List.mem_singleton] at hc; subst hc; rw [colIter_eq] at hv; simp at hv; rcases hv with rfl | rfl <;> trivial)
  exact ⟨r, h1, h2.2 (by intro c hc v hv; simp only [List.mem_singleton] at hc; subst hc; rw [colIter_eq] at hv; simp at hv; rcases hv with rfl | rfl <;> trivial)⟩

end

end Tablite
