import Verif.Props.UnpivotRel
/-!
# Laws of pivot_transpose

The rows of `pivot_transpose` that belong to a column are the kept columns and this column of the table (C144).
-/

namespace Tablite

variable {ν α : Type} [DecidableEq ν] [DecidableEq α]

theorem filter_nodup_eq {β : Type} [DecidableEq β] (l : List β) (hn : l.Nodup) (x : β) (hx : x ∈ l) (q : β → Bool) (hq : ∀ y ∈ l, q y = decide (y = x)) : l.filter q = [x] := by
  induction l with
  | nil => cases hx
  | cons a l ih =>
    rw [List.nodup_cons] at hn
    by_cases e : a = x
    · subst e
      rw [List.filter_cons_of_pos (by rw [hq a (by simp)]; simp), List.cons.injEq]
      refine ⟨rfl, List.filter_eq_nil_iff.2 fun y hy => ?_⟩
      rw [hq y (List.mem_cons_of_mem _ hy)]
      intro e
      exact hn.1 (of_decide_eq_true e ▸ hy)
    · rw [List.filter_cons_of_neg (by rw [hq a (by simp)]; simpa using e)]
      exact ih hn.2 ((List.mem_cons.1 hx).resolve_left (Ne.symm e)) fun y hy => hq y (List.mem_cons_of_mem _ hy)

/-- on lists of rows: the rows whose name is that of a column, and the values in them -/
theorem unpivot_filter {κ : Type} (nul : α) (asVal : ν → α) (columns keep : List ν) (cn vn : ν) (r : Rel ν α) (hnd : columns.Nodup) (hnew : (keep ++ [cn, vn]).Nodup) (x : ν) (hx : x ∈ columns) (cmp : κ → α → α → Bool)
    (eq : κ) (heq : ∀ y ∈ columns, cmp eq (asVal y) (asVal x) = decide (y = x)) :
    (⟨keep ++ [cn, vn], (r.unpivot nul asVal columns keep cn vn).rows.filter fun row => (r.unpivot nul asVal columns keep cn vn).holds nul cmp true [⟨.col cn, eq, .val (asVal x)⟩] row == true⟩ : Rel ν α).through nul (keep ++ [vn]) =
      r.through nul (keep ++ [x]) := by
  have hcv : cn ≠ vn := by
    have := (List.nodup_append.1 hnew).2.1
    simp at this
    exact this
  have hck : cn ∉ keep := fun h => (List.nodup_append.1 hnew).2.2 _ h _ (by simp) rfl
  have hvk : vn ∉ keep := fun h => (List.nodup_append.1 hnew).2.2 _ h _ (by simp) rfl
  have hrow : ∀ (row : List α) (c : ν), keep.map (r.get nul row) ++ [asVal c, r.get nul row c] =
      (keep ++ [cn, vn]).map fun y => if y = cn then asVal c else if y = vn then r.get nul row c else r.get nul row y := by
    intro row c
    rw [List.map_append]
    congr 1
    · apply List.map_congr_left
      intro y hy
      have n1 : y ≠ cn := fun e => hck (e ▸ hy)
      have n2 : y ≠ vn := fun e => hvk (e ▸ hy)
      simp only [n1, n2, if_false]
    · simp [Ne.symm hcv]
  have hget : ∀ (rows : List (List α)) (row : List α) (c y : ν), y ∈ keep ++ [cn, vn] → (⟨keep ++ [cn, vn], rows⟩ : Rel ν α).get nul (keep.map (r.get nul row) ++ [asVal c, r.get nul row c]) y =
      if y = cn then asVal c else if y = vn then r.get nul row c else r.get nul row y := by
    intro rows row c y hy
    rw [hrow, get_made _ _ _ _ hy]
  unfold Rel.through Rel.unpivot
  dsimp only
  rw [List.filter_flatMap, List.map_flatMap]
  refine Eq.trans ?_ (List.map_eq_flatMap (f := fun row => (keep ++ [x]).map fun y => r.get nul row y) (l := r.rows)).symm
  apply List.flatMap_congr
  intro row _
  rw [List.filter_map, filter_nodup_eq columns hnd x hx _ (by
    intro y hy
    rw [← heq y hy]
    simp only [Function.comp, Rel.holds, if_true, List.all_cons, List.all_nil, Bool.and_true, Rel.operand, beq_true]
    rw [hget _ row y cn (by simp), if_pos rfl])]
  simp only [List.map_cons, List.map_nil, List.cons.injEq, and_true]
  rw [List.map_append, List.map_append]
  congr 1
  · apply List.map_congr_left
    intro y hy
    have n1 : y ≠ cn := fun e => hck (e ▸ hy)
    have n2 : y ≠ vn := fun e => hvk (e ▸ hy)
    rw [hget _ row x y (by simp [hy]), if_neg n1, if_neg n2]
  · simp only [List.map_cons, List.map_nil, List.cons.injEq, and_true]
    rw [hget _ row x vn (by simp), if_neg (Ne.symm hcv), if_pos rfl]

/-- **C144** partial: `pivot_transpose`, then the rows with the name of a column `x`, then the kept columns and the values: these are the rows of the kept columns and `x`, in their order, whatever the pages.  Missing:
what `C60_partial` misses, like numbers beside texts (`C144_fails`). -/
theorem C144_partial {κ : Type} {nul : α} {t : Tbl ν α} {r : Rel ν α} (h : Shows nul t r) (ps limit : Nat) (hps : 0 < ps) (mk : ν → Nat → ν) (asVal : ν → α) (npArr : List α → List α) (hlen : ∀ l, (npArr l).length = l.length)
    (columns keep : List ν) (columnName valueName : ν) (cn vn : ν) (hcn : cn = unpivotName mk columns keep columnName) (hvn : vn = unpivotValue mk columns keep columnName valueName)
    (ok : r.UnpivotArgs nul asVal npArr columns keep cn vn) (hk : keep ≠ []) (x : ν) (hx : x ∈ columns) (cmp : κ → α → α → Bool) (eq : κ) (heq : ∀ y ∈ columns, cmp eq (asVal y) (asVal x) = decide (y = x)) :
    ∃ u p f v w R, pivotTranspose ps limit mk asVal npArr nul t columns keep columnName valueName = .ok u ∧ tblFilter nul cmp ps true u [⟨.col cn, eq, .val (asVal x)⟩] = .ok (p, f) ∧
      selectCols ps p (keep ++ [vn]) = .ok v ∧ selectCols ps t (keep ++ [x]) = .ok w ∧ tblRows nul v = .ok R ∧ tblRows nul w = .ok R := by
  obtain ⟨u, h1, h2, -, -⟩ := C60_rows_partial h ps limit hps mk asVal npArr hlen columns keep columnName valueName cn vn hcn hvn ok
  have hun : u.map (·.1) = keep ++ [cn, vn] := h2.2.1
  obtain ⟨p, f, e1, e2, -⟩ := C29_filter_partial nul cmp ps hps true u _ h2.2.2.1 h2.ne [⟨.col cn, eq, .val (asVal x)⟩] ⟨_, List.mem_singleton_self _, cn, .inl rfl⟩ (by
    intro e he y hy
    rw [List.mem_singleton] at he
    subst he
    rcases hy with hy | hy
    · cases hy
      rw [hun]
      simp
    · cases hy)
  have hp := h2.filter (fun row => (r.unpivot nul asVal columns keep cn vn).holds nul cmp true [⟨.col cn, eq, .val (asVal x)⟩] row == true) _ (fun i _ => by rw [h2.holds, beq_true]) e2
  have hl : 0 < keep.length := List.length_pos_of_ne_nil hk
  have hnk := (List.nodup_append.1 ok.fresh)
  have hdk := (List.nodup_append.1 ok.distinct)
  obtain ⟨v, v1, v2⟩ := hp.select ps (keep ++ [vn]) (by simp; omega) (List.nodup_append.2 ⟨hnk.1, by simp, fun a ha b hb => hnk.2.2 a ha b (by rw [List.mem_singleton] at hb; subst hb; simp)⟩) (by
    intro y hy
    show y ∈ keep ++ [cn, vn]
    rcases List.mem_append.1 hy with hy | hy
    · exact List.mem_append_left _ hy
    · rw [List.mem_singleton] at hy
      subst hy
      simp)
  obtain ⟨w, w1, w2⟩ := h.select ps (keep ++ [x]) (by simp; omega) (List.nodup_append.2 ⟨hdk.1, by simp, fun a ha b hb => hdk.2.2 a ha b (by rw [List.mem_singleton] at hb; subst hb; exact hx)⟩) (by
    intro y hy
    rcases List.mem_append.1 hy with hy | hy
    · exact ok.inNames y (List.mem_append_left _ hy)
    · rw [List.mem_singleton] at hy
      subst hy
      exact ok.inNames _ (List.mem_append_right _ hx))
  refine ⟨u, p, f, v, w, _, h1, e1, v1, w1, v2.2.2.2, ?_⟩
  have := unpivot_filter nul asVal columns keep cn vn r hdk.2.1 ok.fresh x hx cmp eq heq
  dsimp only at this ⊢
  rw [w2.2.2.2]
  exact congrArg Except.ok this.symm

/-- a table in two pages meets the conditions -/
example : ∃ u p f v w R, pivotTranspose 2 10 (fun d i => d * 100 + i) (fun x => x) (fun l => l) 0 [(1, [[10], [11]]), (2, [[20, 21]]), (3, [[30, 31]])] [2, 3] [1] 8 9 = .ok u ∧
    tblFilter 0 (fun (_ : Unit) a b => decide (a = b)) 2 true u [⟨.col 8, (), .val 3⟩] = .ok (p, f) ∧ selectCols 2 p [1, 9] = .ok v ∧
    selectCols 2 [(1, [[10], [11]]), (2, [[20, 21]]), (3, [[30, 31]])] [1, 3] = .ok w ∧ tblRows 0 v = .ok R ∧ tblRows 0 w = .ok R :=
  C144_partial (r := ⟨[1, 2, 3], [[10, 20, 30], [11, 21, 31]]⟩) ((shows_iff ..).2 ⟨⟨by decide, by decide, by decide⟩, by decide⟩) 2 10 (by omega) (fun d i => d * 100 + i) (fun x => x) (fun l => l) (fun _ => rfl) [2, 3] [1] 8 9 8 9
    (by decide) (by decide) ⟨by decide, by decide, by decide, by decide, fun _ _ _ _ => rfl⟩ (by decide) 3 (by decide) (fun _ a b => decide (a = b)) () (fun y _ => rfl)

/-- the rows with the name of a column, after `pivot_transpose` with the default names -/
def unpivotedColumn (ps limit : Nat) (t : Tbl String GVal) (columns keep : List String) (x : String) : Except Err (List (List GVal)) := do
  let u ← pivotTranspose ps limit suffixed .str (npArray npText) .none t columns keep "transpose" "value"
  let pf ← tblFilter .none (fun (_ : Unit) a b => decide (a = b)) ps true u [⟨.col "transpose", (), .val (.str x)⟩]
  let v ← selectCols ps pf.1 (keep ++ ["value"])
  tblRows .none v

/-- the full claim: also for values that `np.array` does not keep -/
def C144_statement : Prop :=
  ∀ (ps limit : Nat) (t : Tbl String GVal) (n : Nat) (columns keep : List String) (x : String), 0 < ps → 0 < limit → TblWF t → Rect t n → (∀ y ∈ keep ++ columns, y ∈ t.map (·.1)) → (keep ++ columns).Nodup → keep ≠ [] →
    x ∈ columns → "transpose" ∉ t.map (·.1) → "value" ∉ t.map (·.1) →
    unpivotedColumn ps limit t columns keep x = (selectCols ps t (keep ++ [x])).bind (tblRows .none)

/-- the number beside a text comes back as a text -/
theorem C144_fails : ¬ C144_statement := by
  intro h
  have := h 100 100 ptMixed 1 ["mon", "tue"] ["k"] "mon" (by decide) (by decide) (by unfold TblWF; decide) (by unfold Rect; decide) (by decide) (by decide) (by decide) (by decide) (by decide) (by decide)
  rw [show unpivotedColumn 100 100 ptMixed ["mon", "tue"] ["k"] "mon" = .ok [[.int 1, .str "10"]] by decide +kernel,
    show (selectCols 100 ptMixed (["k"] ++ ["mon"])).bind (tblRows .none) = .ok [[.int 1, .int 10]] by decide +kernel] at this
  revert this
  decide

end Tablite
