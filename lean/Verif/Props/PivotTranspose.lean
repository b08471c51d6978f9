import Verif.Props.Reshape
/-!
# C60 pivot_transpose: one output row for every cell of the listed columns
-/

namespace Tablite
set_option linter.unusedSectionVars false

section
variable {ν α : Type} [DecidableEq ν]

/-- the output: for every row in order and every listed column in order, the kept values of the row, the name of the column and the cell -/
def ptView (nul : α) (asVal : ν → α) (t : Tbl ν α) (n : Nat) (columns keep : List ν) (cn vn : ν) : List (ν × List α) :=
  (keep.map fun k => (k, (List.range n).flatMap fun i => columns.map fun _ => cell nul t k i)) ++
    [(cn, (List.range n).flatMap fun _ => columns.map asVal), (vn, (List.range n).flatMap fun i => columns.map fun c => cell nul t c i)]

/-! ### the work dictionary -/

theorem dUpd_in {β : Type} (init : β) (k : ν) (f : β → β) (ks : List ν) (hn : ks.Nodup) (hk : k ∈ ks) (g : ν → β) :
    dUpd init k f (ks.map fun x => (x, g x)) = ks.map fun x => (x, if x = k then f (g x) else g x) := by
  rw [dUpd_eq init k f ks hn g (fun h => absurd hk h), if_pos hk]

theorem foldl_upd {β γ : Type} (init : β) (F : γ → β → β) (ks : List ν) (hn : ks.Nodup) (l : List (ν × γ)) (hl : (l.map (·.1)).Nodup)
    (hsub : ∀ e ∈ l, e.1 ∈ ks) (q : ν → β) :
    l.foldl (fun d e => dUpd init e.1 (F e.2) d) (ks.map fun x => (x, q x)) =
      ks.map fun x => (x, match dGet x l with | some c => F c (q x) | none => q x) := by
  induction l generalizing q with
  | nil => simp [dGet]
  | cons e rest ih =>
    obtain ⟨k, c⟩ := e
    rw [List.map_cons, List.nodup_cons] at hl
    rw [List.foldl_cons, dUpd_in init k (F c) ks hn (hsub (k, c) (by simp)), ih hl.2 (fun e he => hsub e (by simp [he]))]
    apply List.map_congr_left
    intro x _
    congr 1
    simp only [dGet]
    by_cases h : k = x
    · subst h
      have : dGet k rest = none := (dGet_none k rest).2 hl.1
      simp [this]
    · rw [if_neg h, if_neg (fun e => h e.symm)]

/-- what one row adds to the column `x` of the output -/
def ptContrib (asVal : ν → α) (columns : List ν) (cn vn : ν) (val : ν → α) (x : ν) : List α :=
  if x = cn then columns.map asVal else if x = vn then columns.map val else columns.map fun _ => val x

theorem pairs_fold (asVal : ν → α) (cn vn : ν) (hcv : cn ≠ vn) (ks : List ν) (hn : ks.Nodup) (hc : cn ∈ ks) (hv : vn ∈ ks) (l : List (ν × α)) (q : ν → List α) :
    l.foldl (fun d p => newsExtend vn [p.2] (newsExtend cn [asVal p.1] d)) (ks.map fun x => (x, q x)) =
      ks.map fun x => (x, if x = cn then q x ++ l.map (fun p => asVal p.1) else if x = vn then q x ++ l.map (·.2) else q x) := by
  induction l generalizing q with
  | nil => simp
  | cons p rest ih =>
    rw [List.foldl_cons]
    unfold newsExtend at ih ⊢
    rw [dUpd_in _ _ _ ks hn hc, dUpd_in _ _ _ ks hn hv, ih]
    apply List.map_congr_left
    intro x _
    congr 1
    by_cases h1 : x = cn
    · subst h1; simp [hcv]
    · by_cases h2 : x = vn
      · subst h2; simp [h1]
      · simp [h1, h2]

theorem ptRow_ok (asVal : ν → α) (keep columns : List ν) (cn vn : ν) (hks : (keep ++ [cn, vn]).Nodup) (val : ν → α) (q : ν → List α) :
    ptRow asVal keep columns cn vn ((keep ++ [cn, vn]).map fun x => (x, q x)) ((keep ++ columns).map val) =
      (keep ++ [cn, vn]).map fun x => (x, q x ++ ptContrib asVal columns cn vn val x) := by
  have hcv : cn ≠ vn := by
    have := (List.nodup_append.1 hks).2.1
    simp at this
    exact this
  have hkeep : keep.Nodup := (List.nodup_append.1 hks).1
  have hck : cn ∉ keep := fun h => (List.nodup_append.1 hks).2.2 _ h _ (by simp) rfl
  have hvk : vn ∉ keep := fun h => (List.nodup_append.1 hks).2.2 _ h _ (by simp) rfl
  unfold ptRow
  have e1 : ((keep ++ columns).map val).take keep.length = keep.map val := by
    rw [List.map_append, List.take_left' (by simp)]
  have e2 : ((keep ++ columns).map val).drop keep.length = columns.map val := by
    rw [List.map_append, List.drop_left' (by simp)]
  have hz : ∀ l : List ν, l.zip (l.map val) = l.map fun x => (x, val x) := by
    intro l
    induction l with
    | nil => rfl
    | cons a u ih => simp [ih]
  dsimp only
  rw [e1, e2, hz, hz]
  have h1 := foldl_upd ([] : List α) (fun (v : α) (b : List α) => b ++ List.replicate (columns.map val).length v) (keep ++ [cn, vn]) hks
    (keep.map fun x => (x, val x)) (by simpa [Function.comp_def] using hkeep) (by
      intro e he
      rw [List.mem_map] at he
      obtain ⟨x, hx, rfl⟩ := he
      simp [hx]) q
  unfold newsExtend at *
  rw [h1]
  have h2 := pairs_fold asVal cn vn hcv (keep ++ [cn, vn]) hks (by simp) (by simp) (columns.map fun x => (x, val x))
    (fun x => match dGet x (keep.map fun x => (x, val x)) with | some c => q x ++ List.replicate (columns.map val).length c | none => q x)
  unfold newsExtend at h2
  rw [h2]
  apply List.map_congr_left
  intro x hx
  congr 1
  simp only [dGet_map, List.map_map, Function.comp_def, ptContrib]
  by_cases h3 : x = cn
  · subst h3
    simp [hck]
  · by_cases h4 : x = vn
    · subst h4
      simp [hvk, h3]
    · have : x ∈ keep := by simpa [h3, h4] using hx
      simp only [h3, h4, if_false, this, if_true]
      congr 1
      simp

/-- a flush moves the work lists to the columns -/
theorem flush_ok (ps : Nat) (hps : 0 < ps) (arr : List α → List α) (ks : List ν) (hn : ks.Nodup) (p : ν → Pages α) (q : ν → List α)
    (harr : ∀ x ∈ ks, arr (q x) = q x) :
    ∃ p' : ν → Pages α, flush ps arr (ks.map fun x => (x, p x), ks.map fun x => (x, q x)) = (ks.map fun x => (x, p' x), ks.map fun x => (x, [])) ∧
      ∀ x ∈ ks, colIter (p' x) = colIter (p x) ++ q x := by
  refine ⟨fun x => extend ps (p x) (arr (q x)), ?_, ?_⟩
  · unfold flush
    dsimp only
    rw [foldl_upd ([] : Pages α) (fun (v : List α) (b : Pages α) => extend ps b (arr v)) ks hn (ks.map fun x => (x, q x)) (by simpa [Function.comp_def] using hn)
      (by
        intro e he
        rw [List.mem_map] at he
        obtain ⟨x, hx, rfl⟩ := he
        exact hx)]
    congr 1
    · apply List.map_congr_left
      intro x hx
      simp only [dGet_map, if_pos hx]
    · rw [List.map_map]
      rfl
  · intro x hx
    show colIter (extend ps (p x) (arr (q x))) = _
    rw [harr x hx]
    exact colIter_extend ps hps _ _

theorem ptLoop_ok (ps limit : Nat) (hps : 0 < ps) (asVal : ν → α) (keep columns : List ν) (cn vn : ν) (hks : (keep ++ [cn, vn]).Nodup)
    (vals : List (ν → α)) (ix : Nat) (p : ν → Pages α) (q : ν → List α) :
    ∃ (p' : ν → Pages α) (q' : ν → List α),
      ptLoop ps limit asVal keep columns cn vn ix (vals.map fun val => (keep ++ columns).map val)
        ((keep ++ [cn, vn]).map fun x => (x, p x), (keep ++ [cn, vn]).map fun x => (x, q x)) =
        ((keep ++ [cn, vn]).map fun x => (x, p' x), (keep ++ [cn, vn]).map fun x => (x, q' x)) ∧
      ∀ x ∈ keep ++ [cn, vn], colIter (p' x) ++ q' x = colIter (p x) ++ q x ++ vals.flatMap fun val => ptContrib asVal columns cn vn val x := by
  induction vals generalizing ix p q with
  | nil => exact ⟨p, q, rfl, by simp⟩
  | cons val rest ih =>
    rw [List.map_cons, ptLoop]
    rw [ptRow_ok asVal keep columns cn vn hks]
    by_cases hf : ix % limit = 0
    · rw [if_pos hf]
      obtain ⟨p1, h1, h2⟩ := flush_ok ps hps id (keep ++ [cn, vn]) hks p (fun x => q x ++ ptContrib asVal columns cn vn val x) (fun _ _ => rfl)
      rw [h1]
      obtain ⟨p', q', h3, h4⟩ := ih (ix + 1) p1 (fun _ => [])
      refine ⟨p', q', h3, ?_⟩
      intro x hx
      rw [h4 x hx, h2 x hx]
      simp
    · rw [if_neg hf]
      obtain ⟨p', q', h3, h4⟩ := ih (ix + 1) p (fun x => q x ++ ptContrib asVal columns cn vn val x)
      refine ⟨p', q', h3, ?_⟩
      intro x hx
      rw [h4 x hx]
      simp

/-! ### the rows read -/

theorem pySetIns_nodup (l : List ν) (h : l.Nodup) : selectRows.pySetIns l = l := by
  have H : ∀ (l pre : List ν), (pre ++ l).Nodup → l.foldl (fun s x => if x ∈ s then s else s ++ [x]) pre = pre ++ l := by
    intro l
    induction l with
    | nil => simp
    | cons a u ih =>
      intro pre hp
      have ha : a ∉ pre := fun h => (List.nodup_append.1 hp).2.2 _ h _ (by simp) rfl
      rw [List.foldl_cons, if_neg ha, ih _ (by simpa using hp)]
      simp
  exact H l [] (by simpa using h)

theorem selectRows_ok (nul : α) (t : Tbl ν α) (n : Nat) (names : List ν) (hne : names ≠ []) (hnd : names.Nodup)
    (hn : ∀ x ∈ names, ∃ p, dGet x t = some p ∧ colLen p = n) :
    selectRows nul t names = .ok ((List.range n).map fun i => names.map fun x => cell nul t x i) := by
  have hfm : (names.filterMap fun x => (dGet x t).map fun p => (x, p)) = names.map fun x => (x, (dGet x t).getD []) := by
    clear hne hnd
    induction names with
    | nil => rfl
    | cons a u ih =>
      obtain ⟨p, hp, _⟩ := hn a (by simp)
      rw [List.filterMap_cons, hp]
      simp only [Option.map_some, List.map_cons, hp, Option.getD_some]
      rw [ih (fun x hx => hn x (by simp [hx]))]
  match names, hne, hnd, hn, hfm with
  | [x], _, _, hn, _ =>
    obtain ⟨p, hp, hl⟩ := hn x (by simp)
    unfold selectRows
    simp only [hp]
    congr 1
    have hlen : (colIter p).length = n := by rw [← hl, colLen_eq, colIter_eq]
    apply List.ext_getElem
    · simp [hlen]
    · intro i h1 h2
      simp only [List.length_map] at h1
      simp [cell, hp, List.getD_eq_getElem?_getD, List.getElem?_eq_getElem h1]
  | x :: y :: u, _, hnd, hn, hfm =>
    unfold selectRows
    dsimp only
    rw [pySetIns_nodup _ hnd, hfm, C15_rows, tblLen_rect _ n ?_ (by simp)]
    · congr 1
      apply List.map_congr_left
      intro i _
      rw [List.map_map]
      apply List.map_congr_left
      intro z hz
      obtain ⟨p, hp, _⟩ := hn z hz
      simp [Function.comp, cell, hp]
    · intro c hc
      rw [List.mem_map] at hc
      obtain ⟨z, hz, rfl⟩ := hc
      obtain ⟨p, hp, hl⟩ := hn z hz
      simpa [hp] using hl

theorem addNames (ks : List ν) (hn : ks.Nodup) : ks.foldl (fun (t : Tbl ν α) x => tblSet t x []) [] = ks.map fun x => (x, ([] : Pages α)) := by
  have H : ∀ (l pre : List ν), (pre ++ l).Nodup →
      l.foldl (fun (t : Tbl ν α) x => tblSet t x []) (pre.map fun x => (x, ([] : Pages α))) = (pre ++ l).map fun x => (x, []) := by
    intro l
    induction l with
    | nil => simp
    | cons a u ih =>
      intro pre hp
      have ha : a ∉ pre := fun h => (List.nodup_append.1 hp).2.2 _ h _ (by simp) rfl
      rw [List.foldl_cons]
      have : tblSet (pre.map fun x => (x, ([] : Pages α))) a [] = (pre ++ [a]).map fun x => (x, []) := by
        unfold tblSet
        rw [dUpd_new _ _ _ _ (by simpa [Function.comp_def] using ha)]
        simp
      rw [this, ih _ (by simpa using hp)]
      simp
  simpa using H ks [] (by simpa using hn)

/-- C60 (partial): every cell of the listed columns, None or not, gives one output row with the kept values of its row, the name of its column and
the value, row after row; for distinct names and values that `np.array` keeps as they are.  Missing: None cells are not left out (`C60_none_fails`),
a kept column that is also listed (`C60_overlap_fails`), values of mixed types (`C60_mixed_fails`), colliding new names (`C60_names_fails`). -/
theorem C60_partial (ps limit : Nat) (hps : 0 < ps) (mk : ν → Nat → ν) (asVal : ν → α) (npArr : List α → List α) (nul : α) (t : Tbl ν α) (n : Nat)
    (columns keep : List ν) (columnName valueName : ν)
    (hnames : ∀ x ∈ keep ++ columns, ∃ p, dGet x t = some p ∧ colLen p = n) (hne : keep ++ columns ≠ []) (hnd : (keep ++ columns).Nodup)
    (cn vn : ν) (hcn : cn = if columnName ∈ keep ++ columns then uniqueName mk columnName (keep ++ columns) else columnName)
    (hvn : vn = if valueName ∈ keep ++ columns ++ [cn] then uniqueName mk valueName (keep ++ columns) else valueName)
    (hnew : (keep ++ [cn, vn]).Nodup)
    (hnp : ∀ c ∈ ptView nul asVal t n columns keep cn vn, ∀ l : List α, (∀ v ∈ l, v ∈ c.2) → npArr l = l) :
    ∃ t', pivotTranspose ps limit mk asVal npArr nul t columns keep columnName valueName = .ok t' ∧
      tview t' = ptView nul asVal t n columns keep cn vn := by
  have hin : ∀ x ∈ keep ++ columns, x ∈ t.map (·.1) := by
    intro x hx
    obtain ⟨p, hp, _⟩ := hnames x hx
    exact (dGet_isSome x t).1 (by rw [hp]; rfl)
  unfold pivotTranspose
  rw [if_neg (not_not.2 (by
    rw [List.all_eq_true]
    intro x hx
    exact decide_eq_true (hin x (by simp [hx])))), if_neg (not_not.2 (List.nodup_append.1 hnd).2.1), if_neg (not_not.2 (by
    rw [List.all_eq_true]
    intro x hx
    exact decide_eq_true (hin x (by simp [hx]))))]
  dsimp only
  rw [← hcn, ← hvn, addNames _ hnew, selectRows_ok nul t n _ hne hnd hnames]
  simp only [bind, Except.bind, List.map_map]
  have hloop := ptLoop_ok ps limit hps asVal keep columns cn vn hnew ((List.range n).map fun i x => cell nul t x i) 1 (fun _ => []) (fun _ => [])
  rw [List.map_map] at hloop
  obtain ⟨p', q', h1, h2⟩ := hloop
  have hview : ptView nul asVal t n columns keep cn vn = (keep ++ [cn, vn]).map fun x =>
      (x, ((List.range n).map fun i x => cell nul t x i).flatMap fun val => ptContrib asVal columns cn vn val x) := by
    have hcv : cn ≠ vn := by
      have := (List.nodup_append.1 hnew).2.1
      simp at this
      exact this
    have hck : cn ∉ keep := fun h => (List.nodup_append.1 hnew).2.2 _ h _ (by simp) rfl
    have hvk : vn ∉ keep := fun h => (List.nodup_append.1 hnew).2.2 _ h _ (by simp) rfl
    unfold ptView
    rw [List.map_append]
    congr 1
    · apply List.map_congr_left
      intro x hx
      have h1 : x ≠ cn := fun e => hck (e ▸ hx)
      have h2 : x ≠ vn := fun e => hvk (e ▸ hx)
      simp [ptContrib, h1, h2, List.flatMap_map]
    · simp [ptContrib, Ne.symm hcv, List.flatMap_map]
  have harr : ∀ x ∈ keep ++ [cn, vn], npArr (q' x) = q' x := by
    intro x hx
    apply hnp (x, ((List.range n).map fun i x => cell nul t x i).flatMap fun val => ptContrib asVal columns cn vn val x)
    · rw [hview]
      exact List.mem_map.2 ⟨x, hx, rfl⟩
    · intro v hv
      have := h2 x hx
      simp only [colIter, List.flatMap_nil, List.append_nil, List.nil_append] at this
      dsimp only
      rw [← this]
      exact List.mem_append_right _ hv
  obtain ⟨p'', h3, h4⟩ := flush_ok ps hps npArr (keep ++ [cn, vn]) hnew p' q' harr
  have e : ((fun val => (keep ++ columns).map val) ∘ fun (i : Nat) (x : ν) => cell nul t x i) = fun i => (keep ++ columns).map fun x => cell nul t x i := rfl
  rw [e] at h1
  have e2 : ((fun c : ν × Pages α => (c.1, ([] : List α))) ∘ fun x => (x, ([] : Pages α))) = fun x => (x, []) := rfl
  rw [e2, h1, h3]
  refine ⟨_, rfl, ?_⟩
  rw [hview]
  unfold tview
  rw [List.map_map]
  apply List.map_congr_left
  intro x hx
  simp only [Function.comp]
  rw [h4 x hx, h2 x hx]
  simp [colIter]

end

/-! ### where the code departs from the claim -/

/-- the text numpy gives booleans and integers; other values do not occur below -/
def npText : GVal → String
  | .bool b => if b then "True" else "False"
  | .int n => toString n
  | _ => ""

/-- the rows a user expects: one for each cell that is not None -/
def ptExpected (nul : GVal) (asVal : String → GVal) (t : Tbl String GVal) (n : Nat) (columns keep : List String) : List (List GVal) :=
  (List.range n).flatMap fun i => (columns.filter fun c => cell nul t c i ≠ nul).map fun c => (keep.map fun k => cell nul t k i) ++ [asVal c, cell nul t c i]

/-- the full claim: the rows of the output are those of the non-None cells -/
def C60_statement : Prop :=
  ∀ (ps limit : Nat) (t : Tbl String GVal) (n : Nat) (columns keep : List String) (columnName valueName : String), 0 < ps → 0 < limit → TblWF t → Rect t n →
    (∀ x ∈ keep ++ columns, x ∈ t.map (·.1)) → columns ≠ [] → columns.Nodup → keep.Nodup →
    ∃ t', pivotTranspose ps limit suffixed .str (npArray npText) .none t columns keep columnName valueName = .ok t' ∧
      tblRows .none t' = .ok (ptExpected .none .str t n columns keep)

/-- the rows of the output of the code -/
def ptRows (t : Tbl String GVal) (columns keep : List String) (columnName valueName : String) : Except Err (List (List GVal)) :=
  (pivotTranspose 100 100 suffixed .str (npArray npText) .none t columns keep columnName valueName).bind (tblRows .none)

theorem C60_refute (t : Tbl String GVal) (n : Nat) (columns keep : List String) (columnName valueName : String) (ht : TblWF t) (hr : Rect t n)
    (hin : ∀ x ∈ keep ++ columns, x ∈ t.map (·.1)) (hne : columns ≠ []) (hnd : columns.Nodup) (hk : keep.Nodup)
    (hbad : ptRows t columns keep columnName valueName ≠ .ok (ptExpected .none .str t n columns keep)) : ¬ C60_statement := by
  intro h
  obtain ⟨t', h1, h2⟩ := h 100 100 t n columns keep columnName valueName (by decide) (by decide) ht hr hin hne hnd hk
  apply hbad
  unfold ptRows
  rw [h1]
  exact h2

/-- a table with an empty cell -/
def ptNone : Tbl String GVal := [("k", [[.int 1, .int 2]]), ("mon", [[.int 10, .none]])]

/-- a None cell gives an output row -/
theorem C60_none_fails : ptRows ptNone ["mon"] ["k"] "transpose" "value" =
    .ok [[.int 1, .str "mon", .int 10], [.int 2, .str "mon", .none]] := by
  decide +kernel

/-- a number and a text in the listed columns: the number becomes text -/
def ptMixed : Tbl String GVal := [("k", [[.int 1]]), ("mon", [[.int 10]]), ("tue", [[.str "x"]])]

theorem C60_mixed_fails : ptRows ptMixed ["mon", "tue"] ["k"] "transpose" "value" =
    .ok [[.int 1, .str "mon", .str "10"], [.int 1, .str "tue", .str "x"]] := by
  decide +kernel

/-- a kept column that is also listed: the value of `mon` appears under the name `k`, and the cell of `k` not at all -/
theorem C60_overlap_fails : ptRows [("k", [[.int 1]]), ("mon", [[.int 10]])] ["k", "mon"] ["k"] "transpose" "value" =
    .ok [[.int 1, .str "k", .int 10]] := by
  decide +kernel

/-- new names that collide after one of them was made unique: names and values end up in one column -/
theorem C60_names_fails : ptRows [("value", [[.str "1"]]), ("mon", [[.str "10"]])] ["mon"] ["value"] "value_1" "value" =
    .ok [[.str "1", .str "mon"], [.none, .str "10"]] := by
  decide +kernel

theorem C60_fails : ¬ C60_statement := by
  apply C60_refute ptNone 2 ["mon"] ["k"] "transpose" "value" (by unfold TblWF; decide) (by unfold Rect; decide) (by decide) (by decide) (by decide) (by decide)
  rw [C60_none_fails]
  decide +kernel

/-- the values of one column of the output are numbers: `np.array` keeps them -/
example : ∃ t', pivotTranspose 2 1 suffixed (fun _ => (0 : Nat)) id 9 [("k", [[1], [2]]), ("a", [[5, 6]]), ("b", [[7], [8]])] ["b", "a"] ["k"] "t" "v" = .ok t' ∧
    tview t' = [("k", [1, 1, 2, 2]), ("t", [0, 0, 0, 0]), ("v", [7, 5, 8, 6])] :=
  C60_partial 2 1 (by decide) suffixed (fun _ => 0) id 9 _ 2 ["b", "a"] ["k"] "t" "v" (by decide) (by decide) (by decide) "t" "v" (by decide) (by decide) (by decide)
    (fun _ _ _ _ => rfl)

end Tablite
