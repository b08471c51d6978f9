import Verif.Props.GroupBy
import Verif.Props.SaveLoad
import Verif.Model.Reshape
/-!
# C56 carry forward, C58 transposing twice, C60 pivot_transpose
-/

namespace Tablite
set_option linter.unusedSectionVars false

section
variable {ν α : Type} [DecidableEq ν]

/-! ## helpers -/

theorem colIter_paginate (ps : Nat) (hps : 0 < ps) (l : List α) : colIter (paginate ps l) = l := by
  rw [colIter_eq, paginate_flatten hps]

/-- storing columns under new names -/
theorem setCols_view (ps : Nat) (hps : 0 < ps) (cols : List (ν × List α)) (t : Tbl ν α) (hnd : (t.map (·.1) ++ cols.map (·.1)).Nodup) :
    tview (cols.foldl (fun t c => tblSet t c.1 (paginate ps c.2)) t) = tview t ++ cols := by
  induction cols generalizing t with
  | nil => simp
  | cons c rest ih =>
    rw [List.foldl_cons]
    have hc : c.1 ∉ t.map (·.1) := by
      intro h
      exact (List.nodup_append.1 hnd).2.2 _ h _ (by simp) rfl
    have e : tblSet t c.1 (paginate ps c.2) = t ++ [(c.1, paginate ps c.2)] := by
      unfold tblSet
      exact dUpd_new [] c.1 _ t hc
    rw [e, ih _ (by simpa using hnd)]
    simp [tview, colIter_paginate ps hps]

theorem dUpd_mid {β : Type} (init : β) (k : ν) (f : β → β) (pre : List (ν × β)) (b : β) (post : List (ν × β)) (h : k ∉ pre.map (·.1)) :
    dUpd init k f (pre ++ (k, b) :: post) = pre ++ (k, f b) :: post := by
  induction pre with
  | nil => simp [dUpd]
  | cons c u ih =>
    obtain ⟨k', b'⟩ := c
    simp only [List.map_cons, List.mem_cons, not_or] at h
    simp only [List.cons_append, dUpd, if_neg (fun e : k' = k => h.1 e.symm), ih h.2]

/-- assigning every column of a table in turn -/
theorem setAll (q : ν × Pages α → Except Err (Pages α)) (pre post : Tbl ν α) (hnd : (pre.map (·.1) ++ post.map (·.1)).Nodup) :
    post.foldlM (fun new c => do .ok (tblSet new c.1 (← q c))) (pre ++ post) = (post.mapM fun c => do .ok (c.1, ← q c)).map (pre ++ ·) := by
  induction post generalizing pre with
  | nil => rfl
  | cons c rest ih =>
    rw [List.foldlM_cons, List.mapM_cons]
    cases hq : q c with
    | error e => rfl
    | ok p =>
      have hc : c.1 ∉ pre.map (·.1) := by
        intro h
        exact (List.nodup_append.1 hnd).2.2 _ h _ (by simp) rfl
      have e : tblSet (pre ++ c :: rest) c.1 p = (pre ++ [(c.1, p)]) ++ rest := by
        unfold tblSet
        rw [show (c :: rest) = (c.1, c.2) :: rest from rfl, dUpd_mid [] c.1 _ pre c.2 rest hc]
        simp
      simp only [bind, Except.bind]
      rw [e]
      have := ih (pre ++ [(c.1, p)]) (by simpa using hnd)
      simp only [bind, Except.bind] at this
      rw [this]
      generalize (List.mapM _ rest : Except Err (List (ν × Pages α))) = R
      cases R with
      | error e => rfl
      | ok r => simp [pure, Except.pure, Except.map]

/-! ## C56 -/

/-- the closest earlier value that is not missing -/
def lastPresent (missing : α → Bool) (l : List α) (i : Nat) : Option α := (l.take i).reverse.find? fun x => !missing x

/-- what has to be in place `i` of the imputed column -/
def carried (missing : α → Bool) (l : List α) (i : Nat) (v : α) : α := if missing v then (lastPresent missing l i).getD v else v

/-- the table a user expects -/
def carriedView (missing : α → Bool) (targets : List ν) (t : Tbl ν α) : List (ν × List α) :=
  (tview t).map fun c => (c.1, if c.1 ∈ targets then c.2.zipIdx.map fun p => carried missing c.2 p.2 p.1 else c.2)

/-- the values a run of the loop leaves, given the value `w` stored for leading missing values -/
theorem carryLoop_ok (missing : α → Bool) (store : Except Err α) (w : α) (pre l : List α)
    (h : pre.find? (fun x => !missing x) = none → ∀ v, l.head? = some v → missing v = true → store = .ok w) :
    carryLoop missing store (pre.reverse.find? fun x => !missing x) l =
      .ok ((l.zipIdx pre.length).map fun p => if missing p.1 then (lastPresent missing (pre ++ l) p.2).getD w else p.1) := by
  induction l generalizing pre with
  | nil => rfl
  | cons v rest ih =>
    have hlp : lastPresent missing (pre ++ v :: rest) pre.length = pre.reverse.find? fun x => !missing x := by
      unfold lastPresent
      rw [List.take_left]
    have hfr : (pre.reverse.find? fun x => !missing x) = none ↔ pre.find? (fun x => !missing x) = none := by
      simp
    have hstep := ih (pre ++ [v]) (by
      intro h1 u hu hm
      have h2 : pre.find? (fun x => !missing x) = none := by
        rw [List.find?_append] at h1
        cases hp : pre.find? (fun x => !missing x) with
        | none => rfl
        | some x => rw [hp] at h1; simp at h1
      have hv : missing v = true := by
        rw [List.find?_append, h2] at h1
        simpa using h1
      exact h h2 v rfl hv)
    rw [List.append_assoc, List.length_append] at hstep
    simp only [List.singleton_append, List.length_singleton, List.reverse_append, List.reverse_singleton, List.find?_cons] at hstep
    simp only [carryLoop, List.zipIdx_cons, List.map_cons, hlp]
    by_cases hm : missing v = true
    · simp only [hm, Bool.not_true] at hstep
      simp only [hm, if_true]
      cases hl : pre.reverse.find? (fun x => !missing x) with
      | none =>
        rw [hl] at hstep
        have hs := h (hfr.1 hl) v rfl hm
        rw [hs] at hstep
        rw [hs]
        simp only [bind, Except.bind, hstep, Option.getD_none]
      | some u =>
        rw [hl] at hstep
        simp only [bind, Except.bind, hstep, Option.getD_some]
    · simp only [hm, Bool.not_false] at hstep
      simp only [hm, Bool.false_eq_true, if_false]
      simp only [bind, Except.bind, hstep]

theorem getSlice_all (pages : Pages α) : getSlice pages {} = .ok (colIter pages) := by
  rw [C02_slice_read_partial pages {} (Or.inl (by decide)), pySlice_full]

theorem carryForward_eq (ps : Nat) (missing : α → Bool) (store : List α → Except Err α) (t : Tbl ν α) (targets : List ν) (ht : TblWF t) :
    carryForward ps missing store t targets =
      t.mapM fun c => (if c.1 ∈ targets then carryCol ps missing store c.2 else .ok c.2).bind fun p => .ok (c.1, p) := by
  have h := setAll (fun c => if c.1 ∈ targets then carryCol ps missing store c.2 else .ok c.2) [] t (by simpa [TblWF] using ht)
  have e1 : (fun x : Tbl ν α => [] ++ x) = id := by funext x; rfl
  rw [List.nil_append, e1, Except.map_id] at h
  rw [id] at h
  refine Eq.trans ?_ h
  unfold carryForward
  congr 1
  funext new c
  split <;> rfl

/-- C56, exactly: a missing value becomes the closest earlier value that is not missing; the leading missing values of a target become what its array
makes of None. -/
theorem C56_exact (ps : Nat) (hps : 0 < ps) (missing : α → Bool) (store : List α → Except Err α) (t : Tbl ν α) (targets : List ν) (ht : TblWF t)
    (htg : ∀ x ∈ targets, x ∈ t.map (·.1)) (w : List α → α)
    (hst : ∀ c ∈ tview t, c.1 ∈ targets → ∀ v, c.2.head? = some v → missing v = true → store c.2 = .ok (w c.2)) :
    ∃ t', imputeCarry ps missing store t (.inr targets) = .ok t' ∧
      tview t' = (tview t).map fun c => (c.1, if c.1 ∈ targets then
        c.2.zipIdx.map fun p => if missing p.1 then (lastPresent missing c.2 p.2).getD (w c.2) else p.1 else c.2) := by
  unfold imputeCarry
  dsimp only
  rw [if_pos (by simpa using htg), carryForward_eq ps missing store t targets ht]
  refine ⟨_, mapM_ok _ _ (fun c => (c.1, if c.1 ∈ targets then paginate ps ((colIter c.2).zipIdx.map fun p =>
    if missing p.1 then (lastPresent missing (colIter c.2) p.2).getD (w (colIter c.2)) else p.1) else c.2)) ?_, ?_⟩
  · intro c hc
    by_cases h : c.1 ∈ targets
    · simp only [if_pos h]
      have hl := carryLoop_ok missing (store (colIter c.2)) (w (colIter c.2)) [] (colIter c.2) (fun _ v hv hm =>
        hst (c.1, colIter c.2) (List.mem_map.2 ⟨c, hc, rfl⟩) h v hv hm)
      simp only [List.reverse_nil, List.find?_nil, List.nil_append, List.length_nil] at hl
      unfold carryCol
      rw [getSlice_all]
      simp only [bind, Except.bind, hl]
    · simp only [if_neg h]
      rfl
  · simp only [tview, List.map_map]
    apply List.map_congr_left
    intro c hc
    simp only [Function.comp]
    congr 1
    split
    · rw [colIter_paginate ps hps]
    · rfl

/-- C56 (partial): carry forward does what is claimed if no target begins with a missing value, or if None is the only missing value (the default)
and the arrays of the targets are object arrays.  Missing: leading missing values other than None (`C56_fails`, `C56_raises`). -/
theorem C56_partial (ps : Nat) (hps : 0 < ps) (missing : α → Bool) (store : List α → Except Err α) (nul : α) (t : Tbl ν α) (targets : List ν) (ht : TblWF t)
    (htg : ∀ x ∈ targets, x ∈ t.map (·.1))
    (hlead : (∀ c ∈ tview t, c.1 ∈ targets → ∀ v, c.2.head? = some v → missing v = false) ∨
      ((∀ v, missing v = true → v = nul) ∧ ∀ c ∈ tview t, nul ∈ c.2 → store c.2 = .ok nul)) :
    ∃ t', imputeCarry ps missing store t (.inr targets) = .ok t' ∧ tview t' = carriedView missing targets t := by
  obtain ⟨t', h1, h2⟩ := C56_exact ps hps missing store t targets ht htg (fun _ => nul) (by
    intro c hc hx v hv hm
    rcases hlead with h | ⟨h, h'⟩
    · rw [h c hc hx v hv] at hm; cases hm
    · have := h v hm
      subst this
      exact h' c hc (List.mem_of_mem_head? hv))
  refine ⟨t', h1, ?_⟩
  rw [h2]
  unfold carriedView
  apply List.map_congr_left
  intro c hc
  congr 1
  by_cases hx : c.1 ∈ targets
  swap
  · rw [if_neg hx, if_neg hx]
  rw [if_pos hx, if_pos hx]
  apply List.map_congr_left
  intro p hp
  unfold carried
  split
  · rename_i hm
    rcases hlead with h | ⟨h, h'⟩
    · have hp' := List.mem_zipIdx hp
      cases hc2 : c.2 with
      | nil => rw [hc2] at hp; simp at hp
      | cons u l =>
        have hu := h c hc hx u (by rw [hc2]; rfl)
        obtain ⟨_, h3, h4⟩ := hp'
        have hpos : p.2 ≠ 0 := by
          intro e
          have h5 : p.1 = u := by
            rw [h4]; simp [hc2, e]
          rw [h5, hu] at hm; cases hm
        have : lastPresent missing (u :: l) p.2 ≠ none := by
          unfold lastPresent
          obtain ⟨k, hk⟩ := Nat.exists_eq_succ_of_ne_zero hpos
          rw [hk, List.take_succ_cons]
          intro hn
          rw [List.find?_eq_none] at hn
          have := hn u (by simp)
          rw [hu] at this
          simp at this
        cases hlp : lastPresent missing (u :: l) p.2 with
        | none => exact absurd hlp this
        | some x => rfl
    · rw [h p.1 hm]
  · rfl

/-- a leading missing value in an array that refuses None (a column of integers) makes the imputation raise -/
theorem C56_raises (ps : Nat) (missing : α → Bool) (store : List α → Except Err α) (t : Tbl ν α) (targets : List ν) (ht : TblWF t)
    (c : ν × Pages α) (hc : c ∈ t) (hx : c.1 ∈ targets) (v : α) (hv : (colIter c.2).head? = some v) (hm : missing v = true)
    (e : Err) (he : store (colIter c.2) = .error e) : ∃ e, imputeCarry ps missing store t (.inr targets) = .error e := by
  unfold imputeCarry
  dsimp only
  split
  · rw [carryForward_eq ps missing store t targets ht]
    apply mapM_raises _ t c hc
    rw [if_pos hx]
    unfold carryCol
    rw [getSlice_all]
    simp only [bind, Except.bind]
    cases hl : colIter c.2 with
    | nil => rw [hl] at hv; cases hv
    | cons u l =>
      rw [hl] at hv he
      cases hv
      refine ⟨e, ?_⟩
      rw [carryLoop, if_pos hm, he]
      rfl
  · exact ⟨_, rfl⟩

/-- a single column name is never accepted as target, although the documentation allows it -/
theorem C56_string_target (ps : Nat) (missing : α → Bool) (store : List α → Except Err α) (t : Tbl ν α) (x : ν) :
    ∃ e, imputeCarry ps missing store t (.inl x) = .error e := by
  unfold imputeCarry
  dsimp only
  split
  · exact ⟨_, rfl⟩
  · exact ⟨_, rfl⟩

end

/-- the full claim; arrays that can hold None -/
def C56_statement : Prop :=
  ∀ (ps : Nat) (missing : Option Int → Bool) (t : Tbl String (Option Int)) (targets : List String), 0 < ps → TblWF t → (∀ x ∈ targets, x ∈ t.map (·.1)) →
    ∃ t', imputeCarry ps missing (fun _ => .ok none) t (.inr targets) = .ok t' ∧ tview t' = carriedView missing targets t

/-- a column that begins with a 0 -/
def leadingZero : Tbl String (Option Int) := [("a", [[some 0, none, some 5], [some 0]])]

/-- a leading 0 that counts as missing becomes None -/
theorem C56_fails : ¬ C56_statement := by
  intro h
  obtain ⟨t', h1, h2⟩ := h 10 (fun v => v == some 0) leadingZero ["a"] (by decide) (by unfold TblWF; decide) (by decide)
  have h3 : (imputeCarry 10 (fun v => v == some 0) (fun _ => .ok none) leadingZero (.inr ["a"])).map tview =
      .ok (carriedView (fun v => v == some 0) ["a"] leadingZero) := by
    rw [h1]; exact congrArg _ h2
  revert h3
  decide +kernel

example : carriedView (fun v => v == none) ["a"] [("a", [[none, some 1], [none, some 2, none]]), ("b", [[none, some 7], [none, none, none]])] =
    [("a", [none, some 1, some 1, some 2, some 2]), ("b", [none, some (7 : Int), none, none, none])] := by decide +kernel

/-! ## C58 -/

section
variable {V : Type} [DecidableEq V]

/-- the transposed table: the first header with the other headers, then every row under its first value -/
def transposedView (nul : V) (n : Nat) : List (V × List V) → List (V × List V)
  | [] => []
  | c0 :: rest => (c0.1, rest.map (·.1)) :: (List.range n).map fun i => (c0.2.getD i nul, rest.map fun c => c.2.getD i nul)

theorem transpose_fold (ps : Nat) (rows : List (V × List V)) (t : Tbl V V) :
    (rows.map fun r => r.1 :: r.2).foldlM (transposeRow ps) t = .ok (rows.foldl (fun t c => tblSet t c.1 (paginate ps c.2)) t) := by
  induction rows generalizing t with
  | nil => rfl
  | cons r rest ih =>
    rw [List.map_cons, List.foldlM_cons, List.foldl_cons]
    exact ih _

theorem getD_range (nul : V) (l : List V) : (List.range l.length).map (fun i => l.getD i nul) = l := by
  apply List.ext_getElem
  · simp
  · intro i h1 h2
    simp only [List.getElem_map, List.getElem_range]
    rw [List.getD, List.getElem?_eq_getElem h2, Option.getD_some]

/-- C58: the columns of a transposed table, for a first column of distinct values none of which is its own header -/
theorem C58_transpose (ps : Nat) (hps : 0 < ps) (nul : V) (t : Tbl V V) (n : Nat) (hr : Rect t n)
    (hfirst : ∀ c ∈ t.head?, (c.1 :: colIter c.2).Nodup) :
    ∃ t', transpose ps nul t = .ok t' ∧ tview t' = transposedView nul n (tview t) := by
  cases t with
  | nil => exact ⟨[], rfl, rfl⟩
  | cons c0 rest =>
    unfold transpose
    dsimp only
    rw [C15_rows, tblLen_rect _ n hr (by simp)]
    have hl0 : (colIter c0.2).length = n := by
      have := hr c0 (by simp)
      rw [colLen_eq] at this
      rw [colIter_eq]
      exact this
    have e : ((List.range n).map fun i => (c0 :: rest).map fun c => (colIter c.2).getD i nul) =
        ((List.range n).map fun i => ((colIter c0.2).getD i nul, rest.map fun c => (colIter c.2).getD i nul)).map fun r => r.1 :: r.2 := by
      rw [List.map_map]
      rfl
    simp only [bind, Except.bind]
    rw [e, transpose_fold]
    refine ⟨_, rfl, ?_⟩
    have hn : (((List.range n).map fun i => ((colIter c0.2).getD i nul, rest.map fun c => (colIter c.2).getD i nul)).map (·.1)) = colIter c0.2 := by
      rw [List.map_map]
      have := getD_range nul (colIter c0.2)
      rw [hl0] at this
      exact this
    rw [setCols_view ps hps _ _ (by
      rw [hn]
      exact hfirst c0 (by simp))]
    simp only [tblSet, dUpd, tview, transposedView, List.map_cons, List.map_nil, colIter_paginate ps hps, List.map_map, List.cons_append, List.nil_append]
    rfl

theorem tview_rect (t : Tbl V V) (n : Nat) : Rect t n ↔ ∀ c ∈ tview t, c.2.length = n := by
  unfold Rect tview
  simp only [List.forall_mem_map]
  constructor
  · intro h c hc
    have := h c hc
    rw [colLen_eq] at this
    rw [colIter_eq]
    exact this
  · intro h c hc
    have := h c hc
    rw [colIter_eq] at this
    rw [colLen_eq]
    exact this

/-- C58 (partial): transposing twice gives the table back if the values of the first column are distinct, the headers are distinct and no value of
the first column is its own header.  Missing: a first column that contains its own header (`C58_fails`). -/
theorem C58_partial (ps : Nat) (hps : 0 < ps) (nul : V) (t : Tbl V V) (n : Nat) (ht : TblWF t) (hr : Rect t n)
    (hfirst : ∀ c ∈ t.head?, (c.1 :: colIter c.2).Nodup) :
    ∃ t' t'', transpose ps nul t = .ok t' ∧ transpose ps nul t' = .ok t'' ∧ tview t'' = tview t := by
  obtain ⟨t', h1, h2⟩ := C58_transpose ps hps nul t n hr hfirst
  cases ht0 : t with
  | nil =>
    subst ht0
    cases h1
    exact ⟨[], [], rfl, rfl, rfl⟩
  | cons c0 rest =>
    subst ht0
    have hl0 : (colIter c0.2).length = n := (tview_rect _ n).1 hr (c0.1, colIter c0.2) (by simp [tview])
    have hv : tview t' = (c0.1, rest.map (·.1)) :: (List.range n).map fun i => ((colIter c0.2).getD i nul, rest.map fun c => (colIter c.2).getD i nul) := by
      rw [h2]
      simp [tview, transposedView, Function.comp_def]
    have hr' : Rect t' rest.length := by
      rw [tview_rect, hv]
      intro c hc
      rw [List.mem_cons, List.mem_map] at hc
      rcases hc with rfl | ⟨i, _, rfl⟩ <;> simp
    obtain ⟨t'', h3, h4⟩ := C58_transpose ps hps nul t' rest.length hr' (by
      intro c hc
      cases ht1 : t' with
      | nil => rw [ht1] at hc; simp at hc
      | cons d u =>
        rw [ht1] at hc hv
        simp only [List.head?_cons, Option.mem_def, Option.some.injEq] at hc
        subst hc
        simp only [tview, List.map_cons, List.cons.injEq, Prod.mk.injEq] at hv
        rw [hv.1.1, hv.1.2]
        exact ht)
    refine ⟨t', t'', h1, h3, ?_⟩
    rw [h4, hv]
    simp only [transposedView, tview, List.map_cons, List.map_map]
    congr 1
    · congr 1
      have := getD_range nul (colIter c0.2)
      rw [hl0] at this
      exact this
    · apply List.ext_getElem
      · simp
      · intro i h5 h6
        simp only [List.length_map] at h6
        simp only [List.getElem_map, List.getElem_range, Function.comp]
        have hlen : (colIter (rest[i]).2).length = n := (tview_rect _ n).1 hr ((rest[i]).1, colIter (rest[i]).2)
          (List.mem_map.2 ⟨rest[i], by simp, rfl⟩)
        congr 1
        · rw [List.getD, List.getElem?_eq_getElem (by simpa using h6)]
          simp
        · have := getD_range nul (colIter (rest[i]).2)
          rw [hlen] at this
          refine Eq.trans ?_ this
          apply List.map_congr_left
          intro k _
          simp [List.getD_eq_getElem?_getD, h6]

end

/-- the full claim -/
def C58_statement : Prop :=
  ∀ (ps : Nat) (t : Tbl String String) (n : Nat), 0 < ps → TblWF t → Rect t n → (∀ c ∈ t.head?, (colIter c.2).Nodup) →
    ∃ t' t'', transpose ps "None" t = .ok t' ∧ transpose ps "None" t' = .ok t'' ∧ tview t'' = tview t

/-- a first column that contains its own header -/
def ownHeader : Tbl String String := [("a", [["x", "a"]]), ("b", [["1", "2"]])]

theorem C58_fails : ¬ C58_statement := by
  intro h
  obtain ⟨t', t'', h1, h2, h3⟩ := h 10 ownHeader 2 (by decide) (by unfold TblWF; decide) (by unfold Rect; decide) (by decide)
  have h4 : ((transpose 10 "None" ownHeader).bind fun t' => (transpose 10 "None" t').map tview) = .ok (tview ownHeader) := by
    rw [h1]
    show (transpose 10 "None" t').map tview = _
    rw [h2, ← h3]
    rfl
  revert h4
  decide +kernel

example : ∃ t', transpose 2 "None" [("k", [["x", "y"], ["z"]]), ("a", [["1", "2", "3"]]), ("b", [["4"], ["5", "6"]])] = .ok t' ∧
    tview t' = [("k", ["a", "b"]), ("x", ["1", "4"]), ("y", ["2", "5"]), ("z", ["3", "6"])] :=
  C58_transpose 2 (by decide) "None" _ 3 (by unfold Rect; decide) (by decide)

end Tablite
