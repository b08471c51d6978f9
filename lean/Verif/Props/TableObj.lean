import Verif.Model.TableObj
import Verif.Lemmas.Table
import Verif.Props.Refcount
import Verif.Props.SaveLoad

/-! Properties of tables as objects: C71 (`add_rows`), C72 (independence), C73 (construction), C74 (selection). -/
namespace Tablite

set_option linter.unusedSectionVars false

section
variable {ν α : Type} [DecidableEq ν]

/-- the objects of a table -/
def objs (t : OTbl ν) : List Nat := t.map (·.2)

/-- a table whose columns are different objects of the heap -/
def OWF (h : Heap α) (t : OTbl ν) : Prop := (t.map (·.1)).Nodup ∧ (objs t).Nodup ∧ ∀ i ∈ objs t, i < h.length

/-- the values of a column, by name -/
def valsAt (h : Heap α) (t : OTbl ν) (x : ν) : List α := (dGet x t).elim [] fun c => colIter (colAt h c)

/-! ## C71 -/

theorem rowPuts_ok (ks : List ν) (hks : ks.Nodup) (pairs : List (ν × α)) (hn : (pairs.map (·.1)).Nodup) (hs : ∀ x ∈ pairs, x.1 ∈ ks)
    (g : ν → List α) :
    rowPuts (ks.map fun x => (x, g x)) pairs = .ok (ks.map fun x => (x, g x ++ (dGet x pairs).toList)) := by
  induction pairs generalizing g with
  | nil => simp [rowPuts, dGet]
  | cons p l ih =>
    obtain ⟨k, v⟩ := p
    simp only [List.map_cons, List.nodup_cons] at hn
    have hk : k ∈ ks := hs (k, v) (by simp)
    rw [rowPuts, rowPut]
    dsimp only
    rw [dGet_map, if_pos hk]
    dsimp only [Except.bind]
    rw [dUpd_eq _ _ _ ks hks g (fun h => absurd hk h), if_pos hk, ih hn.2 (fun x hx => hs x (by simp [hx]))]
    congr 1
    apply List.map_congr_left
    intro x _
    congr 1
    rw [dGet]
    by_cases hx : x = k
    · subst hx
      have : dGet x l = none := (dGet_none x l).2 hn.1
      simp [this]
    · have : ¬ k = x := fun e => hx e.symm
      simp [hx, this]

theorem rowPuts_error (ks : List ν) (hks : ks.Nodup) (pairs : List (ν × α)) (hs : ∃ x ∈ pairs, x.1 ∉ ks) (g : ν → List α) :
    rowPuts (ks.map fun x => (x, g x)) pairs = .error .key := by
  induction pairs generalizing g with
  | nil => simp at hs
  | cons p l ih =>
    obtain ⟨k, v⟩ := p
    rw [rowPuts, rowPut]
    dsimp only
    rw [dGet_map]
    by_cases hk : k ∈ ks
    · rw [if_pos hk]
      dsimp only [Except.bind]
      rw [dUpd_eq _ _ _ ks hks g (fun h => absurd hk h), if_pos hk]
      apply ih
      obtain ⟨x, hx, hxn⟩ := hs
      rcases List.mem_cons.1 hx with rfl | hx
      · exact absurd hk hxn
      · exact ⟨x, hx, hxn⟩
    · rw [if_neg hk]
      rfl

/-- Python dictionaries have different keys -/
def RowArg.WF : RowArg ν α → Prop
  | .seq _ => True
  | .dict d => (d.map (·.1)).Nodup

/-- a row fits: as many values as columns, and a dictionary has the names of columns only -/
def RowArg.FitsIn (names : List ν) : RowArg ν α → Prop
  | .seq l => l.length = names.length
  | .dict d => d.length = names.length ∧ ∀ x ∈ d, x.1 ∈ names

/-- the value of a row in a column: by position in a list, by name in a dictionary -/
def RowArg.valueAt (names : List ν) : RowArg ν α → ν → Option α
  | .seq l, x => l[names.idxOf x]?
  | .dict d, x => dGet x d

theorem dGet_zip (names : List ν) (l : List α) (x : ν) (hx : x ∈ names) : dGet x (names.zip l) = l[names.idxOf x]? := by
  induction names generalizing l with
  | nil => simp at hx
  | cons n t ih =>
    cases l with
    | nil => simp [dGet]
    | cons v r =>
      rw [List.zip_cons_cons, dGet]
      by_cases h : n = x
      · subst h; simp
      · have hx' : x ∈ t := by
          rcases List.mem_cons.1 hx with rfl | hx
          · exact absurd rfl h
          · exact hx
        rw [if_neg h, ih r hx', List.idxOf_cons_ne _ h]
        simp

theorem pairs_keys (names : List ν) (hn : names.Nodup) (a : RowArg ν α) (hw : a.WF) (hf : a.FitsIn names) :
    ((a.pairs names).map (·.1)).Nodup ∧ (∀ x ∈ a.pairs names, x.1 ∈ names) ∧ (∀ x ∈ names, dGet x (a.pairs names) = a.valueAt names x ∧
      (a.valueAt names x).isSome) := by
  cases a with
  | seq l =>
    have e : (names.zip l).map (·.1) = names := by rw [List.map_fst_zip]; exact Nat.le_of_eq hf.symm
    refine ⟨by rw [RowArg.pairs, e]; exact hn, ?_, ?_⟩
    · intro x hx
      exact (List.of_mem_zip hx).1
    · intro x hx
      refine ⟨dGet_zip names l x hx, ?_⟩
      have : names.idxOf x < names.length := List.idxOf_lt_length_iff.2 hx
      have hf : l.length = names.length := hf
      rw [RowArg.valueAt, List.getElem?_eq_getElem (by omega)]
      rfl
  | dict d =>
    refine ⟨hw, hf.2, ?_⟩
    intro x hx
    refine ⟨rfl, ?_⟩
    rw [RowArg.valueAt, dGet_isSome]
    have hsub : (d.map (·.1)) ⊆ names := by
      intro y hy
      obtain ⟨c, hc, rfl⟩ := List.mem_map.1 hy
      exact hf.2 c hc
    have hp : (d.map (·.1)).Perm names := (List.subperm_of_subset hw hsub).perm_of_length_le (by simp [hf.1])
    exact hp.mem_iff.2 hx

theorem rowArgs_ok (names : List ν) (hn : names.Nodup) (args : List (RowArg ν α)) (hw : ∀ a ∈ args, a.WF) (hf : ∀ a ∈ args, a.FitsIn names)
    (g : ν → List α) : rowArgs names (names.map fun x => (x, g x)) args =
      .ok (names.map fun x => (x, g x ++ args.flatMap fun a => (dGet x (a.pairs names)).toList)) := by
  induction args generalizing g with
  | nil => simp [rowArgs]
  | cons a l ih =>
    have hfa := hf a (by simp)
    obtain ⟨h1, h2, -⟩ := pairs_keys names hn a (hw a (by simp)) hfa
    have hlen : a.len = names.length := by
      cases a with
      | seq l => exact hfa
      | dict d => exact hfa.1
    rw [rowArgs, if_neg (by simp [hlen]), rowPuts_ok names hn _ h1 h2]
    dsimp only [Except.bind]
    rw [ih (fun a ha => hw a (by simp [ha])) (fun a ha => hf a (by simp [ha]))]
    simp

theorem rowArgs_error (names : List ν) (hn : names.Nodup) (args : List (RowArg ν α)) (hw : ∀ a ∈ args, a.WF) (hf : ¬ ∀ a ∈ args, a.FitsIn names)
    (g : ν → List α) : ∃ e, rowArgs names (names.map fun x => (x, g x)) args = .error e := by
  induction args generalizing g with
  | nil => simp at hf
  | cons a l ih =>
    rw [rowArgs]
    by_cases hlen : a.len = names.length
    · rw [if_neg (by simp [hlen])]
      by_cases hfa : a.FitsIn names
      · obtain ⟨h1, h2, -⟩ := pairs_keys names hn a (hw a (by simp)) hfa
        rw [rowPuts_ok names hn _ h1 h2]
        dsimp only [Except.bind]
        apply ih (fun a ha => hw a (by simp [ha]))
        intro h
        apply hf
        intro b hb
        rcases List.mem_cons.1 hb with rfl | hb
        · exact hfa
        · exact h b hb
      · refine ⟨.key, ?_⟩
        rw [rowPuts_error names hn]
        · rfl
        · cases a with
          | seq l => exact absurd hlen hfa
          | dict d =>
            by_contra hc
            push Not at hc
            exact hfa ⟨hlen, hc⟩
    · exact ⟨.value, by rw [if_pos hlen]⟩

theorem colAt_objExtend (ps : Nat) (h : Heap α) (i j : Nat) (vs : List α) (hi : i < h.length) :
    colAt (objExtend ps h i vs) j = if j = i then extend ps (colAt h i) vs else colAt h j := by
  unfold colAt objExtend
  rw [List.getD_eq_getElem?_getD, List.getD_eq_getElem?_getD, List.getD_eq_getElem?_getD, List.getElem?_modify]
  by_cases hj : i = j
  · subst hj
    simp [hi]
  · have : ¬ j = i := fun e => hj e.symm
    simp [hj, this]

theorem objExtend_length (ps : Nat) (h : Heap α) (i : Nat) (vs : List α) : (objExtend ps h i vs).length = h.length := by
  rw [objExtend, List.length_modify]

/-- extending columns by name: every named column gets its values, everything else stays -/
theorem extendAll_ok (ps : Nat) (t : OTbl ν) (d : List (ν × List α)) (h : Heap α) (hw : OWF h t) (hd : (d.map (·.1)).Nodup)
    (hs : ∀ x ∈ d, x.1 ∈ t.map (·.1)) :
    ∃ h', extendAll ps t h d = (h', none) ∧ h'.length = h.length ∧
      (∀ c ∈ t, colAt h' c.2 = (dGet c.1 d).elim (colAt h c.2) (extend ps (colAt h c.2))) ∧
      ∀ i, i ∉ objs t → colAt h' i = colAt h i := by
  induction d generalizing h with
  | nil => exact ⟨h, rfl, rfl, fun c _ => by simp [dGet], fun _ _ => rfl⟩
  | cons x l ih =>
    obtain ⟨k, vs⟩ := x
    simp only [List.map_cons, List.nodup_cons] at hd
    obtain ⟨c, hc⟩ := Option.isSome_iff_exists.1 ((dGet_isSome k t).2 (hs (k, vs) (by simp)))
    have hm := dGet_mem k t c hc
    have hmo : c ∈ objs t := List.mem_map.2 ⟨_, hm, rfl⟩
    have hlt := hw.2.2 c hmo
    obtain ⟨h', e, hl, hcols, hoth⟩ := ih (objExtend ps h c vs) ⟨hw.1, hw.2.1, fun i hi => by rw [objExtend_length]; exact hw.2.2 i hi⟩ hd.2
      (fun x hx => hs x (by simp [hx]))
    refine ⟨h', ?_, by rw [hl, objExtend_length], ?_, ?_⟩
    · rw [extendAll]
      dsimp only
      rw [hc]
      exact e
    · intro b hb
      rw [hcols b hb, dGet, colAt_objExtend _ _ _ _ _ hlt]
      by_cases hk : k = b.1
      · have hbc : b = (k, c) := by
          have := dGet_of_mem t hw.1 b hb
          rw [← hk, hc] at this
          cases b
          simp only [Option.some.injEq] at this
          simp only at hk
          rw [hk, this]
        have hn : dGet b.1 l = none := (dGet_none _ _).2 (by rw [← hk]; exact hd.1)
        rw [hn, if_pos hk, hbc]
        simp
      · have hbc : b.2 ≠ c := by
          intro e
          have h1 : b.1 = k := by
            have hinj := List.inj_on_of_nodup_map hw.2.1 hb hm e
            rw [hinj]
          exact hk h1.symm
        rw [if_neg hk, if_neg hbc]
    · intro i hi
      rw [hoth i hi, colAt_objExtend _ _ _ _ _ hlt, if_neg]
      intro e
      exact hi (e ▸ hmo)

theorem valsAt_extendAll (ps : Nat) (hps : 0 < ps) (t : OTbl ν) (d : List (ν × List α)) (h : Heap α) (hw : OWF h t) (hd : (d.map (·.1)).Nodup)
    (hs : ∀ x ∈ d, x.1 ∈ t.map (·.1)) :
    ∃ h', extendAll ps t h d = (h', none) ∧ h'.length = h.length ∧
      (∀ x ∈ t.map (·.1), valsAt h' t x = valsAt h t x ++ (dGet x d).getD []) ∧
      ∀ i, i ∉ objs t → colAt h' i = colAt h i := by
  obtain ⟨h', e, hl, hc, ho⟩ := extendAll_ok ps t d h hw hd hs
  refine ⟨h', e, hl, ?_, ho⟩
  intro x hx
  obtain ⟨c, hcm, rfl⟩ := List.mem_map.1 hx
  rw [valsAt, valsAt, dGet_of_mem t hw.1 c hcm]
  simp only [Option.elim_some]
  rw [hc c hcm]
  cases dGet c.1 d with
  | none => simp
  | some vs => simp [extend, colIter_eq, paginate_flatten hps]

/-- C71: rows given as lists, tuples or dictionaries. If all fit, every column gets the value of each row, in order; other columns of
the heap stay as they are. -/
theorem C71_args (ps : Nat) (hps : 0 < ps) (asArg : RowArg ν α → α) (h : Heap α) (t : OTbl ν) (hw : OWF h t) (args : List (RowArg ν α ⊕ α))
    (hne : args ≠ []) (ha : ∀ a ∈ callRows asArg args, a.WF) (hf : ∀ a ∈ callRows asArg args, a.FitsIn (t.map (·.1))) :
    ∃ h', addArgs ps asArg h t args = (h', none) ∧ h'.length = h.length ∧
      (∀ x ∈ t.map (·.1), (valsAt h' t x).map some = (valsAt h t x).map some ++ (callRows asArg args).map fun a => a.valueAt (t.map (·.1)) x) ∧
      ∀ i, i ∉ objs t → colAt h' i = colAt h i := by
  have e := rowArgs_ok (t.map (·.1)) hw.1 (callRows asArg args) ha hf (fun _ => [])
  rw [List.map_map] at e
  obtain ⟨h', e', hl, hc, ho⟩ := valsAt_extendAll ps hps t
    ((t.map (·.1)).map fun x => (x, [] ++ (callRows asArg args).flatMap fun a => (dGet x (a.pairs (t.map (·.1)))).toList)) h hw
    (by rw [List.map_map]; simpa [Function.comp_def] using hw.1) (by
      intro x hx
      obtain ⟨y, hy, rfl⟩ := List.mem_map.1 hx
      exact hy)
  refine ⟨h', ?_, hl, ?_, ho⟩
  · rw [addArgs, if_neg (by simpa using hne)]
    have e2 : rowArgs (t.map (·.1)) (t.map fun c => (c.1, [])) (callRows asArg args) = _ := e
    rw [e2]
    exact e'
  · intro x hx
    rw [hc x hx, dGet_map, if_pos hx, List.map_append]
    congr 1
    rw [Option.getD_some, List.nil_append]
    clear e e' hc
    generalize callRows asArg args = rows at *
    induction rows with
    | nil => rfl
    | cons a l ih =>
      obtain ⟨-, -, h3⟩ := pairs_keys _ hw.1 a (ha a (by simp)) (hf a (by simp))
      obtain ⟨h4, h5⟩ := h3 x hx
      rw [List.flatMap_cons, List.map_append, ih (fun a h => ha a (by simp [h])) (fun a h => hf a (by simp [h])), List.map_cons, h4]
      obtain ⟨v, hv⟩ := Option.isSome_iff_exists.1 h5
      rw [hv]
      rfl

/-- C71: if one of the rows does not fit, an exception is raised and nothing is changed -/
theorem C71_args_error (ps : Nat) (asArg : RowArg ν α → α) (h : Heap α) (t : OTbl ν) (hw : OWF h t) (args : List (RowArg ν α ⊕ α))
    (ha : ∀ a ∈ callRows asArg args, a.WF) (hf : ¬ ∀ a ∈ callRows asArg args, a.FitsIn (t.map (·.1))) :
    ∃ e, addArgs ps asArg h t args = (h, some e) := by
  obtain ⟨e, he⟩ := rowArgs_error (t.map (·.1)) hw.1 (callRows asArg args) ha hf (fun _ => [])
  rw [List.map_map] at he
  refine ⟨e, ?_⟩
  have hne : args ≠ [] := by
    rintro rfl
    exact hf (by simp [callRows])
  rw [addArgs, if_neg (by simpa using hne)]
  have e2 : rowArgs (t.map (·.1)) (t.map fun c => (c.1, [])) (callRows asArg args) = _ := he
  rw [e2]

/-- C71: keyword arguments for known columns: a named column gets its values, a column without argument gets nothing -/
theorem C71_kwargs (ps : Nat) (hps : 0 < ps) (asVal : List α → α) (h : Heap α) (t : OTbl ν) (hw : OWF h t) (kw : List (ν × (List α ⊕ α)))
    (hk : (kw.map (·.1)).Nodup) (hs : ∀ x ∈ kw, x.1 ∈ t.map (·.1)) :
    ∃ h', extendAll ps t h (kwLists asVal kw) = (h', none) ∧ h'.length = h.length ∧
      (∀ x ∈ t.map (·.1), valsAt h' t x = valsAt h t x ++ (dGet x (kwLists asVal kw)).getD []) ∧
      ∀ i, i ∉ objs t → colAt h' i = colAt h i := by
  have hkeys : (kwLists asVal kw).map (·.1) = kw.map (·.1) := by
    rw [kwLists]; split <;> simp [Function.comp_def]
  apply valsAt_extendAll ps hps t _ h hw (by rw [hkeys]; exact hk)
  intro x hx
  have : x.1 ∈ kw.map (·.1) := by rw [← hkeys]; exact List.mem_map.2 ⟨x, hx, rfl⟩
  obtain ⟨y, hy, e⟩ := List.mem_map.1 this
  rw [← e]
  exact hs y hy

/-- rectangular, by names -/
def RectAt (h : Heap α) (t : OTbl ν) (n : Nat) : Prop := ∀ x ∈ t.map (·.1), (valsAt h t x).length = n

/-- a call as Python can make it: dictionaries and keyword arguments have different keys -/
def AddCall.WF (asArg : RowArg ν α → α) (c : AddCall ν α) : Prop := (∀ a ∈ callRows asArg c.args, a.WF) ∧ (c.kwargs.map (·.1)).Nodup

/-- the whole claim: a call that raises changes nothing, a call that does not leaves columns of the same length -/
def C71_statement : Prop :=
  ∀ (ps : Nat) (asVal : List Nat → Nat) (asArg : RowArg String Nat → Nat) (h : Heap Nat) (t : OTbl String) (n : Nat) (c : AddCall String Nat),
    0 < ps → OWF h t → RectAt h t n → c.WF asArg →
      (∀ e, (tAddRows ps asVal asArg h t c).2 = some e → (tAddRows ps asVal asArg h t c).1 = h) ∧
      ((tAddRows ps asVal asArg h t c).2 = none → ∃ m, RectAt (tAddRows ps asVal asArg h t c).1 t m)

/-- keyword arguments for every column, with lists of the same length -/
def KwComplete (asVal : List α → α) (names : List ν) (kw : List (ν × (List α ⊕ α))) : Prop :=
  kw = [] ∨ ((∀ x ∈ kw, x.1 ∈ names) ∧ ∃ m, ∀ x ∈ names, ∃ l, dGet x (kwLists asVal kw) = some l ∧ l.length = m)

/-- C71: the claim holds of every call whose keyword arguments, if there are any, name all columns with lists of the same length.
Missing: the other keyword arguments, of which it is false -/
theorem C71_partial (ps : Nat) (hps : 0 < ps) (asVal : List α → α) (asArg : RowArg ν α → α) (h : Heap α) (t : OTbl ν) (n : Nat) (c : AddCall ν α)
    (hw : OWF h t) (hr : RectAt h t n) (hc : c.WF asArg) (hk : KwComplete asVal (t.map (·.1)) c.kwargs) :
    (∀ e, (tAddRows ps asVal asArg h t c).2 = some e → (tAddRows ps asVal asArg h t c).1 = h) ∧
    ((tAddRows ps asVal asArg h t c).2 = none → ∃ m, RectAt (tAddRows ps asVal asArg h t c).1 t m) := by
  have key : ∀ h' n', OWF h' t → RectAt h' t n' → (extendAll ps t h' (kwLists asVal c.kwargs)).2 = none ∧
      ∃ m, RectAt (extendAll ps t h' (kwLists asVal c.kwargs)).1 t m := by
    intro h' n' hw' hr'
    rcases hk with hk | ⟨hk1, m, hk2⟩
    · rw [hk]
      exact ⟨by simp [kwLists, extendAll], n', by simpa [kwLists, extendAll] using hr'⟩
    · obtain ⟨h'', e, -, hv, -⟩ := C71_kwargs ps hps asVal h' t hw' c.kwargs hc.2 hk1
      rw [e]
      refine ⟨rfl, n' + m, ?_⟩
      intro x hx
      obtain ⟨l, hl, hm⟩ := hk2 x hx
      rw [hv x hx, hl, List.length_append, hr' x hx]
      simp [hm]
  by_cases hne : c.args = []
  · have e : addArgs ps asArg h t c.args = (h, none) := by rw [hne]; rfl
    rw [tAddRows, e]
    dsimp only
    obtain ⟨h1, h2⟩ := key h n hw hr
    exact ⟨fun e he => by rw [h1] at he; simp at he, fun _ => h2⟩
  · by_cases hf : ∀ a ∈ callRows asArg c.args, a.FitsIn (t.map (·.1))
    · obtain ⟨h', e, hl, hv, -⟩ := C71_args ps hps asArg h t hw c.args hne hc.1 hf
      rw [tAddRows, e]
      dsimp only
      have hr' : RectAt h' t (n + (callRows asArg c.args).length) := by
        intro x hx
        have := congrArg List.length (hv x hx)
        simpa [hr x hx] using this
      obtain ⟨h1, h2⟩ := key h' _ ⟨hw.1, hw.2.1, fun i hi => by rw [hl]; exact hw.2.2 i hi⟩ hr'
      exact ⟨fun e he => by rw [h1] at he; simp at he, fun _ => h2⟩
    · obtain ⟨e, he⟩ := C71_args_error ps asArg h t hw c.args hc.1 hf
      rw [tAddRows, he]
      exact ⟨fun _ _ => rfl, fun h => by simp at h⟩

/-- C71: a keyword argument is missing: the columns get different lengths. One is unknown: the exception comes after a column was extended -/
theorem C71_kwargs_fails : (valsAt (tAddRows 10 List.sum (fun _ => 0) [[[1]], [[2]]] [("a", 0), ("b", 1)] ⟨[], [("a", .inr 5)]⟩).1 [("a", 0), ("b", 1)] "a" = [1, 5] ∧
    valsAt (tAddRows 10 List.sum (fun _ => 0) [[[1]], [[2]]] [("a", 0), ("b", 1)] ⟨[], [("a", .inr 5)]⟩).1 [("a", 0), ("b", 1)] "b" = [2] ∧
    (tAddRows 10 List.sum (fun _ => 0) [[[1]], [[2]]] [("a", 0), ("b", 1)] ⟨[], [("a", .inr 5)]⟩).2 = none) ∧
    (tAddRows 10 List.sum (fun _ => 0) [[[1]], [[2]]] [("a", 0), ("b", 1)] ⟨[], [("a", .inr 5), ("c", .inr 6)]⟩) = ([[[1], [5]], [[2]]], some .key) := by
  decide

theorem C71_fails : ¬ C71_statement := by
  intro h
  have := (h 10 List.sum (fun _ => 0) [[[1]], [[2]]] [("a", 0), ("b", 1)] 1 ⟨[], [("a", .inr 5), ("c", .inr 6)]⟩ (by decide)
    (by unfold OWF objs; decide) (by unfold RectAt; decide) ⟨by simp [callRows], by decide⟩).1 .key (by decide)
  revert this
  decide

/-- C71: one object under two names gets both values -/
theorem C71_alias_fails : (tAddRows 10 List.sum (fun _ => 0) [[[1]]] [("a", 0), ("b", 0)] ⟨[.inl (.seq [7, 8])], []⟩) = ([[[1], [7], [8]]], none) := by
  decide

/-- the hypotheses of `C71_partial` hold of a call with two kinds of rows and of one with keyword arguments -/
example : OWF [[[1, 2]], [[3], [4]]] [("a", 0), ("b", 1)] ∧ RectAt [[[1, 2]], [[3], [4]]] [("a", 0), ("b", 1)] 2 ∧
    (AddCall.mk [.inl (.seq [5, 6]), .inl (.dict [("b", 8), ("a", 7)])] [] : AddCall String Nat).WF (fun _ => 0) ∧
    KwComplete List.sum ["a", "b"] [("b", .inl [1, 2]), ("a", .inl [3, 4])] := by
  refine ⟨by unfold OWF objs; decide, by unfold RectAt; decide, ⟨?_, by decide⟩, .inr ⟨by decide, 2, ?_⟩⟩
  · intro a ha
    simp [callRows] at ha
    rcases ha with rfl | rfl
    · trivial
    · show List.Nodup _
      decide
  · intro x hx
    simp at hx
    rcases hx with rfl | rfl
    · exact ⟨[3, 4], by decide, rfl⟩
    · exact ⟨[1, 2], by decide, rfl⟩
example : (tAddRows 10 List.sum (fun _ => 0) [[[1, 2]], [[3], [4]]] [("a", 0), ("b", 1)] ⟨[.inl (.seq [5, 6]), .inl (.dict [("b", 8), ("a", 7)])], []⟩) =
    ([[[1, 2], [5, 7]], [[3], [4], [6, 8]]], none) := by decide

/-! ## C72 -/

theorem mem_objs_dSet (k : ν) (v : Nat) (t : OTbl ν) (i : Nat) (hi : i ∈ objs (dSet k v t)) : i = v ∨ i ∈ objs t := by
  induction t with
  | nil => simpa [objs, dSet, dUpd] using hi
  | cons c l ih =>
    obtain ⟨k', b⟩ := c
    rw [dSet, dUpd] at hi
    split at hi
    · simp only [objs, List.map_cons, List.mem_cons] at hi ⊢
      tauto
    · simp only [objs, List.map_cons, List.mem_cons] at hi ⊢
      rcases hi with hi | hi
      · tauto
      · rcases ih hi with h | h
        · tauto
        · exact .inr (.inr h)

/-- what an operation on a table may do: make new objects, change its own objects, hold its own or new objects -/
def Framed (s s' : Heap α × OTbl ν) : Prop :=
  s.1.length ≤ s'.1.length ∧ (∀ i < s.1.length, i ∉ objs s.2 → colAt s'.1 i = colAt s.1 i) ∧
  (∀ i ∈ objs s'.2, i ∈ objs s.2 ∨ (s.1.length ≤ i ∧ i < s'.1.length))

theorem Framed.refl (s : Heap α × OTbl ν) : Framed s s := ⟨le_rfl, fun _ _ _ => rfl, fun _ hi => .inl hi⟩

theorem Framed.trans {a b c : Heap α × OTbl ν} (h1 : Framed a b) (h2 : Framed b c) : Framed a c := by
  obtain ⟨l1, c1, o1⟩ := h1
  obtain ⟨l2, c2, o2⟩ := h2
  refine ⟨by omega, ?_, ?_⟩
  · intro i hi hn
    rw [c2 i (by omega), c1 i hi hn]
    intro hb
    rcases o1 i hb with h | h
    · exact hn h
    · omega
  · intro i hi
    rcases o2 i hi with h | h
    · rcases o1 i h with h | h
      · exact .inl h
      · exact .inr ⟨h.1, by omega⟩
    · exact .inr ⟨by omega, h.2⟩

theorem colAt_append (h : Heap α) (l : List (Pages α)) (i : Nat) (hi : i < h.length) : colAt (h ++ l) i = colAt h i := by
  rw [colAt, colAt, List.getD_eq_getElem?_getD, List.getD_eq_getElem?_getD, List.getElem?_append_left hi]

theorem colAt_set (h : Heap α) (i j : Nat) (p : Pages α) (hj : j ≠ i) : colAt (h.set i p) j = colAt h j := by
  rw [colAt, colAt, List.getD_eq_getElem?_getD, List.getD_eq_getElem?_getD, List.getElem?_set_ne (Ne.symm hj)]

/-- a new object under a name -/
theorem framed_new (s : Heap α × OTbl ν) (k : ν) (p : Pages α) : Framed s (s.1 ++ [p], dSet k s.1.length s.2) := by
  refine ⟨by simp, fun i hi _ => colAt_append _ _ _ hi, ?_⟩
  intro i hi
  rcases mem_objs_dSet _ _ _ _ hi with h | h
  · right; simp only [List.length_append, List.length_singleton]; omega
  · exact .inl h

theorem framed_heap (s : Heap α × OTbl ν) (h' : Heap α) (hl : h'.length = s.1.length) (hc : ∀ i, i ∉ objs s.2 → colAt h' i = colAt s.1 i) :
    Framed s (h', s.2) := ⟨by simp [hl], fun i _ hn => hc i hn, fun i hi => .inl hi⟩

theorem extendAll_frame (ps : Nat) (t : OTbl ν) (d : List (ν × List α)) (h : Heap α) :
    (extendAll ps t h d).1.length = h.length ∧ ∀ i, i ∉ objs t → colAt (extendAll ps t h d).1 i = colAt h i := by
  induction d generalizing h with
  | nil => exact ⟨rfl, fun _ _ => rfl⟩
  | cons x l ih =>
    rw [extendAll]
    cases hc : dGet x.1 t with
    | none => exact ⟨rfl, fun _ _ => rfl⟩
    | some c =>
      dsimp only
      obtain ⟨h1, h2⟩ := ih (objExtend ps h c x.2)
      refine ⟨by rw [h1, objExtend_length], ?_⟩
      intro i hi
      rw [h2 i hi, colAt, colAt, objExtend, List.getD_eq_getElem?_getD, List.getD_eq_getElem?_getD, List.getElem?_modify]
      have : c ≠ i := by
        rintro rfl
        exact hi (List.mem_map.2 ⟨_, dGet_mem _ _ _ hc, rfl⟩)
      simp [this]

theorem tAddRows_frame (ps : Nat) (asVal : List α → α) (asArg : RowArg ν α → α) (h : Heap α) (t : OTbl ν) (c : AddCall ν α) :
    (tAddRows ps asVal asArg h t c).1.length = h.length ∧ ∀ i, i ∉ objs t → colAt (tAddRows ps asVal asArg h t c).1 i = colAt h i := by
  have ha : (addArgs ps asArg h t c.args).1.length = h.length ∧ ∀ i, i ∉ objs t → colAt (addArgs ps asArg h t c.args).1 i = colAt h i := by
    rw [addArgs]
    split
    · exact ⟨rfl, fun _ _ => rfl⟩
    · split
      · exact ⟨rfl, fun _ _ => rfl⟩
      · exact extendAll_frame _ _ _ _
  rw [tAddRows]
  split
  · next h' e he => rw [he] at ha; exact ha
  · next h' he =>
    rw [he] at ha
    obtain ⟨h1, h2⟩ := extendAll_frame ps t (kwLists asVal c.kwargs) h'
    exact ⟨by rw [h1]; exact ha.1, fun i hi => by rw [h2 i hi]; exact ha.2 i hi⟩

theorem objApplyAll_frame (f : Pages α → Except Err (Pages α)) (l : List Nat) (h : Heap α) :
    (objApplyAll f h l).length = h.length ∧ ∀ i, i ∉ l → colAt (objApplyAll f h l) i = colAt h i := by
  induction l generalizing h with
  | nil => exact ⟨rfl, fun _ _ => rfl⟩
  | cons j l ih =>
    rw [objApplyAll]
    cases f (colAt h j) with
    | error e => exact ⟨rfl, fun _ _ => rfl⟩
    | ok p =>
      dsimp only
      obtain ⟨h1, h2⟩ := ih (h.set j p)
      refine ⟨by rw [h1, List.length_set], ?_⟩
      intro i hi
      rw [List.mem_cons, not_or] at hi
      rw [h2 i hi.2, colAt_set _ _ _ _ hi.1]

theorem tAddColumns_frame (names : List ν) (s : Heap α × OTbl ν) : Framed s (tAddColumns s names) := by
  induction names generalizing s with
  | nil => exact Framed.refl s
  | cons n l ih =>
    show Framed s (tAddColumns (s.1 ++ [[]], dSet n s.1.length s.2) l)
    exact (framed_new s n []).trans (ih _)

/-- every operation is framed -/
theorem tRun_framed (ps : Nat) (asVal : List α → α) (asArg : RowArg ν α → α) (s : Heap α × OTbl ν) (op : TOp ν α) :
    Framed s (tRun ps asVal asArg s op) := by
  cases op with
  | set k l => exact framed_new s k _
  | «alias» k k' =>
    rw [tRun]
    cases hc : dGet k' s.2 with
    | none => exact Framed.refl s
    | some c =>
      refine ⟨le_rfl, fun _ _ _ => rfl, fun i hi => ?_⟩
      rcases mem_objs_dSet _ _ _ _ hi with rfl | h
      · exact .inl (List.mem_map.2 ⟨_, dGet_mem _ _ _ hc, rfl⟩)
      · exact .inl h
  | del k =>
    refine ⟨le_rfl, fun _ _ _ => rfl, fun i hi => .inl ?_⟩
    obtain ⟨c, hc, rfl⟩ := List.mem_map.1 hi
    exact List.mem_map.2 ⟨c, (List.mem_filter.1 hc).1, rfl⟩
  | column k f =>
    rw [tRun]
    cases hc : dGet k s.2 with
    | none => exact Framed.refl s
    | some c =>
      dsimp only
      rw [objApply]
      cases f (colAt s.1 c) with
      | error e => exact Framed.refl s
      | ok p =>
        refine framed_heap s _ (by simp) fun i hi => ?_
        apply colAt_set
        rintro rfl
        exact hi (List.mem_map.2 ⟨_, dGet_mem _ _ _ hc, rfl⟩)
  | columns f =>
    obtain ⟨h1, h2⟩ := objApplyAll_frame f (s.2.map (·.2)) s.1
    exact framed_heap s _ h1 h2
  | addColumns names => exact tAddColumns_frame names s
  | addRows c =>
    obtain ⟨h1, h2⟩ := tAddRows_frame ps asVal asArg s.1 s.2 c
    exact framed_heap s _ h1 h2
  | clear => exact ⟨le_rfl, fun _ _ _ => rfl, fun i hi => by simp [tRun, objs] at hi⟩

/-- two tables without a common object -/
def Sep (h : Heap α) (t o : OTbl ν) : Prop := (∀ i ∈ objs t, i < h.length) ∧ (∀ i ∈ objs o, i < h.length) ∧ ∀ i ∈ objs t, i ∉ objs o

theorem Sep.symm {h : Heap α} {t o : OTbl ν} (s : Sep h t o) : Sep h o t := ⟨s.2.1, s.1, fun i hi ht => s.2.2 i ht hi⟩

theorem sep_step {h : Heap α} {t o : OTbl ν} (s : Sep h t o) {r : Heap α × OTbl ν} (f : Framed (h, t) r) : Sep r.1 r.2 o ∧ view r.1 o = view h o := by
  obtain ⟨h1, h2, h3⟩ := s
  obtain ⟨f1, f2, f3⟩ := f
  dsimp only at f1 f2 f3
  refine ⟨⟨?_, fun i hi => by have := h2 i hi; omega, ?_⟩, ?_⟩
  · intro i hi
    rcases f3 i hi with h | h
    · have := h1 i h; omega
    · omega
  · intro i hi ho
    rcases f3 i hi with h | h
    · exact h3 i h ho
    · have := h2 i ho; omega
  · apply List.map_congr_left
    intro c hc
    have ho : c.2 ∈ objs o := List.mem_map.2 ⟨c, hc, rfl⟩
    rw [f2 c.2 (h2 _ ho) (fun ht => h3 _ ht ho)]

/-- a run of operations on two tables, `true` for the first -/
def runBoth (ps : Nat) (asVal : List α → α) (asArg : RowArg ν α → α) : Heap α × OTbl ν × OTbl ν → List (Bool × TOp ν α) → Heap α × OTbl ν × OTbl ν
  | s, [] => s
  | s, (true, op) :: l =>
    let r := tRun ps asVal asArg (s.1, s.2.1) op
    runBoth ps asVal asArg (r.1, r.2, s.2.2) l
  | s, (false, op) :: l =>
    let r := tRun ps asVal asArg (s.1, s.2.2) op
    runBoth ps asVal asArg (r.1, s.2.1, r.2) l

/-- C72: tables without a common object stay so, whatever is done to either -/
theorem C72_separate (ps : Nat) (asVal : List α → α) (asArg : RowArg ν α → α) (prog : List (Bool × TOp ν α)) (s : Heap α × OTbl ν × OTbl ν)
    (hs : Sep s.1 s.2.1 s.2.2) : Sep (runBoth ps asVal asArg s prog).1 (runBoth ps asVal asArg s prog).2.1 (runBoth ps asVal asArg s prog).2.2 := by
  induction prog generalizing s with
  | nil => exact hs
  | cons x l ih =>
    obtain ⟨b, op⟩ := x
    cases b with
    | true => exact ih _ (sep_step hs (tRun_framed ps asVal asArg (s.1, s.2.1) op)).1
    | false => exact ih _ (sep_step hs.symm (tRun_framed ps asVal asArg (s.1, s.2.2) op)).1.symm

/-- C72: at any point of any run, an operation on one of two separate tables leaves the values of the other as they are -/
theorem C72_step (ps : Nat) (asVal : List α → α) (asArg : RowArg ν α → α) (prog : List (Bool × TOp ν α)) (s : Heap α × OTbl ν × OTbl ν)
    (hs : Sep s.1 s.2.1 s.2.2) (op : TOp ν α) :
    view (tRun ps asVal asArg ((runBoth ps asVal asArg s prog).1, (runBoth ps asVal asArg s prog).2.1) op).1 (runBoth ps asVal asArg s prog).2.2 =
      view (runBoth ps asVal asArg s prog).1 (runBoth ps asVal asArg s prog).2.2 ∧
    view (tRun ps asVal asArg ((runBoth ps asVal asArg s prog).1, (runBoth ps asVal asArg s prog).2.2) op).1 (runBoth ps asVal asArg s prog).2.1 =
      view (runBoth ps asVal asArg s prog).1 (runBoth ps asVal asArg s prog).2.1 := by
  have h := C72_separate ps asVal asArg prog s hs
  exact ⟨(sep_step h (tRun_framed ps asVal asArg (_, _) op)).2, (sep_step h.symm (tRun_framed ps asVal asArg (_, _) op)).2⟩

/-- C72: a run of operations on one table only leaves the values of the other as they are -/
theorem C72_run (ps : Nat) (asVal : List α → α) (asArg : RowArg ν α → α) (ops : List (TOp ν α)) (h : Heap α) (t o : OTbl ν) (hs : Sep h t o) :
    view (ops.foldl (tRun ps asVal asArg) (h, t)).1 o = view h o := by
  induction ops generalizing h t with
  | nil => rfl
  | cons op l ih =>
    obtain ⟨h1, h2⟩ := sep_step hs (tRun_framed ps asVal asArg (h, t) op)
    rw [List.foldl_cons, ← h2]
    exact ih _ _ h1

/-- the objects of a copy are new, the old ones are as they were -/
theorem tCopy_new (h : Heap α) (t : OTbl ν) : ∃ l, (tCopy h t).1 = h ++ l ∧ ∀ i ∈ objs (tCopy h t).2, h.length ≤ i ∧ i < (tCopy h t).1.length := by
  have key : ∀ (u : OTbl ν) (s : Heap α × OTbl ν), (∃ l, s.1 = h ++ l ∧ ∀ i ∈ objs s.2, h.length ≤ i ∧ i < s.1.length) →
      ∃ l, (u.foldl (fun s c => (s.1 ++ [colAt h c.2], dSet c.1 s.1.length s.2)) s).1 = h ++ l ∧
        ∀ i ∈ objs (u.foldl (fun s c => (s.1 ++ [colAt h c.2], dSet c.1 s.1.length s.2)) s).2, h.length ≤ i ∧
          i < (u.foldl (fun s c => (s.1 ++ [colAt h c.2], dSet c.1 s.1.length s.2)) s).1.length := by
    intro u
    induction u with
    | nil => exact fun s hs => hs
    | cons c u ih =>
      intro s ⟨l, e, hi⟩
      rw [List.foldl_cons]
      apply ih
      refine ⟨l ++ [colAt h c.2], by simp [e], ?_⟩
      intro i hi'
      rcases mem_objs_dSet _ _ _ _ hi' with rfl | h'
      · simp [e]
      · have := hi i h'
        simp only [List.length_append, List.length_singleton]
        omega
  exact key t (h, []) ⟨[], by simp, by simp [objs]⟩

theorem sliceObjs_new (ps : Nat) (t : OTbl ν) (slc : PySlice) (h : Heap α) (names : List ν) (s r : Heap α × OTbl ν)
    (hs : ∃ l, s.1 = h ++ l ∧ ∀ i ∈ objs s.2, h.length ≤ i ∧ i < s.1.length) (he : sliceObjs ps t slc s names = .ok r) :
    ∃ l, r.1 = h ++ l ∧ ∀ i ∈ objs r.2, h.length ≤ i ∧ i < r.1.length := by
  induction names generalizing s with
  | nil =>
    obtain rfl := Except.ok.inj he
    exact hs
  | cons n u ih =>
    rw [sliceObjs] at he
    cases hc : dGet n t with
    | none => rw [hc] at he; simp at he
    | some c =>
      rw [hc] at he
      dsimp only at he
      cases hp : sliceCol ps (colAt s.1 c) slc with
      | error e => rw [hp] at he; simp [Except.bind] at he
      | ok p =>
        rw [hp] at he
        dsimp only [Except.bind] at he
        apply ih _ _ he
        obtain ⟨l, e, hi⟩ := hs
        refine ⟨l ++ [p], by simp [e], ?_⟩
        intro i hi'
        rcases mem_objs_dSet _ _ _ _ hi' with rfl | h'
        · simp [e]
        · have := hi i h'
          simp only [List.length_append, List.length_singleton]
          omega

theorem sep_of_new {h : Heap α} {t : OTbl ν} (ht : ∀ i ∈ objs t, i < h.length) {r : Heap α × OTbl ν}
    (hr : ∃ l, r.1 = h ++ l ∧ ∀ i ∈ objs r.2, h.length ≤ i ∧ i < r.1.length) : Sep r.1 r.2 t ∧ view r.1 t = view h t := by
  obtain ⟨l, e, hi⟩ := hr
  refine ⟨⟨fun i h' => (hi i h').2, fun i h' => ?_, fun i h' ht' => ?_⟩, ?_⟩
  · have := ht i h'; rw [e, List.length_append]; omega
  · have := ht i ht'; have := (hi i h').1; omega
  · apply List.map_congr_left
    intro c hc
    rw [e, colAt_append _ _ _ (ht _ (List.mem_map.2 ⟨c, hc, rfl⟩))]

/-- two tables are independent: no operation on one, after any operations on both, changes the values of the other -/
def Independent (ps : Nat) (asVal : List α → α) (asArg : RowArg ν α → α) (h : Heap α) (t o : OTbl ν) : Prop :=
  ∀ (prog : List (Bool × TOp ν α)) (op : TOp ν α),
    let s := runBoth ps asVal asArg (h, t, o) prog
    view (tRun ps asVal asArg (s.1, s.2.1) op).1 s.2.2 = view s.1 s.2.2 ∧ view (tRun ps asVal asArg (s.1, s.2.2) op).1 s.2.1 = view s.1 s.2.1

/-- the whole claim: a copy of a table and every table selected from it is independent of it, and the selection itself leaves the
values of the table as they are -/
def C72_statement : Prop :=
  ∀ (ps : Nat) (asVal : List Nat → Nat) (asArg : RowArg String Nat → Nat) (h : Heap Nat) (t : OTbl String), (∀ i ∈ objs t, i < h.length) →
    (Independent ps asVal asArg (tCopy h t).1 (tCopy h t).2 t ∧ view (tCopy h t).1 t = view h t) ∧
    ∀ keys h' t', tGet ps h t keys = .ok (h', .table t') → Independent ps asVal asArg h' t' t ∧ view h' t = view h t

/-- C72: copies and tables selected with a slice are independent. Missing: tables selected by names alone, of which it is false -/
theorem C72_partial (ps : Nat) (asVal : List α → α) (asArg : RowArg ν α → α) (h : Heap α) (t : OTbl ν) (ht : ∀ i ∈ objs t, i < h.length) :
    (Independent ps asVal asArg (tCopy h t).1 (tCopy h t).2 t ∧ view (tCopy h t).1 t = view h t) ∧
    ∀ keys h' t', keySlices keys ≠ [] → tGet ps h t keys = .ok (h', .table t') → Independent ps asVal asArg h' t' t ∧ view h' t = view h t := by
  have key : ∀ r : Heap α × OTbl ν, (∃ l, r.1 = h ++ l ∧ ∀ i ∈ objs r.2, h.length ≤ i ∧ i < r.1.length) →
      Independent ps asVal asArg r.1 r.2 t ∧ view r.1 t = view h t := by
    intro r hr
    obtain ⟨h1, h2⟩ := sep_of_new ht hr
    exact ⟨fun prog op => C72_step ps asVal asArg prog (r.1, r.2, t) h1 op, h2⟩
  refine ⟨key _ (tCopy_new h t), ?_⟩
  intro keys h' t' hsl he
  rw [tGet] at he
  split at he
  · simp at he
  split at he
  · simp at he
  cases hk : keySlices keys with
  | nil => exact absurd hk hsl
  | cons slc l =>
    rw [hk] at he
    generalize keys.filterMap Key.int? = ints at he
    have hrow : ∀ i, ((keyNames t keys).mapM (cellOf h t i)).map (fun r => (h, (GetRes.row r : GetRes ν α))) ≠ .ok (h', .table t') := by
      intro i
      cases List.mapM (cellOf h t i) (keyNames t keys) <;> simp [Except.map]
    have htab : (sliceObjs ps t slc (h, []) (keyNames t keys)).map (fun r => (r.1, (GetRes.table r.2 : GetRes ν α))) = .ok (h', .table t') →
        Independent ps asVal asArg h' t' t ∧ view h' t = view h t := by
      intro he
      cases hm : sliceObjs ps t slc (h, []) (keyNames t keys) with
      | error e => rw [hm] at he; simp [Except.map] at he
      | ok r =>
        rw [hm] at he
        simp only [Except.map, Except.ok.injEq, Prod.mk.injEq, GetRes.table.injEq] at he
        obtain ⟨rfl, rfl⟩ := he
        exact key r (sliceObjs_new ps t slc h _ (h, []) r ⟨[], by simp, by simp [objs]⟩ hm)
    match ints, he with
    | [], he => exact htab he
    | [i], he => exact absurd he (hrow i)
    | i :: j :: r, he => exact htab he

/-- C72: `u = t['a', 'b']` holds the columns of `t`: after `u['a'].append(9)` the table `t` has the 9 as well -/
theorem C72_names_fails : tGet 10 [[[1]], [[2]]] [("a", 0), ("b", 1)] [.name "a", .name "b"] = .ok ([[[1]], [[2]]], .table [("a", 0), ("b", 1)]) ∧
    view (tRun 10 List.sum (fun _ => 0) ([[[1]], [[2]]], [("a", 0), ("b", 1)]) (.column "a" fun p => .ok (extend 10 p [9]))).1 [("a", 0), ("b", 1)] =
      [("a", [[1], [9]]), ("b", [[2]])] := by
  exact ⟨rfl, rfl⟩

/-- C72: a `Column` assigned to another name or another table stays one object: after `u['b'] = t['a']` extending `u['b']` extends `t['a']` -/
theorem C72_assign_fails : tSet 10 ([[[1]]], ([] : OTbl String)) "b" (.column 0) = .ok ([[[1]]], [("b", 0)]) ∧
    view (tRun 10 List.sum (fun _ => 0) ([[[1]]], [("b", 0)]) (.column "b" fun p => .ok (extend 10 p [9]))).1 [("a", 0)] = [("a", [[1], [9]])] :=
  ⟨rfl, rfl⟩

theorem C72_fails : ¬ C72_statement := by
  intro h
  have h1 := ((h 10 List.sum (fun _ => 0) [[[1]], [[2]]] [("a", 0), ("b", 1)] (by unfold objs; decide)).2 [.name "a", .name "b"] _ _ C72_names_fails.1).1
  have h2 := (h1 [] (.column "a" fun p => .ok (extend 10 p [9]))).1
  have h3 : view (tRun 10 List.sum (fun _ => 0) ([[[1]], [[2]]], [("a", 0), ("b", 1)]) (.column "a" fun p => .ok (extend 10 p [9]))).1 [("a", 0), ("b", 1)] =
      view [[[1]], [[2]]] [("a", 0), ("b", 1)] := h2
  rw [C72_names_fails.2] at h3
  revert h3
  decide

/-- **C72**, exactly when: two tables of the heap, the names of whose columns are different, are independent if and only if they have no column object in common. -/
theorem C72_exact (ps : Nat) (asVal : List α → α) (asArg : RowArg ν α → α) (x : α) (h : Heap α) (t o : OTbl ν) (ht : ∀ i ∈ objs t, i < h.length) (ho : ∀ i ∈ objs o, i < h.length)
    (hn : (t.map (·.1)).Nodup) : Independent ps asVal asArg h t o ↔ ∀ i ∈ objs t, i ∉ objs o := by
  constructor
  · intro hind i hi hio
    obtain ⟨c, hc, rfl⟩ := List.mem_map.1 hi
    obtain ⟨d, hd, hcd⟩ := List.mem_map.1 hio
    have h1 := (hind [] (.column c.1 fun p => .ok (p ++ [[x]]))).1
    have e : (tRun ps asVal asArg (h, t) (.column c.1 fun p => .ok (p ++ [[x]]))).1 = h.set c.2 (colAt h c.2 ++ [[x]]) := by
      rw [tRun]
      dsimp only
      rw [dGet_of_mem t hn c hc]
      rfl
    have h2 : view (h.set c.2 (colAt h c.2 ++ [[x]])) o = view h o := by rw [← e]; exact h1
    obtain ⟨j, hj, hjd⟩ := List.getElem_of_mem hd
    have h3 := congrArg (fun l => l[j]?) h2
    simp only [view, List.getElem?_map, List.getElem?_eq_getElem hj, Option.map_some, hjd, Option.some.injEq, Prod.mk.injEq, true_and, hcd] at h3
    have hb := ht c.2 hi
    have e2 : colAt (h.set c.2 (colAt h c.2 ++ [[x]])) c.2 = colAt h c.2 ++ [[x]] := by
      rw [colAt, List.getD_eq_getElem?_getD, List.getElem?_set_self hb]
      rfl
    rw [e2] at h3
    have := congrArg List.length h3
    simp at this
  · intro hs prog op
    exact C72_step ps asVal asArg prog (h, t, o) ⟨ht, ho, hs⟩ op

/-- a copy of a table is independent of it; a table that holds one of its columns is not -/
example : Independent 10 List.sum (fun _ : RowArg String Nat => 0) [[[1]], [[2]], [[1]]] [("a", 0), ("b", 1)] [("a", 2)] ∧
    ¬ Independent 10 List.sum (fun _ : RowArg String Nat => 0) [[[1]], [[2]], [[1]]] [("a", 0), ("b", 1)] [("c", 1)] := by
  constructor
  · exact (C72_exact 10 _ _ 0 _ _ _ (by unfold objs; decide) (by unfold objs; decide) (by decide)).2 (by unfold objs; decide)
  · intro h
    exact (C72_exact 10 _ _ 0 _ _ _ (by unfold objs; decide) (by unfold objs; decide) (by decide)).1 h 1 (by unfold objs; decide) (by unfold objs; decide)

/-! ## C73 -/

theorem keys_dSet {β : Type} (k : ν) (v : β) (d : List (ν × β)) (h : k ∉ d.map (·.1)) : dSet k v d = d ++ [(k, v)] := dUpd_new _ _ _ _ h

theorem foldl_dSet {β γ : Type} (f : γ → β) (l : List (ν × γ)) (d : List (ν × β)) (hn : ((d.map (·.1)) ++ l.map (·.1)).Nodup) :
    l.foldl (fun d x => dSet x.1 (f x.2) d) d = d ++ l.map fun x => (x.1, f x.2) := by
  induction l generalizing d with
  | nil => simp
  | cons x t ih =>
    rw [List.foldl_cons, keys_dSet]
    · rw [ih]
      · simp
      · simpa [List.nodup_append] using hn
    · intro hm
      rw [List.nodup_append] at hn
      exact hn.2.2 _ hm x.1 (by simp) rfl

/-- setting new columns one after the other: new objects in order -/
theorem tSetAll_values (ps : Nat) (l : List (ν × List α)) (s : Heap α × OTbl ν) (hn : ((s.2.map (·.1)) ++ l.map (·.1)).Nodup) (hb : ∀ i ∈ objs s.2, i < s.1.length) :
    ∃ r, tSetAll ps s (l.map fun x => (x.1, SetVal.values x.2)) = .ok r ∧ (∃ m, r.1 = s.1 ++ m) ∧
      view r.1 r.2 = view s.1 s.2 ++ l.map fun x => (x.1, extend ps [] x.2) := by
  induction l generalizing s with
  | nil => exact ⟨s, rfl, ⟨[], by simp⟩, by simp⟩
  | cons x t ih =>
    have hx : x.1 ∉ s.2.map (·.1) := by
      intro hm
      rw [List.nodup_append] at hn
      exact hn.2.2 _ hm x.1 (by simp) rfl
    have e : dSet x.1 s.1.length s.2 = s.2 ++ [(x.1, s.1.length)] := keys_dSet _ _ _ hx
    obtain ⟨r, h1, ⟨m, h2⟩, h3⟩ := ih (s.1 ++ [extend ps [] x.2], s.2 ++ [(x.1, s.1.length)]) (by simpa [List.nodup_append] using hn) (by
      intro i hi
      simp only [objs, List.map_append, List.mem_append, List.map_cons, List.map_nil, List.mem_singleton] at hi
      simp only [List.length_append, List.length_singleton]
      rcases hi with hi | hi
      · have := hb i hi; omega
      · omega)
    refine ⟨r, ?_, ⟨[extend ps [] x.2] ++ m, by rw [h2]; simp⟩, ?_⟩
    · rw [List.map_cons, tSetAll, tSet]
      dsimp only [Except.bind]
      rw [e]
      exact h1
    · rw [h3]
      have e1 : view (s.1 ++ [extend ps [] x.2]) s.2 = view s.1 s.2 := by
        apply List.map_congr_left
        intro c hc
        rw [colAt_append _ _ _ (hb _ (List.mem_map.2 ⟨c, hc, rfl⟩))]
      have e2 : colAt (s.1 ++ [extend ps [] x.2]) s.1.length = extend ps [] x.2 := by
        simp [colAt]
      rw [view, List.map_append]
      show view (s.1 ++ [extend ps [] x.2]) s.2 ++ _ ++ _ = _
      rw [e1]
      simp [e2]

/-- the table as names and lists -/
def lists (h : Heap α) (t : OTbl ν) : List (ν × List α) := (view h t).map fun c => (c.1, colIter c.2)

/-- C73: a table made from a dictionary of lists has these columns in this order -/
theorem C73_columns (ps : Nat) (hps : 0 < ps) (h : Heap α) (cols : List (ν × List α)) (hn : (cols.map (·.1)).Nodup) :
    ∃ r, tInit ps h (cols.map fun x => (x.1, SetVal.values x.2)) [] [] = .ok r ∧ lists r.1 r.2 = cols := by
  obtain ⟨r, h1, -, h3⟩ := tSetAll_values ps cols (h, []) (by simpa using hn) (by simp [objs])
  refine ⟨r, ?_, ?_⟩
  · rw [tInit, if_neg (by simp), initCols, if_neg (by simp)]
    exact h1
  · rw [lists, h3]
    simp [view, Function.comp_def, extend, colIter_eq, paginate_flatten hps]

/-- the whole claim: a table made from headers and rows has the headers as its columns, and every row -/
def C73_statement : Prop :=
  ∀ (ps : Nat) (h : Heap Nat) (headers : List String) (rows : List (List Nat)) r, 0 < ps → tInit ps h [] headers rows = .ok r →
    (view r.1 r.2).map (·.1) = headers ∧ ∀ i j : Nat, ((lists r.1 r.2)[j]?).bind (fun c : _ × List _ => c.2[i]?) = (rows[i]?).bind fun row => row[j]?

/-- C73: headers and rows give the table with these columns and rows, if there is a row, the headers are different and every row has
a value for each. Missing: the other cases, in which values or columns are lost without an exception -/
theorem C73_partial (ps : Nat) (hps : 0 < ps) (h : Heap α) (headers : List ν) (rows : List (List α)) (hh : headers ≠ []) (hr : rows ≠ [])
    (hn : headers.Nodup) (hw : ∀ row ∈ rows, row.length = headers.length) :
    ∃ r, tInit ps h [] headers rows = .ok r ∧ (view r.1 r.2).map (·.1) = headers ∧
      ∀ i j : Nat, ((lists r.1 r.2)[j]?).bind (fun c : _ × List _ => c.2[i]?) = (rows[i]?).bind fun row => row[j]? := by
  obtain ⟨row, hrow⟩ := List.exists_mem_of_ne_nil _ hr
  have hlen : 0 < row.length := by rw [hw row hrow]; exact List.length_pos_iff.2 hh
  have nul : α := row[0]
  have hhead : (rows.head?.getD []).length = headers.length := by
    cases rows with
    | nil => exact absurd rfl hr
    | cons a t => simpa using hw a (by simp)
  have hz : rowsToCols rows = (List.range headers.length).map fun i => rows.map fun g => g.getD i nul := by
    rw [rowsToCols, hhead]
    exact zipRows_ok nul headers.length rows hr hw
  have hzl : (rowsToCols rows).length = headers.length := by rw [hz]; simp
  have hkeys : (headers.zip (rowsToCols rows)).map (·.1) = headers := by rw [List.map_fst_zip]; omega
  obtain ⟨r, h1, -, h3⟩ := tSetAll_values ps (headers.zip (rowsToCols rows)) (h, []) (by simpa [hkeys] using hn) (by simp [objs])
  have hl : lists r.1 r.2 = headers.zip (rowsToCols rows) := by
    rw [lists, h3]
    simp [view, Function.comp_def, extend, colIter_eq, paginate_flatten hps]
  refine ⟨r, ?_, ?_, ?_⟩
  · rw [tInit, if_neg (by simp), initCols, if_pos ⟨hh, hr⟩, foldl_dSet _ _ _ (by simpa [hkeys] using hn)]
    exact h1
  · rw [h3]
    simp only [view, List.map_nil, List.nil_append, List.map_map]
    rw [← hkeys]
    simp [Function.comp_def, hkeys]
  · intro i j
    rw [hl, hz]
    by_cases hj : j < headers.length
    · rw [show (headers.zip ((List.range headers.length).map fun i => rows.map fun g => g.getD i nul))[j]? =
          some (headers[j], rows.map fun g => g.getD j nul) from List.getElem?_zip_eq_some.2 ⟨by simp [hj], by simp [hj]⟩]
      simp only [Option.bind_some, List.getElem?_map]
      cases hi : rows[i]? with
      | none => rfl
      | some g =>
        have hg : g.length = headers.length := hw g (List.mem_of_getElem? hi)
        simp [List.getElem?_eq_getElem (show j < g.length by omega), List.getD_eq_getElem?_getD]
    · rw [List.getElem?_eq_none (by simp; omega)]
      cases hi : rows[i]? with
      | none => rfl
      | some g =>
        have hg : g.length = headers.length := hw g (List.mem_of_getElem? hi)
        simp [List.getElem?_eq_none (show g.length ≤ j by omega)]

/-- C73: a short row cuts all rows; two equal headers leave one column; without rows the headers are lost -/
theorem C73_loses_fails :
    (∃ r, tInit 10 ([] : Heap Nat) [] ["a", "b"] [[1, 2], [3]] = .ok r ∧ lists r.1 r.2 = [("a", [1, 3])]) ∧
    (∃ r, tInit 10 ([] : Heap Nat) [] ["a", "a"] [[1, 2]] = .ok r ∧ lists r.1 r.2 = [("a", [2])]) ∧
    (∃ r, tInit 10 ([] : Heap Nat) [] ["a", "b"] [] = .ok r ∧ lists r.1 r.2 = []) :=
  ⟨⟨_, rfl, rfl⟩, ⟨_, rfl, rfl⟩, ⟨_, rfl, rfl⟩⟩

/-- C73: columns together with headers or rows are refused -/
theorem C73_conflict (ps : Nat) (h : Heap α) (columns : List (ν × SetVal α)) (headers : List ν) (rows : List (List α)) (hc : columns ≠ [])
    (hr : headers ≠ [] ∨ rows ≠ []) : tInit ps h columns headers rows = .error .value := by
  rw [tInit, if_pos ⟨hc, hr⟩]

theorem C73_fails : ¬ C73_statement := by
  intro h
  have := (h 10 [] ["a", "b"] [] _ (by decide) rfl).1
  revert this
  decide

example : ∃ r, tInit 2 ([] : Heap Nat) [] ["a", "b"] [[1, 2], [3, 4], [5, 6]] = .ok r ∧ lists r.1 r.2 = [("a", [1, 3, 5]), ("b", [2, 4, 6])] := ⟨_, rfl, rfl⟩

/-- C73: `add_columns` with a name that exists empties that column; `add_column` refuses -/
theorem C73_add_columns_fails : lists (tAddColumns ([[[1, 2]]], [("a", 0)]) ["a"]).1 (tAddColumns ([[[1, 2]]], [("a", 0)]) ["a"]).2 = [("a", ([] : List Nat))] ∧
    ∀ (ps : Nat) (s : Heap α × OTbl ν) (name : ν) (v : SetVal α), name ∈ s.2.map (·.1) → tAddColumn ps s name v = .error .value :=
  ⟨rfl, fun ps s name v h => by rw [tAddColumn, if_pos h]⟩

/-! ## C74 -/

theorem pickObjs_ok (t : OTbl ν) (names : List ν) (h : ∀ n ∈ names, n ∈ t.map (·.1)) :
    pickObjs t names = .ok (names.map fun n => (n, (dGet n t).getD 0)) := by
  induction names with
  | nil => rfl
  | cons n l ih =>
    rw [pickObjs]
    obtain ⟨c, hc⟩ := Option.isSome_iff_exists.1 ((dGet_isSome n t).2 (h n (by simp)))
    rw [hc]
    dsimp only
    rw [ih fun m hm => h m (by simp [hm])]
    simp [Except.bind, hc]

theorem sliceObjs_ok (ps : Nat) (t : OTbl ν) (slc : PySlice) (h : Heap α) (names : List ν) (s : Heap α × OTbl ν) (g : ν → Pages α)
    (hb : ∀ i ∈ objs t, i < h.length) (hs : ∃ l, s.1 = h ++ l) (hsb : ∀ i ∈ objs s.2, i < s.1.length) (hn : (s.2.map (·.1) ++ names).Nodup)
    (hg : ∀ n ∈ names, ∃ c, dGet n t = some c ∧ sliceCol ps (colAt h c) slc = .ok (g n)) :
    ∃ r, sliceObjs ps t slc s names = .ok r ∧ view r.1 r.2 = view s.1 s.2 ++ names.map fun n => (n, g n) := by
  induction names generalizing s with
  | nil => exact ⟨s, rfl, by simp⟩
  | cons n u ih =>
    obtain ⟨c, hc, hp⟩ := hg n (by simp)
    obtain ⟨l, hl⟩ := hs
    have hcb : c < h.length := hb c (List.mem_map.2 ⟨_, dGet_mem _ _ _ hc, rfl⟩)
    have hnn : n ∉ s.2.map (·.1) := by
      intro hm
      rw [List.nodup_append] at hn
      exact hn.2.2 _ hm n (by simp) rfl
    have e : dSet n s.1.length s.2 = s.2 ++ [(n, s.1.length)] := keys_dSet _ _ _ hnn
    obtain ⟨r, h1, h2⟩ := ih (s.1 ++ [g n], s.2 ++ [(n, s.1.length)]) ⟨l ++ [g n], by simp [hl]⟩ (by
      intro i hi
      simp only [objs, List.map_append, List.mem_append, List.map_cons, List.map_nil, List.mem_singleton] at hi
      simp only [List.length_append, List.length_singleton]
      rcases hi with hi | hi
      · have := hsb i hi; omega
      · omega) (by simpa using hn) (fun m hm => hg m (by simp [hm]))
    refine ⟨r, ?_, ?_⟩
    · rw [sliceObjs, hc]
      dsimp only
      rw [hl, colAt_append _ _ _ hcb, hp, ← hl]
      dsimp only [Except.bind]
      rw [e]
      exact h1
    · rw [h2]
      have e1 : view (s.1 ++ [g n]) s.2 = view s.1 s.2 := by
        apply List.map_congr_left
        intro c hc
        rw [colAt_append _ _ _ (hsb _ (List.mem_map.2 ⟨c, hc, rfl⟩))]
      have e2 : colAt (s.1 ++ [g n]) s.1.length = g n := by simp [colAt]
      rw [view, List.map_append]
      show view (s.1 ++ [g n]) s.2 ++ _ ++ _ = _
      rw [e1]
      simp [e2]

/-- C74: two or more different names: a table with these columns in the order of the names -/
theorem C74_names (ps : Nat) (h : Heap α) (t : OTbl ν) (names : List ν) (hl : 2 ≤ names.length) (hn : names.Nodup) (hin : ∀ n ∈ names, n ∈ t.map (·.1)) :
    ∃ u, tGet ps h t (names.map .name) = .ok (h, .table u) ∧ u.map (·.1) = names ∧ ∀ n ∈ names, dGet n u = dGet n t := by
  have e1 : (names.map Key.name).filterMap Key.name? = names := by
    rw [List.filterMap_map]
    exact List.filterMap_some
  have e2 : (names.map Key.name).filterMap Key.int? = [] := by simp [List.filterMap_map, Function.comp_def, Key.int?]
  have e3 : keySlices (names.map Key.name) = [] := by
    obtain ⟨a, b, l, rfl⟩ : ∃ a b l, names = a :: b :: l := by
      match names, hl with
      | a :: b :: l, _ => exact ⟨a, b, l, rfl⟩
    have e : keySlices ((a :: b :: l).map Key.name) = ((a :: b :: l).map Key.name).filterMap Key.slice? := rfl
    rw [e, List.filterMap_map]
    simp [Key.slice?, Function.comp_def]
  have e4 : keyNames t (names.map Key.name) = names := by
    rw [keyNames, e1]
    cases names with
    | nil => simp at hl
    | cons a l => rfl
  have ekeys : ((names.map fun n => (n, (dGet n t).getD 0))).map (·.1) = names := by simp [Function.comp_def]
  have efold : (names.map fun n => (n, (dGet n t).getD 0)).foldl (fun d c => dSet c.1 c.2 d) [] = names.map fun n => (n, (dGet n t).getD 0) := by
    rw [foldl_dSet (fun x : Nat => x) _ _ (by simpa [Function.comp_def] using hn)]
    simp
  refine ⟨names.map fun n => (n, (dGet n t).getD 0), ?_, ekeys, ?_⟩
  · rw [tGet, if_neg (by
      have : names ≠ [] := by rintro rfl; simp at hl
      simpa using this), if_neg (by
      rw [e4]
      simp only [List.all_eq_true, not_not]
      intro n hm
      exact (dGet_isSome n t).2 (hin n hm)), e2, e3, e4]
    obtain ⟨a, b, l, rfl⟩ : ∃ a b l, names = a :: b :: l := by
      match names, hl with
      | a :: b :: l, _ => exact ⟨a, b, l, rfl⟩
    dsimp only
    rw [pickObjs_ok t _ hin]
    dsimp only [Except.map]
    rw [efold]
  · intro n hm
    rw [dGet_map, if_pos hm]
    obtain ⟨c, hc⟩ := Option.isSome_iff_exists.1 ((dGet_isSome n t).2 (hin n hm))
    rw [hc]; rfl

/-- **C72**, tables selected by names: a selection of two or more different columns is never independent of the table, whatever the columns hold -/
theorem C72_names_exact (ps : Nat) (asVal : List α → α) (asArg : RowArg ν α → α) (x : α) (h : Heap α) (t : OTbl ν) (ht : ∀ i ∈ objs t, i < h.length) (names : List ν)
    (hl : 2 ≤ names.length) (hn : names.Nodup) (hin : ∀ n ∈ names, n ∈ t.map (·.1)) :
    ∃ u, tGet ps h t (names.map .name) = .ok (h, .table u) ∧ u.map (·.1) = names ∧ ¬ Independent ps asVal asArg h u t := by
  obtain ⟨u, h1, h2, h3⟩ := C74_names ps h t names hl hn hin
  refine ⟨u, h1, h2, ?_⟩
  have hsub : ∀ i ∈ objs u, i ∈ objs t := by
    intro i hi
    obtain ⟨c, hc, rfl⟩ := List.mem_map.1 hi
    have e := dGet_of_mem u (h2 ▸ hn) c hc
    have hcn : c.1 ∈ names := h2 ▸ List.mem_map.2 ⟨c, hc, rfl⟩
    rw [h3 c.1 hcn] at e
    exact List.mem_map.2 ⟨_, dGet_mem _ _ _ e, rfl⟩
  intro hind
  have hx := (C72_exact ps asVal asArg x h u t (fun i hi => ht i (hsub i hi)) ht (h2 ▸ hn)).1 hind
  obtain ⟨c, hc⟩ : ∃ c, c ∈ u := by
    cases u with
    | nil => rw [← h2] at hl; simp at hl
    | cons c u => exact ⟨c, by simp⟩
  exact hx c.2 (List.mem_map.2 ⟨c, hc, rfl⟩) (hsub _ (List.mem_map.2 ⟨c, hc, rfl⟩))

theorem tGet_slice (ps : Nat) (hps : 0 < ps) (h : Heap α) (t : OTbl ν) (hb : ∀ i ∈ objs t, i < h.length) (names : List ν) (slc : PySlice) (keys : List (Key ν))
    (hk : keys ≠ []) (e2 : keys.filterMap Key.int? = []) (e3 : keySlices keys = [slc]) (e4 : keyNames t keys = names)
    (hn : names.Nodup) (hin : ∀ n ∈ names, n ∈ t.map (·.1)) (g : ν → List α)
    (hg : ∀ n c, dGet n t = some c → getSlice (colAt h c) slc = .ok (g n)) :
    ∃ r u, tGet ps h t keys = .ok (r, .table u) ∧ lists r u = names.map fun n => (n, g n) := by
  have hex : ∀ n, ∃ p, n ∈ names → ∃ c, dGet n t = some c ∧ sliceCol ps (colAt h c) slc = .ok p ∧ colIter p = g n := by
    intro n
    by_cases hm : n ∈ names
    · obtain ⟨c, hc⟩ := Option.isSome_iff_exists.1 ((dGet_isSome n t).2 (hin n hm))
      have hv := sliceCol_values ps hps (colAt h c) slc
      rw [hg n c hc] at hv
      cases hp : sliceCol ps (colAt h c) slc with
      | error e => rw [hp] at hv; simp [Except.map] at hv
      | ok p =>
        rw [hp] at hv
        exact ⟨p, fun _ => ⟨c, hc, hp, by simpa [Except.map] using hv⟩⟩
    · exact ⟨[], fun h => absurd h hm⟩
  choose p hp using hex
  obtain ⟨r, h1, h2⟩ := sliceObjs_ok ps t slc h names (h, []) p hb ⟨[], by simp⟩ (by simp [objs]) (by simpa using hn)
    (fun n hm => let ⟨c, hc, hs, _⟩ := hp n hm; ⟨c, hc, hs⟩)
  refine ⟨r.1, r.2, ?_, ?_⟩
  · rw [tGet, if_neg (by simpa using hk), if_neg (by
      rw [e4]
      simp only [List.all_eq_true, not_not]
      intro n hm
      exact (dGet_isSome n t).2 (hin n hm)), e2, e3, e4]
    dsimp only
    rw [h1]
    rfl
  · rw [lists, h2]
    simp only [view, List.map_nil, List.nil_append, List.map_map]
    apply List.map_congr_left
    intro n hm
    obtain ⟨_, _, _, h3⟩ := hp n hm
    simp [h3]

/-- C74: different names and a slice: a table with these columns in the order of the names, each with the values of the slice -/
theorem C74_slice (ps : Nat) (hps : 0 < ps) (h : Heap α) (t : OTbl ν) (hb : ∀ i ∈ objs t, i < h.length) (names : List ν) (slc : PySlice)
    (hne : names ≠ []) (hn : names.Nodup) (hin : ∀ n ∈ names, n ∈ t.map (·.1)) (g : ν → List α)
    (hg : ∀ n c, dGet n t = some c → getSlice (colAt h c) slc = .ok (g n)) :
    ∃ r u, tGet ps h t (names.map .name ++ [.slice slc]) = .ok (r, .table u) ∧ lists r u = names.map fun n => (n, g n) := by
  have e1 : (names.map Key.name ++ [Key.slice slc]).filterMap Key.name? = names := by
    rw [List.filterMap_append, List.filterMap_map, show (Key.name? ∘ Key.name : ν → Option ν) = some from rfl, List.filterMap_some]
    simp [Key.name?]
  have e2 : (names.map Key.name ++ [Key.slice slc]).filterMap Key.int? = [] := by
    simp [List.filterMap_append, List.filterMap_map, Function.comp_def, Key.int?]
  have e3 : keySlices (names.map Key.name ++ [Key.slice slc]) = [slc] := by
    cases names with
    | nil => exact absurd rfl hne
    | cons a l =>
      have e : keySlices ((a :: l).map Key.name ++ [Key.slice slc]) = ((a :: l).map Key.name ++ [Key.slice slc]).filterMap Key.slice? := by
        cases l <;> rfl
      rw [e, List.filterMap_append, List.filterMap_map]
      simp [Key.slice?, Function.comp_def]
  have e4 : keyNames t (names.map Key.name ++ [Key.slice slc]) = names := by
    rw [keyNames, e1]
    cases names with
    | nil => exact absurd rfl hne
    | cons a l => rfl
  exact tGet_slice ps hps h t hb names slc _ (by simp) e2 e3 e4 hn hin g hg

/-- C74: `t[a:b:c]` has all columns, each one cut -/
theorem C74_rows (ps : Nat) (hps : 0 < ps) (h : Heap α) (t : OTbl ν) (hb : ∀ i ∈ objs t, i < h.length) (slc : PySlice) (hn : (t.map (·.1)).Nodup)
    (g : ν → List α) (hg : ∀ n c, dGet n t = some c → getSlice (colAt h c) slc = .ok (g n)) :
    ∃ r u, tGet ps h t [.slice slc] = .ok (r, .table u) ∧ lists r u = (t.map (·.1)).map fun n => (n, g n) :=
  tGet_slice ps hps h t hb (t.map (·.1)) slc [.slice slc] (by simp) rfl rfl rfl hn (fun _ h => h) g hg

/-- a table and a slice that meet the hypotheses of `C74_rows` -/
example : ∃ r u, tGet 2 [[[5, 6], [7, 8]], [[1, 2, 3, 4]]] [("a", 0), ("b", 1)] [.slice { start := some 1, step := some 2 }] = .ok (r, .table u) ∧
    lists r u = [("a", [6, 8]), ("b", [2, 4])] := ⟨_, _, rfl, by decide⟩

/-- the claim in the documentation (base.py:1203): a table has one column for every name given, in the order of the names -/
def C74_statement : Prop :=
  ∀ (ps : Nat) (h : Heap Nat) (t : OTbl String) (names : List String) (rest : List (Key String)) h' u, 2 ≤ names.length →
    tGet ps h t (names.map .name ++ rest) = .ok (h', .table u) → (∀ k ∈ rest, k.name? = none) → u.map (·.1) = names

/-- C74: `t['b', 'a', 'a']` has two columns -/
theorem C74_fails : ¬ C74_statement := by
  intro h
  have := h 10 [[[1]], [[2]]] [("a", 0), ("b", 1)] ["b", "a", "a"] [] [[[1]], [[2]]] [("b", 1), ("a", 0)] (by decide) rfl (by simp)
  revert this
  decide

/-- C74: `t['a', 3]` is the whole column, not the value in row 3 -/
theorem C74_cell_fails : tGet 10 [[[5, 6, 7, 8]], [[1, 2, 3, 4]]] [("a", 0), ("b", 1)] [.name "a", .int 3] =
      .ok ([[[5, 6, 7, 8]], [[1, 2, 3, 4]]], .column 0) ∧
    tGet 10 [[[5, 6, 7, 8]], [[1, 2, 3, 4]]] [("a", 0), ("b", 1)] [.name "b", .name "a", .int 3] =
      .ok ([[[5, 6, 7, 8]], [[1, 2, 3, 4]]], .row [4, 8]) := ⟨rfl, rfl⟩

/-- a table and a slice that meet the hypotheses of `C74_slice` -/
example : ∃ r u, tGet 2 [[[5, 6], [7, 8]], [[1, 2, 3, 4]]] [("a", 0), ("b", 1)] [.name "b", .name "a", .slice { start := some 1, step := some 2 }] = .ok (r, .table u) ∧
    lists r u = [("b", [2, 4]), ("a", [6, 8])] := ⟨_, _, rfl, rfl⟩

end

end Tablite
