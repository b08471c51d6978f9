import Verif.Props.TableObj
import Verif.Props.GroupCut
/-!
# C71, C73, C74: exactly when rows are added to all columns, tables are made as asked for, and columns are selected as asked for
-/

namespace Tablite
set_option linter.unusedSectionVars false

section
variable {ν α : Type} [DecidableEq ν] [DecidableEq α]

/-! ## keys of dictionaries -/

/-- a key is added at the end if it is new -/
def addKey (ks : List ν) (k : ν) : List ν := if k ∈ ks then ks else ks ++ [k]

theorem dSet_keys {β : Type} (k : ν) (v : β) (d : List (ν × β)) : (dSet k v d).map (·.1) = addKey (d.map (·.1)) k := by
  unfold dSet addKey
  induction d with
  | nil => simp [dUpd]
  | cons c d ih =>
    obtain ⟨k', b⟩ := c
    rw [dUpd]
    by_cases h : k' = k
    · subst h; simp
    · rw [if_neg h, List.map_cons, ih, List.map_cons]
      by_cases h2 : k ∈ d.map (·.1)
      · rw [if_pos h2, if_pos (List.mem_cons_of_mem _ h2)]
      · rw [if_neg h2, if_neg (by simp only [List.mem_cons, not_or]; exact ⟨Ne.symm h, h2⟩)]
        rfl

theorem addKey_nodup (ks : List ν) (k : ν) (h : ks.Nodup) : (addKey ks k).Nodup := by
  unfold addKey
  split
  · exact h
  · rename_i hk
    rw [List.nodup_append]
    exact ⟨h, by simp, fun a ha b hb e => by simp at hb; subst hb; subst e; exact hk ha⟩

theorem foldl_addKey_nodup (l ks : List ν) (h : ks.Nodup) : (l.foldl addKey ks).Nodup := by
  induction l generalizing ks with
  | nil => exact h
  | cons a l ih => exact ih _ (addKey_nodup ks a h)

theorem foldl_addKey_id (l ks : List ν) (h : (ks ++ l).Nodup) : l.foldl addKey ks = ks ++ l := by
  induction l generalizing ks with
  | nil => simp
  | cons a l ih =>
    have ha : a ∉ ks := fun hm => (List.nodup_append.1 h).2.2 a hm a (by simp) rfl
    rw [List.foldl_cons, addKey, if_neg ha, ih _ (by simpa using h)]
    simp

/-- inserting names one after the other gives these names if and only if no name occurs twice -/
theorem foldl_addKey_iff (l : List ν) : l.foldl addKey [] = l ↔ l.Nodup :=
  ⟨fun h => h ▸ foldl_addKey_nodup l [] List.nodup_nil, fun h => by simpa using foldl_addKey_id l [] (by simpa using h)⟩

/-! ## C74 -/

theorem pickObjs_keys (t : OTbl ν) (names : List ν) (r : OTbl ν) (h : pickObjs t names = .ok r) : r.map (·.1) = names := by
  induction names generalizing r with
  | nil => cases h; rfl
  | cons n l ih =>
    rw [pickObjs] at h
    split at h
    · cases h
    · obtain ⟨q, h1, h2⟩ := ebind_ok h
      cases h2
      simp [ih q h1]

theorem foldl_dSet_keys {β : Type} (r d : List (ν × β)) : (r.foldl (fun d c => dSet c.1 c.2 d) d).map (·.1) = (r.map (·.1)).foldl addKey (d.map (·.1)) := by
  induction r generalizing d with
  | nil => rfl
  | cons c r ih => rw [List.foldl_cons, ih, dSet_keys]; rfl

theorem sliceObjs_keys (ps : Nat) (t : OTbl ν) (slc : PySlice) (names : List ν) (s r : Heap α × OTbl ν) (h : sliceObjs ps t slc s names = .ok r) :
    r.2.map (·.1) = names.foldl addKey (s.2.map (·.1)) := by
  induction names generalizing s with
  | nil => cases h; rfl
  | cons n l ih =>
    rw [sliceObjs] at h
    split at h
    · cases h
    · obtain ⟨q, h1, h2⟩ := ebind_ok h
      rw [ih _ h2, dSet_keys]
      rfl

theorem tGet_table_keys (ps : Nat) (h : Heap α) (t : OTbl ν) (keys : List (Key ν)) (h' : Heap α) (u : OTbl ν) (he : tGet ps h t keys = .ok (h', .table u)) :
    u.map (·.1) = (keyNames t keys).foldl addKey [] := by
  unfold tGet at he
  split at he
  · cases he
  split at he
  · cases he
  split at he
  · split at he
    · cases he
    · cases he
  · rename_i e1
    cases hm : (keyNames t keys).mapM (cellOf h t _) with
    | error e => rw [hm] at he; cases he
    | ok v => rw [hm] at he; cases he
  · cases hm : pickObjs t (keyNames t keys) with
    | error e => rw [hm] at he; cases he
    | ok v =>
      rw [hm] at he
      cases he
      rw [foldl_dSet_keys, pickObjs_keys t _ v hm]
      rfl
  · rename_i slc _ _ _
    cases hm : sliceObjs ps t slc (h, []) (keyNames t keys) with
    | error e => rw [hm] at he; cases he
    | ok v =>
      rw [hm] at he
      cases he
      exact sliceObjs_keys ps t slc _ (h, []) v hm

/-- **C74, exactly**: a table selected by names, with or without slices, has one column for every name given, in the order of the names, if and only if no
name was given twice -/
theorem C74_exact (ps : Nat) (h : Heap α) (t : OTbl ν) (names : List ν) (rest : List (Key ν)) (h' : Heap α) (u : OTbl ν) (hn : names ≠ [])
    (hr : ∀ k ∈ rest, k.name? = none) (he : tGet ps h t (names.map .name ++ rest) = .ok (h', .table u)) :
    u.map (·.1) = names ↔ names.Nodup := by
  have e1 : (names.map Key.name ++ rest).filterMap Key.name? = names := by
    rw [List.filterMap_append, List.filterMap_map, show (Key.name? ∘ Key.name : ν → Option ν) = some from rfl, List.filterMap_some,
      List.filterMap_eq_nil_iff.2 hr, List.append_nil]
  have e2 : keyNames t (names.map Key.name ++ rest) = names := by
    unfold keyNames
    rw [e1]
    cases names with
    | nil => exact absurd rfl hn
    | cons a l => rfl
  rw [tGet_table_keys ps h t _ h' u he, e2]
  exact foldl_addKey_iff names

/-! ## C73 -/

theorem tSetAll_keys (ps : Nat) (l : List (ν × SetVal α)) (s r : Heap α × OTbl ν) (h : tSetAll ps s l = .ok r) :
    r.2.map (·.1) = (l.map (·.1)).foldl addKey (s.2.map (·.1)) := by
  induction l generalizing s with
  | nil => cases h; rfl
  | cons c l ih =>
    rw [tSetAll] at h
    obtain ⟨q, h1, h2⟩ := ebind_ok h
    rw [ih q h2, List.map_cons, List.foldl_cons]
    congr 1
    cases hc : c.2 <;> rw [hc] at h1 <;> cases h1 <;> exact dSet_keys _ _ _

theorem rowsToCols_le (rows : List (List α)) (row : List α) (hrow : row ∈ rows) : (rowsToCols rows).length ≤ row.length := by
  have hne : rows ≠ [] := by rintro rfl; cases hrow
  have hmin : ∀ l : List (List α), l ≠ [] → ∃ g ∈ l, ∀ x ∈ l, g.length ≤ x.length := by
    intro l
    induction l with
    | nil => intro h; exact absurd rfl h
    | cons a l ih =>
      intro _
      by_cases hl : l = []
      · subst hl; exact ⟨a, by simp, by simp⟩
      · obtain ⟨g, hg, hm⟩ := ih hl
        by_cases hag : a.length ≤ g.length
        · exact ⟨a, by simp, fun x hx => by
            rcases List.mem_cons.1 hx with rfl | hx
            · exact le_refl _
            · exact hag.trans (hm x hx)⟩
        · exact ⟨g, by simp [hg], fun x hx => by
            rcases List.mem_cons.1 hx with rfl | hx
            · omega
            · exact hm x hx⟩
  obtain ⟨g, hg, hm⟩ := hmin rows hne
  by_cases h0 : g = []
  · have hz : ∀ (n : Nat) (gs : List (List α)), [] ∈ gs → zipRows n gs = [] := by
      intro n gs hgs
      cases n with
      | zero => rfl
      | succ n =>
        unfold zipRows
        split
        · rfl
        · have : ∀ l : List (List α), [] ∈ l → ∃ e, nextAll l = .error e := by
            intro l
            induction l with
            | nil => intro h; cases h
            | cons a l ih =>
              intro h
              cases a with
              | nil => exact ⟨_, rfl⟩
              | cons x a =>
                obtain ⟨e, he⟩ := ih (by simpa using h)
                exact ⟨e, by rw [nextAll, he]; rfl⟩
          obtain ⟨e, he⟩ := this gs hgs
          rw [he]
    unfold rowsToCols
    rw [hz _ _ (h0 ▸ hg)]
    simp
  · obtain ⟨v, g', rfl⟩ := List.exists_cons_of_ne_nil h0
    have hhead : (v :: g').length ≤ (rows.head?.getD []).length := by
      cases rows with
      | nil => exact absurd rfl hne
      | cons a l => exact hm a (by simp)
    unfold rowsToCols
    rw [zipRows_min v (v :: g').length _ rows hne hhead hm ⟨_, hg, rfl⟩]
    simpa using hm row hrow

/-- **C73, exactly**: a table made from headers and rows has the headers as its columns and every row if and only if the headers are different, there is a row, and
every row has as many values as there are headers (or there are no headers and no values) -/
theorem C73_exact (ps : Nat) (hps : 0 < ps) (h : Heap α) (headers : List ν) (rows : List (List α)) (r : Heap α × OTbl ν)
    (he : tInit ps h [] headers rows = .ok r) :
    ((view r.1 r.2).map (·.1) = headers ∧ ∀ i j : Nat, ((lists r.1 r.2)[j]?).bind (fun c : _ × List _ => c.2[i]?) = (rows[i]?).bind fun row => row[j]?) ↔
      headers.Nodup ∧ (∀ row ∈ rows, row.length = headers.length) ∧ (headers ≠ [] → rows ≠ []) := by
  have hvk : (view r.1 r.2).map (·.1) = r.2.map (·.1) := by simp [view, Function.comp_def]
  have hll : (lists r.1 r.2).length = r.2.length := by simp [lists, view]
  constructor
  · rintro ⟨h1, h2⟩
    rw [hvk] at h1
    have hlen : r.2.length = headers.length := by
      have := congrArg List.length h1
      simpa using this
    have he' := he
    rw [tInit, if_neg (by simp)] at he'
    have hk := tSetAll_keys ps _ (h, []) r he'
    rw [h1] at hk
    have hnd : headers.Nodup := hk ▸ foldl_addKey_nodup _ _ List.nodup_nil
    have hge : headers ≠ [] → rows ≠ [] := by
      rintro hh rfl
      rw [initCols, if_neg (by simp)] at hk
      exact hh hk
    refine ⟨hnd, fun row hrow => ?_, hge⟩
    obtain ⟨i, hi, rfl⟩ := List.getElem_of_mem hrow
    have hup : rows[i].length ≤ headers.length := by
      by_contra hlt
      have := h2 i headers.length
      rw [List.getElem?_eq_none (by omega), List.getElem?_eq_getElem hi] at this
      simp only [Option.bind_none, Option.bind_some] at this
      rw [List.getElem?_eq_getElem (by omega)] at this
      cases this
    by_cases hh : headers = []
    · subst hh
      simp at hup
      simp [hup]
    have hr : rows ≠ [] := hge hh
    rw [initCols, if_pos ⟨hh, hr⟩] at hk
    have hcount : ∀ (l ks : List ν), (l.foldl addKey ks).length ≤ ks.length + l.length := by
      intro l
      induction l with
      | nil => intro ks; simp
      | cons a l ih =>
        intro ks
        refine (ih _).trans ?_
        unfold addKey
        split <;> simp <;> omega
    have hk2 := congrArg List.length hk
    have hb := hcount (((headers.zip (rowsToCols rows)).foldl (fun d x => dSet x.1 (SetVal.values x.2) d) []).map (·.1)) (([] : OTbl ν).map (·.1))
    have hkeys : ((headers.zip (rowsToCols rows)).foldl (fun d x => dSet x.1 (SetVal.values x.2) d) ([] : List (ν × SetVal α))).map (·.1) =
        ((headers.zip (rowsToCols rows)).map (·.1)).foldl addKey [] := by
      have H : ∀ (l : List (ν × List α)) (d : List (ν × SetVal α)), (l.foldl (fun d x => dSet x.1 (SetVal.values x.2) d) d).map (·.1) = (l.map (·.1)).foldl addKey (d.map (·.1)) := by
        intro l
        induction l with
        | nil => intro d; rfl
        | cons c l ih => intro d; rw [List.foldl_cons, ih, dSet_keys]; rfl
      exact H _ []
    rw [hkeys] at hb
    have hb2 := hcount ((headers.zip (rowsToCols rows)).map (·.1)) []
    rw [hkeys] at hk2
    have hz : ((headers.zip (rowsToCols rows)).map (·.1)).length ≤ rows[i].length := by
      rw [List.length_map, List.length_zip]
      exact (Nat.min_le_right _ _).trans (rowsToCols_le rows _ hrow)
    simp only [List.map_nil, List.length_nil, Nat.zero_add] at hb hb2
    simp only [List.map_nil] at hk2
    omega
  · rintro ⟨hnd, hw, hge⟩
    by_cases hh : headers = []
    · subst hh
      rw [tInit, if_neg (by simp), initCols, if_neg (by simp), tSetAll] at he
      cases he
      refine ⟨rfl, fun i j => ?_⟩
      cases hi : rows[i]? with
      | none => rfl
      | some g =>
        have := hw g (List.mem_of_getElem? hi)
        have hg : g = [] := List.eq_nil_of_length_eq_zero (by simpa using this)
        subst hg
        rfl
    · obtain ⟨r', h1, h2, h3⟩ := C73_partial ps hps h headers rows hh (hge hh) hnd hw
      rw [he] at h1
      cases h1
      exact ⟨h2, h3⟩

/-! ## C71 -/

/-- what keyword arguments give a column: nothing if it is not named; its list if all arguments are lists; else its argument as one value -/
inductive KwGives (asVal : List α → α) (kw : List (ν × (List α ⊕ α))) (x : ν) : List α → Prop
  | unnamed : x ∉ kw.map (·.1) → KwGives asVal kw x []
  | list (l : List α) : (∀ y ∈ kw, ∃ l', y.2 = .inl l') → (x, .inl l) ∈ kw → KwGives asVal kw x l
  | value (v : α) : (x, .inr v) ∈ kw → KwGives asVal kw x [v]
  | asValue (l : List α) (y : ν) (v : α) : (y, .inr v) ∈ kw → (x, .inl l) ∈ kw → KwGives asVal kw x [asVal l]

theorem kwGives_iff (asVal : List α → α) (kw : List (ν × (List α ⊕ α))) (hk : (kw.map (·.1)).Nodup) (x : ν) (l : List α) :
    KwGives asVal kw x l ↔ (dGet x (kwLists asVal kw)).getD [] = l := by
  have hkeys : (kwLists asVal kw).map (·.1) = kw.map (·.1) := by
    rw [kwLists]; split <;> simp [Function.comp_def]
  have hall : (kw.all fun x => x.2.isLeft) = true ↔ ∀ y ∈ kw, ∃ l', y.2 = .inl l' := by
    rw [List.all_eq_true]
    constructor
    · intro h y hy
      cases e : y.2 with
      | inl l' => exact ⟨l', rfl⟩
      | inr v => have := h y hy; rw [e] at this; cases this
    · intro h y hy
      obtain ⟨l', e⟩ := h y hy
      rw [e]; rfl
  have hmem : ∀ w, (x, w) ∈ kw → dGet x (kwLists asVal kw) =
      some (if (kw.all fun x => x.2.isLeft) = true then w.elim id fun v => [v] else [w.elim asVal id]) := by
    intro w hw
    refine dGet_of_mem _ (by rw [hkeys]; exact hk) (x, if (kw.all fun x => x.2.isLeft) = true then w.elim id fun v => [v] else [w.elim asVal id]) ?_
    rw [kwLists]
    split
    · exact List.mem_map.2 ⟨(x, w), hw, rfl⟩
    · exact List.mem_map.2 ⟨(x, w), hw, rfl⟩
  constructor
  · intro h
    cases h with
    | unnamed hx =>
      have : dGet x (kwLists asVal kw) = none := by
        cases hd : dGet x (kwLists asVal kw) with
        | none => rfl
        | some c => exact absurd ((dGet_isSome x _).1 (by rw [hd]; rfl)) (by rw [hkeys]; exact hx)
      rw [this]; rfl
    | list l hl hx => rw [hmem _ hx, if_pos (hall.2 hl)]; rfl
    | value v hx =>
      rw [hmem _ hx]
      split <;> rfl
    | asValue l y v hy hx =>
      rw [hmem _ hx, if_neg]
      · rfl
      · intro hc
        obtain ⟨l', e⟩ := hall.1 hc _ hy
        cases e
  · rintro rfl
    by_cases hx : x ∈ kw.map (·.1)
    · obtain ⟨⟨x', w⟩, hw, e⟩ := List.mem_map.1 hx
      cases e
      rw [hmem _ hw]
      cases w with
      | inr v =>
        have : (if (kw.all fun x => x.2.isLeft) = true then (Sum.inr v : List α ⊕ α).elim id fun v => [v] else [(Sum.inr v : List α ⊕ α).elim asVal id]) = [v] := by
          split <;> rfl
        rw [this]
        exact .value v hw
      | inl l =>
        by_cases hc : (kw.all fun x => x.2.isLeft) = true
        · rw [if_pos hc]; exact .list l (hall.1 hc) hw
        · rw [if_neg hc]
          rw [hall] at hc
          obtain ⟨y, hc⟩ := Classical.not_forall.1 hc
          obtain ⟨hy, hc⟩ := Classical.not_imp.1 hc
          obtain ⟨y1, y2⟩ := y
          cases y2 with
          | inl l' => exact absurd ⟨l', rfl⟩ hc
          | inr v => exact .asValue l y1 v hy hw
    · have : dGet x (kwLists asVal kw) = none := by
        cases hd : dGet x (kwLists asVal kw) with
        | none => rfl
        | some c => exact absurd ((dGet_isSome x _).1 (by rw [hd]; rfl)) (by rw [hkeys]; exact hx)
      rw [this]
      exact .unnamed hx

/-- **C71, keyword arguments that name columns of the table**: every column gets exactly what the arguments give it, after its values -/
theorem C71_named (ps : Nat) (hps : 0 < ps) (asVal : List α → α) (asArg : RowArg ν α → α) (h : Heap α) (t : OTbl ν) (hw : OWF h t)
    (kw : List (ν × (List α ⊕ α))) (hk : (kw.map (·.1)).Nodup) (hs : ∀ x ∈ kw, x.1 ∈ t.map (·.1)) :
    (tAddRows ps asVal asArg h t ⟨[], kw⟩).2 = none ∧
    ∀ x ∈ t.map (·.1), ∀ l, KwGives asVal kw x l ↔ valsAt (tAddRows ps asVal asArg h t ⟨[], kw⟩).1 t x = valsAt h t x ++ l := by
  obtain ⟨h', e, -, hv, -⟩ := C71_kwargs ps hps asVal h t hw kw hk hs
  have e' : tAddRows ps asVal asArg h t ⟨[], kw⟩ = (h', none) := by
    unfold tAddRows addArgs
    rw [if_pos (by rfl)]
    exact e
  rw [e']
  refine ⟨rfl, fun x hx l => ?_⟩
  rw [kwGives_iff asVal kw hk, hv x hx, List.append_cancel_left_eq]

/-- **C71, exactly**, keyword arguments that name columns of the table: the call does not raise, and leaves a rectangular table if and only if all columns get
the same number of values, where a column that is not named gets none -/
theorem C71_exact (ps : Nat) (hps : 0 < ps) (asVal : List α → α) (asArg : RowArg ν α → α) (h : Heap α) (t : OTbl ν) (n : Nat) (hw : OWF h t) (hr : RectAt h t n)
    (kw : List (ν × (List α ⊕ α))) (hk : (kw.map (·.1)).Nodup) (hs : ∀ x ∈ kw, x.1 ∈ t.map (·.1)) :
    (tAddRows ps asVal asArg h t ⟨[], kw⟩).2 = none ∧
    ((∃ m, RectAt (tAddRows ps asVal asArg h t ⟨[], kw⟩).1 t m) ↔
      ∃ m, ∀ x ∈ t.map (·.1), ∀ l, KwGives asVal kw x l → l.length = m) := by
  simp only [kwGives_iff asVal kw hk, forall_eq']
  obtain ⟨h', e, -, hv, -⟩ := C71_kwargs ps hps asVal h t hw kw hk hs
  have e' : tAddRows ps asVal asArg h t ⟨[], kw⟩ = (h', none) := by
    unfold tAddRows addArgs
    rw [if_pos (by rfl)]
    exact e
  rw [e']
  refine ⟨rfl, ?_⟩
  constructor
  · rintro ⟨m, hm⟩
    refine ⟨m - n, fun x hx => ?_⟩
    have := hm x hx
    rw [hv x hx, List.length_append, hr x hx] at this
    omega
  · rintro ⟨m, hm⟩
    refine ⟨n + m, fun x hx => ?_⟩
    show (valsAt h' t x).length = n + m
    rw [hv x hx, List.length_append, hr x hx, hm x hx]

/-- C71, an unknown name among the keyword arguments: KeyError, after the columns named before it got their values -/
theorem C71_unknown (ps : Nat) (hps : 0 < ps) (asVal : List α → α) (asArg : RowArg ν α → α) (h : Heap α) (t : OTbl ν) (hw : OWF h t)
    (kw : List (ν × (List α ⊕ α))) (pre post : List (ν × List α)) (y : ν) (l : List α) (hsplit : kwLists asVal kw = pre ++ (y, l) :: post)
    (hk : (pre.map (·.1)).Nodup) (hs : ∀ x ∈ pre, x.1 ∈ t.map (·.1)) (hy : y ∉ t.map (·.1)) :
    (tAddRows ps asVal asArg h t ⟨[], kw⟩).2 = some .key ∧
    ∀ x ∈ t.map (·.1), valsAt (tAddRows ps asVal asArg h t ⟨[], kw⟩).1 t x = valsAt h t x ++ (dGet x pre).getD [] := by
  obtain ⟨h', e, -, hv, -⟩ := valsAt_extendAll ps hps t pre h hw hk hs
  have happ : ∀ (d d' : List (ν × List α)) (h0 h1 : Heap α), extendAll ps t h0 d = (h1, none) → extendAll ps t h0 (d ++ d') = extendAll ps t h1 d' := by
    intro d
    induction d with
    | nil => intro d' h0 h1 h2; cases h2; rfl
    | cons c d ih =>
      intro d' h0 h1 h2
      rw [extendAll] at h2
      rw [List.cons_append, extendAll]
      split at h2
      · cases h2
      · exact ih d' _ _ h2
  have e' : tAddRows ps asVal asArg h t ⟨[], kw⟩ = (h', some .key) := by
    unfold tAddRows addArgs
    rw [if_pos (by rfl)]
    show extendAll ps t h (kwLists asVal kw) = _
    rw [hsplit, happ pre _ h h' e, extendAll]
    have : dGet y t = none := by
      cases hd : dGet y t with
      | none => rfl
      | some c => exact absurd ((dGet_isSome y t).1 (by rw [hd]; rfl)) hy
    rw [this]
  rw [e']
  exact ⟨rfl, hv⟩

end

/-- values that meet the assumptions: names twice; a short row; a column that is not named -/
example : tGet 10 ([[[1]], [[2]]] : Heap Nat) [("a", 0), ("b", 1)] (["b", "a", "a"].map .name ++ []) = .ok ([[[1]], [[2]]], .table [("b", 1), ("a", 0)]) := rfl
example : ∃ r, tInit 10 ([] : Heap Nat) [] ["a", "b"] [[1, 2], [3]] = .ok r := ⟨_, rfl⟩
example : OWF [[[1]], [[2]]] [("a", 0), ("b", 1)] ∧ RectAt [[[1]], [[2]]] [("a", 0), ("b", 1)] 1 ∧
    ¬ ∃ m, ∀ x ∈ ["a", "b"], ∀ l, KwGives List.sum [("a", .inr 5)] x l → l.length = m := by
  refine ⟨by unfold OWF objs; decide, by unfold RectAt; decide, ?_⟩
  rintro ⟨m, h⟩
  have h1 := h "a" (by simp) [5] (.value 5 (by simp))
  have h2 := h "b" (by simp) [] (.unnamed (by simp))
  exact absurd (h1.trans h2.symm) (by decide)

end Tablite
