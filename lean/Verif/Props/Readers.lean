import Verif.Props.AddedCols
import Verif.Props.SaveLoad
import Verif.Model.Hdf5
import Verif.Model.Pandas
/-!
# C135: grouping a table that was read

Worksheets, HDF5 files, JSON and data frames are read into full pages, so that a table with columns of one length can be grouped.  `load` takes the pages of the archive one by one: a page is cut when it is
longer than the page size, but short pages stay short.  So a saved table keeps its pages, and what a group-by loses before `save` it loses after `load`.
-/

namespace Tablite

section
variable {ν α : Type} [DecidableEq ν]

/-- all pages but the last are full (spec vocabulary) -/
def FullPages (ps : Nat) (t : Tbl ν α) : Prop := ∀ c ∈ t, c.2.map List.length = layoutOf ps (colIter c.2).length

theorem full_paginate (ps : Nat) (hps : 0 < ps) (v : List α) : (paginate ps v).map List.length = layoutOf ps (colIter (paginate ps v)).length := by
  rw [paginate_layout, colIter_eq, paginate_flatten hps]

theorem dSet_cases {β : Type} (k : ν) (v : β) (d : List (ν × β)) (c : ν × β) (hc : c ∈ dSet k v d) : c = (k, v) ∨ c ∈ d := by
  induction d with
  | nil => simp [dSet, dUpd] at hc; exact .inl hc
  | cons a d ih =>
    unfold dSet dUpd at hc
    split at hc
    · rcases List.mem_cons.1 hc with h | h
      · left; rw [h]; simp_all
      · exact .inr (List.mem_cons_of_mem _ h)
    · rcases List.mem_cons.1 hc with h | h
      · exact .inr (h ▸ List.mem_cons_self)
      · rcases ih h with h | h
        · exact .inl h
        · exact .inr (List.mem_cons_of_mem _ h)

/-- a table made from lists: every column is cut into full pages, also when a name occurs twice -/
theorem tSetAll_full (ps : Nat) (hps : 0 < ps) (l : List (ν × List α)) (s r : Heap α × OTbl ν) (hs : (∀ i ∈ objs s.2, i < s.1.length) ∧ FullPages ps (view s.1 s.2))
    (h : tSetAll ps s (l.map fun x => (x.1, SetVal.values x.2)) = .ok r) : FullPages ps (view r.1 r.2) := by
  induction l generalizing s with
  | nil => injection h with h; exact h ▸ hs.2
  | cons x l ih =>
    rw [List.map_cons, tSetAll, tSet] at h
    dsimp only [Except.bind] at h
    refine ih (s.1 ++ [extend ps [] x.2], dSet x.1 s.1.length s.2) ⟨?_, ?_⟩ h
    · intro i hi
      obtain ⟨c, hc, rfl⟩ := List.mem_map.1 hi
      rw [List.length_append, List.length_singleton]
      rcases dSet_cases _ _ _ c hc with rfl | hc
      · exact Nat.lt_succ_self _
      · exact Nat.lt_succ_of_lt (hs.1 _ (List.mem_map.2 ⟨c, hc, rfl⟩))
    · intro c hc
      obtain ⟨y, hy, rfl⟩ := List.mem_map.1 hc
      dsimp only
      rcases dSet_cases _ _ _ y hy with rfl | hy
      · have : colAt (s.1 ++ [extend ps [] x.2]) s.1.length = paginate ps x.2 := by simp [colAt, extend]
        rw [this]
        exact full_paginate ps hps _
      · have hlt := hs.1 _ (List.mem_map.2 ⟨y, hy, rfl⟩)
        have : colAt (s.1 ++ [extend ps [] x.2]) y.2 = colAt s.1 y.2 := by
          unfold colAt
          rw [List.getD_eq_getElem?_getD, List.getD_eq_getElem?_getD, List.getElem?_append_left hlt]
        rw [this]
        exact hs.2 _ (List.mem_map.2 ⟨y, hy, rfl⟩)

theorem tInit_full (ps : Nat) (hps : 0 < ps) (h : Heap α) (l : List (ν × List α)) (r : Heap α × OTbl ν) (hr : tInit ps h (l.map fun x => (x.1, SetVal.values x.2)) [] [] = .ok r) :
    FullPages ps (view r.1 r.2) := by
  rw [tInit, if_neg (by simp), initCols, if_neg (by simp)] at hr
  exact tSetAll_full ps hps l (h, []) r ⟨by simp [objs], by simp [FullPages, view]⟩ hr

end

/-! ## the readers -/

section
variable {O : Type}

/-- a table was read from a worksheet, an HDF5 file, JSON or a data frame (spec vocabulary) -/
inductive ReadBy (ps : Nat) : Tbl PyText (PV O) → Prop
  | excel (str_ : PV O → PyText) (R : XlsRuntime O) (hR : XlsRuntimeOk R) (o : SheetOpts) (sheet : List (List (PV O))) (header : List (PV O)) (hh : sheet[o.headerRow]? = some header)
      (hw : ∀ r ∈ sheet, r.length = header.length) (hcols : ∀ cols, o.columns = some cols → ∀ k ∈ cols, k ∈ excelHeaders str_ o.headers header)
      (hc : ∀ r ∈ (sheet.drop (o.headerRow + (if o.headers then 1 else 0) + o.start.toNat)).take (o.limit.toNat + 1),
        ∀ x ∈ excelWanted (excelHeaders str_ o.headers header) o.columns, XlsCell R (sheetCell r x.2)) (t : Tbl PyText (PV O)) (h : excelRead str_ R ps o sheet = .ok t) : ReadBy ps t
  | ods (str_ : PV O → PyText) (o : SheetOpts) (sheet : List (List (PV O))) (t : Tbl PyText (PV O)) (h : odsRead str_ ps o sheet = .ok t) : ReadBy ps t
  | hdf5 (R : GuessRt O) (numText : PV O → PyText) (toFloat : Int → Dbl) (f : List (PyText × H5Data O)) (t : Tbl PyText (PV O)) (h : fromHdf5 R numText toFloat ps f = .ok t) : ReadBy ps t
  | json (R : Runtime O) (mk : PyText → Nat → PyText) (rowId : PyText) (u : Tbl PyText (PV O)) (r : Heap (PV O) × OTbl PyText) (h : jsonRoundtrip R ps mk rowId u = .ok r) : ReadBy ps (view r.1 r.2)
  | pandas (heap : Heap (PV O)) (df : List (PyText × List (PV O))) (r : Heap (PV O) × OTbl PyText) (h : fromPandas ps heap df = .ok r) : ReadBy ps (view r.1 r.2)

/-- C135: what is read is cut into full pages -/
theorem C135_pages (ps : Nat) (hps : 0 < ps) (t : Tbl PyText (PV O)) (h : ReadBy ps t) : FullPages ps t := by
  cases h with
  | excel str_ R hR o sheet header hh hw hcols hc _ h =>
    have hopt : 0 ≤ o.start ∧ 0 < o.limit := by
      unfold excelRead at h
      split at h
      · split at h
        · exact ⟨by assumption, by assumption⟩
        · cases h
      · cases h
    obtain ⟨fields, -, h2⟩ := C89_excel str_ R hR ps hps o hopt.1 hopt.2 sheet header hh hw hcols hc
    rw [h] at h2
    injection h2 with h2
    subst h2
    intro c hc
    obtain ⟨x, -, rfl⟩ := List.mem_map.1 hc
    exact full_paginate ps hps _
  | ods str_ o sheet _ h =>
    unfold odsRead at h
    dsimp only at h
    split at h
    · split at h
      · split at h
        · cases h
        · injection h with h
          subst h
          intro c hc
          obtain ⟨x, -, rfl⟩ := List.mem_map.1 hc
          exact full_paginate ps hps _
      · cases h
    · cases h
  | hdf5 R numText toFloat f _ h =>
    intro c hc
    obtain ⟨x, -, hx⟩ := mapM_mem _ _ _ h c hc
    unfold h5Get at hx
    split at hx
    · cases hx
    · obtain ⟨v, -, hv⟩ := ebind_ok hx
      injection hv with hv
      subst hv
      exact full_paginate ps hps _
  | json R mk rowId u r h =>
    obtain ⟨q, -, hq⟩ := ebind_ok h
    refine tInit_full ps hps [] (q.1.map fun c => (c.1, c.2.map jsonValue)) r ?_
    rw [List.map_map]
    exact hq
  | pandas heap df r h => exact tInit_full ps hps heap df r h

end

/-! ## load -/

section
variable {ν η α : Type} [DecidableEq ν] [DecidableEq η]

omit [DecidableEq ν] in
theorem loadCol_layout (ps : Nat) (z : List (η × Entry ν η α)) (c : List (η × List α)) (h : ∀ p ∈ c, readPage z p.1 = .ok p.2) (init : Pages α) :
    ∃ q, (c.map (·.1)).foldlM (fun col name => do .ok (extend ps col (← readPage z name))) init = .ok q ∧
      q = init ++ c.flatMap fun p => paginate ps p.2 := by
  induction c generalizing init with
  | nil => exact ⟨init, rfl, by simp⟩
  | cons p c ih =>
    have hp := h p (by simp)
    obtain ⟨q, h1, h2⟩ := ih (fun x hx => h x (by simp [hx])) (extend ps init p.2)
    refine ⟨q, ?_, ?_⟩
    · simp only [List.map_cons, List.foldlM_cons, hp]
      exact h1
    · rw [h2, extend]; simp

theorem loadCols_layout (ps : Nat) (z : List (η × Entry ν η α)) (t : NTbl ν η α) (hn : (t.map (·.1)).Nodup)
    (h : ∀ c ∈ t, ∀ p ∈ c.2, readPage z p.1 = .ok p.2) (init : Tbl ν α) (hd : ∀ c ∈ t, c.1 ∉ init.map (·.1)) :
    (t.map fun c => (c.1, c.2.map (·.1))).foldlM (fun r c => do .ok (tblSet r c.1 (← loadCol ps z c.2))) init =
      .ok (init ++ t.map fun c => (c.1, c.2.flatMap fun p => paginate ps p.2)) := by
  induction t generalizing init with
  | nil => simp; rfl
  | cons c t ih =>
    simp only [List.map_cons, List.nodup_cons] at hn
    obtain ⟨q, h1, h2⟩ := loadCol_layout ps z c.2 (h c (by simp)) []
    have hnew : dUpd [] c.1 (fun _ => q) init = init ++ [(c.1, q)] := dUpd_new _ _ _ _ (hd c (by simp))
    have := ih hn.2 (fun c' hc' => h c' (by simp [hc'])) (init ++ [(c.1, q)]) (by
        intro c' hc'
        simp only [List.map_append, List.map_cons, List.map_nil, List.mem_append, List.mem_singleton, not_or]
        refine ⟨hd c' (by simp [hc']), ?_⟩
        intro e
        exact hn.1 (e ▸ List.mem_map.2 ⟨c', hc', rfl⟩))
    simp only [List.map_cons, List.foldlM_cons]
    have e : loadCol ps z (c.2.map (·.1)) = .ok q := h1
    rw [e]
    show (t.map fun c => (c.1, c.2.map (·.1))).foldlM _ (dUpd [] c.1 (fun _ => q) init) = _
    rw [hnew, this, h2]
    simp

/-- C135: what `load` gives, page by page -/
theorem C135_load (ps : Nat) (yml : η) (ord : List (η × List α) → List (η × List α)) (hord : ∀ l x, x ∈ ord l ↔ x ∈ l) (t : NTbl ν η α) (h : t.Ok yml) (hne : ∃ c ∈ t, c.2 ≠ []) :
    ∃ z, tblSave yml ord t = .ok z ∧ tblLoad ps yml z = .ok (t.tbl.map fun c => (c.1, c.2.flatMap fun p => paginate ps p)) := by
  refine ⟨archive yml ord t, ?_, ?_⟩
  · unfold tblSave
    rw [if_neg]
    obtain ⟨c, hc, hp⟩ := hne
    intro hs
    rw [sum_zero_iff] at hs
    exact hp (List.length_eq_zero_iff.1 (hs _ (List.mem_map.2 ⟨c, hc, rfl⟩)))
  · unfold tblLoad
    rw [zipRead_yml yml ord hord t h]
    refine (loadCols_layout ps (archive yml ord t) t h.names (fun c hc p hp => readPage_ok yml ord hord t h c hc p hp) [] (by simp)).trans ?_
    rw [List.nil_append, NTbl.tbl, List.map_map]
    congr 1
    refine List.map_congr_left fun c _ => ?_
    simp [List.flatMap_map]

/-- the places where a loaded column is cut -/
theorem loaded_layout (ps : Nat) (p : Pages α) : (p.flatMap fun a => paginate ps a).map List.length = (p.map List.length).flatMap (layoutOf ps) := by
  induction p with
  | nil => rfl
  | cons a p ih => rw [List.flatMap_cons, List.map_append, ih, paginate_layout, List.map_cons, List.flatMap_cons]

theorem loaded_flatten (ps : Nat) (hps : 0 < ps) (p : Pages α) : (p.flatMap fun a => paginate ps a).flatten = p.flatten := by
  induction p with
  | nil => rfl
  | cons a p ih => rw [List.flatMap_cons, List.flatten_append, ih, paginate_flatten hps, List.flatten_cons]

end

section
variable {ν α : Type} [DecidableEq ν]

theorem dGet_load (ps : Nat) (x : ν) (t : Tbl ν α) (p : Pages α) (h : dGet x t = some p) :
    dGet x (t.map fun c => (c.1, c.2.flatMap fun q => paginate ps q)) = some (p.flatMap fun q => paginate ps q) := by
  induction t with
  | nil => cases h
  | cons a t ih =>
    rw [List.map_cons]
    unfold dGet at h ⊢
    by_cases hx : a.1 = x
    · rw [if_pos hx] at h ⊢
      injection h with h
      rw [h]
    · rw [if_neg hx] at h ⊢
      exact ih h

omit [DecidableEq ν] in
theorem rect_load (ps : Nat) (hps : 0 < ps) (t : Tbl ν α) (n : Nat) (ht : Rect t n) : Rect (t.map fun c => (c.1, c.2.flatMap fun q => paginate ps q)) n := by
  intro c hc
  obtain ⟨a, ha, rfl⟩ := List.mem_map.1 hc
  have := ht a ha
  rw [colLen_eq] at this ⊢
  rw [loaded_flatten ps hps]
  exact this

theorem load_groups {φ σ : Type} [DecidableEq α] (nul : α) (init : φ → σ) (upd : φ → σ → α → Except Err σ) (val : φ → σ → Except Err α) (nm : φ → ν → ν) (ps ps' : Nat) (hps : 0 < ps) (hps' : 0 < ps') (t : Tbl ν α) (n : Nat)
    (L : List Nat) (hL : ∀ c ∈ t, (c.2.map List.length).flatMap (layoutOf ps) = L) (hsum : L.sum = n) (keys : List ν) (functions : List (ν × φ)) (hin : ∀ a ∈ keys ++ functions.map (·.1), a ∈ t.map (·.1))
    (hsome : keys.length + functions.length ≠ 0) (hnd : (keys ++ functions.map fun f => nm f.2 f.1).Nodup) :
    GroupsOk nul init upd val nm ps' (t.map fun c => (c.1, c.2.flatMap fun q => paginate ps q)) n keys functions := by
  rw [← hsum]
  refine C33_partial nul init upd val nm ps' hps' _ L keys functions (fun a ha => ?_) hsome hnd
  obtain ⟨p, hp⟩ := Option.isSome_iff_exists.1 ((dGet_isSome a t).2 (hin a ha))
  exact ⟨_, dGet_load ps a t p hp, by rw [loaded_layout]; exact hL _ (dGet_some_mem _ _ _ hp)⟩

theorem layoutOf_flat_sum (ps : Nat) (hps : 0 < ps) (L : List Nat) : (L.flatMap (layoutOf ps)).sum = L.sum := by
  induction L with
  | nil => rfl
  | cons a L ih => rw [List.flatMap_cons, List.sum_append, ih, (layoutOf_pos ps a hps).2, List.sum_cons]

theorem layoutOf_one (n : Nat) : layoutOf 1 n = List.replicate n 1 := by
  have h1 : ∀ a ∈ layoutOf 1 n, a = 1 := by
    intro a ha
    have hp := (layoutOf_pos 1 n (by omega)).1 a ha
    unfold layoutOf at ha
    obtain ⟨q, hq, rfl⟩ := List.mem_map.1 ha
    have := (paginate_sizes (by omega) _ q hq).2
    omega
  have h2 := List.eq_replicate_of_mem h1
  have h3 := (layoutOf_pos 1 n (by omega)).2
  rw [h2] at h3
  have h4 : ∀ m : Nat, (List.replicate m 1).sum = m := by
    intro m
    induction m with
    | zero => rfl
    | succ m ih => rw [List.replicate_succ, List.sum_cons, ih]; omega
  rw [h4] at h3
  rw [h2, h3]

theorem layoutOf_one_flat (L : List Nat) : L.flatMap (layoutOf 1) = List.replicate L.sum 1 := by
  induction L with
  | nil => rfl
  | cons a L ih => rw [List.flatMap_cons, ih, layoutOf_one, List.sum_cons, List.replicate_add]

end

section
variable {ν η α : Type} [DecidableEq ν] [DecidableEq η]

/-- what is loaded was a table with a page -/
theorem loaded_eq (ps : Nat) (yml : η) (ord : List (η × List α) → List (η × List α)) (hord : ∀ l x, x ∈ ord l ↔ x ∈ l) (t : NTbl ν η α) (h : t.Ok yml) (z : List (η × Entry ν η α)) (r : Tbl ν α)
    (hz : tblSave yml ord t = .ok z) (hr : tblLoad ps yml z = .ok r) : r = t.tbl.map fun c => (c.1, c.2.flatMap fun p => paginate ps p) := by
  have hne : ∃ c ∈ t, c.2 ≠ [] := by
    by_contra hne
    push Not at hne
    rw [C21_no_pages_fails yml ord t hne] at hz
    cases hz
  obtain ⟨z', h1, h2⟩ := C135_load ps yml ord hord t h hne
  rw [hz] at h1
  injection h1 with h1
  rw [← h1, hr] at h2
  injection h2

/-- **C135** (exact) a saved table is loaded with any page size and its rows are counted by another column: the counts are right exactly if the loaded pages of the two columns end at the same rows -/
theorem C135_exact (sqrt : Rat → Rat) (nm : Acc → ν → ν) (ps ps' : Nat) (hps : 0 < ps) (hps' : 0 < ps') (yml : η) (ord : List (η × List GVal) → List (η × List GVal)) (hord : ∀ l x, x ∈ ord l ↔ x ∈ l)
    (t : NTbl ν η GVal) (h : t.Ok yml) (n : Nat) (hn : Rect t.tbl n) (z : List (η × Entry ν η GVal)) (r : Tbl ν GVal) (hz : tblSave yml ord t = .ok z) (hr : tblLoad ps yml z = .ok r)
    (x k : ν) (p q : Pages GVal) (hp : dGet x t.tbl = some p) (hq : dGet k t.tbl = some q) (hxk : x ≠ k) (hnm : x ≠ nm .count k) :
    Rect r n ∧ (GroupsOk .none accInit accUpdate (accValue sqrt) nm ps' r n [x] [(k, .count)] ↔ (p.map List.length).flatMap (layoutOf ps) = (q.map List.length).flatMap (layoutOf ps)) := by
  have e := loaded_eq ps yml ord hord t h z r hz hr
  have hrect : Rect r n := by rw [e]; exact rect_load ps hps _ n hn
  have hsolid : ∀ u : Pages GVal, ∀ a ∈ u.flatMap fun q => paginate ps q, a ≠ [] := by
    intro u a ha
    obtain ⟨b, -, hb⟩ := List.mem_flatMap.1 ha
    exact paginate_solid hps b a hb
  refine ⟨hrect, ?_⟩
  rw [groups_pair sqrt nm ps' hps' r n hrect x k (p.flatMap fun q => paginate ps q) (q.flatMap fun q => paginate ps q) (by rw [e]; exact dGet_load ps x _ p hp) (by rw [e]; exact dGet_load ps k _ q hq)
    (hsolid p) (hsolid q) hxk hnm, loaded_layout, loaded_layout]

/-- C135: a table whose columns end their pages at the same rows can be grouped after it was saved and loaded, with any page size -/
theorem C135_kept {φ σ : Type} [DecidableEq α] (nul : α) (init : φ → σ) (upd : φ → σ → α → Except Err σ) (val : φ → σ → Except Err α) (nm : φ → ν → ν) (ps ps' : Nat) (hps : 0 < ps) (hps' : 0 < ps') (yml : η)
    (ord : List (η × List α) → List (η × List α)) (hord : ∀ l x, x ∈ ord l ↔ x ∈ l) (t : NTbl ν η α) (h : t.Ok yml) (L : List Nat) (hL : ∀ c ∈ t.tbl, c.2.map List.length = L)
    (z : List (η × Entry ν η α)) (r : Tbl ν α) (hz : tblSave yml ord t = .ok z) (hr : tblLoad ps yml z = .ok r) (keys : List ν) (functions : List (ν × φ))
    (hin : ∀ a ∈ keys ++ functions.map (·.1), a ∈ r.map (·.1)) (hsome : keys.length + functions.length ≠ 0) (hnd : (keys ++ functions.map fun f => nm f.2 f.1).Nodup) :
    GroupsOk nul init upd val nm ps' r L.sum keys functions := by
  have e := loaded_eq ps yml ord hord t h z r hz hr
  subst e
  refine load_groups nul init upd val nm ps ps' hps hps' t.tbl L.sum (L.flatMap (layoutOf ps)) (fun c hc => by rw [hL c hc]) (layoutOf_flat_sum ps hps L) keys functions ?_ hsome hnd
  simpa [List.map_map, Function.comp_def] using hin

/-- C135: with pages of one row, every saved table can be grouped after it is loaded -/
theorem C135_page_one {φ σ : Type} [DecidableEq α] (nul : α) (init : φ → σ) (upd : φ → σ → α → Except Err σ) (val : φ → σ → Except Err α) (nm : φ → ν → ν) (ps' : Nat) (hps' : 0 < ps') (yml : η)
    (ord : List (η × List α) → List (η × List α)) (hord : ∀ l x, x ∈ ord l ↔ x ∈ l) (t : NTbl ν η α) (h : t.Ok yml) (n : Nat) (hn : Rect t.tbl n)
    (z : List (η × Entry ν η α)) (r : Tbl ν α) (hz : tblSave yml ord t = .ok z) (hr : tblLoad 1 yml z = .ok r) (keys : List ν) (functions : List (ν × φ))
    (hin : ∀ a ∈ keys ++ functions.map (·.1), a ∈ r.map (·.1)) (hsome : keys.length + functions.length ≠ 0) (hnd : (keys ++ functions.map fun f => nm f.2 f.1).Nodup) :
    GroupsOk nul init upd val nm ps' r n keys functions := by
  have e := loaded_eq 1 yml ord hord t h z r hz hr
  subst e
  refine load_groups nul init upd val nm 1 ps' (by omega) hps' t.tbl n (List.replicate n 1) (fun c hc => ?_) (by simp) keys functions ?_ hsome hnd
  · have := hn c hc
    rw [colLen_eq, List.length_flatten] at this
    rw [layoutOf_one_flat, this]
  · simpa [List.map_map, Function.comp_def] using hin

end

/-- **C135** (partial) a table read from a worksheet, an HDF5 file, JSON or a data frame, with columns of one length, can be grouped by any columns with any functions.  Missing: saved tables whose columns end
their pages at different rows, see `C135_exact` and `C135_fails`. -/
theorem C135_partial {O φ σ : Type} [DecidableEq (PV O)] (nul : PV O) (init : φ → σ) (upd : φ → σ → PV O → Except Err σ) (val : φ → σ → Except Err (PV O)) (nm : φ → PyText → PyText) (ps ps' : Nat) (hps : 0 < ps) (hps' : 0 < ps')
    (t : Tbl PyText (PV O)) (h : ReadBy ps t) (n : Nat) (hn : Rect t n) (keys : List PyText) (functions : List (PyText × φ)) (hin : ∀ a ∈ keys ++ functions.map (·.1), a ∈ t.map (·.1))
    (hsome : keys.length + functions.length ≠ 0) (hnd : (keys ++ functions.map fun f => nm f.2 f.1).Nodup) : GroupsOk nul init upd val nm ps' t n keys functions := by
  have := C33_partial nul init upd val nm ps' hps' t (layoutOf ps n) keys functions (fun a ha => by
    obtain ⟨p, hp⟩ := Option.isSome_iff_exists.1 ((dGet_isSome a t).2 (hin a ha))
    have hm := dGet_some_mem _ _ _ hp
    have e := hn _ hm
    rw [colLen_eq, ← colIter_eq] at e
    exact ⟨p, hp, by rw [← e]; exact C135_pages ps hps t h _ hm⟩) hsome hnd
  rwa [(layoutOf_pos ps n hps).2] at this

/-- the full claim: a table that was saved and loaded, with columns of one length, can be grouped (the other readers: `C135_partial`) -/
def C135_statement (sqrt : Rat → Rat) : Prop :=
  ∀ (ps : Nat) (t : NTbl String String GVal) (n : Nat) (z : List (String × Entry String String GVal)) (r : Tbl String GVal) (keys : List String) (functions : List (String × Acc)), 0 < ps → t.Ok "table.yml" →
    tblSave "table.yml" id t = .ok z → tblLoad ps "table.yml" z = .ok r → Rect r n → (∀ a ∈ keys ++ functions.map (·.1), a ∈ r.map (·.1)) → keys.length + functions.length ≠ 0 →
    (keys ++ functions.map fun f => accName f.2 f.1).Nodup → GroupsOk .none accInit accUpdate (accValue sqrt) accName ps r n keys functions

/-- two rows appended one by one, then a column assigned: the pages of the first column hold one row each -/
def steppedTable : NTbl String String GVal := [("k", [("1.npy", [.int 1]), ("2.npy", [.int 2])]), ("v", [("3.npy", [.int 5, .int 6])])]

theorem steppedTable_ok : steppedTable.Ok "table.yml" := ⟨by decide, by decide, by decide +kernel⟩

theorem C135_fails (sqrt : Rat → Rat) : ¬ C135_statement sqrt := by
  intro h
  obtain ⟨z, h1, h2⟩ := C135_load 10 "table.yml" id (by simp) steppedTable steppedTable_ok ⟨("k", [("1.npy", [.int 1]), ("2.npy", [.int 2])]), by simp [steppedTable], by simp⟩
  have hex := C135_exact sqrt accName 10 10 (by omega) (by omega) "table.yml" id (by simp) steppedTable steppedTable_ok 2 (by unfold Rect; decide) z _ h1 h2 "k" "v" _ _ rfl rfl (by decide) (by decide +kernel)
  have := hex.2.1 (h 10 _ 2 z _ ["k"] [("v", .count)] (by omega) steppedTable_ok h1 h2 hex.1 (by decide) (by decide) (by decide +kernel))
  revert this
  decide +kernel

/-- the values are as saved, and the second row is not counted; loaded with pages of one row, both rows are counted -/
theorem C135_effect (sqrt : Rat → Rat) : ∃ z r r1, tblSave "table.yml" id steppedTable = .ok z ∧ tblLoad 10 "table.yml" z = .ok r ∧ tblLoad 1 "table.yml" z = .ok r1 ∧
    tview r = [("k", [.int 1, .int 2]), ("v", [.int 5, .int 6])] ∧ tview r1 = tview r ∧
    (groupby .none accInit accUpdate (accValue sqrt) accName 10 r ["k"] [("v", .count)]).map tview = .ok [("k", [.int 1]), ("Count(v)", [.int 1])] ∧
    (groupby .none accInit accUpdate (accValue sqrt) accName 10 r1 ["k"] [("v", .count)]).map tview = .ok [("k", [.int 1, .int 2]), ("Count(v)", [.int 1, .int 1])] := by
  refine ⟨archive "table.yml" id steppedTable, [("k", [[.int 1], [.int 2]]), ("v", [[.int 5, .int 6]])], [("k", [[.int 1], [.int 2]]), ("v", [[.int 5], [.int 6]])], rfl, by rfl, by rfl,
    by decide +kernel, by decide +kernel, ?_, ?_⟩
  · obtain ⟨r, h1, h2⟩ := C33_effect .none accInit accUpdate (accValue sqrt) accName 10 (by omega) ([("k", [[.int 1], [.int 2]]), ("v", [[.int 5, .int 6]])] : Tbl String GVal) ["k"] [("v", Acc.count)] (by simp)
      (by decide +kernel) (by decide +kernel) (fun _ _ => .int 1) (by
        intro f hf k hk
        simp only [List.mem_singleton] at hf
        subst hf
        rw [aggOf_acc, C34_count, List.length_map]
        revert k
        decide +kernel)
    rw [h1]
    show Except.ok (tview r) = _
    rw [h2]
    decide +kernel
  · obtain ⟨r, h1, h2⟩ := C33_effect .none accInit accUpdate (accValue sqrt) accName 10 (by omega) ([("k", [[.int 1], [.int 2]]), ("v", [[.int 5], [.int 6]])] : Tbl String GVal) ["k"] [("v", Acc.count)] (by simp)
      (by decide +kernel) (by decide +kernel) (fun _ _ => .int 1) (by
        intro f hf k hk
        simp only [List.mem_singleton] at hf
        subst hf
        rw [aggOf_acc, C34_count, List.length_map]
        revert k
        decide +kernel)
    rw [h1]
    show Except.ok (tview r) = _
    rw [h2]
    decide +kernel

/-- `C135_pages` and `C135_partial` on a worksheet: three rows in two pages -/
example : ∃ t : Tbl PyText (PV Unit), ReadBy 2 t ∧ Rect t 3 ∧ t.map (fun c => c.2.map List.length) = [[2, 1], [2, 1], [2, 1]] := by
  refine ⟨_, .ods (fun _ => []) { limit := 10, skip := none } demoSheet _ (by rfl), ?_, ?_⟩
  · unfold Rect; decide +kernel
  · decide +kernel

end Tablite
