import Verif.Model.JsonTable
import Verif.Props.ColumnRead
import Verif.Props.Reindex
import Verif.Props.TableObj
import Verif.Props.TableOps
import Verif.Props.Codec
/-!
# C76: tables as dictionaries and as JSON
-/

namespace Tablite

section
variable {ν α β : Type} [DecidableEq ν]

/-- the whole of a column, cut at the length of the table -/
theorem getSlice_whole (p : Pages α) (n : Nat) (h : (colIter p).length ≤ n) : getSlice p { start := some 0, stop := some n } = .ok (colIter p) := by
  rw [C02_slice_read_partial _ _ (.inl (by simp [PySlice.stepOr1]))]
  have := pySlice_nat (colIter p) 0 n (by omega)
  simp only [Nat.cast_zero] at this
  rw [this]
  simp [List.take_of_length_le h]

theorem toDictLoop_ok (t : Tbl ν α) (s : PySlice) (g : ν → List α) (names : List ν) (d : List (ν × List α))
    (h : ∀ n ∈ names, ∃ p, dGet n t = some p ∧ getSlice p s = .ok (g n)) (hn : (d.map (·.1) ++ names).Nodup) :
    toDictLoop t s d names = .ok (d ++ names.map fun n => (n, g n)) := by
  induction names generalizing d with
  | nil => simp [toDictLoop]
  | cons n l ih =>
    obtain ⟨p, h1, h2⟩ := h n (by simp)
    have hnn : n ∉ d.map (·.1) := by
      intro hm
      rw [List.nodup_append] at hn
      exact hn.2.2 _ hm n (by simp) rfl
    rw [toDictLoop, h1]
    dsimp only
    rw [h2]
    dsimp only [Except.bind]
    rw [keys_dSet _ _ _ hnn, ih _ (fun m hm => h m (by simp [hm])) (by simpa using hn)]
    simp

/-- C76: `to_dict()` has every column under its name, in order, with all its values -/
theorem C76_dict (t : Tbl ν α) (hn : (t.map (·.1)).Nodup) : toDict t none none = .ok (t.map fun c => (c.1, colIter c.2)) := by
  rw [toDict, Option.getD_none, Option.getD_none,
    toDictLoop_ok t _ (fun n => ((dGet n t).map colIter).getD []) (t.map (·.1)) [] _ (by simpa using hn)]
  · rw [List.nil_append, List.map_map]
    congr 1
    apply List.map_congr_left
    intro c hc
    simp only [Function.comp]
    rw [dGet_of_mem t hn c hc]
    rfl
  · intro n hm
    obtain ⟨c, hc, rfl⟩ := List.mem_map.1 hm
    refine ⟨c.2, dGet_of_mem t hn c hc, ?_⟩
    rw [dGet_of_mem t hn c hc]
    exact getSlice_whole _ _ ((C15_len t).1 c hc)

/-- C76: `to_dict(columns, slice)` with different names has these columns in the order asked for, each with the values of the slice -/
theorem C76_dict_slice (t : Tbl ν α) (hn : (t.map (·.1)).Nodup) (s : PySlice) (hs : 0 < s.stepOr1 ∨ s.stepOr1 = -1) (cols : Tbl ν α) (hsub : ∀ c ∈ cols, c ∈ t)
    (hc : (cols.map (·.1)).Nodup) : toDict t (some (cols.map (·.1))) (some s) = .ok (cols.map fun c => (c.1, pySlice (colIter c.2) s)) := by
  rw [toDict, Option.getD_some, Option.getD_some,
    toDictLoop_ok t _ (fun n => ((dGet n t).map fun p => pySlice (colIter p) s).getD []) (cols.map (·.1)) [] _ (by simpa using hc)]
  · rw [List.nil_append, List.map_map]
    congr 1
    apply List.map_congr_left
    intro c hcm
    simp only [Function.comp]
    rw [dGet_of_mem t hn c (hsub c hcm)]
    rfl
  · intro n hm
    obtain ⟨c, hcm, rfl⟩ := List.mem_map.1 hm
    refine ⟨c.2, dGet_of_mem t hn c (hsub c hcm), ?_⟩
    rw [dGet_of_mem t hn c (hsub c hcm), C02_slice_read_partial _ _ hs]
    rfl

/-- C76: a name that is not a column raises KeyError -/
theorem C76_dict_error (t : Tbl ν α) (s : Option PySlice) (n : ν) (l : List ν) (h : n ∉ t.map (·.1)) : toDict t (some (n :: l)) s = .error .key := by
  rw [toDict, Option.getD_some, toDictLoop, (dGet_none n t).2 h]

/-- the names under which columns are written: each one renamed if taken -/
def freeNames (mk : ν → Nat → ν) : List ν → List ν → List ν
  | _, [] => []
  | taken, n :: l => uniqueName mk n taken :: freeNames mk (taken ++ [uniqueName mk n taken]) l

theorem freeNames_nodup (mk : ν → Nat → ν) (hinj : ∀ d a b, mk d a = mk d b → a = b) (names taken : List ν) (h : taken.Nodup) :
    (taken ++ freeNames mk taken names).Nodup ∧ (freeNames mk taken names).length = names.length := by
  induction names generalizing taken with
  | nil => simpa [freeNames] using h
  | cons n l ih =>
    have h1 := (C47_unique_name mk n taken (hinj n)).1
    have h2 : (taken ++ [uniqueName mk n taken]).Nodup := by
      rw [List.nodup_append]
      refine ⟨h, by simp, ?_⟩
      rintro a ha b hb rfl
      rw [List.mem_singleton.1 hb] at ha
      exact h1 ha
    obtain ⟨h3, h4⟩ := ih _ h2
    refine ⟨?_, by simp [freeNames, h4]⟩
    rw [freeNames]
    simpa using h3

theorem freeNames_id (mk : ν → Nat → ν) (names taken : List ν) (h : (taken ++ names).Nodup) : freeNames mk taken names = names := by
  induction names generalizing taken with
  | nil => rfl
  | cons n l ih =>
    have hn : n ∉ taken := by
      intro hm
      rw [List.nodup_append] at h
      exact h.2.2 _ hm n (by simp) rfl
    rw [freeNames, uniqueName, if_neg hn, ih _ (by simpa using h)]

theorem jsonLoop_ok (mk : ν → Nat → ν) (hinj : ∀ d a b, mk d a = mk d b → a = b) (conv : α → Except Err β) (conv' : α → β) (d : List (ν × List α))
    (h : ∀ c ∈ d, ∀ v ∈ c.2, conv v = .ok (conv' v)) (new : List (ν × List β)) :
    jsonLoop mk conv new d = .ok (new ++ (freeNames mk (new.map (·.1)) (d.map (·.1))).zip (d.map fun c => c.2.map conv')) := by
  induction d generalizing new with
  | nil => simp [jsonLoop, freeNames]
  | cons c l ih =>
    obtain ⟨k, data⟩ := c
    rw [jsonLoop, mapM_ok _ _ _ (h (k, data) (by simp))]
    dsimp only [Except.bind]
    rw [keys_dSet _ _ _ (C47_unique_name mk k _ (hinj k)).1, ih (fun c hc => h c (by simp [hc]))]
    simp [freeNames]

theorem rowIds_default (num : Int → β) (n : Nat) : rowIds num 1 { start := some 0, stop := some (n : Int) } n = .ok ((List.range n).map fun i : Nat => num ((i : Int) + 1)) := by
  rw [rowIds, if_neg (by simp)]
  have h1 : PySlice.indices { start := some 0, stop := some (n : Int) } n = (0, (n : Int), 1) := by
    simp only [PySlice.indices, PySlice.stepOr1, adjustBound, Option.getD_none]
    simp
  rw [h1]
  dsimp only
  have h2 : rangeLen 0 n 1 = n := by simp [rangeLen]
  rw [rangeList, h2, List.map_map]
  congr 1
  apply List.map_congr_left
  intro i _
  simp

/-- C76: `as_json_serializable()` has a column with the row numbers from 1, then every column with its values converted, in order; all names are different -/
theorem C76_serializable (mk : ν → Nat → ν) (hinj : ∀ d a b, mk d a = mk d b → a = b) (conv : α → Except Err β) (conv' : α → β) (num : Int → β) (rowId : ν) (t : Tbl ν α)
    (hn : (t.map (·.1)).Nodup) (hconv : ∀ c ∈ t, ∀ v ∈ colIter c.2, conv v = .ok (conv' v)) :
    ∃ names, jsonSer mk conv num (some rowId) 1 none none t =
        .ok ((rowId, (List.range (tblLen t)).map fun i : Nat => num ((i : Int) + 1)) :: names.zip (t.map fun c => (colIter c.2).map conv'), tblLen t) ∧
      names.length = t.length ∧ (rowId :: names).Nodup ∧ (rowId ∉ t.map (·.1) → names = t.map (·.1)) := by
  refine ⟨freeNames mk [rowId] (t.map (·.1)), ?_, ?_, ?_, ?_⟩
  · rw [jsonSer, Option.getD_none, rowIdColumn]
    rw [rowIds_default]
    dsimp only [Except.bind]
    have hd : toDict t none (some { start := some 0, stop := some (tblLen t : Int) }) = .ok (t.map fun c => (c.1, colIter c.2)) := by
      rw [← C76_dict t hn]
      rfl
    rw [hd]
    dsimp only [Except.bind]
    rw [jsonLoop_ok mk hinj conv conv' _ (by
      intro c hc v hv
      obtain ⟨c', hc', rfl⟩ := List.mem_map.1 hc
      exact hconv c' hc' v hv)]
    simp [List.map_map, Function.comp_def]
  · simpa using (freeNames_nodup mk hinj (t.map (·.1)) [rowId] (by simp)).2
  · simpa using (freeNames_nodup mk hinj (t.map (·.1)) [rowId] (by simp)).1
  · intro h
    apply freeNames_id
    simpa using ⟨by simpa using h, hn⟩

theorem mem_pySlice {l : List α} {s : PySlice} {v : α} (h : v ∈ pySlice l s) : v ∈ l := by
  unfold pySlice at h
  obtain ⟨i, -, hi⟩ := List.mem_filterMap.1 h
  unfold getI? at hi
  split at hi
  · cases hi
  · exact List.mem_of_getElem? hi

/-- C76: the columns asked for, cut to the rows asked for, behind the numbers of these rows, counted from `start_on` (if there is a name for them) -/
theorem C76_part (mk : ν → Nat → ν) (hinj : ∀ d a b, mk d a = mk d b → a = b) (conv : α → Except Err β) (conv' : α → β) (num : Int → β) (rowId : Option ν) (startOn : Int)
    (t : Tbl ν α) (hn : (t.map (·.1)).Nodup) (s : PySlice) (hs : 0 < s.stepOr1 ∨ s.stepOr1 = -1) (cols : Tbl ν α) (hsub : ∀ c ∈ cols, c ∈ t)
    (hc : (rowId.toList ++ cols.map (·.1)).Nodup) (hconv : ∀ c ∈ t, ∀ v ∈ colIter c.2, conv v = .ok (conv' v)) :
    jsonSer mk conv num rowId startOn (some (cols.map (·.1))) (some s) t =
      .ok (rowId.toList.map (fun r => (r, (rangeList (s.indices (tblLen t)).1 (s.indices (tblLen t)).2.1 s.stepOr1).map fun i => num (i + startOn))) ++
        cols.map (fun c => (c.1, (pySlice (colIter c.2) s).map conv')), tblLen t) := by
  have hstep : s.step ≠ some 0 := by
    intro h
    rcases hs with h1 | h1 <;> simp [PySlice.stepOr1, h] at h1
  have hrow : rowIdColumn num rowId startOn s (tblLen t) = .ok (rowId.toList.map fun r =>
      (r, (rangeList (s.indices (tblLen t)).1 (s.indices (tblLen t)).2.1 s.stepOr1).map fun i => num (i + startOn))) := by
    cases rowId with
    | none => rfl
    | some r =>
      rw [rowIdColumn, rowIds, if_neg hstep]
      rfl
  rw [jsonSer, Option.getD_some, hrow, C76_dict_slice t hn s hs cols hsub (List.nodup_append.1 hc).2.1]
  dsimp only [Except.bind]
  rw [jsonLoop_ok mk hinj conv conv' _ (by
    intro c hc v hv
    obtain ⟨c', hc', rfl⟩ := List.mem_map.1 hc
    exact hconv c' (hsub c' hc') v (mem_pySlice hv))]
  dsimp only [Except.bind]
  rw [freeNames_id mk _ _ (by simpa [List.map_map, Function.comp_def] using hc)]
  congr 3
  rw [List.map_map, List.map_map, List.zip_map']
  rfl

/-- a part of a table with row numbers from 0 -/
example : jsonSer (fun n i => n * 100 + i) Except.ok (fun i => i) (some 7) 0 (some [2]) (some { start := some 1 }) [(1, [[10, 20, 30]]), (2, [[4, 5], [6]])] =
    .ok ([(7, [1, 2]), (2, [5, 6])], 3) := rfl

/-! ## the round trip -/

/-- the values that JSON knows -/
def JsonVal {O : Type} : PV O → Prop
  | .none | .int _ | .str _ | .float _ => True
  | _ => False

/-- the whole claim: the table comes back -/
def C76_statement : Prop := ∀ (O : Type) (R : Runtime O) (ps : Nat) (t : Tbl String (PV O)), 0 < ps → (t.map (·.1)).Nodup →
  ∃ r, jsonRoundtrip R ps suffixed "row id" t = .ok r ∧ lists r.1 r.2 = t.map fun c => (c.1, colIter c.2)

/-- C76: a table of None, integers, floats and texts without a column "row id" comes back behind a new column "row id". Missing: without the new column;
other types -/
theorem C76_partial {O : Type} (R : Runtime O) (ps : Nat) (hps : 0 < ps) (mk : ν → Nat → ν) (hinj : ∀ d a b, mk d a = mk d b → a = b) (rowId : ν)
    (t : Tbl ν (PV O)) (hn : (rowId :: t.map (·.1)).Nodup) (hv : ∀ c ∈ t, ∀ v ∈ colIter c.2, JsonVal v) :
    ∃ r, jsonRoundtrip R ps mk rowId t = .ok r ∧
      lists r.1 r.2 = (rowId, (List.range (tblLen t)).map fun i : Nat => .int ((i : Int) + 1)) :: t.map fun c => (c.1, colIter c.2) := by
  let toJ : PV O → JV := fun v => match v with | .int z => .int z | .str t => .str t | .float x => .float x | _ => .null
  have hconv : ∀ c ∈ t, ∀ v ∈ colIter c.2, toJson R v = .ok (toJ v) := by
    intro c hc v hvm
    have := hv c hc v hvm
    cases v <;> first | rfl | exact this.elim
  have hback : ∀ c ∈ t, (colIter c.2).map (fun v => jsonValue (O := O) (toJ v)) = colIter c.2 := by
    intro c hc
    refine (List.map_congr_left (g := id) ?_).trans (List.map_id _)
    intro v hvm
    have := hv c hc v hvm
    cases v <;> first | rfl | exact this.elim
  obtain ⟨names, h1, -, -, h4⟩ := C76_serializable mk hinj (toJson R) toJ .int rowId t (List.nodup_cons.1 hn).2 hconv
  have h5 := h4 (List.nodup_cons.1 hn).1
  subst h5
  rw [jsonRoundtrip, h1]
  dsimp only [Except.bind]
  have he : ((t.map (·.1)).zip (t.map fun c => (colIter c.2).map toJ)) = t.map fun c => (c.1, (colIter c.2).map toJ) := by
    rw [List.zip_map']
  rw [he]
  obtain ⟨r, hr1, hr2⟩ := C73_columns ps hps ([] : Heap (PV O))
    ((rowId, (List.range (tblLen t)).map fun i : Nat => PV.int ((i : Int) + 1)) :: t.map fun c => (c.1, colIter c.2)) (by simpa [Function.comp_def] using hn)
  refine ⟨r, ?_, hr2⟩
  rw [← hr1]
  congr 1
  simp only [List.map_cons, List.map_map, Function.comp_def, jsonValue]
  congr 1
  apply List.map_congr_left
  intro c hc
  congr 2
  exact hback c hc

/-- C76: the empty table does not come back empty -/
theorem C76_fails : ¬ C76_statement := by
  intro h
  obtain ⟨r, h1, h2⟩ := h Unit exactRuntime 10 [] (by decide) (by decide)
  have : r = ([[]], [("row id", 0)]) := by
    have : jsonRoundtrip exactRuntime 10 suffixed "row id" ([] : Tbl String (PV Unit)) = .ok ([[]], [("row id", 0)]) := rfl
    rw [this] at h1
    exact (Except.ok.inj h1).symm
  subst this
  simp [lists, view] at h2

/-- C76: booleans and dates come back as texts -/
theorem C76_types_fails {O : Type} (R : Runtime O) : (toJson R (.bool true)).map (jsonValue (O := O)) = .ok (.str (txt "True")) ∧
    (toJson R (.date ⟨2023, 6, 9⟩)).map (jsonValue (O := O)) = .ok (.str (txt "2023-06-09")) := ⟨rfl, rfl⟩

/-- C76: with a step of −2 the row numbers do not belong to the values: the list of values is longer -/
theorem C76_step_fails : jsonSer (fun n i => n * 100 + i) Except.ok (fun i => i) (some 0) 1 none (some { step := some (-2) }) [(1, [[10, 20, 30, 40]])] =
    .ok ([(0, [4, 2]), (1, [40, 30, 20, 10])], 4) := rfl

/-- C76: in a table with columns of different lengths a slice from the end gives row numbers that do not belong to the values: 20 is in row 2 -/
theorem C76_ragged_fails : jsonSer (fun n i => n * 100 + i) Except.ok (fun i => i) (some 0) 1 none (some { start := some (-1) }) [(1, [[10, 20]]), (2, [[1, 2, 3]])] =
    .ok ([(0, [3]), (1, [20]), (2, [3])], 3) := rfl

/-- a table that meets the hypotheses of `C76_partial` -/
example : ("row id" :: ([("a", [[PV.int 1, PV.none], [PV.str [65]]]), ("b", [[]])] : Tbl String (PV Unit)).map (·.1)).Nodup := by decide

/-- a column "row id" is renamed -/
example : jsonSer (fun n i => n * 100 + i) Except.ok (fun i => i) (some 7) 1 none none [(7, [[10, 20]]), (701, [[5]])] =
    .ok ([(7, [1, 2]), (701, [10, 20]), (70101, [5])], 2) := rfl

end

end Tablite
