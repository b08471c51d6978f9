import Verif.Props.Sheet
import Verif.Props.Reshape
/-!
# C89, C90: exactly when the limit, the start and the kind of file make a difference
-/
namespace Tablite
variable {O : Type}

theorem namesOk_ne (wanted got : List (PyText × Nat)) (h : NamesOk wanted got) (hw : wanted ≠ []) : got ≠ [] := by
  rintro rfl
  have := congrArg List.length h.positions
  simp at this
  exact hw (List.eq_nil_of_length_eq_zero (by omega))

/-- **C89** (limit), exactly: when no rows are left out for being empty and a column is imported, at most `limit` rows are imported if and only if the sheet has no more than that behind the start. -/
theorem C89_limit_exact (str_ : PV O → PyText) (R : XlsRuntime O) (hR : XlsRuntimeOk R) (ps : Nat) (hps : 0 < ps) (o : SheetOpts)
    (hstart : 0 ≤ o.start) (hlimit : 0 < o.limit) (sheet : List (List (PV O))) (header : List (PV O)) (hh : sheet[o.headerRow]? = some header)
    (hw : ∀ r ∈ sheet, r.length = header.length)
    (hcols : ∀ cols, o.columns = some cols → ∀ k ∈ cols, k ∈ excelHeaders str_ o.headers header)
    (hc : ∀ r ∈ (sheet.drop (o.headerRow + (if o.headers then 1 else 0) + o.start.toNat)).take (o.limit.toNat + 1),
      ∀ x ∈ excelWanted (excelHeaders str_ o.headers header) o.columns, XlsCell R (sheetCell r x.2))
    (hskip : o.skip = none) (hone : excelWanted (excelHeaders str_ o.headers header) o.columns ≠ []) :
    (∃ t, excelRead str_ R ps o sheet = .ok t ∧ ∀ c ∈ t, (colLen c.2 : Int) ≤ o.limit) ↔
      (sheet.length : Int) - o.headerRow - (if o.headers then 1 else 0) - o.start ≤ o.limit := by
  obtain ⟨t, h1, h2⟩ := C89_limit_partial str_ R hR ps hps o hstart hlimit sheet header hh hw hcols hc hskip
  obtain ⟨fields, hn, h3⟩ := C89_excel str_ R hR ps hps o hstart hlimit sheet header hh hw hcols hc
  have hne : t ≠ [] := by
    rw [h1] at h3
    cases h3
    intro e
    exact namesOk_ne _ _ hn hone (List.map_eq_nil_iff.1 e)
  constructor
  · rintro ⟨t', h4, h5⟩
    rw [h1] at h4
    cases h4
    obtain ⟨c, rest, rfl⟩ := List.exists_cons_of_ne_nil hne
    have a := h2 c (by simp)
    have b := h5 c (by simp)
    omega
  · intro h
    refine ⟨t, h1, fun c hcm => ?_⟩
    rw [h2 c hcm]
    omega

/-- **C90** (start), exactly: `start` leaves out rows as it should if and only if it is 0 or no column has any values. -/
theorem C90_start_exact (str_ : PV O → PyText) (ps : Nat) (o : SheetOpts) (ho : 0 ≤ o.start) (sheet : List (List (PV O))) (t u : List (PyText × Pages (PV O)))
    (ht : odsRead str_ ps { o with start := 0 } sheet = .ok t) (hu : odsRead str_ ps o sheet = .ok u) :
    u.map (fun c => (c.1, colIter c.2)) = t.map (fun c => (c.1, (colIter c.2).drop o.start.toNat)) ↔ o.start = 0 ∨ ∀ c ∈ u, colIter c.2 = [] := by
  rw [C90_start_ignored str_ ps o 0 (by omega) ho sheet, hu] at ht
  cases ht
  constructor
  · intro h
    by_cases h0 : o.start = 0
    · exact .inl h0
    · right
      intro c hc
      have := List.map_inj_left.1 h c hc
      have := congrArg (fun x => x.2.length) this
      simp only [List.length_drop] at this
      exact List.eq_nil_of_length_eq_zero (by omega)
  · intro h
    refine List.map_congr_left fun c hc => ?_
    rcases h with h | h
    · rw [h]; rfl
    · rw [h c hc]; simp

/-- **C90** (both readers), exactly: with headers, at least one column, all columns wanted, no rows skipped and texts without tabs and line breaks both readers give the same table if and only if the sheet
has no more than `limit` rows behind the header. -/
theorem C90_parity_exact (str_ : PV O → PyText) (R : XlsRuntime O) (hR : XlsRuntimeOk R) (ps : Nat) (hps : 0 < ps) (o : SheetOpts)
    (hstart : o.start = 0) (hheaders : o.headers = true) (hcols : o.columns = none) (hskip : o.skip = none)
    (sheet : List (List (PV O))) (hlimit : 0 < o.limit)
    (header : List (PV O)) (hh : sheet[o.headerRow]? = some header) (hne : header ≠ []) (hw : ∀ r ∈ sheet, r.length = header.length)
    (hesc : ∀ r ∈ sheet, ∀ v ∈ r, NoEscape v) (hc : ∀ r ∈ sheet, ∀ v ∈ r, XlsCell R v) :
    excelRead str_ R ps o sheet = odsRead str_ ps o sheet ↔ (sheet.length : Int) ≤ o.limit + o.headerRow + 1 := by
  constructor
  · intro he
    have hcell : ∀ r ∈ sheet, ∀ i, i < header.length → XlsCell R (sheetCell r i) := by
      intro r hr i hi
      have hl := hw r hr
      unfold sheetCell
      rw [List.getD_eq_getElem?_getD, List.getElem?_eq_getElem (by omega), Option.getD_some]
      have hm : r[i]'(by omega) ∈ r := List.getElem_mem _
      rw [stripEsc_id _ (hesc r hr _ hm)]
      exact hc r hr _ hm
    have hlt := excelWanted_lt str_ o header (by rw [hcols]; simp)
    obtain ⟨f1, n1, h1⟩ := C89_excel str_ R hR ps hps o (by omega) hlimit sheet header hh hw (by rw [hcols]; simp)
      (fun r hr x hx => hcell r (List.mem_of_mem_drop (List.mem_of_mem_take hr)) x.2 (hlt x hx))
    obtain ⟨f2, n2, h2⟩ := C90_ods str_ ps o (by omega) hlimit sheet header hh hw (by rw [hheaders]; simp)
    rw [h1, h2] at he
    have he := Except.ok.inj he
    have hf1 : f1 ≠ [] := by
      refine namesOk_ne _ _ n1 ?_
      rw [hcols]
      unfold excelWanted excelHeaders
      rw [if_pos hheaders]
      simpa using hne
    obtain ⟨x, f1', rfl⟩ := List.exists_cons_of_ne_nil hf1
    cases f2 with
    | nil => simp at he
    | cons y f2' =>
      rw [List.map_cons, List.map_cons] at he
      have h3 := (List.cons.inj he).1
      have h4 := congrArg (fun c => (colIter c.2).length) h3
      dsimp only at h4
      rw [colIter_paginate ps hps, colIter_paginate ps hps, List.length_map, List.length_map, excelImported_none o hskip, odsImported_none o hskip, hstart, hheaders] at h4
      simp only [if_true, Int.toNat_zero, Nat.add_zero, List.length_take, List.length_drop] at h4
      omega
  · intro hall
    exact C90_parity_partial str_ R hR ps hps o hstart hheaders hcols hskip sheet hlimit hall header hh hw hesc hc

/-- with a limit of one row the readers give different numbers of rows of a sheet with two -/
example : (excelRead (fun _ => []) exactXls 2 { limit := 1 } [[.str [97]], [.int 1], [.int 2]]).map (fun t => t.map fun c => colLen c.2) = .ok [2] ∧
    (odsRead (fun _ => []) 2 { limit := 1 } [[.str [97]], [.int 1], [.int 2]] : Except Err (List (PyText × Pages (PV Unit)))).map (fun t => t.map fun c => colLen c.2) = .ok [1] := by decide +kernel

end Tablite
