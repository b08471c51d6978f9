import Verif.Props.TextSort
import Verif.Props.ExprFilter
import Verif.Props.Laws
import Verif.Props.Display
/-!
# When operations that are right in part are right: sorting by text, filtering by an expression, display
-/

namespace Tablite

/-! ## C83 -/

section
variable {K : Type} [LinearOrder K] {ν : Type} [DecidableEq ν]

theorem mem_column_cell (nul : SVal) (t : Tbl ν SVal) (n : Nat) (ht : Rect t n) (a : ν) (p : Pages SVal) (hp : dGet a t = some p) (v : SVal) :
    v ∈ colIter p ↔ ∃ i < n, cell nul t a i = v := by
  have hl : (colIter p).length = n := by rw [← ht _ (dGet_mem a t p hp), colLen_eq, colIter_eq]
  rw [List.mem_iff_getElem]
  unfold cell
  rw [hp]
  constructor
  · rintro ⟨i, hi, rfl⟩
    refine ⟨i, hl ▸ hi, ?_⟩
    simp [List.getElem?_eq_getElem hi]
  · rintro ⟨i, hi, rfl⟩
    refine ⟨i, hl ▸ hi, ?_⟩
    simp [List.getElem?_eq_getElem (show i < (colIter p).length by omega)]

/-- **C83, exactly**, for key columns in which values that are equal for Python are the same: sorting in mode "alphanumeric" succeeds if and only if in no key column two
different values have the same text; it then orders the rows by the texts (`C83_text_partial`), and otherwise raises KeyError -/
theorem C83_exact (key : String → K) (str : SVal → String) (ord : List SVal → List SVal) (hord : ∀ l v, v ∈ ord l ↔ v ∈ l) (ps : Nat) (hps : 0 < ps)
    (t : Tbl ν SVal) (n : Nat) (hrect : Rect t n) (mapping : List (ν × Bool)) (hne : mapping ≠ []) (hk : ∀ k ∈ mapping, k.1 ∈ t.map (·.1))
    (he : ∀ k ∈ mapping, ∀ i < n, ∀ j < n, (cell .none t k.1 i).pyEq (cell .none t k.1 j) = true → cell .none t k.1 i = cell .none t k.1 j) :
    ((∃ idx t', tblSort (textRank key str ord) ps .none t mapping = .ok t' ∧ idx.Perm (List.range n) ∧ tview t' = rowsOf .none t idx ∧
        idx.Pairwise fun i j => InOrder (fun a b => decide (a = b)) (textLt key str) .none t i j mapping) ↔
      ∀ k ∈ mapping, ∀ i < n, ∀ j < n, str (cell .none t k.1 i) = str (cell .none t k.1 j) → cell .none t k.1 i = cell .none t k.1 j) ∧
    (tblSort (textRank key str ord) ps .none t mapping = .error .key ↔
      ∃ k ∈ mapping, ∃ i < n, ∃ j < n, str (cell .none t k.1 i) = str (cell .none t k.1 j) ∧ cell .none t k.1 i ≠ cell .none t k.1 j) := by
  have hraise : (∃ k ∈ mapping, ∃ i < n, ∃ j < n, str (cell .none t k.1 i) = str (cell .none t k.1 j) ∧ cell .none t k.1 i ≠ cell .none t k.1 j) →
      tblSort (textRank key str ord) ps .none t mapping = .error .key := by
    rintro ⟨k, hkm, i, hi, j, hj, hs, hd⟩
    refine C83_collision_raises key str ord hord ps t mapping hk k hkm (cell .none t k.1 i) (cell .none t k.1 j) ?_
    intro p hp
    refine ⟨(mem_column_cell .none t n hrect k.1 p hp _).2 ⟨i, hi, rfl⟩, (mem_column_cell .none t n hrect k.1 p hp _).2 ⟨j, hj, rfl⟩, hd, hs, ?_, ?_⟩
    · intro u hu
      obtain ⟨i', hi', rfl⟩ := (mem_column_cell .none t n hrect k.1 p hp u).1 hu
      exact he k hkm i' hi' i hi
    · intro u hu
      obtain ⟨i', hi', rfl⟩ := (mem_column_cell .none t n hrect k.1 p hp u).1 hu
      exact he k hkm i' hi' j hj
  have hok := C83_text_partial key str ord hord ps hps t n hrect mapping hne hk
  have hiff : (∀ k ∈ mapping, ∀ i < n, ∀ j < n, str (cell .none t k.1 i) = str (cell .none t k.1 j) → cell .none t k.1 i = cell .none t k.1 j) ∨
      ∃ k ∈ mapping, ∃ i < n, ∃ j < n, str (cell .none t k.1 i) = str (cell .none t k.1 j) ∧ cell .none t k.1 i ≠ cell .none t k.1 j := by
    by_contra h
    rw [not_or] at h
    apply h.1
    intro k hkm i hi j hj hs
    by_contra hd
    exact h.2 ⟨k, hkm, i, hi, j, hj, hs, hd⟩
  refine ⟨⟨?_, fun hs => hok hs he⟩, ⟨?_, hraise⟩⟩
  · rintro ⟨_, t', h1, _⟩
    refine hiff.resolve_right fun h => ?_
    rw [hraise h] at h1
    cases h1
  · intro h
    refine hiff.resolve_left fun hs => ?_
    obtain ⟨_, t', h1, _⟩ := hok hs he
    rw [h] at h1
    cases h1

/-- a column in which both cases occur, depending on `str` -/
example : ∀ i < 3, ∀ j < 3, (cell SVal.none [((0 : Nat), [[SVal.num .int 1 1, .str "1"], [.none]])] 0 i).pyEq
    (cell SVal.none [((0 : Nat), [[SVal.num .int 1 1, .str "1"], [.none]])] 0 j) = true →
      cell SVal.none [((0 : Nat), [[SVal.num .int 1 1, .str "1"], [.none]])] 0 i = cell SVal.none [((0 : Nat), [[SVal.num .int 1 1, .str "1"], [.none]])] 0 j := by
  decide +kernel

end

/-! ## C84 -/

section
variable {α : Type}

/-- **C84, exactly**: filtering by an expression that can be parsed and evaluated on every row gives the rows for which it holds and the others if and only if the table has
no rows, or at least two column names occur in the text, and all that do are identifiers.  Names are counted wherever they occur in the text, within other words and quotes too. -/
theorem C84_exact (isIdent : List Char → Bool) (parse : List Char → Option (PyExpr α)) (hparse : NamesInText parse) (truthy : α → Except Err Bool)
    (ps : Nat) (hps : 0 < ps) (nul : α) (t : Tbl (List Char) α) (n : Nat) (ht : Rect t n) (hwf : TblWF t) (hne : t ≠ []) (text : List Char)
    (e : PyExpr α) (he : parse text = some e) (f : Nat → Bool) (hf : ∀ i < n, exprHolds truthy nul t e i = .ok (f i)) :
    (∃ p q, exprFilter isIdent parse truthy ps nul t text = .ok (p, q) ∧ tview p = rowsOf nul t ((List.range n).filter f) ∧
      tview q = rowsOf nul t ((List.range n).filter fun i => !f i)) ↔
    n = 0 ∨ ((∃ a ∈ t.map (·.1), ∃ b ∈ t.map (·.1), a ≠ b ∧ a <:+: text ∧ b <:+: text) ∧ ∀ x ∈ t.map (·.1), x <:+: text → isIdent x = true) := by
  have hlen := tblLen_rect t n ht hne
  constructor
  · rintro ⟨p, q, h, _, _⟩
    by_cases h0 : n = 0
    · exact Or.inl h0
    right
    have hpos : 0 < tblLen t := by omega
    have hid : ∀ x ∈ t.map (·.1), x <:+: text → isIdent x = true := by
      intro x hx hi
      by_contra hb
      rw [C84_name_raises isIdent parse truthy ps nul t hpos text x hx hi (by simpa using hb)] at h
      cases h
    refine ⟨?_, hid⟩
    have hmem : ∀ c, c ∈ t.filter (fun c => isIn c.1 text) → c.1 ∈ t.map (·.1) ∧ c.1 <:+: text := by
      intro c hc
      rw [List.mem_filter] at hc
      exact ⟨List.mem_map.2 ⟨c, hc.1, rfl⟩, (isIn_iff _ _).1 hc.2⟩
    match hr : t.filter (fun c => isIn c.1 text) with
    | [] =>
      rw [C84_no_column_raises isIdent parse truthy ps nul t hpos text (by
        intro x hx hi
        obtain ⟨c, hc, rfl⟩ := List.mem_map.1 hx
        have : c ∈ t.filter (fun c => isIn c.1 text) := List.mem_filter.2 ⟨hc, (isIn_iff _ _).2 hi⟩
        rw [hr] at this
        cases this) (by rw [he]; rfl)] at h
      cases h
    | [c] =>
      have hc := hmem c (by rw [hr]; simp)
      rw [C84_one_column_raises isIdent parse truthy ps nul t hpos text c hr (hid _ hc.1 hc.2) (by rw [he]; rfl)] at h
      cases h
    | c :: d :: rest =>
      have hc := hmem c (by rw [hr]; simp)
      have hd := hmem d (by rw [hr]; simp)
      refine ⟨c.1, hc.1, d.1, hd.1, ?_, hc.2, hd.2⟩
      have hsub : ((t.filter (fun c => isIn c.1 text)).map (·.1)).Nodup := List.Nodup.sublist (List.filter_sublist.map _) hwf
      rw [hr, List.map_cons, List.map_cons, List.nodup_cons] at hsub
      intro heq
      exact hsub.1 (by rw [heq]; simp)
  · rintro (h0 | ⟨⟨a, ha, b, hb, hab, hai, hbi⟩, hid⟩)
    · subst h0
      refine ⟨t, t, ?_, ?_, ?_⟩
      · unfold exprFilter
        rw [hlen, if_pos rfl]
      all_goals
        unfold tview rowsOf
        apply List.map_congr_left
        intro c hc
        have : (colIter c.2).length = 0 := by rw [← ht c hc, colLen_eq, colIter_eq]
        simp [List.length_eq_zero_iff.1 this]
    · exact C84_filter_partial isIdent parse hparse truthy ps hps nul t n ht text a b hab ha hb hai hbi hid e he f hf

example : (∃ a ∈ [['A'], ['B']], ∃ b ∈ [['A'], ['B']], a ≠ b ∧ a <:+: "A > B".toList ∧ b <:+: "A > B".toList) := by
  refine ⟨['A'], by decide, ['B'], by decide, by decide, ⟨[], " > B".toList, by decide +kernel⟩, ⟨"A > ".toList, [], by decide +kernel⟩⟩

end

/-! ## C96 -/

/-- **C96, exactly** (name of the row numbers): it is not the name of a column if and only if one of the fifteen candidates is not -/
theorem C96_tag_exact (cols : List (List Char)) : pickTag cols ∉ cols ↔ ∃ t ∈ rowTags, t ∉ cols := by
  constructor
  · intro h
    by_contra hx
    push Not at hx
    have hf : (rowTags.find? fun t => decide (t ∉ cols)) = none := List.find?_eq_none.2 fun t ht => by simpa using hx t ht
    unfold pickTag at h
    rw [hf, Option.getD_none] at h
    exact h (hx _ (by decide +kernel))
  · intro h
    obtain ⟨_, _, _, h2, _⟩ := C96_tag cols h
    exact h2

section
variable {α : Type}

/-- **C96, exactly** (long tables): rows 0 to 6 and the last seven rows are shown with the values of these rows, if and only if every column has all the rows, or none of the last
seven, or nothing but `blanks` in them -/
theorem C96_long_exact (num : Nat → List Char) (width : Nat → Nat) (t : Tbl (List Char) α) (blanks : α) (hn : (t.map (·.1)).Nodup) (hfree : ∃ x ∈ rowTags, x ∉ t.map (·.1))
    (hlong : 20 < tblLen t) :
    (∃ tag rowNo, displayData num width t none blanks = .ok ((tag, rowNo) :: t.map fun c => (c.1, cutCells blanks (tblLen t) c.2))) ↔
      ∀ c ∈ t, colLen c.2 = tblLen t ∨ colLen c.2 + 7 ≤ tblLen t ∨ ∀ i, tblLen t - 7 ≤ i → i < tblLen t → rowValue blanks c.2 i = blanks := by
  have hfree' : pickTag (t.map (·.1)) ∉ t.map (·.1) := (C96_tag_exact _).2 hfree
  have hle : ∀ c ∈ t, colLen c.2 ≤ tblLen t := by
    intro c hc
    unfold tblLen
    exact (foldl_max_ge _ 0).2 _ (List.mem_map.2 ⟨c, hc, rfl⟩)
  let f : Pages α → List (DCell α) := fun p => if colLen p = tblLen t ∨ colLen p + 7 ≤ tblLen t then cutCells blanks (tblLen t) p
    else (List.range 7).map (fun i => .val (rowValue blanks p i)) ++ .text "...".toList :: List.replicate 7 (.val blanks)
  have hf : ∀ c ∈ t, cutColumn blanks (tblLen t) c.2 = .ok (f c.2) := by
    intro c hc
    by_cases h : colLen c.2 = tblLen t ∨ colLen c.2 + 7 ≤ tblLen t
    · rw [show f c.2 = cutCells blanks (tblLen t) c.2 from if_pos h]
      exact cutColumn_ok blanks _ hlong c.2 h
    · rw [show f c.2 = _ from if_neg h]
      rw [not_or] at h
      have := hle c hc
      exact cutColumn_short blanks _ hlong c.2 (by omega) (by omega)
  have hd : ∃ tag rowNo, displayData num width t none blanks = .ok ((tag, rowNo) :: t.map fun c => (c.1, f c.2)) := by
    refine ⟨pickTag (t.map (·.1)), (List.range 7).map (fun i => .text (padLeft (width (tblLen t)) (num i))) ++ .text "...".toList ::
          (List.range' (tblLen t - 7) 7).map fun i => .text (padLeft (width (tblLen t)) (num i)), ?_⟩
    unfold displayData
    rw [shownSlice, if_neg (by omega)]
    dsimp only
    unfold cutDict
    dsimp only
    rw [cutLoop_ok blanks (tblLen t) f t hf]
    rw [foldl_dSet_new (fun c : List Char × Pages α => c.1) (fun c => f c.2) t _ hn]
    · rfl
    · intro x hx h
      simp only [List.map_cons, List.map_nil, List.mem_singleton] at h
      exact hfree' (by rw [← h]; exact List.mem_map.2 ⟨x, hx, rfl⟩)
  have hcell : ∀ c ∈ t, f c.2 = cutCells blanks (tblLen t) c.2 ↔
      (colLen c.2 = tblLen t ∨ colLen c.2 + 7 ≤ tblLen t ∨ ∀ i, tblLen t - 7 ≤ i → i < tblLen t → rowValue blanks c.2 i = blanks) := by
    intro c hc
    rw [← or_assoc]
    by_cases h : colLen c.2 = tblLen t ∨ colLen c.2 + 7 ≤ tblLen t
    · rw [show f c.2 = cutCells blanks (tblLen t) c.2 from if_pos h]
      exact ⟨fun _ => Or.inl h, fun _ => rfl⟩
    · rw [show f c.2 = _ from if_neg h]
      unfold cutCells
      rw [List.append_cancel_left_eq, List.cons.injEq]
      constructor
      · rintro ⟨_, h'⟩
        right
        intro i h1 h2
        have := congrArg (fun l : List (DCell α) => l[i - (tblLen t - 7)]?) h'
        simp only [List.getElem?_replicate, List.getElem?_map] at this
        rw [if_pos (by omega), List.getElem?_range' (by omega)] at this
        simp only [Option.map_some, Option.some.injEq, DCell.val.injEq, Nat.one_mul] at this
        rw [show tblLen t - 7 + (i - (tblLen t - 7)) = i by omega] at this
        exact this.symm
      · intro h'
        have h' := h'.resolve_left h
        refine ⟨rfl, ?_⟩
        symm
        rw [List.eq_replicate_iff]
        refine ⟨by simp, ?_⟩
        intro b hb
        obtain ⟨i, hi, rfl⟩ := List.mem_map.1 hb
        rw [List.mem_range'_1] at hi
        rw [h' i hi.1 (by omega)]
  obtain ⟨tag, rowNo, hd⟩ := hd
  rw [hd]
  constructor
  · rintro ⟨tag', rowNo', h⟩ c hc
    simp only [Except.ok.injEq, List.cons.injEq] at h
    have := List.map_inj_left.1 h.2 c hc
    exact (hcell c hc).1 (Prod.mk.inj this).2
  · intro h
    refine ⟨tag, rowNo, ?_⟩
    congr 2
    apply List.map_congr_left
    intro c hc
    rw [(hcell c hc).2 (h c hc)]

/-- a table of 21 rows and a column of 20, the last six of which are blank, is shown right -/
example : let t : Tbl (List Char) Nat := [("a".toList, [List.range 21]), ("b".toList, [List.range 14 ++ List.replicate 6 99])]
    20 < tblLen t ∧ ∀ c ∈ t, colLen c.2 = tblLen t ∨ colLen c.2 + 7 ≤ tblLen t ∨ ∀ i ∈ List.range' 14 7, rowValue 99 c.2 i = 99 := by
  decide +kernel

end

end Tablite
