import Verif.Model.ExprFilter
import Verif.Props.Filter
import Verif.Props.Select
/-!
# C84 filtering by the text of an expression
-/

namespace Tablite

section
variable {α : Type}

/-! ## specification -/

/-- the names an expression sees on row `i`: every column of the table -/
def rowEnv (nul : α) (t : Tbl (List Char) α) (i : Nat) (x : List Char) : Option α := if x ∈ t.map (·.1) then some (cell nul t x i) else none

/-- the expression holds on row `i`, or raises -/
def exprHolds (truthy : α → Except Err Bool) (nul : α) (t : Tbl (List Char) α) (e : PyExpr α) (i : Nat) : Except Err Bool :=
  (e.run (rowEnv nul t i)).bind truthy

/-- Python's parser: every name of an expression occurs in its text -/
def NamesInText (parse : List Char → Option (PyExpr α)) : Prop := ∀ text e, parse text = some e → ∀ x ∈ e.names, x <:+: text

theorem isIn_iff (x text : List Char) : isIn x text = true ↔ x <:+: text := by
  unfold isIn
  rw [List.any_eq_true]
  constructor
  · rintro ⟨i, _, h⟩
    rw [List.isPrefixOf_iff_prefix] at h
    exact h.isInfix.trans (List.drop_suffix _ _).isInfix
  · rintro ⟨a, b, h⟩
    refine ⟨a.length, ?_, ?_⟩
    · rw [List.mem_range, ← h]; simp; omega
    · rw [List.isPrefixOf_iff_prefix, ← h, List.append_assoc, List.drop_left]
      exact List.prefix_append _ _

theorem dGet_filter_key {ν β : Type} [DecidableEq ν] (p : ν → Bool) (t : List (ν × β)) (x : ν) :
    dGet x (t.filter fun c => p c.1) = if p x then dGet x t else none := by
  induction t with
  | nil => simp [dGet]
  | cons c t ih =>
    obtain ⟨k, b⟩ := c
    rw [List.filter_cons]
    by_cases hk : k = x
    · subst hk
      by_cases hp : p k
      · simp [hp, dGet]
      · simp only [hp, Bool.false_eq_true, if_false, ih]
    · by_cases hp : p k
      · simp only [hp, if_true, dGet, if_neg hk, ih]
      · simp only [hp, Bool.false_eq_true, if_false, ih, dGet, if_neg hk]

/-- the values bound to the parameters are those the specification gives to the names -/
theorem reqEnv (nul : α) (t : Tbl (List Char) α) (text : List Char) (i : Nat) (x : List Char) (hx : x <:+: text) :
    dGet x (((reqColumns t text).map (·.1)).zip ((reqColumns t text).map fun c => (colIter c.2).getD i nul)) = rowEnv nul t i x := by
  have : ((reqColumns t text).map (·.1)).zip ((reqColumns t text).map fun c => (colIter c.2).getD i nul) =
      (reqColumns t text).map fun c => (c.1, (fun p => (colIter p).getD i nul) c.2) := by
    rw [List.zip_map']
  rw [this, dGet_map_val (fun p => (colIter p).getD i nul)]
  unfold reqColumns
  rw [dGet_filter_key (fun k => isIn k text), if_pos ((isIn_iff x text).2 hx)]
  unfold rowEnv cell
  cases h : dGet x t with
  | none =>
    rw [if_neg]
    · rfl
    · intro hm
      have := (dGet_isSome x t).2 hm
      rw [h] at this
      cases this
  | some p =>
    rw [if_pos]
    · rfl
    · rw [← dGet_isSome, h]; rfl

theorem exprRow_spec (truthy : α → Except Err Bool) (nul : α) (t : Tbl (List Char) α) (text : List Char) (e : PyExpr α) (hn : ∀ x ∈ e.names, x <:+: text) (i : Nat) :
    exprRow truthy e ((reqColumns t text).map (·.1)) ((reqColumns t text).map fun c => (colIter c.2).getD i nul) = exprHolds truthy nul t e i := by
  unfold exprRow exprHolds
  rw [e.local_ _ (rowEnv nul t i) (fun x hx => reqEnv nul t text i x (hn x hx))]
  rfl

theorem reqRows_ok (nul : α) (t : Tbl (List Char) α) (n : Nat) (ht : Rect t n) (text : List Char) (h2 : 2 ≤ (reqColumns t text).length) :
    reqRows nul (reqColumns t text) = .ok ((List.range n).map fun i => (reqColumns t text).map fun c => (colIter c.2).getD i nul) := by
  have hr : Rect (reqColumns t text) n := fun c hc => ht c (List.mem_filter.1 hc).1
  have hne : reqColumns t text ≠ [] := by intro h; rw [h] at h2; simp at h2
  have hl := tblLen_rect _ n hr hne
  have := C15_rows nul (reqColumns t text)
  rw [hl] at this
  rw [← this]
  unfold reqRows
  generalize reqColumns t text = r at h2
  match r, h2 with
  | _ :: _ :: _, _ => rfl

theorem compileExpr_ok (isIdent : List Char → Bool) (parse : List Char → Option (PyExpr α)) (t : Tbl (List Char) α) (text : List Char)
    (hid : ∀ x ∈ t.map (·.1), x <:+: text → isIdent x = true) (e : PyExpr α) (he : parse text = some e) :
    compileExpr isIdent parse ((reqColumns t text).map (·.1)) text = .ok e := by
  unfold compileExpr
  rw [if_pos (by
    rw [List.all_eq_true]
    intro x hx
    obtain ⟨c, hc, rfl⟩ := List.mem_map.1 hx
    have := List.mem_filter.1 hc
    exact hid _ (List.mem_map.2 ⟨c, this.1, rfl⟩) ((isIn_iff _ _).1 this.2)), he]

/-- C84 (partial): filtering by the text of an expression gives, in order, the rows for which it holds and those for which it does not, with
the columns' names standing for the row's values.  Missing: texts in which fewer than two column names occur (`C84_one_column_raises`,
`C84_no_column_raises`), and column names that occur in the text without being identifiers (`C84_name_raises`). -/
theorem C84_filter_partial (isIdent : List Char → Bool) (parse : List Char → Option (PyExpr α)) (hparse : NamesInText parse) (truthy : α → Except Err Bool)
    (ps : Nat) (hps : 0 < ps) (nul : α) (t : Tbl (List Char) α) (n : Nat) (ht : Rect t n) (text : List Char)
    (a b : List Char) (hab : a ≠ b) (ha : a ∈ t.map (·.1)) (hb : b ∈ t.map (·.1)) (hai : a <:+: text) (hbi : b <:+: text)
    (hid : ∀ x ∈ t.map (·.1), x <:+: text → isIdent x = true) (e : PyExpr α) (he : parse text = some e)
    (f : Nat → Bool) (hf : ∀ i < n, exprHolds truthy nul t e i = .ok (f i)) :
    ∃ p q, exprFilter isIdent parse truthy ps nul t text = .ok (p, q) ∧ tview p = rowsOf nul t ((List.range n).filter f) ∧
      tview q = rowsOf nul t ((List.range n).filter fun i => !f i) := by
  have hne : t ≠ [] := by rintro rfl; cases ha
  have hlen := tblLen_rect t n ht hne
  unfold exprFilter
  rw [hlen]
  by_cases h0 : n = 0
  · subst h0
    rw [if_pos rfl]
    have : tview t = rowsOf nul t [] := by
      unfold tview rowsOf
      apply List.map_congr_left
      intro c hc
      have := ht c hc
      rw [colLen_eq, ← colIter_eq] at this
      rw [List.length_eq_zero_iff.1 this]
      rfl
    exact ⟨t, t, rfl, this, this⟩
  · rw [if_neg h0]
    have h2 : 2 ≤ (reqColumns t text).length := by
      have hm : ∀ x ∈ t.map (·.1), x <:+: text → x ∈ (reqColumns t text).map (·.1) := by
        intro x hx hxi
        obtain ⟨c, hc, rfl⟩ := List.mem_map.1 hx
        exact List.mem_map.2 ⟨c, List.mem_filter.2 ⟨hc, (isIn_iff _ _).2 hxi⟩, rfl⟩
      have h1 := hm a ha hai
      have h3 := hm b hb hbi
      generalize reqColumns t text = r at h1 h3
      match r, h1, h3 with
      | [c], h1, h3 =>
        simp only [List.map_cons, List.map_nil, List.mem_singleton] at h1 h3
        exact absurd (h1.trans h3.symm) hab
      | _ :: _ :: _, _, _ => simp
    unfold exprMask
    dsimp only
    rw [compileExpr_ok isIdent parse t text hid e he, reqRows_ok nul t n ht text h2]
    simp only [bind, Except.bind]
    rw [List.mapM_map, mapM_ok (List.range n) _ f (by
      intro i hi
      simp only [Function.comp]
      rw [exprRow_spec truthy nul t text e (hparse text e he)]
      exact hf i (List.mem_range.1 hi))]
    exact C29_compress_both ps hps nul t n ht f

/-- C84: if the expression raises on a row and on no earlier one, the filter raises that exception and returns nothing. -/
theorem C84_raises (isIdent : List Char → Bool) (parse : List Char → Option (PyExpr α)) (hparse : NamesInText parse) (truthy : α → Except Err Bool)
    (ps : Nat) (nul : α) (t : Tbl (List Char) α) (n : Nat) (ht : Rect t n) (text : List Char) (h2 : 2 ≤ (t.filter fun c => isIn c.1 text).length)
    (hid : ∀ x ∈ t.map (·.1), x <:+: text → isIdent x = true) (e : PyExpr α) (he : parse text = some e)
    (k : Nat) (hk : k < n) (err : Err) (hlt : ∀ i < k, ∃ b, exprHolds truthy nul t e i = .ok b) (hf : exprHolds truthy nul t e k = .error err) :
    exprFilter isIdent parse truthy ps nul t text = .error err := by
  have hne : t ≠ [] := by rintro rfl; simp at h2
  have hlen := tblLen_rect t n ht hne
  unfold exprFilter
  rw [hlen, if_neg (by omega)]
  unfold exprMask
  dsimp only
  rw [compileExpr_ok isIdent parse t text hid e he, reqRows_ok nul t n ht text h2]
  simp only [bind, Except.bind]
  rw [List.mapM_map]
  have hall : ∀ i, (exprRow truthy e ((reqColumns t text).map (·.1)) ∘ fun i => (reqColumns t text).map fun c => (colIter c.2).getD i nul) i =
      exprHolds truthy nul t e i := fun i => exprRow_spec truthy nul t text e (hparse text e he) i
  have hfun : (exprRow truthy e ((reqColumns t text).map (·.1)) ∘ fun i => (reqColumns t text).map fun c => (colIter c.2).getD i nul) =
      exprHolds truthy nul t e := funext hall
  rw [hfun]
  obtain ⟨r, hr⟩ : ∃ r, List.range n = List.range k ++ k :: r := by
    refine ⟨(List.range (n - k - 1)).map fun i => k + (i + 1), ?_⟩
    conv => lhs; rw [show n = k + (n - k - 1 + 1) by omega, List.range_add, List.range_succ_eq_map, List.map_cons, List.map_map]
    rfl
  have hm : ∀ (l r : List Nat), (∀ i ∈ l, ∃ b, exprHolds truthy nul t e i = .ok b) → (l ++ k :: r).mapM (exprHolds truthy nul t e) = .error err := by
    intro l r hl
    induction l with
    | nil => rw [List.nil_append, List.mapM_cons, hf]; rfl
    | cons i l ih =>
      obtain ⟨b, hb⟩ := hl i List.mem_cons_self
      rw [List.cons_append, List.mapM_cons, hb, ih fun j hj => hl j (List.mem_cons_of_mem _ hj)]
      rfl
  rw [hr, hm _ _ (fun i hi => hlt i (List.mem_range.1 hi))]

/-! ## where it fails -/

/-- C84: an expression in whose text exactly one column name occurs raises AttributeError on every non-empty table, for example "A > 1". -/
theorem C84_one_column_raises (isIdent : List Char → Bool) (parse : List Char → Option (PyExpr α)) (truthy : α → Except Err Bool) (ps : Nat) (nul : α)
    (t : Tbl (List Char) α) (hlen : 0 < tblLen t) (text : List Char) (c : List Char × Pages α) (hc : t.filter (fun c => isIn c.1 text) = [c])
    (hid : isIdent c.1 = true) (hp : (parse text).isSome) : exprFilter isIdent parse truthy ps nul t text = .error .attribute := by
  unfold exprFilter exprMask compileExpr reqColumns
  dsimp only
  rw [if_neg (by omega), hc]
  cases h : parse text with
  | none => rw [h] at hp; cases hp
  | some e => simp only [List.map_cons, List.map_nil, List.all_cons, List.all_nil, hid, Bool.and_true, if_true]; rfl

/-- C84: an expression that names no column raises IndexError on every non-empty table. -/
theorem C84_no_column_raises (isIdent : List Char → Bool) (parse : List Char → Option (PyExpr α)) (truthy : α → Except Err Bool) (ps : Nat) (nul : α)
    (t : Tbl (List Char) α) (hlen : 0 < tblLen t) (text : List Char) (hc : ∀ x ∈ t.map (·.1), ¬ x <:+: text) (hp : (parse text).isSome) :
    exprFilter isIdent parse truthy ps nul t text = .error .index := by
  have : t.filter (fun c => isIn c.1 text) = [] := by
    rw [List.filter_eq_nil_iff]
    intro c hc' h
    exact hc c.1 (List.mem_map.2 ⟨c, hc', rfl⟩) ((isIn_iff _ _).1 h)
  unfold exprFilter exprMask compileExpr reqColumns
  dsimp only
  rw [if_neg (by omega), this]
  cases h : parse text with
  | none => rw [h] at hp; cases hp
  | some e => rfl

/-- C84: a column whose name occurs anywhere in the text but is no identifier, such as a column "1" with "A > B + 1", makes the expression
uncompilable, although it does not mention that column. -/
theorem C84_name_raises (isIdent : List Char → Bool) (parse : List Char → Option (PyExpr α)) (truthy : α → Except Err Bool) (ps : Nat) (nul : α)
    (t : Tbl (List Char) α) (hlen : 0 < tblLen t) (text : List Char) (x : List Char) (hx : x ∈ t.map (·.1)) (hi : x <:+: text) (hid : isIdent x = false) :
    exprFilter isIdent parse truthy ps nul t text = .error .value := by
  unfold exprFilter exprMask compileExpr reqColumns
  dsimp only
  rw [if_neg (by omega), if_neg]
  · rfl
  · rw [List.all_eq_true]
    intro h
    obtain ⟨c, hc, rfl⟩ := List.mem_map.1 hx
    have := h c.1 (List.mem_map.2 ⟨c, List.mem_filter.2 ⟨hc, (isIn_iff _ _).2 hi⟩, rfl⟩)
    rw [hid] at this
    cases this

/-- C84 (full statement) -/
def C84_statement : Prop :=
  ∀ (isIdent : List Char → Bool) (parse : List Char → Option (PyExpr Int)), NamesInText parse → ∀ (truthy : Int → Except Err Bool) (ps : Nat), 0 < ps →
    ∀ (nul : Int) (t : Tbl (List Char) Int) (n : Nat), Rect t n → TblWF t → ∀ (text : List Char) (e : PyExpr Int), parse text = some e →
    (∀ x ∈ e.names, isIdent x = true) → ∀ f : Nat → Bool, (∀ i < n, exprHolds truthy nul t e i = .ok (f i)) →
    ∃ p q, exprFilter isIdent parse truthy ps nul t text = .ok (p, q) ∧ tview p = rowsOf nul t ((List.range n).filter f) ∧
      tview q = rowsOf nul t ((List.range n).filter fun i => !f i)

/-- the expression "A > 1" -/
def sampleGt : PyExpr Int where
  names := [['A']]
  run env := match env ['A'] with
    | some v => .ok (if 1 < v then 1 else 0)
    | none => .error .unbound
  local_ := by
    intro env env' h
    rw [h ['A'] (by simp)]

/-- the expression "A > B" -/
def sampleGtB : PyExpr Int where
  names := [['A'], ['B']]
  run env := match env ['A'], env ['B'] with
    | some v, some w => .ok (if w < v then 1 else 0)
    | _, _ => .error .unbound
  local_ := by
    intro env env' h
    rw [h ['A'] (by simp), h ['B'] (by simp)]

/-- a parser for these two texts -/
def sampleParse (text : List Char) : Option (PyExpr Int) :=
  if text = "A > 1".toList then some sampleGt else if text = "A > B".toList then some sampleGtB else none

theorem sampleParse_ok : NamesInText sampleParse := by
  intro text e h x hx
  unfold sampleParse at h
  split_ifs at h with h1 h2
  · subst h1
    cases h
    rw [← isIn_iff]
    simp only [sampleGt, List.mem_singleton] at hx
    subst hx
    decide +kernel
  · subst h2
    cases h
    rw [← isIn_iff]
    simp only [sampleGtB, List.mem_cons, List.not_mem_nil, or_false] at hx
    rcases hx with rfl | rfl <;> decide +kernel

/-- the full statement is false: "A > 1" -/
theorem C84_fails : ¬ C84_statement := by
  intro h
  obtain ⟨p, q, h1, _⟩ := h (fun _ => true) sampleParse sampleParse_ok (fun v => .ok (decide (v ≠ 0))) 10 (by decide) 0 [(['A'], [[1, 2, 3]]), (['B'], [[2, 1, 1]])] 3
    (by unfold Rect; decide) (by unfold TblWF; decide) "A > 1".toList sampleGt (by unfold sampleParse; rw [if_pos rfl]) (fun _ _ => rfl)
    (fun i => [false, true, true].getD i false) (by decide)
  have := C84_one_column_raises (fun _ => true) sampleParse (fun v => .ok (decide (v ≠ 0))) 10 0 [(['A'], [[1, 2, 3]]), (['B'], [[2, 1, 1]])] (by decide)
    "A > 1".toList (['A'], [[1, 2, 3]]) (by decide +kernel) rfl (by unfold sampleParse; rw [if_pos rfl]; rfl)
  rw [this] at h1
  cases h1

/-- a case with two columns that the theorem covers -/
example : ((exprFilter (fun _ => true) sampleParse (fun v => .ok (decide (v ≠ 0))) 2 0 [(['A'], [[1, 2], [3]]), (['C'], [[7, 8, 9]]), (['B'], [[2, 1, 1]])]
    "A > B".toList).map fun r => (tview r.1, tview r.2)) =
    .ok ([(['A'], [2, 3]), (['C'], [8, 9]), (['B'], [1, 1])], [(['A'], [1]), (['C'], [7]), (['B'], [2])]) := by decide +kernel

end

end Tablite
