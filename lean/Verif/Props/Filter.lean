import Verif.Lemmas.Filter
import Verif.Props.Lookup
import Verif.Model.PyCmp
import Mathlib.Data.String.Basic
import Mathlib.Algebra.Order.Ring.Rat
/-!
# C29 filter partition, C30 comparison operators, C31 all / any / drop
-/

namespace Tablite
set_option linter.unusedSectionVars false

section
variable {ν α κ : Type} [DecidableEq ν]

/-- the table restricted to the given rows, in that order (spec vocabulary) -/
def rowsOf (nul : α) (t : Tbl ν α) (rows : List Nat) : List (ν × List α) :=
  t.map fun c => (c.1, rows.map fun i => (colIter c.2).getD i nul)

theorem compressOne_ok (ps : Nat) (hps : 0 < ps) (nul : α) (t : Tbl ν α) (n : Nat) (ht : Rect t n) (f : Nat → Bool) :
    ∃ t', compressOne ps t ((List.range n).map f) = .ok t' ∧ tview t' = rowsOf nul t ((List.range n).filter f) := by
  unfold compressOne rowsOf
  by_cases hne : t = []
  · subst hne; exact ⟨[], rfl, rfl⟩
  rw [tblLen_rect t n ht hne]
  clear hne
  induction t with
  | nil => exact ⟨[], rfl, rfl⟩
  | cons c u ih =>
    obtain ⟨t', h1, h2⟩ := ih (fun d hd => ht d (by simp [hd]))
    have hc := ht c (by simp)
    obtain ⟨q, q1, q2⟩ := compressCol_ok ps hps n ((List.range n).map f) c.2 (by simp) hc
    refine ⟨(c.1, q) :: t', ?_, ?_⟩
    · rw [List.mapM_cons, q1, h1]; rfl
    · have hl : (colIter c.2).length = n := by rw [colIter_eq, ← colLen_eq]; exact hc
      have h3 : tview ((c.1, q) :: t') = (c.1, colIter q) :: tview t' := rfl
      rw [h3, h2, q2, List.map_cons]
      congr 2
      have := npCompress_range nul f (colIter c.2)
      rw [hl] at this
      exact this

theorem Rect.len_of_get {t : Tbl ν α} {n : Nat} (h : Rect t n) (x : ν) (hx : x ∈ t.map (·.1)) : colLen ((dGet x t).getD []) = n := by
  obtain ⟨p, hp⟩ := Option.isSome_iff_exists.1 ((dGet_isSome x t).2 hx)
  rw [hp]
  exact h (x, p) (dGet_mem x t p hp)

theorem cell_getD (nul : α) (t : Tbl ν α) (x : ν) (i : Nat) : (colIter ((dGet x t).getD [])).getD i nul = cell nul t x i := by
  unfold cell
  cases dGet x t <;> rfl

theorem replicate_range {β : Type} (n : Nat) (b : β) : List.replicate n b = (List.range n).map fun _ => b := by
  induction n with
  | zero => rfl
  | succ n ih => rw [List.range_succ, List.map_append, ← ih]; exact List.replicate_succ'

theorem maskFold (nul : α) (t : Tbl ν α) (n : Nat) (ht : Rect t n) (op : Bool → Bool → Bool) (kw : List (ν × (α → Bool))) (hk : ∀ k ∈ kw, k.1 ∈ t.map (·.1))
    (f : Nat → Bool) :
    kw.foldl (fun m k => maskLoop (fun b v => op b (k.2 v)) 0 ((dGet k.1 t).getD []) m) ((List.range n).map f) =
      (List.range n).map fun i => kw.foldl (fun b k => op b (k.2 (cell nul t k.1 i))) (f i) := by
  induction kw generalizing f with
  | nil => rfl
  | cons k u ih =>
    rw [List.foldl_cons, maskLoop_range nul _ _ f n (ht.len_of_get k.1 (hk k (by simp)))]
    simp only [cell_getD]
    exact ih (fun k hk' => hk k (by simp [hk'])) _

theorem foldl_and {β : Type} (l : List β) (p : β → Bool) (b : Bool) : l.foldl (fun b k => b && p k) b = (b && l.all p) := by
  induction l generalizing b with
  | nil => simp
  | cons a u ih => rw [List.foldl_cons, ih, List.all_cons, Bool.and_assoc]

theorem foldl_or {β : Type} (l : List β) (p : β → Bool) (b : Bool) : l.foldl (fun b k => b || p k) b = (b || l.any p) := by
  induction l generalizing b with
  | nil => simp
  | cons a u ih => rw [List.foldl_cons, ih, List.any_cons, Bool.or_assoc]

/-! ## C31 -/

/-- C31: `t.all(**kw)` keeps exactly the rows in which every named column satisfies its condition, in order, for every layout. -/
theorem C31_all (ps : Nat) (hps : 0 < ps) (nul : α) (t : Tbl ν α) (n : Nat) (ht : Rect t n) (kw : List (ν × (α → Bool))) (hk : ∀ k ∈ kw, k.1 ∈ t.map (·.1)) :
    ∃ t', filterAll ps t kw = .ok t' ∧
      tview t' = rowsOf nul t ((List.range n).filter fun i => kw.all fun k => k.2 (cell nul t k.1 i)) := by
  unfold filterAll
  rw [if_neg (by simpa using hk)]
  by_cases hne : t = []
  · subst hne; exact ⟨[], rfl, rfl⟩
  rw [tblLen_rect t n ht hne, replicate_range]
  dsimp only
  rw [maskFold nul t n ht (fun a b => a && b) kw hk]
  simp only [foldl_and, Bool.true_and]
  exact compressOne_ok ps hps nul t n ht _

/-- C31: `t.any(**kw)` keeps exactly the rows in which at least one named column satisfies its condition. -/
theorem C31_any (ps : Nat) (hps : 0 < ps) (nul : α) (t : Tbl ν α) (n : Nat) (ht : Rect t n) (kw : List (ν × (α → Bool))) (hk : ∀ k ∈ kw, k.1 ∈ t.map (·.1)) :
    ∃ t', filterAny ps t kw = .ok t' ∧
      tview t' = rowsOf nul t ((List.range n).filter fun i => kw.any fun k => k.2 (cell nul t k.1 i)) := by
  unfold filterAny
  rw [if_neg (by simpa using hk)]
  by_cases hne : t = []
  · subst hne; exact ⟨[], rfl, rfl⟩
  rw [tblLen_rect t n ht hne, replicate_range]
  dsimp only
  rw [maskFold nul t n ht (fun a b => a || b) kw hk]
  simp only [foldl_or, Bool.false_or]
  exact compressOne_ok ps hps nul t n ht _

/-- C31: `t.drop(values)` keeps exactly the rows that contain none of the values in any column. -/
theorem C31_drop (eq : α → α → Bool) (ps : Nat) (hps : 0 < ps) (nul : α) (t : Tbl ν α) (n : Nat) (ht : Rect t n) (args : List α) :
    ∃ t', dropRows eq ps t args = .ok t' ∧
      tview t' = rowsOf nul t ((List.range n).filter fun i => t.all fun c => args.all fun a => !eq ((colIter c.2).getD i nul) a) := by
  unfold dropRows
  dsimp only
  by_cases hne : t = []
  · subst hne; exact ⟨[], rfl, rfl⟩
  rw [tblLen_rect t n ht hne, replicate_range]
  have key : ∀ (u : Tbl ν α), (∀ c ∈ u, colLen c.2 = n) → ∀ f : Nat → Bool,
      u.foldl (fun m c => maskLoop (fun b v => args.foldl (fun b a => b || eq v a) b) 0 c.2 m) ((List.range n).map f) =
      (List.range n).map fun i => f i || u.any fun c => args.any fun a => eq ((colIter c.2).getD i nul) a := by
    intro u
    induction u with
    | nil => simp
    | cons c u ih =>
      intro hu f
      rw [List.foldl_cons, maskLoop_range nul _ _ f n (hu c (by simp)), ih (fun d hd => hu d (by simp [hd]))]
      simp only [foldl_or, List.any_cons, Bool.or_assoc]
  rw [key t ht, List.map_map]
  have : ((fun x => !x) ∘ fun i => false || t.any fun c => args.any fun a => eq ((colIter c.2).getD i nul) a) =
      fun i => t.all fun c => args.all fun a => !eq ((colIter c.2).getD i nul) a := by
    funext i
    simp only [Function.comp, Bool.false_or, List.not_any_eq_all_not]
  rw [this]
  exact compressOne_ok ps hps nul t n ht _

/-- C31: an unknown column name is refused. -/
theorem C31_unknown (ps : Nat) (t : Tbl ν α) (kw : List (ν × (α → Bool))) (k : ν × (α → Bool)) (hk : k ∈ kw) (h : k.1 ∉ t.map (·.1)) :
    filterAll ps t kw = .error .value ∧ filterAny ps t kw = .error .key := by
  have : ¬ (kw.all (fun k => decide (k.1 ∈ t.map (·.1))) = true) := by
    intro hc
    rw [List.all_eq_true] at hc
    exact h (of_decide_eq_true (hc k hk))
  unfold filterAll filterAny
  rw [if_pos this, if_pos this]
  exact ⟨rfl, rfl⟩

example : (filterAll 2 [("a", [[1, 2, 3], [4]]), ("b", [[10], [20, 30, 40]])] [("a", fun x => decide (2 ≤ x)), ("b", fun x => decide (x ≤ 30))]).map tview =
    .ok [("a", [2, 3]), ("b", [20, 30])] := by decide
example : (filterAny 2 [("a", [[1, 2, 3], [4]]), ("b", [[10], [20, 30, 40]])] [("a", fun x => decide (4 ≤ x)), ("b", fun x => decide (x < 20))]).map tview =
    .ok [("a", [1, 4]), ("b", [10, 40])] := by decide
example : (dropRows (fun a b => decide (a = b)) 2 [("a", [[1, 2, 3], [4]]), ("b", [[10], [20, 3, 40]])] [3, 10]).map tview =
    .ok [("a", [2, 4]), ("b", [20, 40])] := by decide

/-! ## C29 -/

/-- the value of an operand in row `i` -/
def fVal (nul : α) (t : Tbl ν α) (i : Nat) : FOperand ν α → α
  | .col x => cell nul t x i
  | .val v => v

/-- whether row `i` satisfies all (any) of the expressions -/
def rowHolds (nul : α) (cmp : κ → α → α → Bool) (all : Bool) (es : List (FExpr ν α κ)) (t : Tbl ν α) (i : Nat) : Bool :=
  if all then es.all fun e => cmp e.op (fVal nul t i e.left) (fVal nul t i e.right)
  else es.any fun e => cmp e.op (fVal nul t i e.left) (fVal nul t i e.right)

theorem mem_addCol (cs : List ν) (o : FOperand ν α) (x : ν) : x ∈ addCol cs o ↔ x ∈ cs ∨ (∃ y, o = .col y ∧ y = x) := by
  cases o with
  | val v => simp [addCol]
  | col y =>
    unfold addCol
    dsimp only
    by_cases h : y ∈ cs
    · rw [if_pos h]
      constructor
      · exact Or.inl
      · rintro (h' | ⟨z, e, rfl⟩)
        · exact h'
        · injection e with e; subst e; exact h
    · rw [if_neg h]; simp [eq_comm]

theorem mem_exprCols (es : List (FExpr ν α κ)) (x : ν) : x ∈ exprCols es ↔ ∃ e ∈ es, e.left = .col x ∨ e.right = .col x := by
  unfold exprCols
  have : ∀ (es : List (FExpr ν α κ)) (cs : List ν), x ∈ es.foldl (fun cs e => addCol (addCol cs e.left) e.right) cs ↔
      x ∈ cs ∨ ∃ e ∈ es, e.left = .col x ∨ e.right = .col x := by
    intro es
    induction es with
    | nil => simp
    | cons e u ih =>
      intro cs
      rw [List.foldl_cons, ih, mem_addCol, mem_addCol]
      simp only [exists_eq_right, List.mem_cons, exists_eq_or_imp, or_assoc]
  rw [this]; simp

theorem extractValue_eq (nul : α) (t : Tbl ν α) (cols : List ν) (i : Nat) (o : FOperand ν α) (h : ∀ x, o = .col x → x ∈ cols) :
    extractValue nul cols (cols.map fun a => cell nul t a i) o = fVal nul t i o := by
  cases o with
  | val v => rfl
  | col x =>
    unfold extractValue fVal
    dsimp only
    rw [dGet_zip_map, if_pos (h x rfl)]; rfl

theorem checkExprs_eq (nul : α) (cmp : κ → α → α → Bool) (all : Bool) (es : List (FExpr ν α κ)) (t : Tbl ν α) (i : Nat) :
    checkExprs nul cmp all es (exprCols es) ((exprCols es).map fun a => cell nul t a i) = rowHolds nul cmp all es t i := by
  unfold checkExprs rowHolds
  dsimp only
  have : ∀ e ∈ es, cmp e.op (extractValue nul (exprCols es) ((exprCols es).map fun a => cell nul t a i) e.left)
      (extractValue nul (exprCols es) ((exprCols es).map fun a => cell nul t a i) e.right) = cmp e.op (fVal nul t i e.left) (fVal nul t i e.right) := by
    intro e he
    rw [extractValue_eq nul t _ i _ (fun x hx => (mem_exprCols es x).2 ⟨e, he, Or.inl hx⟩),
      extractValue_eq nul t _ i _ (fun x hx => (mem_exprCols es x).2 ⟨e, he, Or.inr hx⟩)]
  generalize hc : exprCols es = cols at this ⊢
  clear hc
  congr 1
  · induction es with
    | nil => rfl
    | cons e u ih => rw [List.all_cons, List.all_cons, this e (by simp), ih (fun e he => this e (by simp [he]))]
  · induction es with
    | nil => rfl
    | cons e u ih => rw [List.any_cons, List.any_cons, this e (by simp), ih (fun e he => this e (by simp [he]))]

theorem dumped_view (nul : α) (t : Tbl ν α) (n : Nat) (ht : Rect t n) (f : Nat → Bool) (out : List (Pages α × Pages α))
    (h : List.Forall₂ (Dumped ((List.range n).map f)) (t.map (·.2)) out) :
    tview ((t.zip out).map fun x => (x.1.1, x.2.1)) = rowsOf nul t ((List.range n).filter f) ∧
    tview ((t.zip out).map fun x => (x.1.1, x.2.2)) = rowsOf nul t ((List.range n).filter fun i => !f i) := by
  induction t generalizing out with
  | nil => cases h; exact ⟨rfl, rfl⟩
  | cons c u ih =>
    cases h with
    | cons h1 h2 =>
      rename_i o os
      have := ih (fun d hd => ht d (by simp [hd])) os h2
      have hl : c.2.flatten.length = n := by rw [← colLen_eq]; exact ht c (by simp)
      have e1 := npCompress_range nul f c.2.flatten
      have e2 := npCompress_range nul (fun i => !f i) c.2.flatten
      rw [hl] at e1 e2
      have m : ((List.range n).map f).map (!·) = (List.range n).map fun i => !f i := by rw [List.map_map]; rfl
      unfold Dumped at h1
      rw [m, e1, e2] at h1
      unfold tview rowsOf at this ⊢
      simp only [List.zip_cons_cons, List.map_cons]
      rw [this.1, this.2, colIter_eq o.1, colIter_eq o.2, h1.1, h1.2, colIter_eq c.2]
      exact ⟨rfl, rfl⟩

/-- C29 (partial): for a non-empty list of expressions over existing columns, at least one of which names a column, `t.filter` returns the
rows that satisfy all (any) expressions and the remaining rows, each in order and with all columns, for any layout of each column, any page
size and any comparison functions.  Missing: the empty list of expressions and lists of expressions that compare only constants
(`C29_fails`, `C29_constants_raise`). -/
theorem C29_filter_partial (nul : α) (cmp : κ → α → α → Bool) (ps : Nat) (hps : 0 < ps) (all : Bool) (t : Tbl ν α) (n : Nat) (ht : Rect t n)
    (hne : t ≠ []) (es : List (FExpr ν α κ)) (hx : ∃ e ∈ es, ∃ x, e.left = .col x ∨ e.right = .col x)
    (hcols : ∀ e ∈ es, ∀ x, e.left = .col x ∨ e.right = .col x → x ∈ t.map (·.1)) :
    ∃ p f, tblFilter nul cmp ps all t es = .ok (p, f) ∧
      tview p = rowsOf nul t ((List.range n).filter fun i => rowHolds nul cmp all es t i) ∧
      tview f = rowsOf nul t ((List.range n).filter fun i => !rowHolds nul cmp all es t i) := by
  have hlen := tblLen_rect t n ht hne
  unfold tblFilter
  rw [hlen]
  by_cases h0 : n = 0
  · rw [if_pos h0]
    subst h0
    have : tview t = rowsOf nul t [] := by
      unfold tview rowsOf
      apply List.map_congr_left
      intro c hc
      have h := ht c hc
      rw [colLen_eq, ← colIter_eq] at h
      simp [List.length_eq_zero_iff.1 h]
    exact ⟨t, t, rfl, by simpa using this, by simpa using this⟩
  rw [if_neg h0]
  obtain ⟨e0, he0, x0, hx0⟩ := hx
  rw [if_neg (List.ne_nil_of_mem he0)]
  have hhead : ((t.head?).elim 0 fun c => colLen c.2) = n := by
    cases t with
    | nil => exact absurd rfl hne
    | cons c u => exact ht c (by simp)
  rw [hhead, if_neg (by simp only [not_not, List.all_eq_true, decide_eq_true_eq]; exact ht)]
  have hop : es.all (fun e => operandOk t e.left && operandOk t e.right) = true := by
    rw [List.all_eq_true]
    intro e he
    have h1 := hcols e he
    rw [Bool.and_eq_true]
    constructor
    · cases hl : e.left with
      | val v => rfl
      | col x => exact decide_eq_true (h1 x (Or.inl hl))
    · cases hl : e.right with
      | val v => rfl
      | col x => exact decide_eq_true (h1 x (Or.inr hl))
  have hec : exprCols es ≠ [] := List.ne_nil_of_mem ((mem_exprCols es x0).2 ⟨e0, he0, hx0⟩)
  have hin : ∀ a ∈ exprCols es, a ∈ t.map (·.1) := by
    intro a ha
    obtain ⟨e, he, h⟩ := (mem_exprCols es a).1 ha
    exact hcols e he a h
  rw [if_neg (by rw [hop]; simp), if_neg hec, tblPick_ok t _ hin]
  simp only [bind, Except.bind]
  have hz := zipRows_pick nul t n ht _ hec hin
  rw [hlen] at hz
  rw [hz]
  have hbits : (keyRows nul t (exprCols es) n).map (checkExprs nul cmp all es (exprCols es)) = (List.range n).map fun i => rowHolds nul cmp all es t i := by
    unfold keyRows
    rw [List.map_map]
    apply List.map_congr_left
    intro i _
    exact checkExprs_eq nul cmp all es t i
  rw [hbits]
  generalize hbs : ((List.range n).map fun i => rowHolds nul cmp all es t i) = bits
  have hbl : bits.length = n := by rw [← hbs]; simp
  have hcolsLen : ∀ c ∈ t.map (·.2), c.flatten.length = n := by
    intro c hc
    obtain ⟨d, hd, rfl⟩ := List.mem_map.1 hc
    rw [← colLen_eq]; exact ht d hd
  have hinit : List.Forall₂ (Dumped ([] : List Bool)) (t.map (·.2)) (t.map fun _ => (([] : Pages α), ([] : Pages α))) := by
    clear hcolsLen hbits hz hin hop hcols hhead hlen hne ht hbs
    induction t with
    | nil => exact .nil
    | cons c u ih => exact .cons ⟨rfl, rfl⟩ ih
  obtain ⟨s, B, s1, s2, s3, s4, s5, s6⟩ := filterLoop_ok ps (t.map (·.2)) n hcolsLen bits
    { bitmask := List.replicate ps false, bitNum := 0, offset := 0, out := t.map fun _ => ([], []) } [] (by simp) hps rfl (by simp only; omega) hinit
  simp only [List.take_zero, List.append_nil, List.nil_append] at s6
  rw [s1]
  simp only
  obtain ⟨out, o1, o2⟩ : ∃ out, filterFinish (t.map (·.2)) s = Except.ok out ∧
      List.Forall₂ (Dumped bits) (t.map (·.2)) out := by
    unfold filterFinish
    by_cases hb : s.bitNum > 0
    · rw [if_pos hb]
      have hle : s.offset + s.bitNum ≤ n := by
        have := congrArg List.length s6
        rw [List.length_append, List.length_take] at this
        omega
      obtain ⟨out, h1, h2⟩ := dumpPages_ok (t.map (·.2)) s B s4 (by omega) hb n hcolsLen hle s5
      exact ⟨out, h1, by rw [← s6]; exact h2⟩
    · rw [if_neg hb]
      refine ⟨s.out, rfl, ?_⟩
      have : s.bitNum = 0 := by omega
      rw [this, List.take_zero, List.append_nil] at s6
      rw [← s6]; exact s5
  rw [o1]
  refine ⟨_, _, rfl, ?_, ?_⟩
  · rw [← hbs] at o2
    exact (dumped_view nul t n ht _ out o2).1
  · rw [← hbs] at o2
    exact (dumped_view nul t n ht _ out o2).2

/-- C29 in full: every list of expressions over existing columns -/
def C29_statement : Prop :=
  ∀ (ps : Nat), 0 < ps → ∀ (all : Bool) (t : Tbl String Nat) (n : Nat), Rect t n → t ≠ [] → ∀ es : List (FExpr String Nat Unit),
    (∀ e ∈ es, ∀ x, e.left = .col x ∨ e.right = .col x → x ∈ t.map (·.1)) →
    ∃ p f, tblFilter 0 (fun _ a b => decide (a = b)) ps all t es = .ok (p, f) ∧
      tview p = rowsOf 0 t ((List.range n).filter fun i => rowHolds 0 (fun _ a b => decide (a = b)) all es t i) ∧
      tview f = rowsOf 0 t ((List.range n).filter fun i => !rowHolds 0 (fun _ a b => decide (a = b)) all es t i)

/-- C29 fails for an empty list of expressions: the second table has no columns (and with "any" no row should pass). -/
theorem C29_fails : ¬ C29_statement := by
  intro h
  obtain ⟨p, f, h1, h2, h3⟩ := h 1 (by omega) true [("a", [[1]])] 1 (by unfold Rect; decide) (by decide) [] (by simp)
  have e : tblFilter 0 (fun (_ : Unit) a b => decide (a = b)) 1 true [("a", [[1]])] [] = .ok ([("a", [[1]])], []) := rfl
  rw [e] at h1
  injection h1 with h1
  injection h1 with _ h1
  rw [← h1] at h3
  exact absurd h3 (by decide)

/-- C29: expressions that only compare constants end in an index error for every non-empty table. -/
theorem C29_constants_raise (nul : α) (cmp : κ → α → α → Bool) (ps : Nat) (all : Bool) (t : Tbl ν α) (n : Nat) (hn : 0 < n) (ht : Rect t n) (hne : t ≠ [])
    (e : FExpr ν α κ) (a b : α) (ha : e.left = .val a) (hb : e.right = .val b) : tblFilter nul cmp ps all t [e] = .error .index := by
  unfold tblFilter
  have hhead : ((t.head?).elim 0 fun c => colLen c.2) = n := by
    cases t with
    | nil => exact absurd rfl hne
    | cons c u => exact ht c (by simp)
  have h1 : exprCols [e] = [] := by simp [exprCols, ha, hb, addCol]
  rw [tblLen_rect t n ht hne, if_neg (by omega), if_neg (by simp), hhead, if_neg (by simp only [not_not, List.all_eq_true, decide_eq_true_eq]; exact ht),
    if_neg (by simp [ha, hb, operandOk]), if_pos h1]

/-- C29: filtering by an expression string compresses the table twice; the two results partition the rows for every mask. -/
theorem C29_compress_both (ps : Nat) (hps : 0 < ps) (nul : α) (t : Tbl ν α) (n : Nat) (ht : Rect t n) (f : Nat → Bool) :
    ∃ p q, compressBoth ps t ((List.range n).map f) = .ok (p, q) ∧ tview p = rowsOf nul t ((List.range n).filter f) ∧
      tview q = rowsOf nul t ((List.range n).filter fun i => !f i) := by
  obtain ⟨p, p1, p2⟩ := compressOne_ok ps hps nul t n ht f
  obtain ⟨q, q1, q2⟩ := compressOne_ok ps hps nul t n ht (fun i => !f i)
  refine ⟨p, q, ?_, p2, q2⟩
  unfold compressBoth
  have : ((List.range n).map f).map (!·) = (List.range n).map fun i => !f i := by rw [List.map_map]; rfl
  rw [this, p1, q1]
  rfl

example : (tblFilter 0 (fun (_ : Unit) a b => decide (a ≤ b)) 2 true [("a", [[1, 5], [], [2, 7, 0]]), ("b", [[4], [4, 4, 4], [4]])]
    [⟨.col "a", (), .val 4⟩, ⟨.col "a", (), .col "b"⟩]).map (fun r => (tview r.1, tview r.2)) =
    .ok ([("a", [1, 2, 0]), ("b", [4, 4, 4])], [("a", [5, 7]), ("b", [4, 4])]) := by decide

/-! ## C30 -/

/-- C30, first part in full: `==` and `!=` give opposite answers -/
def C30_statement : Prop := ∀ (a b : PyVal), pyCmp (fun i => .fin i) .ne a b = !pyCmp (fun i => .fin i) .eq a b

/-- C30 fails: an int and a string are neither equal nor unequal. -/
theorem C30_fails : ¬ C30_statement := by
  intro h
  have := h (.int 1) (.str "1")
  revert this
  simp [pyCmp]

/-- kinds whose values can be compared with each other -/
def comparable (a b : PyVal) : Prop :=
  a.kind = .none ∨ a.kind = b.kind ∨ (a.kind = .int ∧ b.kind = .float) ∨ (a.kind = .float ∧ b.kind = .int) ∨
  (a.kind = .date ∧ b.kind = .datetime) ∨ (a.kind = .datetime ∧ b.kind = .date)

/-- C30 (partial): `==` and `!=` give opposite answers for comparable operands.  Missing: operands of different kinds, for which both are false
unless the left one is None (`C30_incomparable`). -/
theorem C30_eq_ne_partial (toF : Int → Flt) (a b : PyVal) (h : comparable a b) : pyCmp toF .ne a b = !pyCmp toF .eq a b := by
  cases a <;> cases b <;> simp_all [comparable, PyVal.kind, pyCmp, noneOp, ordOp, fltOp]

/-- C30: operands of different kinds with a left operand other than None satisfy no comparison at all, not even `!=`. -/
theorem C30_incomparable (toF : Int → Flt) (op : CmpOp) (a b : PyVal) (h : ¬ comparable a b) : pyCmp toF op a b = false := by
  cases a <;> cases b <;> simp_all [comparable, PyVal.kind, pyCmp]

theorem Flt.le_iff (a b : Flt) : a.le b = (a.lt b || a.eq b) := by
  cases a <;> cases b <;> simp [Flt.le, Flt.lt, Flt.eq, le_iff_lt_or_eq]

/-- C30: `<=` holds exactly when `<` or `==` does, and `>=` when `>` or `==` does, unless the left operand is None. -/
theorem C30_le_ge_partial (toF : Int → Flt) (a b : PyVal) (h : a ≠ .none) :
    pyCmp toF .le a b = (pyCmp toF .lt a b || pyCmp toF .eq a b) ∧ pyCmp toF .ge a b = (pyCmp toF .gt a b || pyCmp toF .eq a b) := by
  have hsym : ∀ x y : Flt, x.eq y = y.eq x := by
    intro x y
    cases x <;> cases y <;> simp [Flt.eq, eq_comm]
  have hge : ∀ x y : Flt, y.le x = (y.lt x || x.eq y) := fun x y => by rw [Flt.le_iff, hsym]
  cases a <;> cases b <;> simp_all [pyCmp, ordOp, fltOp, Flt.le_iff]

/-- C30: None is equal to None, but not `<=` None. -/
theorem C30_none (toF : Int → Flt) : pyCmp toF .eq .none .none = true ∧ pyCmp toF .le .none .none = false := ⟨rfl, rfl⟩

theorem ordOp_flip {β : Type} [LT β] [DecidableRel (α := β) (· < ·)] [DecidableEq β] (a b : β) :
    ordOp .gt a b = ordOp .lt b a ∧ ordOp .ge a b = ordOp .le b a ∧ ordOp .eq a b = ordOp .eq b a := by
  have : decide (a = b) = decide (b = a) := decide_eq_decide.2 eq_comm
  exact ⟨rfl, by unfold ordOp; simp only [this], this⟩

theorem Flt.eq_comm' (x y : Flt) : x.eq y = y.eq x := by
  cases x <;> cases y <;> first | rfl | exact decide_eq_decide.2 eq_comm

/-- C30: `a > b` is `b < a` and `a >= b` is `b <= a` for all operands. -/
theorem C30_flip (toF : Int → Flt) (a b : PyVal) : pyCmp toF .gt a b = pyCmp toF .lt b a ∧ pyCmp toF .ge a b = pyCmp toF .le b a := by
  cases a <;> cases b <;> first | exact ⟨(ordOp_flip _ _).1, (ordOp_flip _ _).2.1⟩ | exact ⟨rfl, rfl⟩

/-- C30: `==` is symmetric for all operands. -/
theorem C30_eq_symm (toF : Int → Flt) (a b : PyVal) : pyCmp toF .eq a b = pyCmp toF .eq b a := by
  cases a <;> cases b <;> first | rfl | exact (ordOp_flip _ _).2.2 | exact Flt.eq_comm' _ _

/-- C30: an int and a finite float compare by numeric value if the int converts exactly; exactly one of `<`, `==`, `>` holds. -/
theorem C30_numeric (toF : Int → Flt) (i : Int) (q : Rat) (h : toF i = .fin i) :
    (pyCmp toF .lt (.int i) (.float (.fin q)) = true ↔ (i : Rat) < q) ∧ (pyCmp toF .eq (.int i) (.float (.fin q)) = true ↔ (i : Rat) = q) ∧
    (pyCmp toF .gt (.int i) (.float (.fin q)) = true ↔ q < (i : Rat)) ∧ (pyCmp toF .lt (.float (.fin q)) (.int i) = true ↔ q < (i : Rat)) := by
  simp [pyCmp, fltOp, h, Flt.lt, Flt.eq]

example : comparable (.int 3) (.float (.fin (5/2))) ∧ pyCmp (fun i => .fin i) .gt (.int 3) (.float (.fin (5/2))) = true := by
  refine ⟨?_, ?_⟩
  · simp [comparable, PyVal.kind]
  · decide +kernel

end

end Tablite
