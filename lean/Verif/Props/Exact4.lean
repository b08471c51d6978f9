import Verif.Props.ColumnQuery
import Verif.Props.Filter
import Verif.Props.InferInt
import Verif.Props.Unique
/-!
# Exactly when: C13, C30, C40, C105
-/

namespace Tablite

/-! ## C13 -/

theorem countP_same_ge {α : Type} [DecidableEq α] (same : α → α → Bool) (item : α) (hr : same item item = true) (p : List α) :
    p.countP (fun v => decide (v = item)) ≤ p.countP (fun v => same v item) :=
  List.countP_mono_left fun v _ h => by
    rw [decide_eq_true_eq] at h
    rw [h]
    exact hr

theorem countP_same_eq {α : Type} [DecidableEq α] (same : α → α → Bool) (item : α) (hr : same item item = true) (p : List α) :
    p.countP (fun v => same v item) = p.countP (fun v => decide (v = item)) ↔ ∀ v ∈ p, same v item = true → v = item := by
  induction p with
  | nil => simp
  | cons a p ih =>
    rw [List.countP_cons, List.countP_cons, List.forall_mem_cons, ← ih]
    have := countP_same_ge same item hr p
    by_cases h : a = item
    · rw [h, hr]
      simp
    · by_cases h2 : same a item = true
      · simp only [h, h2, decide_false, if_true]
        constructor
        · intro e
          simp at e
          omega
        · rintro ⟨e, _⟩
          exact (e trivial).elim
      · simp [h, h2]

/-- **C13** (exact, `count`).  The count is the number of values of the item's type and value exactly when no page with a numpy type holds a value that numpy calls equal to
the item but that has another type. -/
theorem C13_count_exact {α : Type} [DecidableEq α] (isObj : List α → Bool) (same : α → α → Bool) (pages : Pages α) (item : α) (hr : same item item = true) :
    colCount isObj same pages item = (colIter pages).countP (fun x => decide (x = item)) ↔ ∀ p ∈ pages, isObj p = false → ∀ v ∈ p, same v item = true → v = item := by
  unfold colCount
  rw [colIter_eq]
  have hge : ∀ pages : Pages α, pages.flatten.countP (fun x => decide (x = item)) ≤
      (pages.map fun p => if isObj p then p.countP (fun v => decide (v = item)) else p.countP (fun v => same v item)).sum := by
    intro pages
    induction pages with
    | nil => simp
    | cons p t ih =>
      rw [List.flatten_cons, List.countP_append, List.map_cons, List.sum_cons]
      have := countP_same_ge same item hr p
      split <;> omega
  induction pages with
  | nil => simp
  | cons p t ih =>
    rw [List.flatten_cons, List.countP_append, List.map_cons, List.sum_cons, List.forall_mem_cons]
    refine Iff.trans ?_ (and_congr Iff.rfl ih)
    rw [← countP_same_eq same item hr p]
    have h1 := hge t
    have h2 := countP_same_ge same item hr p
    by_cases ho : isObj p = true
    · rw [if_pos ho]
      simp only [ho, Bool.true_eq_false, false_implies, true_and]
      omega
    · rw [if_neg ho]
      simp only [ho, true_implies]
      omega

/-! ## C30 -/

/-- **C30** (exact, `==` and `!=`).  They give opposite answers exactly when the kinds can be compared or the left operand is None. -/
theorem C30_eq_ne_exact (toF : Int → Flt) (a b : PyVal) : pyCmp toF .ne a b = (!pyCmp toF .eq a b) ↔ comparable a b := by
  constructor
  · intro h
    by_contra hc
    rw [C30_incomparable toF _ a b hc, C30_incomparable toF _ a b hc] at h
    cases h
  · exact C30_eq_ne_partial toF a b

/-- **C30** (exact, `<=` and `>=`).  They are `<` or `==`, and `>` or `==`, exactly when not both operands are None. -/
theorem C30_le_ge_exact (toF : Int → Flt) (a b : PyVal) :
    (pyCmp toF .le a b = (pyCmp toF .lt a b || pyCmp toF .eq a b) ∧ pyCmp toF .ge a b = (pyCmp toF .gt a b || pyCmp toF .eq a b)) ↔ a ≠ .none ∨ b ≠ .none := by
  constructor
  · rintro ⟨h, -⟩
    by_contra hc
    push Not at hc
    obtain ⟨rfl, rfl⟩ := hc
    revert h
    simp [pyCmp, noneOp, PyVal.kind]
  · intro h
    by_cases ha : a = .none
    · subst ha
      have hb : b ≠ .none := by simpa using h
      cases b <;> simp_all [pyCmp, noneOp, PyVal.kind]
    · exact C30_le_ge_partial toF a b ha

/-! ## C40 -/

/-- **C40** (effect).  Text is read as an integer exactly when it is a grouped rendering, and its value is the number written, reduced to 64 bits. -/
theorem C40_effect (am : Bool) (s : List Char) (v : Int) : inferInt false am s = .ok v ↔ ∃ n, GroupedInt (groupSep am) (stripNum s) n ∧ v = wrap64 n := by
  rw [inferInt_locale, intLocale_iff]

/-- **C40** (exact).  A grouped rendering is read as the number written exactly when that fits into 64 bits. -/
theorem C40_exact (am : Bool) (s : List Char) (n : Int) (h : GroupedInt (groupSep am) (stripNum s) n) : inferInt false am s = .ok n ↔ Int64 n := by
  rw [C40_effect]
  constructor
  · rintro ⟨m, hm, e⟩
    have h1 := GroupedInt.value (sep_not_digit am) hm
    have h2 := GroupedInt.value (sep_not_digit am) h
    have : m = n := h1.trans h2.symm
    subst this
    rw [e]
    unfold Int64 wrap64
    omega
  · intro hi
    exact ⟨n, h, (wrap64_id n hi).symm⟩

/-! ## C105 -/

/-- **C105** (exact).  For values that numpy can sort, the distinct values are right exactly when the column has a page and no two values that are equal but of different types. -/
theorem C105_exact {α : Type} (srt : List α → Option (List α)) (same : α → α → Bool) (he : Equality same) (ord : List α → List α) (lt : α → α → Prop) (hs : SortsBy srt same lt) (ho : SetOf ord)
    (pages pgs : Pages α) (hset : ∀ p, p ∈ pgs ↔ p ∈ pages) (hsrt : ∀ l, (∀ v ∈ l, v ∈ colIter pages) → (srt l).isSome) :
    (∃ r, colUnique srt same ord pgs = .ok r ∧ r.Nodup ∧ ∀ v, v ∈ r ↔ v ∈ colIter pages) ↔ pages ≠ [] ∧ ∀ a ∈ colIter pages, ∀ b ∈ colIter pages, same a b = true → a = b := by
  constructor
  · rintro ⟨r, h1, h2, h3⟩
    refine ⟨?_, fun a ha b hb hab => ?_⟩
    · rintro rfl
      have : pgs = [] := List.eq_nil_iff_forall_not_mem.2 fun p hp => by simpa using (hset p).1 hp
      subst this
      rw [C105_empty_fails] at h1
      cases h1
    · by_contra hne
      exact C105_merges_fails srt same he ord lt hs ho pages pgs hset hsrt r h1 a b ha hb hne hab ⟨(h3 a).2 ha, (h3 b).2 hb⟩
  · rintro ⟨h1, h2⟩
    exact C105_partial srt same he ord lt hs ho pages pgs hset h1 h2

/-! ### the conditions can be met and missed -/

/-- a page with a numpy type holding `True`, asked for `1`; and an object page -/
example : (¬ ∀ p ∈ [[(true, 1), (true, 0)]], false = false → ∀ v ∈ p, sameNum v (false, 1) = true → v = (false, 1)) ∧
    ∀ p ∈ [[(false, 1), (true, 0)]], false = false → ∀ v ∈ p, sameNum v (false, 1) = true → v = (false, 1) := by decide

/-- 64 bits are enough for `9,223,372,036,854,775,807` -/
example : inferInt false true "9,223,372,036,854,775,807".toList = .ok 9223372036854775807 ∧ Int64 9223372036854775807 ∧ ¬ Int64 9223372036854775808 := by
  refine ⟨by decide +kernel, by unfold Int64; omega, by unfold Int64; omega⟩

end Tablite
