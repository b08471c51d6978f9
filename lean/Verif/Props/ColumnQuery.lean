import Verif.Model.ColumnQuery
import Verif.Lemmas.OrdDict
import Verif.Props.ColumnRead
/-!
# C10 column equality, C11 gather, C13 index / histogram / count
-/

namespace Tablite

section
variable {α : Type}

/-! ## C10 -/

/-- Spec: same length and `eq` position by position -/
def PosEq (eq : α → α → Bool) (l m : List α) : Prop :=
  l.length = m.length ∧ ∀ (i : Nat) (a b : α), l[i]? = some a → m[i]? = some b → eq a b = true

theorem allEq_iff (eq : α → α → Bool) (l m : List α) :
    allEq eq l m = true ↔ ∀ (i : Nat) (a b : α), l[i]? = some a → m[i]? = some b → eq a b = true := by
  unfold allEq
  induction l generalizing m with
  | nil => simp
  | cons a t ih =>
    cases m with
    | nil => simp
    | cons b u =>
      rw [List.zip_cons_cons, List.all_cons, Bool.and_eq_true, ih]
      constructor
      · rintro ⟨h1, h2⟩ i x y hx hy
        cases i with
        | zero => simp at hx hy; subst hx hy; exact h1
        | succ i => simp at hx hy; exact h2 i x y hx hy
      · intro h
        exact ⟨h 0 a b (by simp) (by simp), fun i x y hx hy => h (i + 1) x y (by simpa using hx) (by simpa using hy)⟩

theorem allEq_append (eq : α → α → Bool) (a b c d : List α) (h : a.length = c.length) :
    allEq eq (a ++ b) (c ++ d) = (allEq eq a c && allEq eq b d) := by
  unfold allEq
  rw [List.zip_append h, List.all_append]

theorem allEq_pages (eq : α → α → Bool) (p q : Pages α) (h : p.map List.length = q.map List.length) :
    ((p.zip q).all fun x => allEq eq x.1 x.2) = allEq eq p.flatten q.flatten := by
  induction p generalizing q with
  | nil => cases q with
    | nil => rfl
    | cons _ _ => simp at h
  | cons a t ih =>
    cases q with
    | nil => simp at h
    | cons b u =>
      simp only [List.map_cons, List.cons.injEq] at h
      simp only [List.zip_cons_cons, List.all_cons, List.flatten_cons]
      rw [allEq_append eq a _ b _ h.1, ih u h.2]

/-- page references come from one store: the same identity means the same data -/
def Coherent (c d : RCol α) : Prop := ∀ r ∈ c, ∀ s ∈ d, r.id = s.id → r.data = s.data

theorem coherent_same (c d : RCol α) (hco : Coherent c d) (h : c.map Ref.id = d.map Ref.id) : c.pages = d.pages := by
  unfold RCol.pages
  apply List.ext_getElem
  · simpa using congrArg List.length h
  · intro i h1 h2
    simp only [List.getElem_map]
    simp only [List.length_map] at h1 h2
    apply hco _ (List.getElem_mem h1) _ (List.getElem_mem h2)
    have := List.getElem_of_eq h (i := i) (by simpa using h1)
    simpa using this

/-- C10 (partial): `c == d` holds exactly when both columns have the same length and equal values position by position, whatever the page
layouts, provided every stored value equals itself.  Missing: values with `v != v` (NaN), for which the identity short cut answers True
(`C10_fails`). -/
theorem C10_eq_partial (eq : α → α → Bool) (c d : RCol α) (hco : Coherent c d) (hrefl : ∀ a ∈ colIter c.pages, eq a a = true) :
    colEqCol eq c d = true ↔ PosEq eq (colIter c.pages) (colIter d.pages) := by
  unfold colEqCol PosEq
  rw [colIter_eq] at hrefl
  rw [colIter_eq, colIter_eq, colLen_eq, colLen_eq]
  by_cases hl : c.pages.flatten.length = d.pages.flatten.length
  · simp only [hl, ne_eq, not_true_eq_false, if_false, true_and]
    by_cases hid : c.map Ref.id = d.map Ref.id
    · simp only [hid, if_true, true_iff]
      rw [← coherent_same c d hco hid]
      intro i a b ha hb
      rw [ha] at hb
      injection hb with hb
      subst hb
      exact hrefl a (List.mem_of_getElem? ha)
    · rw [if_neg hid]
      split
      · rename_i h
        rw [allEq_pages eq _ _ h.2, allEq_iff]
      · rw [allEq_iff]
  · simp [hl, -List.length_flatten]

/-- C10: for a lawful equality the answer is equality of the value lists: it does not depend on the layout. -/
theorem C10_eq_lawful_partial [DecidableEq α] (c d : RCol α) (hco : Coherent c d) :
    colEqCol (fun a b => decide (a = b)) c d = decide (colIter c.pages = colIter d.pages) := by
  rw [Bool.eq_iff_iff, C10_eq_partial _ c d hco (by simp)]
  simp only [PosEq, decide_eq_true_eq]
  constructor
  · rintro ⟨h1, h2⟩
    apply List.ext_getElem h1
    intro i a b
    exact h2 i _ _ (List.getElem?_eq_getElem a) (List.getElem?_eq_getElem b)
  · intro h
    rw [h]
    refine ⟨rfl, ?_⟩
    intro i a b ha hb
    rw [ha] at hb; injection hb

theorem not_all_any {β : Type} (l : List β) (p : β → Bool) : (l.any fun x => !p x) = !(l.all p) := by
  induction l with
  | nil => rfl
  | cons a t ih => simp [ih, Bool.not_and]

/-- C10: `!=` is the negation of `==`, for every pair of columns and any `eq`. -/
theorem C10_ne (eq : α → α → Bool) (c d : RCol α) : colNeCol eq c d = !colEqCol eq c d := by
  unfold colNeCol colEqCol allEq
  split
  · rfl
  · split
    · rfl
    · split
      · exact not_all_any _ _
      · exact not_all_any _ _

theorem pySlice_full (l : List α) : pySlice l {} = l := by
  have : ({} : PySlice).indices l.length = (0, (l.length : Int), 1) := rfl
  simp only [pySlice, this]
  have := filterMap_getI?_rangeList l 0
  simpa using this

/-- C10, lists and tuples: exact for every layout and any `eq` (also NaN). -/
theorem C10_eq_list (eq : α → α → Bool) (pages : Pages α) (l : List α) :
    ∃ b, colEqList eq pages l = .ok b ∧ colNeList eq pages l = .ok (!b) ∧ (b = true ↔ PosEq eq (colIter pages) l) := by
  unfold colEqList colNeList PosEq
  have hs : getSlice pages {} = .ok (colIter pages) := by
    rw [C02_slice_read_partial pages {} (by simp [PySlice.stepOr1])]
    rw [pySlice_full]
  by_cases hl : colLen pages = l.length
  · simp only [hl, ne_eq, not_true_eq_false, if_false, hs]
    refine ⟨_, rfl, ?_, ?_⟩
    · exact congrArg Except.ok (not_all_any _ _)
    · rw [colLen_eq] at hl
      rw [colIter_eq]
      have := allEq_iff eq pages.flatten l
      unfold allEq at this
      rw [this]
      simp [hl, -List.length_flatten]
  · refine ⟨false, by simp [hl], by simp [hl], ?_⟩
    rw [colLen_eq] at hl
    rw [colIter_eq]
    simp [hl, -List.length_flatten]

theorem eqArrLoop_eq (eq : α → α → Bool) (other : List α) (s : Nat) (pages : Pages α) (h : s + pages.flatten.length = other.length) :
    eqArrLoop eq other s pages = allEq eq pages.flatten (other.drop s) := by
  induction pages generalizing s with
  | nil => rfl
  | cons p t ih =>
    simp only [List.flatten_cons, List.length_append] at h
    simp only [eqArrLoop, List.flatten_cons]
    rw [ih (s + p.length) (by omega)]
    have e1 : (other.take (s + p.length)).drop s = (other.drop s).take p.length := by
      rw [List.drop_take]; congr 1; omega
    have e2 : other.drop s = (other.drop s).take p.length ++ other.drop (s + p.length) := by
      conv => lhs; rw [← List.take_append_drop p.length (other.drop s)]
      rw [List.drop_drop]
    conv => rhs; rw [e2]
    rw [allEq_append _ _ _ _ _ (by simp; omega), e1]
    cases allEq eq p ((other.drop s).take p.length) <;> simp

theorem neArrLoop_eq (eq : α → α → Bool) (other : List α) (s : Nat) (pages : Pages α) :
    neArrLoop eq other s pages = !eqArrLoop eq other s pages := by
  induction pages generalizing s with
  | nil => rfl
  | cons p t ih =>
    simp only [neArrLoop, eqArrLoop, ih, not_all_any, allEq]
    split <;> rename_i h <;> simp [h]

/-- C10, numpy arrays: exact for every layout and any `eq`. -/
theorem C10_eq_array (eq : α → α → Bool) (pages : Pages α) (other : List α) :
    (colEqArr eq pages other = true ↔ PosEq eq (colIter pages) other) ∧ colNeArr eq pages other = !colEqArr eq pages other := by
  unfold colEqArr colNeArr PosEq
  rw [colIter_eq, colLen_eq]
  by_cases hl : pages.flatten.length = other.length
  · simp only [hl, ne_eq, not_true_eq_false, if_false, true_and]
    rw [neArrLoop_eq]
    refine ⟨?_, rfl⟩
    rw [eqArrLoop_eq eq other 0 pages (by omega), List.drop_zero, allEq_iff]
  · simp [hl, -List.length_flatten]

/-- C10 in full: also for values that are not equal to themselves -/
def C10_statement : Prop :=
  ∀ (α : Type) (eq : α → α → Bool) (c d : RCol α), Coherent c d →
    (colEqCol eq c d = true ↔ PosEq eq (colIter c.pages) (colIter d.pages))

/-- C10 fails for NaN: a column sharing its pages with another is declared equal although the values are not (values `none` = NaN); the
same values in separately stored pages are declared different. -/
theorem C10_fails : ¬ C10_statement := by
  intro h
  have := (h (Option Nat) (fun a b => a.isSome && a == b) [⟨0, [none]⟩] [⟨0, [none]⟩] (by intro r hr s hs _; simp_all)).1 (by decide)
  have := this.2 0 none none (by decide) (by decide)
  revert this
  decide

example : colEqCol (fun a b => decide (a = b)) ([⟨0, [1, 2]⟩, ⟨1, [3]⟩] : RCol Nat) [⟨2, [1]⟩, ⟨3, []⟩, ⟨4, [2, 3]⟩] = true ∧
    colEqCol (fun a b => decide (a = b)) ([⟨0, [1, 2]⟩, ⟨1, [3]⟩] : RCol Nat) [⟨2, [1, 2]⟩, ⟨4, [4]⟩] = false := by decide

/-! ## C11 -/

theorem gatherPage_eq (start end_ : Int) (data : List α) (f : Int → Option α → Option α) (idx : List Int) (vals : List (Option α))
    (h : ∀ i ∈ idx, ∀ o, gatherSlot start end_ data i o = .ok (f i o)) :
    gatherPage start end_ data idx vals = .ok (List.zipWith f idx vals) := by
  induction idx generalizing vals with
  | nil => cases vals <;> rfl
  | cons i is ih =>
    cases vals with
    | nil => rfl
    | cons o os =>
      simp only [gatherPage, h i (by simp) o, ih os (fun j hj => h j (by simp [hj])), List.zipWith_cons_cons]
      rfl

theorem zipWith_zipWith (f g : Int → Option α → Option α) (idx : List Int) (vals : List (Option α)) :
    List.zipWith g idx (List.zipWith f idx vals) = List.zipWith (fun i o => g i (f i o)) idx vals := by
  induction idx generalizing vals with
  | nil => simp
  | cons i is ih => cases vals <;> simp [ih]

theorem zipWith_congr' (f g : Int → Option α → Option α) (idx : List Int) (vals : List (Option α)) (h : ∀ i ∈ idx, ∀ o, f i o = g i o) :
    List.zipWith f idx vals = List.zipWith g idx vals := by
  induction idx generalizing vals with
  | nil => simp
  | cons i is ih =>
    cases vals with
    | nil => simp
    | cons o os => simp [h i (by simp) o, ih os (fun j hj => h j (by simp [hj]))]

/-- what a run over `pages` does to a slot -/
def slotVal (start : Int) (l : List α) (i : Int) (o : Option α) : Option α :=
  if i = -1 then (if l = [] then o else l.getLast?)
  else if start ≤ i ∧ i < start + l.length then getI? l (i - start) else o

theorem gatherLoop_eq (idx : List Int) (start : Int) (h0 : 0 ≤ start) (pages : Pages α) (vals : List (Option α))
    (hlen : vals.length = idx.length) (hne : -1 ∈ idx → ∀ p ∈ pages, p ≠ []) :
    gatherLoop idx start pages vals = .ok (List.zipWith (slotVal start pages.flatten) idx vals) := by
  induction pages generalizing start vals with
  | nil =>
    simp only [gatherLoop, List.flatten_nil]
    congr 1
    have : ∀ i o, slotVal start ([] : List α) i o = o := by
      intro i o
      unfold slotVal
      split
      · simp
      · rw [if_neg]; simp
    clear hne
    induction idx generalizing vals with
    | nil => simp at hlen; simp [hlen]
    | cons i is ih =>
      cases vals with
      | nil => simp at hlen
      | cons o os =>
        simp only [List.zipWith_cons_cons, this]
        rw [← ih os (by simpa using hlen)]
  | cons p t ih =>
    have hslot : ∀ i ∈ idx, ∀ o, gatherSlot start (start + p.length) p i o = .ok (slotVal start p i o) := by
      intro i hi o
      unfold gatherSlot slotVal
      by_cases h1 : i = -1
      · have hp := hne (h1 ▸ hi) p (by simp)
        simp only [h1, or_true, if_true, hp, if_false]
        rw [List.getLast?_eq_some_getLast hp]
      · simp only [h1, or_false, if_false]
        split
        · rename_i h
          rw [getI?_of_nonneg _ (by omega), List.getElem?_eq_getElem (by omega)]
        · rfl
    simp only [gatherLoop, gatherPage_eq _ _ _ _ _ _ hslot]
    have : List.length (List.zipWith (slotVal start p) idx vals) = idx.length := by simp [hlen]
    have ih' := ih (start + p.length) (by omega) _ this (fun h q hq => hne h q (by simp [hq]))
    simp only [bind, Except.bind]
    rw [ih', zipWith_zipWith]
    congr 1
    apply zipWith_congr'
    intro i hi o
    simp only [List.flatten_cons]
    generalize ht : t.flatten = l
    unfold slotVal
    by_cases h1 : i = -1
    · have hp := hne (h1 ▸ hi) p (by simp)
      simp only [h1, if_true, hp, if_false]
      by_cases hl : l = []
      · simp [hl, hp]
      · simp only [hl, if_false]
        rw [if_neg (by simp [hp]), List.getLast?_append]
        rw [List.getLast?_eq_some_getLast hl]
        rfl
    · simp only [h1, if_false, List.length_append]
      by_cases c1 : start ≤ i ∧ i < start + p.length
      · rw [if_neg (by omega), if_pos c1, if_pos (by omega), getI?_append_left _ _ (by omega)]
      · by_cases c2 : start + p.length ≤ i ∧ i < start + p.length + l.length
        · rw [if_pos c2, if_pos (by omega), getI?_append_right _ _ (by omega)]
          congr 1
          omega
        · rw [if_neg c2, if_neg c1, if_neg (by omega)]

/-- C11: for every page layout and every array of row numbers in range, in any order and with repetitions, slot `j` receives the value at
row `idx[j]`. -/
theorem C11_gather (pages : Pages α) (idx : List Int) (h : ∀ i ∈ idx, 0 ≤ i ∧ i < colLen pages) :
    ∃ vals : List α, getByIndices pages idx = .ok (vals.map some) ∧ vals.length = idx.length ∧
      ∀ (j : Nat) (i : Int), idx[j]? = some i → vals[j]? = (colIter pages)[i.toNat]? := by
  unfold getByIndices
  rw [gatherLoop_eq idx 0 (by omega) pages _ (by simp) (by
    intro hm; have := h _ hm; omega)]
  rw [colLen_eq] at h
  rw [colIter_eq]
  generalize pages.flatten = l at h
  have key : ∀ idx : List Int, (∀ i ∈ idx, 0 ≤ i ∧ i < l.length) →
      List.zipWith (slotVal 0 l) idx (idx.map fun _ => none) = (idx.filterMap fun i => l[i.toNat]?).map some ∧
      (idx.filterMap fun i => l[i.toNat]?).length = idx.length ∧
      ∀ (j : Nat) (i : Int), idx[j]? = some i → (idx.filterMap fun i => l[i.toNat]?)[j]? = l[i.toNat]? := by
    intro idx hidx
    induction idx with
    | nil => simp
    | cons i is ih =>
      obtain ⟨h1, h2, h3⟩ := ih (fun i hi => hidx i (by simp [hi]))
      have hi := hidx i (by simp)
      have hv : l[i.toNat]? = some l[i.toNat] := List.getElem?_eq_getElem (by omega)
      have hs : slotVal 0 l i none = some l[i.toNat] := by
        unfold slotVal
        rw [if_neg (by omega), if_pos (by omega), getI?_of_nonneg _ (by omega)]
        simp only [Int.sub_zero, hv]
      refine ⟨?_, ?_, ?_⟩
      · simp only [List.map_cons, List.zipWith_cons_cons, List.filterMap_cons, hv, hs, h1]
      · simp only [List.filterMap_cons, hv, List.length_cons, h2]
      · intro j k hjk
        simp only [List.filterMap_cons, hv]
        cases j with
        | zero => simp only [List.getElem?_cons_zero, Option.some.injEq] at hjk ⊢; subst hjk; exact hv.symm
        | succ j => simpa using h3 j k (by simpa using hjk)
  exact ⟨_, congrArg Except.ok (key idx h).1, (key idx h).2.1, (key idx h).2.2⟩

/-- C11, index -1 (used for "last row"): if no page is empty every slot with -1 receives the last value of the column. -/
theorem C11_minus_one (pages : Pages α) (n : Nat) (hne : ∀ p ∈ pages, p ≠ []) (h0 : pages ≠ []) :
    getByIndices pages (List.replicate n (-1)) = .ok (List.replicate n (colIter pages).getLast?) := by
  unfold getByIndices
  rw [gatherLoop_eq _ 0 (by omega) pages _ (by simp) (fun _ => hne), colIter_eq]
  have hf : pages.flatten ≠ [] := by
    cases pages with
    | nil => exact absurd rfl h0
    | cons p t =>
      have := hne p (by simp)
      simp [this]
  congr 1
  induction n with
  | zero => rfl
  | succ n ih =>
    simp only [List.replicate_succ, List.map_cons, List.zipWith_cons_cons, ih]
    simp [slotVal, hf]

/-- with an empty page the same request raises IndexError (a column may have empty pages, e.g. after `c[:] = []` of a whole page) -/
theorem C11_minus_one_raises : getByIndices ([[1, 2], []] : Pages Nat) [-1] = .error .index := by decide

example : getByIndices ([[10, 11], [], [12], [13, 14]] : Pages Nat) [4, 0, 2, 2, 1] = .ok [some 14, some 10, some 12, some 12, some 11] := by decide

/-! ## C13 -/

theorem foldl_snoc {β γ : Type} (l : List β) (f : β → γ) (acc : List γ) : l.foldl (fun b x => b ++ [f x]) acc = acc ++ l.map f := by
  induction l generalizing acc with
  | nil => simp
  | cons a t ih => simp [ih]

/-- C13, `index()`: the distinct values in first-occurrence order, each with the ascending list of exactly its positions; the result is a
function of the values only, not of the layout. -/
theorem C13_index [DecidableEq α] (pages : Pages α) :
    colIndex pages = (firstOccs (colIter pages)).map fun v => (v, positionsFrom (fun x => decide (x = v)) 0 (colIter pages)) := by
  unfold colIndex
  rw [dGroup_eq]
  have : (colIter pages).zipIdx.map (fun x => x.1) = colIter pages := by simp
  rw [this]
  apply List.map_congr_left
  intro v _
  rw [foldl_snoc, List.nil_append, positionsFrom_eq_zipIdx (fun x => decide (x = v))]

theorem countP_nodup [DecidableEq α] (ks : List α) (a : α) (hn : ks.Nodup) (hm : a ∈ ks) : ks.countP (fun k => decide (a = k)) = 1 := by
  induction ks with
  | nil => simp at hm
  | cons k u ihk =>
    simp only [List.nodup_cons] at hn
    by_cases hk : a = k
    · subst hk
      simp only [List.countP_cons, decide_true, if_true]
      rw [List.countP_eq_zero.2]
      intro x hx
      simp only [decide_eq_true_eq]
      intro e; subst e; exact hn.1 hx
    · simp only [List.countP_cons, hk, decide_false, Bool.false_eq_true, if_false, Nat.add_zero]
      exact ihk hn.2 (by simpa [hk] using hm)

theorem sum_count [DecidableEq α] (ks l : List α) (hn : ks.Nodup) (h : ∀ x ∈ l, x ∈ ks) :
    (ks.map fun k => l.countP fun x => decide (x = k)).sum = l.length := by
  induction l with
  | nil =>
    clear hn h
    induction ks with
    | nil => rfl
    | cons k u ih => simpa using ih
  | cons a t ih =>
    have ih := ih (fun x hx => h x (by simp [hx]))
    have e : ∀ (ks : List α), (ks.map fun k => (a :: t).countP fun x => decide (x = k)).sum =
        (ks.map fun k => t.countP fun x => decide (x = k)).sum + ks.countP (fun k => decide (a = k)) := by
      intro ks
      induction ks with
      | nil => rfl
      | cons k u ihk =>
        simp only [List.map_cons, List.sum_cons, ihk]
        simp only [List.countP_cons]
        omega
    rw [e, ih]
    have := countP_nodup ks a hn (h a (by simp))
    simp [this]

/-- numpy's `==` does not identify different values of one page (e.g. no page holds both 1 and True) -/
def Faithful (same : α → α → Bool) (p : List α) : Prop := ∀ a ∈ p, ∀ b ∈ p, same a b = true → a = b

/-- total count filed under `v` -/
def sumFor [DecidableEq α] (l : List (α × Nat)) (v : α) : Nat := ((l.filter fun x => x.1 = v).map (·.2)).sum

theorem sumFor_cons [DecidableEq α] (x : α × Nat) (l : List (α × Nat)) (v : α) :
    sumFor (x :: l) v = (if x.1 = v then x.2 else 0) + sumFor l v := by
  unfold sumFor
  by_cases h : x.1 = v <;> simp [h]

theorem sumFor_append [DecidableEq α] (l m : List (α × Nat)) (v : α) : sumFor (l ++ m) v = sumFor l v + sumFor m v := by
  unfold sumFor; simp

theorem runLengths_keys (same : α → α → Bool) (l : List α) : ∀ w, w ∈ (runLengths same l).map (·.1) → w ∈ l := by
  induction l with
  | nil => simp [runLengths]
  | cons b u ihu =>
    intro w hw
    simp only [runLengths] at hw
    split at hw
    · simp at hw; simp [hw]
    · rename_i c n r hr
      rw [hr] at ihu
      simp only [List.map_cons, List.mem_cons] at ihu
      split at hw
      · simp only [List.map_cons, List.mem_cons] at hw
        rcases hw with rfl | hw
        · simp
        · exact List.mem_cons_of_mem _ (ihu w (Or.inr hw))
      · simp only [List.map_cons, List.mem_cons] at hw
        rcases hw with rfl | hw
        · simp
        · exact List.mem_cons_of_mem _ (ihu w hw)

theorem runLengths_spec [DecidableEq α] (same : α → α → Bool) (l : List α) (h : Faithful same l) (v : α) :
    sumFor (runLengths same l) v = l.countP (fun x => decide (x = v)) ∧ (v ∈ (runLengths same l).map (·.1) ↔ v ∈ l) := by
  induction l with
  | nil => simp [runLengths, sumFor]
  | cons a t ih =>
    obtain ⟨ih1, ih2⟩ := ih (fun x hx y hy => h x (by simp [hx]) y (by simp [hy]))
    have ihm := runLengths_keys same t
    simp only [runLengths]
    cases hr : runLengths same t with
    | nil =>
      rw [hr] at ih1 ih2
      have : t.countP (fun x => decide (x = v)) = 0 := by rw [← ih1]; rfl
      have h2 : v ∉ t := by rw [← ih2]; simp
      simp only [List.countP_cons, this, decide_eq_true_eq]
      refine ⟨?_, by simp [h2]⟩
      rw [sumFor_cons]
      simp [sumFor]
    | cons x r =>
      obtain ⟨b, n⟩ := x
      rw [hr] at ih1 ih2
      rw [sumFor_cons] at ih1
      simp only at ih1
      have hb : b ∈ t := ihm b (by rw [hr]; simp)
      by_cases hs : same a b
      · have hab : a = b := h a (by simp) b (by simp [hb]) hs
        subst hab
        simp only [hs, if_true]
        rw [sumFor_cons]
        simp only [List.countP_cons, decide_eq_true_eq]
        constructor
        · rw [← ih1]
          by_cases hv : a = v <;> simp [hv] <;> omega
        · simp only [List.map_cons, List.mem_cons] at ih2 ⊢
          rw [ih2]
          constructor
          · intro h; exact Or.inr h
          · rintro (rfl | h)
            · exact hb
            · exact h
      · simp only [hs, Bool.false_eq_true, if_false]
        rw [sumFor_cons, sumFor_cons]
        simp only [List.countP_cons, decide_eq_true_eq]
        constructor
        · rw [← ih1]; omega
        · simp only [List.map_cons, List.mem_cons] at ih2 ⊢
          rw [ih2]

theorem pageCounts_spec [DecidableEq α] (srt : List α → Option (List α)) (hsrt : ∀ l s, srt l = some s → s.Perm l) (same : α → α → Bool)
    (p : List α) (h : Faithful same p) (v : α) :
    sumFor (pageCounts srt same p) v = p.countP (fun x => decide (x = v)) ∧ (v ∈ (pageCounts srt same p).map (·.1) ↔ v ∈ p) := by
  unfold pageCounts
  split
  · rename_i s hs
    have hp := hsrt p s hs
    have := runLengths_spec same s (fun a ha b hb => h a (hp.mem_iff.1 ha) b (hp.mem_iff.1 hb)) v
    rw [this.1, this.2, hp.countP_eq, hp.mem_iff]
    simp
  · rename_i hnone
    constructor
    · clear h hnone
      induction p with
      | nil => rfl
      | cons a t ih =>
        simp only [List.map_cons]
        rw [sumFor_cons, ih]
        simp only [List.countP_cons, decide_eq_true_eq]
        omega
    · simp

theorem pagesCounts_spec [DecidableEq α] (srt : List α → Option (List α)) (hsrt : ∀ l s, srt l = some s → s.Perm l) (same : α → α → Bool)
    (pages : Pages α) (h : ∀ p ∈ pages, Faithful same p) (v : α) :
    sumFor (pages.flatMap (pageCounts srt same)) v = (colIter pages).countP (fun x => decide (x = v)) ∧
    (v ∈ (pages.flatMap (pageCounts srt same)).map (·.1) ↔ v ∈ colIter pages) := by
  rw [colIter_eq]
  induction pages with
  | nil => simp [sumFor]
  | cons p t ih =>
    obtain ⟨i1, i2⟩ := ih (fun q hq => h q (by simp [hq]))
    obtain ⟨p1, p2⟩ := pageCounts_spec srt hsrt same p (h p (by simp)) v
    simp only [List.flatMap_cons, List.flatten_cons]
    rw [sumFor_append, i1, p1, List.map_append, List.mem_append, i2, p2]
    simp

theorem foldl_sum (l : List (α × Nat)) (n : Nat) : l.foldl (fun b x => b + x.2) n = n + (l.map (·.2)).sum := by
  induction l generalizing n with
  | nil => simp
  | cons a t ih => simp [ih]; omega

/-- C13 (partial), `histogram()`: every value of the column occurs exactly once among the keys, with its number of occurrences, no other
key occurs, and the counts add up to the length; hence the result (up to order) is independent of the layout.  Hypothesis: no page mixes
values numpy calls equal but which have different types (`1`, `True`, `1.0`); see `C13_fails_histogram`. -/
theorem C13_histogram_partial [DecidableEq α] (srt : List α → Option (List α)) (hsrt : ∀ l s, srt l = some s → s.Perm l)
    (same : α → α → Bool) (pages : Pages α) (h : ∀ p ∈ pages, Faithful same p) :
    ((histogram srt same pages).map (·.1)).Nodup ∧
    (∀ v, dGet v (histogram srt same pages) =
      if v ∈ colIter pages then some ((colIter pages).countP fun x => decide (x = v)) else none) ∧
    ((histogram srt same pages).map (·.2)).sum = colLen pages := by
  have hspec := pagesCounts_spec srt hsrt same pages h
  have hh : histogram srt same pages = (firstOccs ((pages.flatMap (pageCounts srt same)).map (·.1))).map
      fun v => (v, (colIter pages).countP fun x => decide (x = v)) := by
    unfold histogram
    rw [dGroup_eq]
    apply List.map_congr_left
    intro v _
    rw [foldl_sum, Nat.zero_add]
    have := (hspec v).1
    unfold sumFor at this
    rw [this]
  rw [hh]
  refine ⟨?_, ?_, ?_⟩
  · rw [List.map_map]
    exact (List.map_id _).symm ▸ nodup_firstOccs _
  · intro v
    rw [dGet_map]
    simp only [mem_firstOccs, (hspec v).2]
  · rw [List.map_map, colLen_eq, ← colIter_eq]
    apply sum_count
    · exact nodup_firstOccs _
    · intro x hx
      rw [mem_firstOccs, (hspec x).2]
      exact hx

/-- C13 (partial), `count(item)`: exact if numpy's `==` with the item is the model's equality on the values of the column. -/
theorem C13_count_partial [DecidableEq α] (isObj : List α → Bool) (same : α → α → Bool) (pages : Pages α) (item : α)
    (h : ∀ v ∈ colIter pages, same v item = true ↔ v = item) :
    colCount isObj same pages item = (colIter pages).countP fun x => decide (x = item) := by
  unfold colCount
  rw [colIter_eq] at *
  induction pages with
  | nil => rfl
  | cons p t ih =>
    simp only [List.map_cons, List.sum_cons, List.flatten_cons, List.countP_append]
    rw [ih (fun v hv => h v (by simp only [List.flatten_cons, List.mem_append]; exact Or.inr hv))]
    congr 1
    split
    · rfl
    · apply List.countP_congr
      intro x hx
      rw [h x (by simp only [List.flatten_cons, List.mem_append]; exact Or.inl hx)]
      simp

/-- C13, `item in column`: true exactly if some value of the column equals the item, for every layout and every order of the page set. -/
theorem C13_contains (same : α → α → Bool) (pages pgs : Pages α) (hset : ∀ p, p ∈ pgs ↔ p ∈ pages) (item : α) :
    colContains same pgs item = true ↔ ∃ v ∈ colIter pages, same v item = true := by
  unfold colContains
  rw [colIter_eq]
  simp only [List.any_eq_true, List.mem_flatten]
  constructor
  · rintro ⟨p, hp, v, hv, hs⟩; exact ⟨v, ⟨p, (hset p).1 hp, hv⟩, hs⟩
  · rintro ⟨v, ⟨p, hp, hv⟩, hs⟩; exact ⟨p, (hset p).2 hp, v, hv, hs⟩

end

/-! ### witnesses: `(false, n)` is the integer `n`, `(true, 1)` is `True` -/

def sameNum (a b : Bool × Nat) : Bool := a.2 == b.2

/-- C13 in full for the histogram: counts per (type, value), for every layout -/
def C13_statement : Prop :=
  ∀ (α : Type) [DecidableEq α] (srt : List α → Option (List α)), (∀ l s, srt l = some s → s.Perm l) → ∀ (same : α → α → Bool) (pages : Pages α) (v : α),
    dGet v (histogram srt same pages) = if v ∈ colIter pages then some ((colIter pages).countP fun x => decide (x = v)) else none

/-- C13 fails: in one object page `[1, True]` `np.unique` merges the two values; the same values on two pages are kept apart. -/
theorem C13_fails_histogram : ¬ C13_statement := by
  intro h
  have := h (Bool × Nat) some (by intro l s e; injection e with e; subst e; exact List.Perm.refl _) sameNum [[(false, 1), (true, 1)]] (false, 1)
  revert this
  decide

theorem C13_fails_histogram_layout :
    histogram some sameNum [[(false, 1), (true, 1)]] = [((false, 1), 2)] ∧
    histogram some sameNum [[(false, 1)], [(true, 1)]] = [((false, 1), 1), ((true, 1), 1)] := by decide

/-- C13 fails for `count`: `[1, True].count(True)` is 1 in one (object) page but 2 when the values sit on two typed pages. -/
theorem C13_fails_count_layout :
    colCount (fun p => decide (¬ (∀ a ∈ p, ∀ b ∈ p, a.1 = b.1))) sameNum [[(false, 1), (true, 1)]] (true, 1) = 1 ∧
    colCount (fun p => decide (¬ (∀ a ∈ p, ∀ b ∈ p, a.1 = b.1))) sameNum [[(false, 1)], [(true, 1)]] (true, 1) = 2 := by decide

example : histogram (fun l => if l = [3, 1, 3] then some [1, 3, 3] else none) (· == ·) ([[3, 1, 3], [], [1, 2]] : Pages Nat) = [(1, 2), (3, 2), (2, 1)] := by
  decide

example : colIndex ([["a", "b"], ["a"], ["c", "b"]] : Pages String) = [("a", [0, 2]), ("b", [1, 4]), ("c", [3])] := by decide

end Tablite
