import Verif.Model.Sort
import Verif.Props.Filter
import Mathlib.Data.List.Induction
/-!
# C32 sorting
-/

namespace Tablite
set_option linter.unusedSectionVars false

/-! ## the order of the rank tuples -/

theorem lexLe_total (a b : List Nat) : lexLe a b = true ∨ lexLe b a = true := by
  induction a generalizing b with
  | nil => simp [lexLe]
  | cons x u ih =>
    cases b with
    | nil => simp [lexLe]
    | cons y w =>
      simp only [lexLe]
      rcases lt_trichotomy x y with h | h | h
      · simp [h]
      · subst h; simpa using ih w
      · simp [h]

theorem lexLe_trans (a b c : List Nat) (h1 : lexLe a b = true) (h2 : lexLe b c = true) : lexLe a c = true := by
  induction a generalizing b c with
  | nil => simp [lexLe]
  | cons x u ih =>
    cases b with
    | nil => simp [lexLe] at h1
    | cons y w =>
      cases c with
      | nil => simp [lexLe] at h2
      | cons z v =>
        simp only [lexLe] at h1 h2 ⊢
        rcases lt_trichotomy x y with h | h | h
        · rcases lt_trichotomy y z with h' | h' | h'
          · simp [lt_trans h h']
          · subst h'; simp [h]
          · simp [h', not_lt_of_gt h'] at h2
        · subst h
          rcases lt_trichotomy x z with h' | h' | h'
          · simp [h']
          · subst h'
            simp only [lt_irrefl, if_false] at h1 h2 ⊢
            exact ih w v h1 h2
          · simp [h', not_lt_of_gt h'] at h2
        · simp [h, not_lt_of_gt h] at h1

theorem lexLe_antisymm (a b : List Nat) (h1 : lexLe a b = true) (h2 : lexLe b a = true) : a = b := by
  induction a generalizing b with
  | nil => cases b with
    | nil => rfl
    | cons y w => simp [lexLe] at h2
  | cons x u ih =>
    cases b with
    | nil => simp [lexLe] at h1
    | cons y w =>
      simp only [lexLe] at h1 h2
      rcases lt_trichotomy x y with h | h | h
      · simp [h, not_lt_of_gt h] at h2
      · subst h
        simp only [lt_irrefl, if_false] at h1 h2
        rw [ih w h1 h2]
      · simp [h, not_lt_of_gt h] at h1

/-- `entryLe` as a relation -/
def EntryLe (x y : List Nat × Nat) : Prop := entryLe x y = true

instance : DecidableRel EntryLe := fun x y => inferInstanceAs (Decidable (entryLe x y = true))

theorem entryLe_total (x y : List Nat × Nat) : EntryLe x y ∨ EntryLe y x := by
  unfold EntryLe entryLe
  by_cases h : x.1 = y.1
  · simp only [h, if_true, decide_eq_true_eq]; omega
  · rw [if_neg h, if_neg (fun e => h e.symm)]
    exact lexLe_total _ _

theorem entryLe_trans (x y z : List Nat × Nat) (h1 : EntryLe x y) (h2 : EntryLe y z) : EntryLe x z := by
  unfold EntryLe entryLe at *
  by_cases h : x.1 = y.1
  · by_cases h' : y.1 = z.1
    · simp only [h, h', if_true, decide_eq_true_eq] at *; omega
    · simp only [h, h', if_true, if_false] at *; exact h2
  · by_cases h' : y.1 = z.1
    · rw [if_neg h] at h1
      rw [if_neg (by rw [← h']; exact h), ← h']; exact h1
    · rw [if_neg h] at h1
      rw [if_neg h'] at h2
      by_cases h'' : x.1 = z.1
      · rw [h''] at h1; exact absurd (lexLe_antisymm _ _ h1 h2) (fun e => h' e.symm)
      · rw [if_neg h'']; exact lexLe_trans _ _ _ h1 h2

theorem entryLe_antisymm (x y : List Nat × Nat) (h1 : EntryLe x y) (h2 : EntryLe y x) : x = y := by
  unfold EntryLe entryLe at *
  by_cases h : x.1 = y.1
  · rw [if_pos h, decide_eq_true_eq] at h1
    rw [if_pos h.symm, decide_eq_true_eq] at h2
    exact Prod.ext h (by omega)
  · rw [if_neg h] at h1
    rw [if_neg (fun e => h e.symm)] at h2
    exact absurd (lexLe_antisymm _ _ h1 h2) h

instance : Std.Total EntryLe := ⟨entryLe_total⟩
instance : IsTrans _ EntryLe := ⟨entryLe_trans⟩
instance : Std.Antisymm EntryLe := ⟨entryLe_antisymm⟩

section
variable {ν α : Type} [DecidableEq ν]

/-- the row numbers sorted by `(g i, i)` -/
theorem sorted_rows (n : Nat) (g : Nat → List Nat) :
    let idx := ((((List.range n).map g).zipIdx.insertionSort (fun x y => entryLe x y = true)).map (·.2))
    idx.Perm (List.range n) ∧ idx.Pairwise (fun i j => EntryLe (g i, i) (g j, j)) ∧
    (idx = List.range n ↔ (List.range n).Pairwise (fun i j => EntryLe (g i, i) (g j, j))) := by
  have e : ((List.range n).map g).zipIdx = (List.range n).map fun i => (g i, i) := by
    apply List.ext_getElem
    · simp
    · intro i h1 h2; simp
  have hs : ((List.range n).map fun i => (g i, i)).insertionSort (fun x y => entryLe x y = true) =
      ((List.range n).map fun i => (g i, i)).insertionSort EntryLe := rfl
  dsimp only
  rw [e, hs]
  set L := (List.range n).map fun i => (g i, i) with hL
  have hp : (L.insertionSort EntryLe).Perm L := List.perm_insertionSort EntryLe L
  have hw : (L.insertionSort EntryLe).Pairwise EntryLe := List.pairwise_insertionSort EntryLe L
  have hm : ∀ x ∈ L.insertionSort EntryLe, x = (g x.2, x.2) := by
    intro x hx
    have := hp.subset hx
    rw [hL] at this
    obtain ⟨i, _, rfl⟩ := List.mem_map.1 this
    rfl
  have hmap : L.map (·.2) = List.range n := by rw [hL, List.map_map]; exact List.map_id _
  have hpair : ((L.insertionSort EntryLe).map (·.2)).Pairwise (fun i j => EntryLe (g i, i) (g j, j)) := by
    rw [List.pairwise_map]
    refine hw.imp_of_mem ?_
    intro a b ha hb hab
    rw [← hm a ha, ← hm b hb]; exact hab
  refine ⟨by rw [← hmap]; exact hp.map _, hpair, ?_, ?_⟩
  · intro h; rw [h] at hpair; exact hpair
  · intro h
    have : L.Pairwise EntryLe := by rw [hL, List.pairwise_map]; exact h
    rw [this.insertionSort_eq, hmap]

theorem zipWith_range {β γ δ : Type} (f : β → γ → δ) (n : Nat) (a : Nat → β) (b : Nat → γ) :
    List.zipWith f ((List.range n).map a) ((List.range n).map b) = (List.range n).map fun i => f (a i) (b i) := by
  apply List.ext_getElem
  · simp
  · intro i h1 h2; simp

theorem rankRows_ok (nul : α) (rk : Bool → List α → Except Err (α → Option Nat)) (t : Tbl ν α) (n : Nat) (hrect : Rect t n)
    (r : ν × Bool → α → Nat) (mapping : List (ν × Bool)) (hk : ∀ k ∈ mapping, k.1 ∈ t.map (·.1))
    (hr : ∀ k ∈ mapping, ∃ look, rk k.2 ((List.range n).map fun i => cell nul t k.1 i) = .ok look ∧
      ∀ i < n, look (cell nul t k.1 i) = some (r k (cell nul t k.1 i))) (f : Nat → List Nat) :
    rankRows rk t mapping ((List.range n).map f) = .ok ((List.range n).map fun i => f i ++ mapping.map fun k => r k (cell nul t k.1 i)) := by
  induction mapping generalizing f with
  | nil => simp [rankRows]
  | cons k rest ih =>
    obtain ⟨key, rev⟩ := k
    have hkey := hk (key, rev) (by simp)
    obtain ⟨p, hp⟩ := Option.isSome_iff_exists.1 ((dGet_isSome key t).2 hkey)
    have hcol : colIter p = (List.range n).map fun i => cell nul t key i := by
      have hl : (colIter p).length = n := by
        have := hrect.len_of_get key hkey
        rw [hp] at this
        rw [colIter_eq, ← colLen_eq]; exact this
      apply List.ext_getElem
      · simp [hl]
      · intro i h1 h2
        simp [cell, hp, List.getD_eq_getElem?_getD, List.getElem?_eq_getElem h1]
    obtain ⟨look, hl1, hl2⟩ := hr (key, rev) (by simp)
    unfold rankRows
    simp only [hp, hcol]
    dsimp only at hl1
    rw [hl1]
    simp only [bind, Except.bind]
    have hm : ((List.range n).map fun i => cell nul t key i).mapM (rankOf look) =
        .ok ((List.range n).map fun i => r (key, rev) (cell nul t key i)) := by
      have := mapM_ok (List.range n) (fun i => rankOf look (cell nul t key i))
        (fun i => r (key, rev) (cell nul t key i)) (by intro i hi; simp only [rankOf, hl2 i (List.mem_range.1 hi)])
      rw [List.mapM_map]; exact this
    rw [hm]
    simp only
    rw [zipWith_range, ih (fun k hk' => hk k (by simp [hk'])) (fun k hk' => hr k (by simp [hk']))]
    simp

/-- row `i` may stand before row `j` (spec vocabulary): at the first sort key on which the rows differ the value of row `i` is not
after the value of row `j` in the order `lt` and direction (`true` is descending) of that key; rows equal on all keys keep their order. -/
def InOrder (same lt : α → α → Bool) (nul : α) (t : Tbl ν α) (i j : Nat) : List (ν × Bool) → Prop
  | [] => i < j
  | (a, rev) :: ks =>
    if same (cell nul t a i) (cell nul t a j) then InOrder same lt nul t i j ks
    else if rev then lt (cell nul t a i) (cell nul t a j) = false else lt (cell nul t a j) (cell nul t a i) = false

/-- the ranks of the values of one column agree with `same` and with the order `lt` in direction `rev` -/
def RankOk (same lt : α → α → Bool) (rev : Bool) (vals : List α) (r : α → Nat) : Prop :=
  ∀ v ∈ vals, ∀ w ∈ vals, (r v = r w ↔ same v w = true) ∧ (r v < r w → (if rev then lt v w else lt w v) = false)

theorem inOrder_of_entryLe (same lt : α → α → Bool) (nul : α) (t : Tbl ν α) (n : Nat) (r : ν × Bool → α → Nat) (mapping : List (ν × Bool))
    (hr : ∀ k ∈ mapping, RankOk same lt k.2 ((List.range n).map fun i => cell nul t k.1 i) (r k))
    (i j : Nat) (hi : i < n) (hj : j < n) (hij : i ≠ j)
    (h : EntryLe (mapping.map (fun k => r k (cell nul t k.1 i)), i) (mapping.map (fun k => r k (cell nul t k.1 j)), j)) :
    InOrder same lt nul t i j mapping := by
  induction mapping with
  | nil =>
    simp [EntryLe, entryLe] at h
    simp only [InOrder]; omega
  | cons k ks ih =>
    obtain ⟨a, rev⟩ := k
    have hk := hr (a, rev) (by simp) (cell nul t a i) (List.mem_map.2 ⟨i, List.mem_range.2 hi, rfl⟩) (cell nul t a j) (List.mem_map.2 ⟨j, List.mem_range.2 hj, rfl⟩)
    unfold InOrder
    by_cases hs : same (cell nul t a i) (cell nul t a j) = true
    · rw [if_pos hs]
      apply ih (fun k hk' => hr k (by simp [hk']))
      have he := hk.1.2 hs
      unfold EntryLe entryLe at h ⊢
      simp only [List.map_cons, he, List.cons.injEq, true_and] at h
      split at h
      · rename_i e; rw [if_pos e]; exact h
      · rename_i e; rw [if_neg e]; simpa [lexLe] using h
    · rw [if_neg hs]
      have hne : r (a, rev) (cell nul t a i) ≠ r (a, rev) (cell nul t a j) := fun e => hs (hk.1.1 e)
      unfold EntryLe entryLe at h
      simp only [List.map_cons, List.cons.injEq, hne, false_and, if_false, lexLe] at h
      have hlt : r (a, rev) (cell nul t a i) < r (a, rev) (cell nul t a j) := by
        by_contra hc
        have : r (a, rev) (cell nul t a j) < r (a, rev) (cell nul t a i) := by omega
        simp [hc, this] at h
      have := hk.2 hlt
      cases rev <;> simpa using this

theorem entryLe_of_inOrder (same lt : α → α → Bool) (nul : α) (t : Tbl ν α) (n : Nat) (r : ν × Bool → α → Nat) (mapping : List (ν × Bool))
    (hr : ∀ k ∈ mapping, RankOk same lt k.2 ((List.range n).map fun i => cell nul t k.1 i) (r k))
    (htot : ∀ k ∈ mapping, ∀ i < n, ∀ j < n, same (cell nul t k.1 i) (cell nul t k.1 j) = false →
      lt (cell nul t k.1 i) (cell nul t k.1 j) = true ∨ lt (cell nul t k.1 j) (cell nul t k.1 i) = true)
    (i j : Nat) (hi : i < n) (hj : j < n) (h : InOrder same lt nul t i j mapping) :
    EntryLe (mapping.map (fun k => r k (cell nul t k.1 i)), i) (mapping.map (fun k => r k (cell nul t k.1 j)), j) := by
  induction mapping with
  | nil =>
    simp only [InOrder] at h
    simp [EntryLe, entryLe]; omega
  | cons k ks ih =>
    obtain ⟨a, rev⟩ := k
    have m1 : cell nul t a i ∈ (List.range n).map fun i => cell nul t a i := List.mem_map.2 ⟨i, List.mem_range.2 hi, rfl⟩
    have m2 : cell nul t a j ∈ (List.range n).map fun i => cell nul t a i := List.mem_map.2 ⟨j, List.mem_range.2 hj, rfl⟩
    have hk := hr (a, rev) (by simp) (cell nul t a i) m1 (cell nul t a j) m2
    have hk' := hr (a, rev) (by simp) (cell nul t a j) m2 (cell nul t a i) m1
    unfold InOrder at h
    by_cases hs : same (cell nul t a i) (cell nul t a j) = true
    · rw [if_pos hs] at h
      have := ih (fun k hk' => hr k (by simp [hk'])) (fun k hk' => htot k (by simp [hk'])) h
      have he := hk.1.2 hs
      unfold EntryLe entryLe at this ⊢
      simp only [List.map_cons, he, List.cons.injEq, true_and]
      split at this
      · rename_i e; rw [if_pos e]; exact this
      · rename_i e; rw [if_neg e]; simpa [lexLe] using this
    · rw [if_neg hs] at h
      have hne : r (a, rev) (cell nul t a i) ≠ r (a, rev) (cell nul t a j) := fun e => hs (hk.1.1 e)
      have hlt : r (a, rev) (cell nul t a i) < r (a, rev) (cell nul t a j) := by
        by_contra hc
        have hx := hk'.2 (by omega)
        have ht := htot (a, rev) (by simp) i hi j hj (by simpa using hs)
        cases rev
        · simp only [Bool.false_eq_true, if_false] at h hx
          rw [h, hx] at ht; simp at ht
        · simp only [if_true] at h hx
          rw [h, hx] at ht; simp at ht
      unfold EntryLe entryLe
      simp [lexLe, hne, hlt]

/-- the ranking function `rk` yields, on each key column, ranks that agree with `same` and `lt` -/
def Ranks (same lt : α → α → Bool) (nul : α) (rk : Bool → List α → Except Err (α → Option Nat)) (t : Tbl ν α) (n : Nat) (k : ν × Bool) : Prop :=
  ∃ look r, rk k.2 ((List.range n).map fun i => cell nul t k.1 i) = .ok look ∧ (∀ i < n, look (cell nul t k.1 i) = some (r (cell nul t k.1 i))) ∧
    RankOk same lt k.2 ((List.range n).map fun i => cell nul t k.1 i) r

theorem sortIndex_ok (same lt : α → α → Bool) (nul : α) (rk : Bool → List α → Except Err (α → Option Nat)) (t : Tbl ν α) (n : Nat)
    (hrect : Rect t n) (mapping : List (ν × Bool)) (hne : mapping ≠ []) (hk : ∀ k ∈ mapping, k.1 ∈ t.map (·.1))
    (hr : ∀ k ∈ mapping, Ranks same lt nul rk t n k) :
    ∃ idx, sortIndex rk t mapping = .ok idx ∧ idx.Perm (List.range n) ∧ idx.Pairwise (fun i j => InOrder same lt nul t i j mapping) ∧
      ((∀ k ∈ mapping, ∀ i < n, ∀ j < n, same (cell nul t k.1 i) (cell nul t k.1 j) = false →
          lt (cell nul t k.1 i) (cell nul t k.1 j) = true ∨ lt (cell nul t k.1 j) (cell nul t k.1 i) = true) →
        (idx = List.range n ↔ ∀ i j, i < j → j < n → InOrder same lt nul t i j mapping)) := by
  classical
  let look : ν × Bool → α → Option Nat := fun k => if h : k ∈ mapping then (hr k h).choose else fun _ => none
  let r : ν × Bool → α → Nat := fun k => if h : k ∈ mapping then (hr k h).choose_spec.choose else fun _ => 0
  have hlook : ∀ k ∈ mapping, rk k.2 ((List.range n).map fun i => cell nul t k.1 i) = .ok (look k) ∧
      (∀ i < n, look k (cell nul t k.1 i) = some (r k (cell nul t k.1 i))) ∧ RankOk same lt k.2 ((List.range n).map fun i => cell nul t k.1 i) (r k) := by
    intro k h
    have := (hr k h).choose_spec.choose_spec
    simp only [look, r, h, dif_pos]
    exact this
  have hlen : tblLen t = n := by
    cases mapping with
    | nil => exact absurd rfl hne
    | cons k _ =>
      have h1 := hk k (by simp)
      obtain ⟨c, hc, _⟩ := List.mem_map.1 h1
      exact tblLen_rect t n hrect (by rintro rfl; simp at hc)
  have hrows := rankRows_ok nul rk t n hrect r mapping hk (fun k h => ⟨look k, (hlook k h).1, (hlook k h).2.1⟩) (fun _ => [])
  have hs := sorted_rows n (fun i => mapping.map fun k => r k (cell nul t k.1 i))
  dsimp only at hs
  refine ⟨_, ?_, hs.1, ?_, ?_⟩
  · unfold sortIndex
    have : mapping.all (fun k => decide (k.1 ∈ t.map (·.1))) = true := by
      rw [List.all_eq_true]; intro k h; exact decide_eq_true (hk k h)
    rw [if_neg hne, if_neg (by simpa using hk), hlen, replicate_range, hrows]
    simp only [bind, Except.bind, List.nil_append]
  · have hnd : (((((List.range n).map fun i => mapping.map fun k => r k (cell nul t k.1 i)).zipIdx.insertionSort (fun x y => entryLe x y = true)).map (·.2))).Nodup :=
      hs.1.nodup_iff.2 List.nodup_range
    have hboth := hs.2.1.and hnd
    refine hboth.imp_of_mem ?_
    intro i j hi hj hij
    have hi' := List.mem_range.1 (hs.1.subset hi)
    have hj' := List.mem_range.1 (hs.1.subset hj)
    exact inOrder_of_entryLe same lt nul t n r mapping (fun k h => (hlook k h).2.2) i j hi' hj' hij.2 hij.1
  · intro htot
    rw [hs.2.2, List.pairwise_iff_getElem]
    constructor
    · intro h i j hij hj
      have := h i j (by simp; omega) (by simpa using hj) hij
      simp only [List.getElem_range] at this
      exact inOrder_of_entryLe same lt nul t n r mapping (fun k h => (hlook k h).2.2) i j (by omega) hj (by omega) this
    · intro h i j hi hj hij
      simp only [List.getElem_range]
      rw [List.length_range] at hi hj
      exact entryLe_of_inOrder same lt nul t n r mapping (fun k h => (hlook k h).2.2) htot i j hi hj (h i j hij hj)

theorem tblSort_view (ps : Nat) (hps : 0 < ps) (nul : α) (rk : Bool → List α → Except Err (α → Option Nat)) (t : Tbl ν α) (n : Nat)
    (hrect : Rect t n) (mapping : List (ν × Bool)) (idx : List Nat) (h : sortIndex rk t mapping = .ok idx) (hi : ∀ i ∈ idx, i < n) :
    ∃ t', tblSort rk ps nul t mapping = .ok t' ∧ tview t' = rowsOf nul t idx := by
  obtain ⟨t', h1, h2⟩ := C62_reindex_partial ps hps nul t (idx.map fun (n : Nat) => (n : Int))
    (by
      intro c hc i hi'
      obtain ⟨m, hm, rfl⟩ := List.mem_map.1 hi'
      right
      have := hi m hm
      have := hrect c hc
      omega)
    (by intro hm; obtain ⟨m, _, hm'⟩ := List.mem_map.1 hm; omega)
  refine ⟨t', ?_, ?_⟩
  · unfold tblSort; rw [h]; exact h1
  · rw [h2]
    unfold rowsOf
    apply List.map_congr_left
    intro c _
    rw [List.map_map]
    refine congrArg (Prod.mk c.1) (List.map_congr_left fun i _ => ?_)
    simp only [Function.comp, pick]
    rw [if_neg (by omega)]
    simp

end

/-! ## ranks by position in a sorted list -/

section
variable {κ : Type} (eq : κ → κ → Bool) (hrefl : ∀ a, eq a a = true) (hsymm : ∀ a b, eq a b = true → eq b a = true)
  (htrans : ∀ a b c, eq a b = true → eq b c = true → eq a c = true)
include hrefl hsymm htrans

theorem eqGet_eqSet (k v : κ) (ix : Nat) (d : List (κ × Nat)) : eqGet eq v (eqSet eq k ix d) = if eq k v then some ix else eqGet eq v d := by
  induction d with
  | nil => simp [eqSet, eqGet]
  | cons x rest ih =>
    obtain ⟨k', i⟩ := x
    unfold eqSet
    by_cases h : eq k' k = true
    · rw [if_pos h]
      unfold eqGet
      by_cases h2 : eq k v = true
      · rw [if_pos h2, if_pos (htrans _ _ _ h h2)]
      · have h3 : ¬ eq k' v = true := fun h3 => h2 (htrans _ _ _ (hsymm _ _ h) h3)
        rw [if_neg h2, if_neg h3, if_neg h3]
    · rw [if_neg h]
      unfold eqGet
      rw [ih]
      by_cases h2 : eq k v = true
      · have h3 : ¬ eq k' v = true := fun h3 => h (htrans _ _ _ h3 (hsymm _ _ h2))
        rw [if_neg h3, if_pos h2, if_pos h2]
      · simp only [h2]; split <;> rfl

theorem eqGet_append (v x : κ) (L : List κ) : eqGet eq v (rankDict eq (L ++ [x])) = if eq x v then some L.length else eqGet eq v (rankDict eq L) := by
  unfold rankDict
  rw [List.zipIdx_append, List.foldl_append]
  simp only [List.zipIdx_cons, List.zipIdx_nil, List.foldl_cons, List.foldl_nil, Nat.zero_add]
  rw [eqGet_eqSet eq hrefl hsymm htrans]

/-- the rank of a value is the position of an equal element -/
theorem rankDict_pos (v : κ) (L : List κ) (r : Nat) (h : eqGet eq v (rankDict eq L) = some r) : ∃ x, L[r]? = some x ∧ eq x v = true := by
  induction L using List.reverseRecOn with
  | nil => simp [rankDict, eqGet] at h
  | append_singleton L x ih =>
    rw [eqGet_append eq hrefl hsymm htrans] at h
    split at h
    · rename_i hx
      obtain rfl := Option.some.inj h
      exact ⟨x, by simp, hx⟩
    · obtain ⟨y, hy, hy'⟩ := ih h
      have : r < L.length := by
        by_contra hc
        rw [List.getElem?_eq_none (by omega)] at hy; simp at hy
      exact ⟨y, by rw [List.getElem?_append_left this]; exact hy, hy'⟩

theorem rankDict_isSome (v : κ) (L : List κ) (h : v ∈ L) : (eqGet eq v (rankDict eq L)).isSome := by
  induction L using List.reverseRecOn with
  | nil => simp at h
  | append_singleton L x ih =>
    rw [eqGet_append eq hrefl hsymm htrans]
    by_cases hx : eq x v = true
    · simp [hx]
    · simp only [hx]
      rcases List.mem_append.1 h with h | h
      · exact ih h
      · rw [List.mem_singleton] at h; subst h; exact absurd (hrefl _) hx

theorem rankDict_congr (v w : κ) (L : List κ) (h : eq v w = true) : eqGet eq v (rankDict eq L) = eqGet eq w (rankDict eq L) := by
  induction L using List.reverseRecOn with
  | nil => rfl
  | append_singleton L x ih =>
    rw [eqGet_append eq hrefl hsymm htrans, eqGet_append eq hrefl hsymm htrans, ih]
    have : eq x v = eq x w := by
      apply Bool.eq_iff_iff.2
      exact ⟨fun h1 => htrans _ _ _ h1 h, fun h1 => htrans _ _ _ h1 (hsymm _ _ h)⟩
    rw [this]

/-- ranks read from a list ordered by `lt` agree with `lt`, when `lt` does not distinguish equal values -/
theorem rankDict_ok (lt : κ → κ → Bool) (rev : Bool) (L vals : List κ) (hmem : ∀ v ∈ vals, v ∈ L)
    (hL : L.Pairwise fun a b => (if rev then lt a b else lt b a) = false)
    (hlt : ∀ v ∈ vals, ∀ w ∈ vals, ∀ v' ∈ L, ∀ w' ∈ L, eq v' v = true → eq w' w = true → lt v w = lt v' w') :
    ∃ r, (∀ v ∈ vals, eqGet eq v (rankDict eq L) = some (r v)) ∧ RankOk eq lt rev vals r := by
  refine ⟨fun v => (eqGet eq v (rankDict eq L)).getD 0, ?_, ?_⟩
  · intro v hv
    obtain ⟨x, hx⟩ := Option.isSome_iff_exists.1 (rankDict_isSome eq hrefl hsymm htrans v L (hmem v hv))
    simp only [hx, Option.getD_some]
  · intro v hv w hw
    obtain ⟨x, hx⟩ := Option.isSome_iff_exists.1 (rankDict_isSome eq hrefl hsymm htrans v L (hmem v hv))
    obtain ⟨y, hy⟩ := Option.isSome_iff_exists.1 (rankDict_isSome eq hrefl hsymm htrans w L (hmem w hw))
    obtain ⟨v', hv1, hv2⟩ := rankDict_pos eq hrefl hsymm htrans v L x hx
    obtain ⟨w', hw1, hw2⟩ := rankDict_pos eq hrefl hsymm htrans w L y hy
    simp only [hx, hy, Option.getD_some]
    refine ⟨⟨?_, ?_⟩, ?_⟩
    · rintro rfl
      rw [hv1] at hw1
      obtain rfl := Option.some.inj hw1
      exact htrans _ _ _ (hsymm _ _ hv2) hw2
    · intro h
      have := rankDict_congr eq hrefl hsymm htrans v w L h
      rw [hx, hy] at this
      exact Option.some.inj this
    · intro h
      obtain ⟨hxl, hx'⟩ := List.getElem?_eq_some_iff.1 hv1
      obtain ⟨hyl, hy'⟩ := List.getElem?_eq_some_iff.1 hw1
      have hp := List.pairwise_iff_getElem.1 hL x y hxl hyl h
      rw [hx', hy'] at hp
      have m1 : v' ∈ L := List.mem_of_getElem? hv1
      have m2 : w' ∈ L := List.mem_of_getElem? hw1
      rw [hlt v hv w hw v' m1 w' m2 hv2 hw2, hlt w hw v hv w' m2 v' m1 hw2 hv2]
      exact hp

end

/-! ## Excel order -/

theorem pySort_mem {β : Type} (le : β → β → Bool) (rev : Bool) (l : List β) (x : β) : x ∈ pySort le rev l ↔ x ∈ l := by
  unfold pySort
  split <;> exact List.mem_insertionSort _

theorem pySort_pairwise {β : Type} (le : β → β → Bool) (htot : ∀ a b, le a b = true ∨ le b a = true)
    (htr : ∀ a b c, le a b = true → le b c = true → le a c = true) (rev : Bool) (l : List β) :
    (pySort le rev l).Pairwise fun a b => (if rev then le b a else le a b) = true := by
  unfold pySort
  cases rev
  · simp only [Bool.false_eq_true, if_false]
    have : Std.Total (fun a b => le a b = true) := ⟨htot⟩
    have : IsTrans β (fun a b => le a b = true) := ⟨htr⟩
    exact List.pairwise_insertionSort _ l
  · simp only [if_true]
    have : Std.Total (fun a b => le b a = true) := ⟨fun a b => htot b a⟩
    have : IsTrans β (fun a b => le b a = true) := ⟨fun a b c h1 h2 => htr c b a h2 h1⟩
    exact List.pairwise_insertionSort _ l

theorem pairLe_total (a b : Rat × Rat) : pairLe a b = true ∨ pairLe b a = true := by
  unfold pairLe
  simp only [Bool.or_eq_true, decide_eq_true_eq, Bool.and_eq_true]
  rcases lt_trichotomy a.1 b.1 with h | h | h
  · exact Or.inl (Or.inl h)
  · rcases le_total a.2 b.2 with h' | h'
    · exact Or.inl (Or.inr ⟨h, h'⟩)
    · exact Or.inr (Or.inr ⟨h.symm, h'⟩)
  · exact Or.inr (Or.inl h)

theorem pairLe_trans (a b c : Rat × Rat) (h1 : pairLe a b = true) (h2 : pairLe b c = true) : pairLe a c = true := by
  unfold pairLe at *
  simp only [Bool.or_eq_true, decide_eq_true_eq, Bool.and_eq_true] at *
  rcases h1 with h1 | ⟨h1, h1'⟩
  · rcases h2 with h2 | ⟨h2, h2'⟩
    · exact Or.inl (lt_trans h1 h2)
    · exact Or.inl (h2 ▸ h1)
  · rcases h2 with h2 | ⟨h2, h2'⟩
    · exact Or.inl (h1 ▸ h2)
    · exact Or.inr ⟨h1.trans h2, le_trans h1' h2'⟩

/-- the rank of the type in the table of `excel_sort` (spec vocabulary) -/
def xgroup : SVal → Nat
  | .num .. => 1
  | .str _ => 2
  | .bool _ => 3
  | .none => 4

section
variable {K : Type} [LinearOrder K]

/-- order of two values of equal type rank (spec vocabulary): numbers by sort value then exact value, texts by collation key, False before True -/
def within (key : String → K) : SVal → SVal → Bool
  | .num _ v f, .num _ v' f' => decide (v < v' ∨ (v = v' ∧ f < f'))
  | .str a, .str b => decide (key a < key b)
  | .bool a, .bool b => !a && b
  | _, _ => false

/-- the documented Excel order (spec vocabulary) -/
def excelLt (key : String → K) (a b : SVal) : Bool := decide (xgroup a < xgroup b) || (decide (xgroup a = xgroup b) && within key a b)

theorem excelLt_group (key : String → K) (a b : SVal) (h : xgroup a < xgroup b) : excelLt key b a = false := by
  unfold excelLt
  have h1 : ¬ xgroup b < xgroup a := by omega
  have h2 : ¬ xgroup b = xgroup a := by omega
  simp [h1, h2]

theorem excelLt_num (key : String → K) (a b : SVal) (ha : a.isNum = true) (hb : b.isNum = true) (h : numLe a b = true) : excelLt key b a = false := by
  cases a <;> cases b <;> simp [SVal.isNum] at ha hb
  rename_i t v f t' v' f'
  simp only [numLe, numKey, pairLe, Bool.or_eq_true, Bool.and_eq_true] at h
  replace h : v < v' ∨ (v = v' ∧ f ≤ f') := h.imp of_decide_eq_true (fun h => ⟨of_decide_eq_true h.1, of_decide_eq_true h.2⟩)
  simp only [excelLt, xgroup, within, lt_irrefl, decide_false, Bool.false_or, decide_true, Bool.true_and, decide_eq_false_iff_not]
  rintro (h' | ⟨h', h''⟩)
  · rcases h with h | ⟨h, _⟩
    · exact absurd (lt_trans h h') (lt_irrefl _)
    · rw [h] at h'; exact absurd h' (lt_irrefl _)
  · rcases h with h | ⟨_, h⟩
    · rw [h'] at h; exact absurd h (lt_irrefl _)
    · exact absurd (lt_of_le_of_lt h h'') (lt_irrefl _)

theorem excelLt_str (key : String → K) (a b : SVal) (ha : a.isStr = true) (hb : b.isStr = true) (h : strLe key a b = true) : excelLt key b a = false := by
  cases a <;> cases b <;> simp [SVal.isStr] at ha hb
  have h := of_decide_eq_true h
  simp only [SVal.text] at h
  simp [excelLt, xgroup, within, h]

theorem excelLt_bool (key : String → K) (a b : SVal) (ha : a.isBoolNone = true) (hb : b.isBoolNone = true) (h : boolLe a b = true) : excelLt key b a = false := by
  rcases a with _ | _ | (_ | _) | _ <;> rcases b with _ | _ | (_ | _) | _ <;> revert ha hb h <;>
    simp [SVal.isBoolNone, SVal.isNum, SVal.isStr, boolLe, boolKey, excelLt, xgroup, within]

theorem xgroup_isNum (a : SVal) (h : a.isNum = true) : xgroup a = 1 := by cases a <;> simp [SVal.isNum, xgroup] at *
theorem xgroup_isStr (a : SVal) (h : a.isStr = true) : xgroup a = 2 := by cases a <;> simp [SVal.isStr, xgroup] at *
theorem xgroup_isBoolNone (a : SVal) (h : a.isBoolNone = true) : 2 < xgroup a := by cases a <;> simp [SVal.isBoolNone, SVal.isNum, SVal.isStr, xgroup] at *

theorem numLe_total (a b : SVal) : numLe a b = true ∨ numLe b a = true := pairLe_total _ _
theorem numLe_trans (a b c : SVal) (h1 : numLe a b = true) (h2 : numLe b c = true) : numLe a c = true := pairLe_trans _ _ _ h1 h2
theorem strLe_total (key : String → K) (a b : SVal) : strLe key a b = true ∨ strLe key b a = true := by
  simp only [strLe, decide_eq_true_eq]; exact le_total _ _
theorem strLe_trans (key : String → K) (a b c : SVal) (h1 : strLe key a b = true) (h2 : strLe key b c = true) : strLe key a c = true := by
  simp only [strLe, decide_eq_true_eq] at *; exact le_trans h1 h2
theorem boolLe_total (a b : SVal) : boolLe a b = true ∨ boolLe b a = true := by
  simp only [boolLe, decide_eq_true_eq]; omega
theorem boolLe_trans (a b c : SVal) (h1 : boolLe a b = true) (h2 : boolLe b c = true) : boolLe a c = true := by
  simp only [boolLe, decide_eq_true_eq] at *; omega

theorem sublist_order (key : String → K) (le : SVal → SVal → Bool) (P : SVal → Bool) (rev : Bool) (l : List SVal)
    (htot : ∀ a b, le a b = true ∨ le b a = true) (htr : ∀ a b c, le a b = true → le b c = true → le a c = true)
    (lt : SVal → SVal → Bool) (h : ∀ a b, P a = true → P b = true → le a b = true → lt b a = false) :
    (pySort le rev (l.filter P)).Pairwise fun a b => (if rev then lt a b else lt b a) = false := by
  refine (pySort_pairwise le htot htr rev (l.filter P)).imp_of_mem ?_
  intro a b ha hb hab
  rw [pySort_mem, List.mem_filter] at ha hb
  cases rev
  · simp only [Bool.false_eq_true, if_false] at *
    exact h a b ha.2 hb.2 hab
  · simp only [if_true] at *
    exact h b a hb.2 ha.2 hab

theorem excelList_ok (key : String → K) (rev : Bool) (values : List SVal) (hc : ∀ a ∈ values, ∀ b ∈ values, numClash a b = false) :
    ∃ L, excelList key rev values = .ok L ∧ (∀ v, v ∈ L ↔ v ∈ values) ∧ L.Pairwise fun a b => (if rev then excelLt key a b else excelLt key b a) = false := by
  unfold excelList
  have hany : ¬ (values.any fun a => values.any (numClash a)) = true := by
    rw [List.any_eq_true]
    rintro ⟨a, ha, h⟩
    rw [List.any_eq_true] at h
    obtain ⟨b, hb, h⟩ := h
    rw [hc a ha b hb] at h; cases h
  rw [if_neg hany]
  dsimp only
  have hn := sublist_order key numLe SVal.isNum rev values numLe_total numLe_trans (excelLt key) (excelLt_num key)
  have hs := sublist_order key (strLe key) SVal.isStr rev values (strLe_total key) (strLe_trans key) (excelLt key) (excelLt_str key)
  have hb := sublist_order key boolLe SVal.isBoolNone rev values boolLe_total boolLe_trans (excelLt key) (excelLt_bool key)
  have hcase : ∀ v : SVal, v.isNum = true ∨ v.isStr = true ∨ v.isBoolNone = true := by
    intro v; cases v <;> simp [SVal.isNum, SVal.isStr, SVal.isBoolNone]
  cases rev
  · refine ⟨_, rfl, ?_, ?_⟩
    · intro v
      simp only [Bool.false_eq_true, if_false, List.mem_append, pySort_mem, List.mem_filter]
      have := hcase v
      tauto
    · simp only [Bool.false_eq_true, if_false] at *
      rw [List.pairwise_append, List.pairwise_append]
      refine ⟨⟨hn, hs, ?_⟩, hb, ?_⟩
      · intro a ha b hb'
        rw [pySort_mem, List.mem_filter] at ha hb'
        exact excelLt_group key a b (by rw [xgroup_isNum a ha.2, xgroup_isStr b hb'.2]; omega)
      · intro a ha b hb'
        rw [List.mem_append, pySort_mem, pySort_mem, List.mem_filter, List.mem_filter] at ha
        rw [pySort_mem, List.mem_filter] at hb'
        have h3 := xgroup_isBoolNone b hb'.2
        apply excelLt_group
        rcases ha with ha | ha
        · rw [xgroup_isNum a ha.2]; omega
        · rw [xgroup_isStr a ha.2]; omega
  · refine ⟨_, rfl, ?_, ?_⟩
    · intro v
      simp only [if_true, List.mem_append, pySort_mem, List.mem_filter]
      have := hcase v
      tauto
    · simp only [if_true] at *
      rw [List.pairwise_append, List.pairwise_append]
      refine ⟨⟨hb, hs, ?_⟩, hn, ?_⟩
      · intro a ha b hb'
        rw [pySort_mem, List.mem_filter] at ha hb'
        have h3 := xgroup_isBoolNone a ha.2
        exact excelLt_group key b a (by rw [xgroup_isStr b hb'.2]; omega)
      · intro a ha b hb'
        rw [List.mem_append, pySort_mem, pySort_mem, List.mem_filter, List.mem_filter] at ha
        rw [pySort_mem, List.mem_filter] at hb'
        apply excelLt_group
        rw [xgroup_isNum b hb'.2]
        rcases ha with ha | ha
        · have := xgroup_isBoolNone a ha.2; omega
        · rw [xgroup_isStr a ha.2]; omega

theorem tyComparable_refl (a : NumTy) : tyComparable a a = true := by cases a <;> rfl
theorem tyComparable_symm (a b : NumTy) : tyComparable a b = tyComparable b a := by cases a <;> cases b <;> rfl
theorem tyComparable_trans (a b c : NumTy) (h1 : tyComparable a b = true) (h2 : tyComparable b c = true) : tyComparable a c = true := by
  revert h1 h2; cases a <;> cases b <;> cases c <;> decide

theorem pyEq_refl (a : SVal) : a.pyEq a = true := by cases a <;> simp [SVal.pyEq, tyComparable_refl]
theorem pyEq_symm (a b : SVal) (h : a.pyEq b = true) : b.pyEq a = true := by
  cases a <;> cases b <;> simp only [SVal.pyEq] at * <;> first | exact h | skip
  · rw [tyComparable_symm]; simp only [Bool.and_eq_true, decide_eq_true_eq] at *; exact ⟨h.1, h.2.1.symm, h.2.2.symm⟩
  · simpa using (by simpa using h : _ = _).symm
  · simpa using (by simpa using h : _ = _).symm

theorem pyEq_trans (a b c : SVal) (h1 : a.pyEq b = true) (h2 : b.pyEq c = true) : a.pyEq c = true := by
  cases a <;> cases b <;> cases c <;> simp only [SVal.pyEq, Bool.and_eq_true, Bool.or_eq_true, decide_eq_true_eq, Bool.false_eq_true] at *
  all_goals try simp_all
  · exact tyComparable_trans _ _ _ h1.1 h2.1
  · obtain ⟨h1, -⟩ := h1
    revert h1
    obtain ⟨h2, -⟩ := h2
    rename_i t _ _ t' _ _ _
    cases t <;> cases t' <;> simp [tyComparable] at *
  · rename_i t v f b t' v' f'
    obtain ⟨h1, -⟩ := h1
    obtain ⟨h2, -⟩ := h2
    cases t <;> cases t' <;> simp [tyComparable] at *
  · rename_i t _ _ t' _ _
    obtain ⟨h1, -⟩ := h1
    obtain ⟨h2, -⟩ := h2
    cases t <;> cases t' <;> simp [tyComparable] at *
  · rename_i b t v f b'
    cases b <;> cases b' <;> simp at *

/-- same value: equal in Python and of the same type rank, so that 1 and 1.0 are the same but 1 and True are not (spec vocabulary) -/
def SVal.same (a b : SVal) : Bool := decide (xgroup a = xgroup b) && a.pyEq b

theorem excelLt_congr (key : String → K) (v w v' w' : SVal) (h1 : v'.same v = true) (h2 : w'.same w = true) : excelLt key v w = excelLt key v' w' := by
  unfold SVal.same at h1 h2
  simp only [Bool.and_eq_true, decide_eq_true_eq] at h1 h2
  unfold excelLt
  rw [h1.1, h2.1]
  congr 2
  obtain ⟨g1, e1⟩ := h1
  obtain ⟨g2, e2⟩ := h2
  cases v <;> cases v' <;> simp [xgroup, SVal.pyEq] at g1 e1 <;> cases w <;> cases w' <;> simp [xgroup, SVal.pyEq] at g2 e2 <;>
    simp_all [within]

/-- no number of the column equals a bool of the column (1 and True, 0 and False) -/
def NoMix (vals : List SVal) : Prop := ∀ v ∈ vals, ∀ w ∈ vals, v.pyEq w = true → xgroup v = xgroup w

theorem excelRank_ok (key : String → K) (ord : List SVal → List SVal) (hord : ∀ l v, v ∈ ord l ↔ v ∈ l) (rev : Bool) (vals : List SVal)
    (hc : ∀ a ∈ vals, ∀ b ∈ vals, numClash a b = false) (hm : NoMix vals) :
    ∃ look r, excelRank key ord rev vals = .ok look ∧ (∀ v ∈ vals, look v = some (r v)) ∧ RankOk SVal.same (excelLt key) rev vals r := by
  obtain ⟨L, hL1, hL2, hL3⟩ := excelList_ok key rev (ord vals) (fun a ha b hb => hc a ((hord _ _).1 ha) b ((hord _ _).1 hb))
  have hs : ∀ v ∈ vals, ∀ w ∈ vals, v.pyEq w = v.same w := by
    intro v hv w hw
    unfold SVal.same
    cases h : v.pyEq w
    · simp
    · simp [hm v hv w hw h]
  obtain ⟨r, hr1, hr2⟩ := rankDict_ok SVal.pyEq pyEq_refl pyEq_symm pyEq_trans (excelLt key) rev L vals
    (fun v hv => (hL2 v).2 ((hord _ _).2 hv)) hL3 (by
      intro v hv w hw v' hv' w' hw' e1 e2
      have m1 := (hord _ _).1 ((hL2 v').1 hv')
      have m2 := (hord _ _).1 ((hL2 w').1 hw')
      exact excelLt_congr key v w v' w' (by rw [← hs v' m1 v hv]; exact e1) (by rw [← hs w' m2 w hw]; exact e2))
  refine ⟨_, r, ?_, hr1, ?_⟩
  · unfold excelRank; rw [hL1]; rfl
  · intro v hv w hw
    rw [← hs v hv w hw]
    exact hr2 v hv w hw

/-! ## Unix order -/

/-- the documented Unix order (spec vocabulary): type rank, then value -/
def unixLt (key : String → K) (a b : SVal) : Bool := decide (unixCode a < unixCode b) || (decide (unixCode a = unixCode b) && within key a b)

theorem unixLe_total (a b : SVal) : unixLe a b = true ∨ unixLe b a = true := by
  unfold unixLe
  simp only [Bool.or_eq_true, decide_eq_true_eq, Bool.and_eq_true]
  rcases lt_trichotomy (unixCode a) (unixCode b) with h | h | h
  · exact Or.inl (Or.inl h)
  · rcases pairLe_total (unixKey a) (unixKey b) with h' | h'
    · exact Or.inl (Or.inr ⟨h, h'⟩)
    · exact Or.inr (Or.inr ⟨h.symm, h'⟩)
  · exact Or.inr (Or.inl h)

theorem unixLe_trans (a b c : SVal) (h1 : unixLe a b = true) (h2 : unixLe b c = true) : unixLe a c = true := by
  unfold unixLe at *
  simp only [Bool.or_eq_true, decide_eq_true_eq, Bool.and_eq_true] at *
  rcases h1 with h1 | ⟨h1, h1'⟩
  · rcases h2 with h2 | ⟨h2, h2'⟩
    · exact Or.inl (by omega)
    · exact Or.inl (by omega)
  · rcases h2 with h2 | ⟨h2, h2'⟩
    · exact Or.inl (by omega)
    · exact Or.inr ⟨h1.trans h2, pairLe_trans _ _ _ h1' h2'⟩

theorem unixLt_num (key : String → K) (a b : SVal) (ha : (!a.isStr) = true) (hb : (!b.isStr) = true) (h : unixLe a b = true) : unixLt key b a = false := by
  unfold unixLe at h
  unfold unixLt
  simp only [Bool.or_eq_true, decide_eq_true_eq, Bool.and_eq_true] at h
  rcases h with h | ⟨h1, h2⟩
  · have h1 : ¬ unixCode b < unixCode a := by omega
    have h2 : ¬ unixCode b = unixCode a := by omega
    simp [h1, h2]
  · rw [h1]
    simp only [lt_irrefl, decide_false, Bool.false_or, decide_true, Bool.true_and]
    cases a with
    | str s => simp [SVal.isStr] at ha
    | none => cases b <;> rfl
    | bool x =>
      cases b with
      | bool y =>
        unfold pairLe at h2
        cases x <;> cases y <;> first | rfl | (exfalso; revert h2; simp [unixKey])
      | _ => rfl
    | num ty v f =>
      cases b with
      | num ty' v' f' =>
        have := excelLt_num key (.num ty v f) (.num ty' v' f') rfl rfl h2
        simpa [excelLt, xgroup] using this
      | _ => rfl

theorem unixLt_str (key : String → K) (a b : SVal) (ha : a.isStr = true) (hb : b.isStr = true) (h : strLe key a b = true) : unixLt key b a = false := by
  cases a <;> cases b <;> simp [SVal.isStr] at ha hb
  have h := of_decide_eq_true h
  simp only [SVal.text] at h
  simp [unixLt, unixCode, within, h]

theorem unixCode_nonStr (a : SVal) (h : (!a.isStr) = true) : unixCode a < 7 := by
  rcases a with (_ | _ | _ | _ | _ | _) | _ | _ | _ <;> simp [SVal.isStr, unixCode] at *

theorem unixRank_ok (key : String → K) (ord : List SVal → List SVal) (hord : ∀ l v, v ∈ ord l ↔ v ∈ l) (rev : Bool) (vals : List SVal)
    (hm : rev = true → (∀ v ∈ vals, v.isStr = true) ∨ (∀ v ∈ vals, v.isStr = false)) :
    ∃ look r, unixRank key ord rev vals = .ok look ∧ (∀ v ∈ vals, look v = some (r v)) ∧
      RankOk (fun a b => decide (a = b)) (unixLt key) rev vals r := by
  have hn := sublist_order key unixLe (fun v => !v.isStr) rev (ord vals) unixLe_total unixLe_trans (unixLt key) (unixLt_num key)
  have hs := sublist_order key (strLe key) SVal.isStr rev (ord vals) (strLe_total key) (strLe_trans key) (unixLt key) (unixLt_str key)
  obtain ⟨r, hr1, hr2⟩ := rankDict_ok (fun a b : SVal => decide (a = b)) (by simp) (by intro a b h; simpa using (of_decide_eq_true h).symm)
    (by intro a b c h1 h2; simpa using (of_decide_eq_true h1).trans (of_decide_eq_true h2)) (unixLt key) rev
    (pySort unixLe rev ((ord vals).filter fun v => !v.isStr) ++ pySort (strLe key) rev ((ord vals).filter SVal.isStr)) vals
    (by
      intro v hv
      rw [List.mem_append, pySort_mem, pySort_mem, List.mem_filter, List.mem_filter]
      have := (hord vals v).2 hv
      cases v.isStr <;> simp [this])
    (by
      rw [List.pairwise_append]
      refine ⟨hn, hs, ?_⟩
      intro a ha b hb
      rw [pySort_mem, List.mem_filter] at ha hb
      have h1 := unixCode_nonStr a ha.2
      have h2 : unixCode b = 7 := by
        have := hb.2
        cases b <;> simp [SVal.isStr, unixCode] at *
      cases rev
      · simp only [Bool.false_eq_true, if_false]
        unfold unixLt
        have h3 : ¬ unixCode b < unixCode a := by omega
        have h4 : ¬ unixCode b = unixCode a := by omega
        simp [h3, h4]
      · exfalso
        rcases hm rfl with hm | hm
        · have h5 := hm a ((hord _ _).1 ha.1)
          have h6 := ha.2
          rw [h5] at h6; cases h6
        · have h5 := hm b ((hord _ _).1 hb.1)
          rw [hb.2] at h5; cases h5)
    (by intro v _ w _ v' _ w' _ e1 e2; rw [of_decide_eq_true e1, of_decide_eq_true e2])
  exact ⟨_, r, rfl, hr1, hr2⟩

/-! ## C32 -/

variable {ν : Type} [DecidableEq ν]

/-- C32 (Excel order, the default): the sorted table consists of the rows of `t` rearranged (`idx` is a permutation of the row numbers), ordered by the
keys in their directions, rows equal on all keys in their original order.  Excluded: columns in which a number equals a bool, and columns in which
values of different incomparable types have the same sort value (TypeError). -/
theorem C32_excel_partial (key : String → K) (ord : List SVal → List SVal) (hord : ∀ l v, v ∈ ord l ↔ v ∈ l) (ps : Nat) (hps : 0 < ps) (t : Tbl ν SVal)
    (n : Nat) (hrect : Rect t n) (mapping : List (ν × Bool)) (hne : mapping ≠ []) (hk : ∀ k ∈ mapping, k.1 ∈ t.map (·.1))
    (hc : ∀ k ∈ mapping, ∀ i < n, ∀ j < n, numClash (cell .none t k.1 i) (cell .none t k.1 j) = false)
    (hm : ∀ k ∈ mapping, ∀ i < n, ∀ j < n, (cell .none t k.1 i).pyEq (cell .none t k.1 j) = true → xgroup (cell .none t k.1 i) = xgroup (cell .none t k.1 j)) :
    ∃ idx t', tblSort (excelRank key ord) ps .none t mapping = .ok t' ∧ idx.Perm (List.range n) ∧ tview t' = rowsOf .none t idx ∧
      idx.Pairwise fun i j => InOrder SVal.same (excelLt key) .none t i j mapping := by
  obtain ⟨idx, h1, h2, h3, -⟩ := sortIndex_ok SVal.same (excelLt key) .none (excelRank key ord) t n hrect mapping hne hk (by
    intro k hk'
    obtain ⟨look, r, e1, e2, e3⟩ := excelRank_ok key ord hord k.2 ((List.range n).map fun i => cell .none t k.1 i)
      (by
        intro a ha b hb
        obtain ⟨i, hi, rfl⟩ := List.mem_map.1 ha
        obtain ⟨j, hj, rfl⟩ := List.mem_map.1 hb
        exact hc k hk' i (List.mem_range.1 hi) j (List.mem_range.1 hj))
      (by
        intro a ha b hb
        obtain ⟨i, hi, rfl⟩ := List.mem_map.1 ha
        obtain ⟨j, hj, rfl⟩ := List.mem_map.1 hb
        exact hm k hk' i (List.mem_range.1 hi) j (List.mem_range.1 hj))
    exact ⟨look, r, e1, fun i hi => e2 _ (List.mem_map.2 ⟨i, List.mem_range.2 hi, rfl⟩), e3⟩)
  obtain ⟨t', h4, h5⟩ := tblSort_view ps hps .none (excelRank key ord) t n hrect mapping idx h1 (fun i hi => List.mem_range.1 (h2.subset hi))
  exact ⟨idx, t', h4, h2, h5, h3⟩

/-- C32 (Unix order): as above for every column sorted ascending, and for columns sorted descending that do not mix text with other types.
The value `same` here is identity of type and value. -/
theorem C32_unix_partial (key : String → K) (ord : List SVal → List SVal) (hord : ∀ l v, v ∈ ord l ↔ v ∈ l) (ps : Nat) (hps : 0 < ps) (t : Tbl ν SVal)
    (n : Nat) (hrect : Rect t n) (mapping : List (ν × Bool)) (hne : mapping ≠ []) (hk : ∀ k ∈ mapping, k.1 ∈ t.map (·.1))
    (hm : ∀ k ∈ mapping, k.2 = true → (∀ i < n, (cell .none t k.1 i).isStr = true) ∨ (∀ i < n, (cell .none t k.1 i).isStr = false)) :
    ∃ idx t', tblSort (unixRank key ord) ps .none t mapping = .ok t' ∧ idx.Perm (List.range n) ∧ tview t' = rowsOf .none t idx ∧
      idx.Pairwise fun i j => InOrder (fun a b => decide (a = b)) (unixLt key) .none t i j mapping := by
  obtain ⟨idx, h1, h2, h3, -⟩ := sortIndex_ok (fun a b => decide (a = b)) (unixLt key) .none (unixRank key ord) t n hrect mapping hne hk (by
    intro k hk'
    obtain ⟨look, r, e1, e2, e3⟩ := unixRank_ok key ord hord k.2 ((List.range n).map fun i => cell .none t k.1 i)
      (by
        intro hrev
        refine (hm k hk' hrev).imp ?_ ?_ <;>
        · intro h v hv
          obtain ⟨i, hi, rfl⟩ := List.mem_map.1 hv
          exact h i (List.mem_range.1 hi))
    exact ⟨look, r, e1, fun i hi => e2 _ (List.mem_map.2 ⟨i, List.mem_range.2 hi, rfl⟩), e3⟩)
  obtain ⟨t', h4, h5⟩ := tblSort_view ps hps .none (unixRank key ord) t n hrect mapping idx h1 (fun i hi => List.mem_range.1 (h2.subset hi))
  exact ⟨idx, t', h4, h2, h5, h3⟩

/-- C32 (is_sorted, Excel order): when collation keys of the texts are distinct, `is_sorted` answers whether every row may stand before every later row. -/
theorem C32_is_sorted (key : String → K) (hkey : ∀ a b, key a = key b → a = b) (ord : List SVal → List SVal) (hord : ∀ l v, v ∈ ord l ↔ v ∈ l) (t : Tbl ν SVal)
    (n : Nat) (hrect : Rect t n) (mapping : List (ν × Bool)) (hne : mapping ≠ []) (hk : ∀ k ∈ mapping, k.1 ∈ t.map (·.1))
    (hc : ∀ k ∈ mapping, ∀ i < n, ∀ j < n, numClash (cell .none t k.1 i) (cell .none t k.1 j) = false)
    (hm : ∀ k ∈ mapping, ∀ i < n, ∀ j < n, (cell .none t k.1 i).pyEq (cell .none t k.1 j) = true → xgroup (cell .none t k.1 i) = xgroup (cell .none t k.1 j)) :
    ∃ b, tblIsSorted (excelRank key ord) t mapping = .ok b ∧
      (b = true ↔ ∀ i j, i < j → j < n → InOrder SVal.same (excelLt key) .none t i j mapping) := by
  obtain ⟨idx, h1, -, -, h4⟩ := sortIndex_ok SVal.same (excelLt key) .none (excelRank key ord) t n hrect mapping hne hk (by
    intro k hk'
    obtain ⟨look, r, e1, e2, e3⟩ := excelRank_ok key ord hord k.2 ((List.range n).map fun i => cell .none t k.1 i)
      (by
        intro a ha b hb
        obtain ⟨i, hi, rfl⟩ := List.mem_map.1 ha
        obtain ⟨j, hj, rfl⟩ := List.mem_map.1 hb
        exact hc k hk' i (List.mem_range.1 hi) j (List.mem_range.1 hj))
      (by
        intro a ha b hb
        obtain ⟨i, hi, rfl⟩ := List.mem_map.1 ha
        obtain ⟨j, hj, rfl⟩ := List.mem_map.1 hb
        exact hm k hk' i (List.mem_range.1 hi) j (List.mem_range.1 hj))
    exact ⟨look, r, e1, fun i hi => e2 _ (List.mem_map.2 ⟨i, List.mem_range.2 hi, rfl⟩), e3⟩)
  have hlen : tblLen t = n := by
    cases mapping with
    | nil => exact absurd rfl hne
    | cons k _ =>
      obtain ⟨c, hc, _⟩ := List.mem_map.1 (hk k (by simp))
      exact tblLen_rect t n hrect (by rintro rfl; simp at hc)
  refine ⟨decide (idx = List.range n), ?_, ?_⟩
  · unfold tblIsSorted; rw [h1]; simp only [bind, Except.bind, hlen]
  · rw [decide_eq_true_eq]
    apply h4
    intro k hk' i hi j hj hs
    have hcl := hc k hk' i hi j hj
    generalize cell SVal.none t k.1 i = a at *
    generalize cell SVal.none t k.1 j = b at *
    unfold excelLt
    simp only [Bool.or_eq_true, decide_eq_true_eq, Bool.and_eq_true]
    rcases lt_trichotomy (xgroup a) (xgroup b) with h | h | h
    · exact Or.inl (Or.inl h)
    · cases a <;> cases b <;> simp [xgroup] at h <;> simp [xgroup, within, SVal.same, SVal.pyEq, numClash] at *
      · rename_i ty v f ty' v' f'
        rcases lt_trichotomy v v' with h | h | h
        · exact Or.inl (Or.inl h)
        · subst h
          rcases lt_trichotomy f f' with h | h | h
          · simp [h]
          · subst h
            have := hcl rfl
            simp [this] at hs
          · simp [h]
        · exact Or.inr (Or.inl h)
      · rename_i a b
        exact fun h => hs (hkey _ _ h)
      · rename_i a b
        cases a <;> cases b <;> simp at *
    · exact Or.inr (Or.inl h)

end

/-- C32 as stated in properties.jsonl, for the default order -/
def C32_statement : Prop :=
  ∀ (key : String → Nat) (ord : List SVal → List SVal), (∀ l v, v ∈ ord l ↔ v ∈ l) → ∀ (ps : Nat), 0 < ps → ∀ (t : Tbl Nat SVal) (n : Nat), Rect t n →
    ∀ mapping : List (Nat × Bool), mapping ≠ [] → (∀ k ∈ mapping, k.1 ∈ t.map (·.1)) →
    ∃ idx t', tblSort (excelRank key ord) ps .none t mapping = .ok t' ∧ idx.Perm (List.range n) ∧ tview t' = rowsOf .none t idx ∧
      idx.Pairwise fun i j => InOrder SVal.same (excelLt key) .none t i j mapping

/-- as stated for the Unix order -/
def C32_unix_statement : Prop :=
  ∀ (key : String → Nat) (ord : List SVal → List SVal), (∀ l v, v ∈ ord l ↔ v ∈ l) → ∀ (ps : Nat), 0 < ps → ∀ (t : Tbl Nat SVal) (n : Nat), Rect t n →
    ∀ mapping : List (Nat × Bool), mapping ≠ [] → (∀ k ∈ mapping, k.1 ∈ t.map (·.1)) →
    ∃ idx t', tblSort (unixRank key ord) ps .none t mapping = .ok t' ∧ idx.Perm (List.range n) ∧ tview t' = rowsOf .none t idx ∧
      idx.Pairwise fun i j => InOrder (fun a b => decide (a = b)) (unixLt key) .none t i j mapping

/-- the number 1, 2 and the bool True in one column, one page -/
def mixedTable : Tbl Nat SVal := [(0, [[.num .int 1 1, .num .int 2 2, .bool true]])]

/-- Python's int `n` -/
def SVal.i (n : Rat) : SVal := .num .int n n

theorem perm3 (idx : List Nat) (h : idx.Perm (List.range 3)) : idx ∈ [[0, 1, 2], [0, 2, 1], [1, 0, 2], [1, 2, 0], [2, 0, 1], [2, 1, 0]] := by
  have hl := h.length_eq
  have hd : idx.Nodup := h.nodup_iff.2 List.nodup_range
  have hm : ∀ x ∈ idx, x < 3 := fun x hx => List.mem_range.1 (h.subset hx)
  match idx, hl with
  | [a, b, c], _ =>
    have ha := hm a (by simp)
    have hb := hm b (by simp)
    have hc := hm c (by simp)
    simp only [List.nodup_cons, List.mem_cons, List.not_mem_nil, or_false, not_or, not_false_eq_true, List.nodup_nil, and_true] at hd
    simp only [List.mem_cons, List.cons.injEq, and_true, List.not_mem_nil, or_false]
    omega

/-- C32 fails: the rank dictionary is keyed by Python equality, so True overwrites the rank of 1, and sorting [1, 2, True] gives [2, 1, True] -/
theorem C32_fails : ¬ C32_statement := by
  intro h
  obtain ⟨idx, t', h1, h2, h3, h4⟩ := h (fun _ => 0) (fun l => l) (fun _ _ => Iff.rfl) 10 (by decide) mixedTable 3 (by unfold Rect; decide) [(0, false)] (by decide) (by decide)
  have e : tblSort (excelRank (fun _ => 0) (fun l => l)) 10 SVal.none mixedTable [(0, false)] =
      .ok [(0, [[.num .int 2 2, .num .int 1 1, .bool true]])] := by rfl
  rw [e] at h1
  obtain rfl := Except.ok.inj h1
  have hp := perm3 idx h2
  simp only [List.mem_cons, List.not_mem_nil, or_false] at hp
  rcases hp with rfl | rfl | rfl | rfl | rfl | rfl <;> revert h3 h4
  all_goals
    simp [tview, rowsOf, mixedTable, colIter_eq, InOrder, cell, dGet, SVal.same, SVal.pyEq, excelLt, xgroup, within]
  decide

/-- and for Unix order: descending, text stays after the numbers -/
theorem C32_unix_fails : ¬ C32_unix_statement := by
  intro h
  obtain ⟨idx, t', h1, h2, h3, h4⟩ := h (fun _ => 0) (fun l => l) (fun _ _ => Iff.rfl) 10 (by decide) [(0, [[.num .int 1 1, .num .int 2 2, .str "x"]])] 3 (by unfold Rect; decide) [(0, true)] (by decide) (by decide)
  have e : tblSort (unixRank (fun _ => 0) (fun l => l)) 10 SVal.none [(0, [[.num .int 1 1, .num .int 2 2, .str "x"]])] [(0, true)] =
      .ok [(0, [[.num .int 2 2, .num .int 1 1, .str "x"]])] := by rfl
  rw [e] at h1
  obtain rfl := Except.ok.inj h1
  have hp := perm3 idx h2
  simp only [List.mem_cons, List.not_mem_nil, or_false] at hp
  rcases hp with rfl | rfl | rfl | rfl | rfl | rfl <;> revert h3 h4
  all_goals
    simp [tview, rowsOf, colIter_eq, InOrder, cell, dGet, unixLt, unixCode, within]

/-- two keys, the first ascending and the second descending; 1 and 1.0 tie on the first key -/
example : tblSort (excelRank String.length id) 2 SVal.none
    [(0, [[.num .int 1 1, .str "a"], [.num .float 1 1]]), (1, [[.i 5, .i 6, .i 7]])] [(0, false), (1, true)] =
    .ok [(0, [[.num .float 1 1, .num .int 1 1], [.str "a"]]), (1, [[.i 7, .i 5], [.i 6]])] := by rfl

/-- the hypotheses of `C32_excel_partial` for that table -/
example : (∀ k ∈ [((0 : Nat), false), (1, true)], ∀ i < 3, ∀ j < 3,
      numClash (cell .none [(0, [[SVal.num .int 1 1, .str "a"], [.num .float 1 1]]), (1, [[.i 5, .i 6, .i 7]])] k.1 i)
        (cell .none [(0, [[SVal.num .int 1 1, .str "a"], [.num .float 1 1]]), (1, [[.i 5, .i 6, .i 7]])] k.1 j) = false) ∧
    NoMix [.num .int 1 1, .str "a", .num .float 1 1] := by
  constructor
  · decide
  · unfold NoMix; decide

/-- descending Unix order of a column without text -/
example : tblSort (unixRank String.length id) 2 SVal.none [(0, [[.i 1, .bool true, .none, .i 3]])] [(0, true)] =
    .ok [(0, [[.i 3, .i 1], [.bool true, .none]])] := by rfl

/-- `is_sorted` on both kinds of answer -/
example : tblIsSorted (excelRank String.length id) [(0, [[.i 1, .i 1, .i 2]])] [((0 : Nat), false)] = .ok true ∧
    tblIsSorted (excelRank String.length id) [(0, [[.i 1, .i 1, .i 2]])] [((0 : Nat), true)] = .ok false := by constructor <;> rfl

end Tablite
