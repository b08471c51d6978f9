import Verif.Props.Sort
import Verif.Props.InferDate

/-!
# C32: what sorting does on every column

`C32_excel_partial` leaves out columns in which a number equals a bool, and `C32_unix_partial` columns that mix text with other types and are sorted in descending order.  Here the order of the rows is described for these
columns as well, and the columns that cannot be sorted are found exactly.
-/

namespace Tablite

section
variable {ν α : Type} [DecidableEq ν]

/-- Spec: row `i` may stand before row `j` where each sort key has its own order; `lt k x y`: `x` comes strictly before `y` -/
def InOrderBy (same : α → α → Bool) (lt : ν × Bool → α → α → Bool) (nul : α) (t : Tbl ν α) (i j : Nat) : List (ν × Bool) → Prop
  | [] => i < j
  | k :: ks => if same (cell nul t k.1 i) (cell nul t k.1 j) then InOrderBy same lt nul t i j ks else lt k (cell nul t k.1 j) (cell nul t k.1 i) = false

/-- ranks of the values of one column that agree with `same` and with the order `lt` -/
def RankBy (same lt : α → α → Bool) (vals : List α) (r : α → Nat) : Prop :=
  ∀ v ∈ vals, ∀ w ∈ vals, (r v = r w ↔ same v w = true) ∧ (r v < r w → lt w v = false)

theorem inOrderBy_of_entryLe (same : α → α → Bool) (lt : ν × Bool → α → α → Bool) (nul : α) (t : Tbl ν α) (n : Nat) (r : ν × Bool → α → Nat) (mapping : List (ν × Bool))
    (hr : ∀ k ∈ mapping, RankBy same (lt k) ((List.range n).map fun i => cell nul t k.1 i) (r k)) (i j : Nat) (hi : i < n) (hj : j < n) (hij : i ≠ j)
    (h : EntryLe (mapping.map (fun k => r k (cell nul t k.1 i)), i) (mapping.map (fun k => r k (cell nul t k.1 j)), j)) :
    InOrderBy same lt nul t i j mapping := by
  induction mapping with
  | nil =>
    simp [EntryLe, entryLe] at h
    simp only [InOrderBy]; omega
  | cons k ks ih =>
    have hk := hr k (by simp) (cell nul t k.1 i) (List.mem_map.2 ⟨i, List.mem_range.2 hi, rfl⟩) (cell nul t k.1 j) (List.mem_map.2 ⟨j, List.mem_range.2 hj, rfl⟩)
    unfold InOrderBy
    by_cases hs : same (cell nul t k.1 i) (cell nul t k.1 j) = true
    · rw [if_pos hs]
      apply ih (fun k hk' => hr k (by simp [hk']))
      have he := hk.1.2 hs
      unfold EntryLe entryLe at h ⊢
      simp only [List.map_cons, he, List.cons.injEq, true_and] at h
      split at h
      · rename_i e; rw [if_pos e]; exact h
      · rename_i e; rw [if_neg e]; simpa [lexLe] using h
    · rw [if_neg hs]
      have hne : r k (cell nul t k.1 i) ≠ r k (cell nul t k.1 j) := fun e => hs (hk.1.1 e)
      unfold EntryLe entryLe at h
      simp only [List.map_cons, List.cons.injEq, hne, false_and, if_false, lexLe] at h
      have hlt : r k (cell nul t k.1 i) < r k (cell nul t k.1 j) := by
        by_contra hc
        have : r k (cell nul t k.1 j) < r k (cell nul t k.1 i) := by omega
        simp [hc, this] at h
      exact hk.2 hlt

/-- sorting by several keys, each with its own order -/
theorem sortIndex_by (same : α → α → Bool) (lt : ν × Bool → α → α → Bool) (nul : α) (rk : Bool → List α → Except Err (α → Option Nat)) (t : Tbl ν α) (n : Nat)
    (hrect : Rect t n) (mapping : List (ν × Bool)) (hne : mapping ≠ []) (hk : ∀ k ∈ mapping, k.1 ∈ t.map (·.1))
    (hr : ∀ k ∈ mapping, ∃ look r, rk k.2 ((List.range n).map fun i => cell nul t k.1 i) = .ok look ∧ (∀ i < n, look (cell nul t k.1 i) = some (r (cell nul t k.1 i))) ∧
      RankBy same (lt k) ((List.range n).map fun i => cell nul t k.1 i) r) :
    ∃ idx, sortIndex rk t mapping = .ok idx ∧ idx.Perm (List.range n) ∧ idx.Pairwise (fun i j => InOrderBy same lt nul t i j mapping) := by
  classical
  let look : ν × Bool → α → Option Nat := fun k => if h : k ∈ mapping then (hr k h).choose else fun _ => none
  let r : ν × Bool → α → Nat := fun k => if h : k ∈ mapping then (hr k h).choose_spec.choose else fun _ => 0
  have hlook : ∀ k ∈ mapping, rk k.2 ((List.range n).map fun i => cell nul t k.1 i) = .ok (look k) ∧
      (∀ i < n, look k (cell nul t k.1 i) = some (r k (cell nul t k.1 i))) ∧ RankBy same (lt k) ((List.range n).map fun i => cell nul t k.1 i) (r k) := by
    intro k h
    have := (hr k h).choose_spec.choose_spec
    simp only [look, r, h, dif_pos]
    exact this
  have hlen : tblLen t = n := by
    cases mapping with
    | nil => exact absurd rfl hne
    | cons k _ =>
      have h1 := hk k (by simp)
      obtain ⟨c, hc, _⟩ := List.mem_map.1 h1
      exact tblLen_rect t n hrect (by rintro rfl; simp at hc)
  have hrows := rankRows_ok nul rk t n hrect r mapping hk (fun k h => ⟨look k, (hlook k h).1, (hlook k h).2.1⟩) (fun _ => [])
  have hs := sorted_rows n (fun i => mapping.map fun k => r k (cell nul t k.1 i))
  dsimp only at hs
  refine ⟨_, ?_, hs.1, ?_⟩
  · unfold sortIndex
    rw [if_neg hne, if_neg (by simpa using hk), hlen, replicate_range, hrows]
    simp only [bind, Except.bind, List.nil_append]
  · have hnd : (((((List.range n).map fun i => mapping.map fun k => r k (cell nul t k.1 i)).zipIdx.insertionSort (fun x y => entryLe x y = true)).map (·.2))).Nodup :=
      hs.1.nodup_iff.2 List.nodup_range
    have hboth := hs.2.1.and hnd
    refine hboth.imp_of_mem ?_
    intro i j hi hj hij
    have hi' := List.mem_range.1 (hs.1.subset hi)
    have hj' := List.mem_range.1 (hs.1.subset hj)
    exact inOrderBy_of_entryLe same lt nul t n r mapping (fun k h => (hlook k h).2.2) i j hi' hj' hij.2 hij.1

end

section
variable {κ : Type} (eq : κ → κ → Bool) (hrefl : ∀ a, eq a a = true) (hsymm : ∀ a b, eq a b = true → eq b a = true) (htrans : ∀ a b c, eq a b = true → eq b c = true → eq a c = true)
include hrefl hsymm htrans

/-- the rank of a value is the position of the last equal element -/
theorem rankDict_last (v : κ) (L : List κ) (r : Nat) (h : eqGet eq v (rankDict eq L) = some r) (y : Nat) (w : κ) (hy : L[y]? = some w) (hw : eq w v = true) : y ≤ r := by
  induction L using List.reverseRecOn with
  | nil => simp at hy
  | append_singleton L x ih =>
    rw [eqGet_append eq hrefl hsymm htrans] at h
    have hyl : y < (L ++ [x]).length := (List.getElem?_eq_some_iff.1 hy).1
    rw [List.length_append, List.length_singleton] at hyl
    split at h
    · obtain rfl := Option.some.inj h
      omega
    · next hx =>
      rcases Nat.lt_or_ge y L.length with h1 | h1
      · rw [List.getElem?_append_left h1] at hy
        exact ih h hy
      · have : y = L.length := by omega
        subst this
        simp at hy
        subst hy
        exact absurd hw hx

end

section
variable {K : Type} [LinearOrder K] {ν : Type} [DecidableEq ν]

/-- Spec: what a value is sorted as.  Ascending, a number is sorted as the bool of the column which it equals, if there is one; descending, a bool as the number which it equals. -/
def placed (rev : Bool) (vals : List SVal) (v : SVal) : SVal := (vals.find? fun w => w.pyEq v && decide (xgroup w = if rev then 1 else 3)).getD v

/-- Spec: the order of the values of a column as `excel_sort` has it -/
def excelBefore (key : String → K) (rev : Bool) (vals : List SVal) (a b : SVal) : Bool :=
  if rev then excelLt key (placed rev vals b) (placed rev vals a) else excelLt key (placed rev vals a) (placed rev vals b)

theorem pyEq_group {a b : SVal} (h : a.pyEq b = true) : xgroup a = xgroup b ∨ (xgroup a = 1 ∧ xgroup b = 3) ∨ (xgroup a = 3 ∧ xgroup b = 1) := by
  cases a <;> cases b <;> simp [SVal.pyEq, xgroup] at *

theorem placed_pyEq (rev : Bool) (vals : List SVal) (v : SVal) : (placed rev vals v).pyEq v = true := by
  unfold placed
  cases h : vals.find? fun w => w.pyEq v && decide (xgroup w = if rev then 1 else 3) with
  | none => exact pyEq_refl v
  | some w =>
    have := List.find?_some h
    rw [Bool.and_eq_true] at this
    exact this.1

/-- the last element of the sorted list equal to `v` is of the kind `v` is sorted as -/
theorem placed_same (key : String → K) (rev : Bool) (vals L : List SVal) (hL : ∀ v, v ∈ L ↔ v ∈ vals) (hp : L.Pairwise fun a b => (if rev then excelLt key a b else excelLt key b a) = false)
    (v v' : SVal) (hv : v ∈ vals) (x : Nat) (hx : eqGet SVal.pyEq v (rankDict SVal.pyEq L) = some x) (hv' : L[x]? = some v') (he : v'.pyEq v = true) : v'.same (placed rev vals v) = true := by
  have h2 := pyEq_trans _ _ _ he (pyEq_symm _ _ (placed_pyEq rev vals v))
  unfold SVal.same
  rw [h2, Bool.and_true, decide_eq_true_eq]
  have m' : v' ∈ vals := (hL _).1 (List.mem_of_getElem? hv')
  unfold placed at h2 ⊢
  cases h : vals.find? fun w => w.pyEq v && decide (xgroup w = if rev then 1 else 3) with
  | none =>
    rw [Option.getD_none]
    rw [List.find?_eq_none] at h
    have g1 := h v' m'
    have g2 := h v hv
    rw [he] at g1
    rw [pyEq_refl] at g2
    simp only [Bool.true_and, decide_eq_true_eq] at g1 g2
    rcases pyEq_group he with e | ⟨e1, e2⟩ | ⟨e1, e2⟩
    · exact e
    · cases rev <;> simp_all
    · cases rev <;> simp_all
  | some w =>
    rw [h, Option.getD_some] at h2
    rw [Option.getD_some]
    have g := List.find?_some h
    rw [Bool.and_eq_true, decide_eq_true_eq] at g
    have mw : w ∈ L := (hL _).2 (List.mem_of_find?_eq_some h)
    obtain ⟨y, hy, hyw⟩ := List.getElem_of_mem mw
    have hy' : L[y]? = some w := by rw [List.getElem?_eq_getElem hy, hyw]
    have hle := rankDict_last SVal.pyEq pyEq_refl pyEq_symm pyEq_trans v L x hx y w hy' g.1
    rcases Nat.lt_or_eq_of_le hle with hlt | rfl
    · obtain ⟨hxl, hxe⟩ := List.getElem?_eq_some_iff.1 hv'
      have := List.pairwise_iff_getElem.1 hp y x hy hxl hlt
      rw [hyw, hxe] at this
      have hg := pyEq_group h2
      cases rev
      · simp only [Bool.false_eq_true, if_false] at this g
        unfold excelLt at this
        rw [Bool.or_eq_false_iff, decide_eq_false_iff_not] at this
        omega
      · simp only [if_true] at this g
        unfold excelLt at this
        rw [Bool.or_eq_false_iff, decide_eq_false_iff_not] at this
        omega
    · rw [hy'] at hv'
      rw [Option.some.inj hv']

theorem excelRank_by (key : String → K) (ord : List SVal → List SVal) (hord : ∀ l v, v ∈ ord l ↔ v ∈ l) (rev : Bool) (vals : List SVal)
    (hc : ∀ a ∈ vals, ∀ b ∈ vals, numClash a b = false) :
    ∃ look r, excelRank key ord rev vals = .ok look ∧ (∀ v ∈ vals, look v = some (r v)) ∧ RankBy SVal.pyEq (excelBefore key rev vals) vals r := by
  obtain ⟨L, hL1, hL2, hL3⟩ := excelList_ok key rev (ord vals) (fun a ha b hb => hc a ((hord _ _).1 ha) b ((hord _ _).1 hb))
  have hmem : ∀ v, v ∈ L ↔ v ∈ vals := fun v => (hL2 v).trans (hord _ _)
  refine ⟨fun v => eqGet SVal.pyEq v (rankDict SVal.pyEq L), fun v => (eqGet SVal.pyEq v (rankDict SVal.pyEq L)).getD 0, ?_, ?_, ?_⟩
  · unfold excelRank
    rw [hL1]
    rfl
  · intro v hv
    obtain ⟨x, hx⟩ := Option.isSome_iff_exists.1 (rankDict_isSome SVal.pyEq pyEq_refl pyEq_symm pyEq_trans v L ((hmem v).2 hv))
    simp only [hx, Option.getD_some]
  · intro v hv w hw
    obtain ⟨x, hx⟩ := Option.isSome_iff_exists.1 (rankDict_isSome SVal.pyEq pyEq_refl pyEq_symm pyEq_trans v L ((hmem v).2 hv))
    obtain ⟨y, hy⟩ := Option.isSome_iff_exists.1 (rankDict_isSome SVal.pyEq pyEq_refl pyEq_symm pyEq_trans w L ((hmem w).2 hw))
    obtain ⟨v', hv1, hv2⟩ := rankDict_pos SVal.pyEq pyEq_refl pyEq_symm pyEq_trans v L x hx
    obtain ⟨w', hw1, hw2⟩ := rankDict_pos SVal.pyEq pyEq_refl pyEq_symm pyEq_trans w L y hy
    simp only [hx, hy, Option.getD_some]
    refine ⟨⟨?_, ?_⟩, ?_⟩
    · rintro rfl
      rw [hv1] at hw1
      obtain rfl := Option.some.inj hw1
      exact pyEq_trans _ _ _ (pyEq_symm _ _ hv2) hw2
    · intro h
      have := rankDict_congr SVal.pyEq pyEq_refl pyEq_symm pyEq_trans v w L h
      rw [hx, hy] at this
      exact Option.some.inj this
    · intro h
      obtain ⟨hxl, hx'⟩ := List.getElem?_eq_some_iff.1 hv1
      obtain ⟨hyl, hy'⟩ := List.getElem?_eq_some_iff.1 hw1
      have hp := List.pairwise_iff_getElem.1 hL3 x y hxl hyl h
      rw [hx', hy'] at hp
      have s1 := placed_same key rev vals L hmem hL3 v v' hv x hx hv1 hv2
      have s2 := placed_same key rev vals L hmem hL3 w w' hw y hy hw1 hw2
      unfold excelBefore
      cases rev
      · simp only [Bool.false_eq_true, if_false] at hp ⊢
        rw [excelLt_congr key _ _ _ _ s2 s1]
        exact hp
      · simp only [if_true] at hp ⊢
        rw [excelLt_congr key _ _ _ _ s1 s2]
        exact hp

/-- the values of a column -/
def colVals (t : Tbl ν SVal) (n : Nat) (a : ν) : List SVal := (List.range n).map fun i => cell .none t a i

/-- **C32** (Excel order, effect): the order of the rows of a sorted table for all columns that can be sorted.  Where a number equals a bool in the same column both count as equal; they stand among the bools if the column is
sorted ascending, among the numbers if it is sorted descending; all else is as documented. -/
theorem C32_excel_effect (key : String → K) (ord : List SVal → List SVal) (hord : ∀ l v, v ∈ ord l ↔ v ∈ l) (ps : Nat) (hps : 0 < ps) (t : Tbl ν SVal)
    (n : Nat) (hrect : Rect t n) (mapping : List (ν × Bool)) (hne : mapping ≠ []) (hk : ∀ k ∈ mapping, k.1 ∈ t.map (·.1))
    (hc : ∀ k ∈ mapping, ∀ i < n, ∀ j < n, numClash (cell .none t k.1 i) (cell .none t k.1 j) = false) :
    ∃ idx t', tblSort (excelRank key ord) ps .none t mapping = .ok t' ∧ idx.Perm (List.range n) ∧ tview t' = rowsOf .none t idx ∧
      idx.Pairwise fun i j => InOrderBy SVal.pyEq (fun k => excelBefore key k.2 (colVals t n k.1)) .none t i j mapping := by
  obtain ⟨idx, h1, h2, h3⟩ := sortIndex_by SVal.pyEq (fun k => excelBefore key k.2 (colVals t n k.1)) .none (excelRank key ord) t n hrect mapping hne hk (by
    intro k hk'
    obtain ⟨look, r, e1, e2, e3⟩ := excelRank_by key ord hord k.2 (colVals t n k.1) (by
        intro a ha b hb
        obtain ⟨i, hi, rfl⟩ := List.mem_map.1 ha
        obtain ⟨j, hj, rfl⟩ := List.mem_map.1 hb
        exact hc k hk' i (List.mem_range.1 hi) j (List.mem_range.1 hj))
    exact ⟨look, r, e1, fun i hi => e2 _ (List.mem_map.2 ⟨i, List.mem_range.2 hi, rfl⟩), e3⟩)
  obtain ⟨t', h4, h5⟩ := tblSort_view ps hps .none (excelRank key ord) t n hrect mapping idx h1 (fun i hi => List.mem_range.1 (h2.subset hi))
  exact ⟨idx, t', h4, h2, h5, h3⟩

/-- sorting ends only if every key column has ranks -/
theorem rankRows_ranked (rk : Bool → List SVal → Except Err (SVal → Option Nat)) (t : Tbl ν SVal) (mapping : List (ν × Bool)) (acc r : List (List Nat)) (h : rankRows rk t mapping acc = .ok r) (k : ν × Bool) (hk : k ∈ mapping)
    (p : List (List SVal)) (hp : dGet k.1 t = some p) : ∃ look, rk k.2 (colIter p) = .ok look := by
  induction mapping generalizing acc with
  | nil => cases hk
  | cons a rest ih =>
    obtain ⟨key, rev⟩ := a
    unfold rankRows at h
    split at h
    · cases h
    · next q hq =>
      obtain ⟨look, h1, h⟩ := ebind_ok h
      obtain ⟨rs, h2, h⟩ := ebind_ok h
      rcases List.mem_cons.1 hk with rfl | hk
      · rw [hq] at hp
        cases hp
        exact ⟨look, h1⟩
      · exact ih _ h hk

/-- **C32** (Excel order, exactly when it ends): a table can be sorted exactly if no key column has two values of types without an order between them and with the same sort value, such as a time and a number. -/
theorem C32_excel_exact (key : String → K) (ord : List SVal → List SVal) (hord : ∀ l v, v ∈ ord l ↔ v ∈ l) (ps : Nat) (hps : 0 < ps) (t : Tbl ν SVal)
    (n : Nat) (hrect : Rect t n) (mapping : List (ν × Bool)) (hne : mapping ≠ []) (hk : ∀ k ∈ mapping, k.1 ∈ t.map (·.1)) :
    (∃ t', tblSort (excelRank key ord) ps .none t mapping = .ok t') ↔ ∀ k ∈ mapping, ∀ i < n, ∀ j < n, numClash (cell .none t k.1 i) (cell .none t k.1 j) = false := by
  constructor
  · rintro ⟨t', h⟩ k hk' i hi j hj
    unfold tblSort at h
    obtain ⟨idx, h1, -⟩ := ebind_ok h
    unfold sortIndex at h1
    rw [if_neg hne, if_neg (by simpa using hk)] at h1
    obtain ⟨ranks, h2, -⟩ := ebind_ok h1
    obtain ⟨p, hp⟩ := Option.isSome_iff_exists.1 ((dGet_isSome k.1 t).2 (hk k hk'))
    obtain ⟨look, h3⟩ := rankRows_ranked _ t mapping _ ranks h2 k hk' p hp
    unfold excelRank at h3
    obtain ⟨L, h4, -⟩ := ebind_ok h3
    unfold excelList at h4
    split at h4
    · cases h4
    · next hany =>
      have hlen : (colIter p).length = n := by
        have := hrect.len_of_get k.1 (hk k hk')
        rw [hp] at this
        rw [colIter_eq, ← colLen_eq]
        exact this
      have hm : ∀ i < n, cell .none t k.1 i ∈ ord (colIter p) := by
        intro i hi
        rw [hord]
        unfold cell
        rw [hp]
        simp only [Option.elim_some]
        rw [List.getD_eq_getElem?_getD, List.getElem?_eq_getElem (by omega), Option.getD_some]
        exact List.getElem_mem _
      cases hcl : numClash (cell .none t k.1 i) (cell .none t k.1 j)
      · rfl
      · exfalso
        apply hany
        rw [List.any_eq_true]
        exact ⟨_, hm i hi, List.any_eq_true.2 ⟨_, hm j hj, hcl⟩⟩
  · intro hc
    obtain ⟨_, t', h, -⟩ := C32_excel_effect key ord hord ps hps t n hrect mapping hne hk hc
    exact ⟨t', h⟩

/-- a time of no seconds and the number 0 cannot be sorted, a time and the text can -/
example : numClash (.num .time 0 0) (.i 0) = true ∧ numClash (.num .time 0 0) (.str "0") = false := by decide +kernel

/-- Spec: the order of the values of a column as `unix_sort` has it: descending, texts still stand after all other values -/
def unixBefore (key : String → K) (rev : Bool) (a b : SVal) : Bool :=
  if rev then (if a.isStr = b.isStr then unixLt key b a else b.isStr) else unixLt key a b

theorem unixRank_by (key : String → K) (ord : List SVal → List SVal) (hord : ∀ l v, v ∈ ord l ↔ v ∈ l) (rev : Bool) (vals : List SVal) :
    ∃ look r, unixRank key ord rev vals = .ok look ∧ (∀ v ∈ vals, look v = some (r v)) ∧ RankBy (fun a b => decide (a = b)) (unixBefore key rev) vals r := by
  cases rev with
  | false =>
    obtain ⟨look, r, h1, h2, h3⟩ := unixRank_ok key ord hord false vals (by simp)
    refine ⟨look, r, h1, h2, fun v hv w hw => ⟨(h3 v hv w hw).1, fun h => ?_⟩⟩
    have := (h3 v hv w hw).2 h
    simpa [unixBefore] using this
  | true =>
    have hn := sublist_order key unixLe (fun v => !v.isStr) true (ord vals) unixLe_total unixLe_trans (unixLt key) (unixLt_num key)
    have hs := sublist_order key (strLe key) SVal.isStr true (ord vals) (strLe_total key) (strLe_trans key) (unixLt key) (unixLt_str key)
    obtain ⟨r, hr1, hr2⟩ := rankDict_ok (fun a b : SVal => decide (a = b)) (by simp) (by intro a b h; simpa using (of_decide_eq_true h).symm)
      (by intro a b c h1 h2; simpa using (of_decide_eq_true h1).trans (of_decide_eq_true h2)) (unixBefore key true) false
      (pySort unixLe true ((ord vals).filter fun v => !v.isStr) ++ pySort (strLe key) true ((ord vals).filter SVal.isStr)) vals
      (by
        intro v hv
        rw [List.mem_append, pySort_mem, pySort_mem, List.mem_filter, List.mem_filter]
        have := (hord vals v).2 hv
        cases v.isStr <;> simp [this])
      (by
        simp only [Bool.false_eq_true, if_false]
        rw [List.pairwise_append]
        refine ⟨hn.imp_of_mem ?_, hs.imp_of_mem ?_, ?_⟩
        · intro a b ha hb h
          rw [pySort_mem, List.mem_filter] at ha hb
          simp only [if_true] at h
          have e : b.isStr = a.isStr := by rw [Bool.not_eq_true'] at *; simp_all
          unfold unixBefore
          rw [if_pos rfl, if_pos e]
          exact h
        · intro a b ha hb h
          rw [pySort_mem, List.mem_filter] at ha hb
          simp only [if_true] at h
          unfold unixBefore
          rw [if_pos rfl, if_pos (hb.2.trans ha.2.symm)]
          exact h
        · intro a ha b hb
          rw [pySort_mem, List.mem_filter] at ha hb
          have ha2 : a.isStr = false := by simpa using ha.2
          unfold unixBefore
          rw [if_pos rfl, if_neg (by rw [hb.2, ha2]; simp), ha2])
      (by intro v _ w _ v' _ w' _ e1 e2; rw [of_decide_eq_true e1, of_decide_eq_true e2])
    refine ⟨_, r, rfl, hr1, fun v hv w hw => ⟨(hr2 v hv w hw).1, fun h => ?_⟩⟩
    have := (hr2 v hv w hw).2 h
    simpa using this

/-- **C32** (Unix order, effect): the order of the rows of a sorted table for all columns: as documented, but in a column sorted in descending order the texts, themselves in descending order, stand after all other values. -/
theorem C32_unix_effect (key : String → K) (ord : List SVal → List SVal) (hord : ∀ l v, v ∈ ord l ↔ v ∈ l) (ps : Nat) (hps : 0 < ps) (t : Tbl ν SVal)
    (n : Nat) (hrect : Rect t n) (mapping : List (ν × Bool)) (hne : mapping ≠ []) (hk : ∀ k ∈ mapping, k.1 ∈ t.map (·.1)) :
    ∃ idx t', tblSort (unixRank key ord) ps .none t mapping = .ok t' ∧ idx.Perm (List.range n) ∧ tview t' = rowsOf .none t idx ∧
      idx.Pairwise fun i j => InOrderBy (fun a b => decide (a = b)) (fun k => unixBefore key k.2) .none t i j mapping := by
  obtain ⟨idx, h1, h2, h3⟩ := sortIndex_by (fun a b => decide (a = b)) (fun k => unixBefore key k.2) .none (unixRank key ord) t n hrect mapping hne hk (by
    intro k hk'
    obtain ⟨look, r, e1, e2, e3⟩ := unixRank_by key ord hord k.2 ((List.range n).map fun i => cell .none t k.1 i)
    exact ⟨look, r, e1, fun i hi => e2 _ (List.mem_map.2 ⟨i, List.mem_range.2 hi, rfl⟩), e3⟩)
  obtain ⟨t', h4, h5⟩ := tblSort_view ps hps .none (unixRank key ord) t n hrect mapping idx h1 (fun i hi => List.mem_range.1 (h2.subset hi))
  exact ⟨idx, t', h4, h2, h5, h3⟩

/-- 1, 2 and True: ascending, 1 stands with True after 2; descending, True stands with 1 after 2 -/
example : placed false [.i 1, .i 2, .bool true] (.i 1) = .bool true ∧ placed true [.i 1, .i 2, .bool true] (.bool true) = .i 1 ∧ placed false [.i 1, .i 2, .bool true] (.i 2) = .i 2 := by decide +kernel

end

end Tablite
