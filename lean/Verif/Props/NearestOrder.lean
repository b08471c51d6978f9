import Verif.Model.NearestSort
import Verif.Props.NearestRow
import Mathlib.Algebra.Order.BigOperators.Group.List
import Mathlib.Tactic.Linarith

/-!
# C143 with the order the code uses: what nearest means
-/

namespace Tablite

/-- Spec: `a` comes before `b`: None, then False and True, numbers, times, dates, datetimes, each by their size, and texts in alphabetical order at the end -/
def GVal.before (a b : GVal) : Prop :=
  match a, b with
  | .str s, .str r => s < r
  | .str _, _ => False
  | _, .str _ => True
  | a, b => a.parity < b.parity ∨ (a.parity = b.parity ∧ a.toFloat < b.toFloat)

theorem nnSort_perm (l : List GVal) : (nnSort l).Perm l := by
  unfold nnSort
  have h1 := List.perm_insertionSort (fun a b => nonTextLe a b = true) (l.filter fun v => !v.isStr)
  have h2 := List.perm_insertionSort (fun a b => textLe a b = true) (l.filter fun v => v.isStr)
  refine (h1.append h2).trans ?_
  have := List.filter_append_perm (fun v : GVal => !v.isStr) l
  simpa using this

/-- the key of a value that is no text -/
theorem before_nonText {a b : GVal} (ha : a.isStr = false) (hb : b.isStr = false) : GVal.before a b ↔ (a.parity < b.parity ∨ (a.parity = b.parity ∧ a.toFloat < b.toFloat)) := by
  cases a <;> cases b <;> simp_all [GVal.before, GVal.isStr]

theorem before_text {a b : GVal} (ha : a.isStr = true) (hb : b.isStr = true) : GVal.before a b ↔ a.text < b.text := by
  cases a <;> cases b <;> simp_all [GVal.before, GVal.isStr, GVal.text]

theorem before_mixed {a b : GVal} (ha : a.isStr = false) (hb : b.isStr = true) : GVal.before a b := by
  cases a <;> cases b <;> simp_all [GVal.before, GVal.isStr]

theorem not_before_mixed {a b : GVal} (ha : a.isStr = true) (hb : b.isStr = false) : ¬ GVal.before a b := by
  cases a <;> cases b <;> simp_all [GVal.before, GVal.isStr]

theorem before_asymm {a b : GVal} (h : GVal.before a b) : ¬ GVal.before b a := by
  cases ha : a.isStr <;> cases hb : b.isStr
  · rw [before_nonText ha hb] at h
    rw [before_nonText hb ha]
    rintro (h' | ⟨h', h''⟩)
    · rcases h with h | ⟨h, _⟩ <;> omega
    · rcases h with h | ⟨_, h⟩
      · omega
      · exact absurd h (not_lt.2 h''.le)
  · exact not_before_mixed hb ha
  · exact absurd h (not_before_mixed ha hb)
  · rw [before_text ha hb] at h
    rw [before_text hb ha]
    exact not_lt.2 h.le

theorem before_trans {a b c : GVal} (h : GVal.before a b) (h' : GVal.before b c) : GVal.before a c := by
  cases ha : a.isStr <;> cases hb : b.isStr <;> cases hc : c.isStr
  · rw [before_nonText ha hb] at h
    rw [before_nonText hb hc] at h'
    rw [before_nonText ha hc]
    rcases h with h | ⟨h1, h2⟩ <;> rcases h' with h' | ⟨h3, h4⟩
    · left; omega
    · left; omega
    · left; omega
    · right; exact ⟨h1.trans h3, h2.trans h4⟩
  · exact before_mixed ha hc
  · exact absurd h' (not_before_mixed hb hc)
  · exact before_mixed ha hc
  · exact absurd h (not_before_mixed ha hb)
  · exact absurd h (not_before_mixed ha hb)
  · exact absurd h' (not_before_mixed hb hc)
  · rw [before_text ha hb] at h
    rw [before_text hb hc] at h'
    rw [before_text ha hc]
    exact h.trans h'

/-- Spec: different values of the list are in order one way or the other: no int and float of the same number -/
def NoTies (l : List GVal) : Prop := ∀ a ∈ l, ∀ b ∈ l, a ≠ b → GVal.before a b ∨ GVal.before b a

theorem tie_cases {a b : GVal} (hp : a.parity = b.parity) (hf : a.toFloat = b.toFloat) (ht : a.text = b.text) :
    a = b ∨ (∃ n q, a = .int n ∧ b = .float q) ∨ ∃ n q, a = .float q ∧ b = .int n := by
  cases a <;> cases b <;> first | (exfalso; revert hp; simp only [GVal.parity]; decide) | skip
  · exact .inl rfl
  · rename_i x y
    left
    revert hf
    cases x <;> cases y <;> simp [GVal.toFloat]
  · rename_i x y
    left
    have : x = y := by simpa [GVal.toFloat] using hf
    rw [this]
  · rename_i x y
    exact .inr (.inl ⟨x, y, rfl, rfl⟩)
  · rename_i x y
    exact .inr (.inr ⟨y, x, rfl, rfl⟩)
  · left; exact congrArg GVal.float hf
  · left; exact congrArg GVal.str ht
  · left; exact congrArg GVal.time hf
  · left; exact congrArg GVal.date hf
  · left; exact congrArg GVal.datetime hf

theorem text_nonText {a : GVal} (h : a.isStr = false) : a.text = "" := by
  cases a <;> first | rfl | cases h

theorem parity_text {a : GVal} (h : a.isStr = true) : a.parity = 6 ∧ a.toFloat = 0 := by
  cases a <;> first | exact ⟨rfl, rfl⟩ | cases h

/-- the only values that tie are an int and a float -/
theorem noTies_of (l : List GVal) (h : (∀ v ∈ l, ∀ n, v ≠ .int n) ∨ ∀ v ∈ l, ∀ q, v ≠ .float q) : NoTies l := by
  intro a ha b hb hne
  by_contra hc
  rw [not_or] at hc
  have key : a.parity = b.parity ∧ a.toFloat = b.toFloat ∧ a.text = b.text := by
    cases h1 : a.isStr <;> cases h2 : b.isStr
    · rw [before_nonText h1 h2, before_nonText h2 h1] at hc
      rw [text_nonText h1, text_nonText h2]
      have hp : a.parity = b.parity := by omega
      refine ⟨hp, ?_, rfl⟩
      by_contra hf
      rcases lt_or_gt_of_ne hf with g | g
      · exact hc.1 (.inr ⟨hp, g⟩)
      · exact hc.2 (.inr ⟨hp.symm, g⟩)
    · exact absurd (before_mixed h1 h2) hc.1
    · exact absurd (before_mixed h2 h1) hc.2
    · rw [before_text h1 h2, before_text h2 h1] at hc
      obtain ⟨p1, p2⟩ := parity_text h1
      obtain ⟨q1, q2⟩ := parity_text h2
      refine ⟨by rw [p1, q1], by rw [p2, q2], ?_⟩
      by_contra hf
      rcases lt_or_gt_of_ne hf with g | g
      · exact hc.1 g
      · exact hc.2 g
  rcases tie_cases key.1 key.2.1 key.2.2 with e | ⟨n, q, e1, e2⟩ | ⟨n, q, e1, e2⟩
  · exact hne e
  · rcases h with h | h
    · exact h a ha n e1
    · exact h b hb q e2
  · rcases h with h | h
    · exact h b hb n e2
    · exact h a ha q e1

theorem nnSort_sorted (l : List GVal) (hn : l.Nodup) (ht : NoTies l) : (nnSort l).Pairwise GVal.before := by
  have hnd : (nnSort l).Nodup := (nnSort_perm l).nodup_iff.2 hn
  have hmem : ∀ {v}, v ∈ nnSort l → v ∈ l := fun h => (nnSort_perm l).mem_iff.1 h
  have hle : (nnSort l).Pairwise fun a b => ¬ GVal.before b a := by
    unfold nnSort
    rw [List.pairwise_append]
    have i1 : Std.Total fun a b : GVal => nonTextLe a b = true := ⟨fun a b => by
      simp only [nonTextLe, Bool.or_eq_true, Bool.and_eq_true, decide_eq_true_eq]
      rcases lt_trichotomy a.parity b.parity with h | h | h
      · exact .inl (.inl h)
      · rcases le_total a.toFloat b.toFloat with g | g
        · exact .inl (.inr ⟨h, g⟩)
        · exact .inr (.inr ⟨h.symm, g⟩)
      · exact .inr (.inl h)⟩
    have i2 : IsTrans GVal fun a b => nonTextLe a b = true := ⟨fun a b c => by
      simp only [nonTextLe, Bool.or_eq_true, Bool.and_eq_true, decide_eq_true_eq]
      rintro (h | ⟨h, h2⟩) (h' | ⟨h', h2'⟩)
      · left; omega
      · left; omega
      · left; omega
      · right; exact ⟨h.trans h', h2.trans h2'⟩⟩
    have i3 : Std.Total fun a b : GVal => textLe a b = true := ⟨fun a b => by
      simp only [textLe, decide_eq_true_eq]
      exact le_total _ _⟩
    have i4 : IsTrans GVal fun a b => textLe a b = true := ⟨fun a b c => by
      simp only [textLe, decide_eq_true_eq]
      exact le_trans⟩
    refine ⟨?_, ?_, ?_⟩
    · refine List.Pairwise.imp_of_mem ?_ (List.pairwise_insertionSort (fun a b => nonTextLe a b = true) (l.filter fun v => !v.isStr))
      intro a b ha hb h
      rw [List.mem_insertionSort, List.mem_filter] at ha hb
      rw [before_nonText (by simpa using hb.2) (by simpa using ha.2)]
      simp only [nonTextLe, Bool.or_eq_true, Bool.and_eq_true, decide_eq_true_eq] at h
      rintro (g | ⟨g, g2⟩)
      · rcases h with h | ⟨h, _⟩ <;> omega
      · rcases h with h | ⟨_, h⟩
        · omega
        · exact absurd g2 (not_lt.2 h)
    · refine List.Pairwise.imp_of_mem ?_ (List.pairwise_insertionSort (fun a b => textLe a b = true) (l.filter fun v => v.isStr))
      intro a b ha hb h
      rw [List.mem_insertionSort, List.mem_filter] at ha hb
      rw [before_text hb.2 ha.2]
      simp only [textLe, decide_eq_true_eq] at h
      exact not_lt.2 h
    · intro a ha b hb
      rw [List.mem_insertionSort, List.mem_filter] at ha hb
      exact not_before_mixed hb.2 (by simpa using ha.2)
  refine (hle.and hnd).imp_of_mem ?_
  rintro a b ha hb ⟨h1, h2⟩
  exact (ht a (hmem ha) b (hmem hb) h2).resolve_right h1

open Classical in
/-- the place of a value in a list in order is the number of values before it -/
theorem idxOf_count (l : List GVal) (hl : l.Pairwise GVal.before) (v : GVal) (hv : v ∈ l) : l.idxOf v = l.countP fun w => decide (GVal.before w v) := by
  induction l with
  | nil => cases hv
  | cons x l ih =>
    rw [List.pairwise_cons] at hl
    by_cases e : x = v
    · subst e
      rw [List.idxOf_cons_self, List.countP_cons_of_neg (by simpa using fun h => before_asymm h h)]
      symm
      rw [List.countP_eq_zero]
      intro w hw
      simpa using before_asymm (hl.1 w hw)
    · have hv' : v ∈ l := (List.mem_cons.1 hv).resolve_left fun h => e h.symm
      rw [List.idxOf_cons_ne _ e, ih hl.2 hv', List.countP_cons_of_pos (by simpa using hl.1 v hv')]

open Classical in
/-- **C143** (ranks).  The rank of a value is the number of different values of the column that come before it, divided by the number of different values
that are not missing -/
theorem C143_rank (missing col : List GVal) (ht : NoTies col) (v : GVal) (hv : v ∈ col) :
    normRank nnSort missing col v = (((firstOccs col).countP fun w => decide (GVal.before w v) : Nat) : Rat) / (((firstOccs col).filter fun w => w ∉ missing).length : Rat) := by
  unfold normRank
  have hn := nodup_firstOccs col
  have ht' : NoTies (firstOccs col) := fun a ha b hb => ht a (mem_firstOccs.1 ha) b (mem_firstOccs.1 hb)
  rw [idxOf_count _ (nnSort_sorted _ hn ht') v ((nnSort_perm _).mem_iff.2 (mem_firstOccs.2 hv)), (nnSort_perm _).countP_eq]

theorem pos_known (missing col : List GVal) (v : GVal) (hv : v ∈ col) (hm : v ∉ missing) : (0 : Rat) < (((firstOccs col).filter fun w => w ∉ missing).length : Rat) := by
  have : 0 < ((firstOccs col).filter fun w => w ∉ missing).length := List.length_pos_of_mem (List.mem_filter.2 ⟨mem_firstOccs.2 hv, by simpa using hm⟩)
  exact_mod_cast this

/-- a value that comes before another one has a smaller rank -/
theorem normRank_lt (missing col : List GVal) (ht : NoTies col) (v w : GVal) (hv : v ∈ col) (hw : w ∈ col) (hm : v ∉ missing) (h : GVal.before v w) :
    normRank nnSort missing col v < normRank nnSort missing col w := by
  classical
  rw [C143_rank missing col ht v hv, C143_rank missing col ht w hw]
  refine div_lt_div_of_pos_right ?_ (pos_known missing col v hv hm)
  have : (firstOccs col).countP (fun u => decide (GVal.before u v)) < (firstOccs col).countP fun u => decide (GVal.before u w) := by
    rw [List.countP_eq_length_filter, List.countP_eq_length_filter]
    have hsub : ((firstOccs col).filter fun u => decide (GVal.before u v)) = ((firstOccs col).filter fun u => decide (GVal.before u w)).filter fun u => decide (GVal.before u v) := by
      rw [List.filter_filter]
      apply List.filter_congr
      intro u _
      by_cases hu : GVal.before u v
      · simp [hu, before_trans hu h]
      · simp [hu]
    rw [hsub]
    refine List.length_filter_lt_length_iff_exists.2 ⟨v, List.mem_filter.2 ⟨mem_firstOccs.2 hv, by simpa using h⟩, by simpa using fun g => before_asymm g g⟩
  exact_mod_cast this

/-- Spec: `y` lies between `x` and `z` or is one of them -/
def GVal.between (x y z : GVal) : Prop := y = x ∨ y = z ∨ (GVal.before x y ∧ GVal.before y z) ∨ (GVal.before z y ∧ GVal.before y x)

/-- a value between two others is not farther from either, and nearer if it is another value -/
theorem rank_between (missing col : List GVal) (ht : NoTies col) (x y z : GVal) (hx : x ∈ col) (hy : y ∈ col) (hz : z ∈ col) (hm : ∀ v ∈ col, v ∉ missing) (h : GVal.between x y z) :
    |normRank nnSort missing col x - normRank nnSort missing col y| ≤ |normRank nnSort missing col x - normRank nnSort missing col z| ∧
      (y ≠ z → |normRank nnSort missing col x - normRank nnSort missing col y| < |normRank nnSort missing col x - normRank nnSort missing col z|) := by
  have lt := fun v w hv hw => normRank_lt missing col ht v w hv hw (hm v hv)
  rcases h with rfl | rfl | ⟨h1, h2⟩ | ⟨h1, h2⟩
  · rw [sub_self, abs_zero]
    refine ⟨abs_nonneg _, fun hne => abs_pos.2 (sub_ne_zero.2 ?_)⟩
    rcases ht y hy z hz hne with g | g
    · exact (lt y z hy hz g).ne
    · exact (lt z y hz hy g).ne'
  · exact ⟨le_rfl, fun hne => absurd rfl hne⟩
  · have a1 := lt x y hx hy h1
    have a2 := lt y z hy hz h2
    rw [abs_of_neg (sub_neg.2 a1), abs_of_neg (sub_neg.2 (a1.trans a2))]
    exact ⟨by linarith, fun _ => by linarith⟩
  · have a1 := lt z y hz hy h1
    have a2 := lt y x hy hx h2
    rw [abs_of_pos (sub_pos.2 a2), abs_of_pos (sub_pos.2 (a1.trans a2))]
    exact ⟨by linarith, fun _ => by linarith⟩

section
variable {ν : Type} [DecidableEq ν]

/-- **C143** (order).  With the order of values the code uses: a row with a missing value takes the value of a row such that no other row it could be taken from
lies between the two in all source columns; and if there is a row with the same values in all source columns, the first such row is taken. -/
theorem C143_order_partial (m : GVal) (sources : List ν) (a : ν) (t : Tbl ν GVal) (n : Nat) (nul : GVal)
    (hw : (t.map (·.1)).Nodup) (hr : Rect t n) (hs0 : sources ≠ []) (hs : ∀ b ∈ sources, b ∈ t.map (·.1)) (ha : a ∈ t.map (·.1))
    (hf : FillCond [m] sources t n a) (known : ∃ j < n, cell nul t a j ≠ m) (hties : ∀ b ∈ sources, NoTies (valuesOf t b)) :
    ∃ t', nearest nnSort [m] sources [a] t = .ok t' ∧ ImputedOk nul [m] [a] t t' n ∧ ∀ i < n, cell nul t a i = m →
      ∃ j < n, ReadyFor [m] nul t a i j ∧ cell nul t' a i = cell nul t' a j ∧ (∀ k < n, ReadyFor [m] nul t a i k →
        (∀ b ∈ sources, b ≠ a → GVal.between (cell nul t b i) (cell nul t b k) (cell nul t b j)) → (∀ b ∈ sources, b ≠ a → cell nul t b k = cell nul t b j) ∧ j ≤ k) := by
  obtain ⟨t', h1, h2, h3⟩ := C143_partial nnSort m sources a t n nul nnSort_perm hw hr hs0 hs ha hf known
  refine ⟨t', h1, h2, ?_⟩
  intro i hi him
  obtain ⟨j, g1, g2, g3, g4⟩ := h3 i hi him
  refine ⟨j, g1, g2, g3, ?_⟩
  intro k hk hrk hbt
  have hval : ∀ b ∈ sources, ∀ r < n, cell nul t b r ∈ valuesOf t b := by
    intro b hb r hr'
    obtain ⟨pb, hpb⟩ := Option.isSome_iff_exists.1 ((dGet_isSome b t).2 (hs b hb))
    have hlb : (colIter pb).length = n := by
      have := hr _ (dGet_mem b t pb hpb)
      rw [colLen_eq] at this
      rw [colIter_eq]; exact this
    have hval : valuesOf t b = colIter pb := by unfold valuesOf; rw [hpb]; rfl
    rw [hval]
    exact List.mem_of_getElem? (cell_get nul t b pb hpb r (by omega))
  have hclean : ∀ b ∈ sources, b ≠ a → ∀ v ∈ valuesOf t b, v ∉ [m] := by
    intro b hb hne v hv
    obtain ⟨pb, hpb⟩ := Option.isSome_iff_exists.1 ((dGet_isSome b t).2 (hs b hb))
    have hlb : (colIter pb).length = n := by
      have := hr _ (dGet_mem b t pb hpb)
      rw [colLen_eq] at this
      rw [colIter_eq]; exact this
    have hval : valuesOf t b = colIter pb := by unfold valuesOf; rw [hpb]; rfl
    rw [hval] at hv
    obtain ⟨r, hr', rfl⟩ := List.getElem_of_mem hv
    have := cell_get nul t b pb hpb r hr'
    rw [List.getElem?_eq_getElem hr'] at this
    rw [Option.some.inj this]
    exact hf.clean b hb hne nul r (by omega)
  have hone : ∀ b ∈ sources.filter fun b => b ≠ a, _ := fun b hb => by
    rw [List.mem_filter] at hb
    have hne : b ≠ a := by simpa using hb.2
    exact rank_between [m] (valuesOf t b) (hties b hb.1) (cell nul t b i) (cell nul t b k) (cell nul t b j) (hval b hb.1 i hi) (hval b hb.1 k hk) (hval b hb.1 j g1)
      (hclean b hb.1 hne) (hbt b hb.1 hne)
  have hsame : ∀ b ∈ sources, b ≠ a → cell nul t b k = cell nul t b j := by
    intro b hb hne
    by_contra hc
    have hlt : rowDist nnSort [m] nul t (sources.filter fun b => b ≠ a) i k < rowDist nnSort [m] nul t (sources.filter fun b => b ≠ a) i j :=
      List.sum_lt_sum _ _ (fun b hb => (hone b hb).1) ⟨b, List.mem_filter.2 ⟨hb, by simpa using hne⟩, (hone b (List.mem_filter.2 ⟨hb, by simpa using hne⟩)).2 hc⟩
    rcases g4 k hk hrk with g | ⟨g, _⟩
    · exact absurd hlt (not_lt.2 g.le)
    · exact absurd hlt (not_lt.2 g.le)
  refine ⟨hsame, ?_⟩
  have heq : rowDist nnSort [m] nul t (sources.filter fun b => b ≠ a) i k = rowDist nnSort [m] nul t (sources.filter fun b => b ≠ a) i j := by
    unfold rowDist
    congr 1
    apply List.map_congr_left
    intro b hb
    rw [List.mem_filter] at hb
    rw [hsame b hb.1 (by simpa using hb.2)]
  rcases g4 k hk hrk with g | ⟨_, g⟩
  · exact absurd g (by rw [heq]; exact lt_irrefl _)
  · exact g

end

section
variable {ν α : Type} [DecidableEq ν] [DecidableEq α]

theorem valuesOf_cells (nul : α) (t : Tbl ν α) (n : Nat) (hr : Rect t n) (b : ν) (hb : b ∈ t.map (·.1)) : valuesOf t b = (List.range n).map (cell nul t b) := by
  obtain ⟨pb, hpb⟩ := Option.isSome_iff_exists.1 ((dGet_isSome b t).2 hb)
  have hlb : (colIter pb).length = n := by
    have := hr _ (dGet_mem b t pb hpb)
    rw [colLen_eq] at this
    rw [colIter_eq]; exact this
  have hval : valuesOf t b = colIter pb := by unfold valuesOf; rw [hpb]; rfl
  rw [hval]
  apply List.ext_getElem?
  intro i
  rw [List.getElem?_map]
  by_cases hi : i < n
  · rw [cell_get nul t b pb hpb i (by omega), List.getElem?_range hi]
    rfl
  · rw [List.getElem?_eq_none (by omega), List.getElem?_eq_none (by rw [List.length_range]; omega)]
    rfl

/-- **C143** (pages).  Two tables with the same rows, cut into pages in different ways, are imputed alike, provided that in each the sources are cut like the target. -/
theorem C143_pages_partial (sortVals : List α → List α) (m : α) (sources : List ν) (a : ν) (t u : Tbl ν α) (n : Nat) (nul : α)
    (hsv : ∀ l, (sortVals l).Perm l) (hw : (t.map (·.1)).Nodup) (hnames : t.map (·.1) = u.map (·.1)) (hr : Rect t n) (hru : Rect u n) (hs0 : sources ≠ [])
    (hs : ∀ b ∈ sources, b ∈ t.map (·.1)) (ha : a ∈ t.map (·.1)) (hf : FillCond [m] sources t n a) (hfu : FillCond [m] sources u n a) (known : ∃ j < n, cell nul t a j ≠ m)
    (hrows : ∀ b ∈ t.map (·.1), ∀ i < n, cell nul t b i = cell nul u b i) :
    ∃ t' u', nearest sortVals [m] sources [a] t = .ok t' ∧ nearest sortVals [m] sources [a] u = .ok u' ∧ t'.map (·.1) = u'.map (·.1) ∧ Rect t' n ∧ Rect u' n ∧
      ∀ b ∈ t.map (·.1), ∀ i < n, cell nul t' b i = cell nul u' b i := by
  have knownu : ∃ j < n, cell nul u a j ≠ m := by
    obtain ⟨j, hj, hjm⟩ := known
    exact ⟨j, hj, by rw [← hrows a ha j hj]; exact hjm⟩
  obtain ⟨t', h1, ⟨h2, h3, h4⟩, h5⟩ := C143_partial sortVals m sources a t n nul hsv hw hr hs0 hs ha hf known
  obtain ⟨u', k1, ⟨k2, k3, k4⟩, k5⟩ := C143_partial sortVals m sources a u n nul hsv (hnames ▸ hw) hru hs0 (hnames ▸ hs) (hnames ▸ ha) hfu knownu
  refine ⟨t', u', h1, k1, by rw [h2, k2, hnames], h3, k3, ?_⟩
  have hkeep : ∀ b ∈ t.map (·.1), ∀ i < n, ¬ (b = a ∧ cell nul t b i = m) → cell nul t' b i = cell nul u' b i := by
    intro b hb i hi hc
    have e1 := h4 b hb i hi
    have e2 := k4 b (hnames ▸ hb) i hi
    rw [if_neg (by rintro ⟨c1, c2, _⟩; exact hc ⟨by simpa using c1, by simpa using c2⟩)] at e1
    rw [if_neg (by rintro ⟨c1, c2, _⟩; exact hc ⟨by simpa using c1, by rw [hrows b hb i hi]; simpa using c2⟩)] at e2
    rw [e1, e2, hrows b hb i hi]
  have hdist : ∀ i < n, ∀ j < n, rowDist sortVals [m] nul t (sources.filter fun b => b ≠ a) i j = rowDist sortVals [m] nul u (sources.filter fun b => b ≠ a) i j := by
    intro i hi j hj
    unfold rowDist
    congr 1
    apply List.map_congr_left
    intro b hb
    have hbt := hs b (List.mem_filter.1 hb).1
    have hv : valuesOf t b = valuesOf u b := by
      rw [valuesOf_cells nul t n hr b hbt, valuesOf_cells nul u n hru b (hnames ▸ hbt)]
      exact List.map_congr_left fun i hi => hrows b hbt i (List.mem_range.1 hi)
    rw [hv, hrows b hbt i hi, hrows b hbt j hj]
  have hready : ∀ i, ∀ j < n, ReadyFor [m] nul t a i j ↔ ReadyFor [m] nul u a i j := by
    intro i j hj
    unfold ReadyFor
    rw [hrows a ha j hj]
  have hfill : ∀ i < n, cell nul t' a i = cell nul u' a i := by
    intro i
    induction i using Nat.strong_induction_on with
    | _ i ih =>
      intro hi
      by_cases him : cell nul t a i = m
      · obtain ⟨j, g1, g2, g3, g4⟩ := h5 i hi him
        obtain ⟨j', q1, q2, q3, q4⟩ := k5 i hi (by rw [← hrows a ha i hi]; exact him)
        have hjj : j = j' := by
          have a1 := g4 j' q1 ((hready i j' q1).2 q2)
          have a2 := q4 j g1 ((hready i j g1).1 g2)
          rw [← hdist i hi j g1, ← hdist i hi j' q1] at a2
          rcases a1 with a1 | ⟨a1, a1'⟩ <;> rcases a2 with a2 | ⟨a2, a2'⟩
          · exact absurd a1 (not_lt.2 a2.le)
          · exact absurd a1 (not_lt.2 a2.le)
          · exact absurd a2 (not_lt.2 a1.le)
          · omega
        subst hjj
        rw [g3, q3]
        rcases g2.2 with g | g
        · exact hkeep a ha j g1 (fun c => g (by rw [List.mem_singleton]; exact c.2))
        · exact ih j g g1
      · exact hkeep a ha i hi (fun c => him c.2)
  intro b hb i hi
  by_cases hba : b = a
  · rw [hba]; exact hfill i hi
  · exact hkeep b hb i hi (fun c => hba c.1)

end

/-- a table with two source columns, of numbers and of texts, and a target with two gaps in two pages -/
def twoSources : Tbl Nat GVal :=
  [(0, [[.int 30, .int 10], [.int 20, .int 40]]), (1, [[.str "b", .str "a"], [.str "b", .str "c"]]), (2, [[.none, .float 1], [.float 2, .none]])]

/-- `C143_order_partial` applies: row 0 takes the value of row 2, which has the same text and the next number; so does row 3 -/
example : FillCond [.none] [0, 1] twoSources 4 2 ∧ (∀ b ∈ [0, 1], NoTies (valuesOf twoSources b)) ∧
    nearest nnSort [.none] [0, 1] [2] twoSources = .ok (twoSources.take 2 ++ [(2, [[.float 2, .float 1], [.float 2, .float 2]])]) := by
  refine ⟨⟨by decide, fun b hb hne nul i hi => ?_, .inl ⟨_, rfl⟩⟩, fun b hb => noTies_of _ (.inr ?_), by decide +kernel⟩
  · simp only [List.mem_cons, List.not_mem_nil, or_false] at hb
    have : i = 0 ∨ i = 1 ∨ i = 2 ∨ i = 3 := by omega
    rcases hb with rfl | rfl <;> rcases this with rfl | rfl | rfl | rfl <;> simp [twoSources, cell, dGet, colIter]
  · simp only [List.mem_cons, List.not_mem_nil, or_false] at hb
    rcases hb with rfl | rfl <;> simp [twoSources, valuesOf, dGet, colIter]

/-- `C143_pages_partial` applies: the same rows in one page -/
example : (let u := twoSources.map fun c => (c.1, [c.2.flatten])
    twoSources.map (·.1) = u.map (·.1) ∧ Rect u 4 ∧ FillCond [.none] [0, 1] u 4 2 ∧ ∀ b ∈ twoSources.map (·.1), ∀ i < 4, cell .none twoSources b i = cell .none u b i) := by
  refine ⟨rfl, by unfold Rect; decide, ⟨by decide, fun b hb hne nul i hi => ?_, .inl ⟨_, rfl⟩⟩, by decide⟩
  simp only [List.mem_cons, List.not_mem_nil, or_false] at hb
  have : i = 0 ∨ i = 1 ∨ i = 2 ∨ i = 3 := by omega
  rcases hb with rfl | rfl <;> rcases this with rfl | rfl | rfl | rfl <;> simp [twoSources, cell, dGet, colIter]

/-- `1` and `1.0` tie: the one found first gets the smaller rank -/
example : ¬ NoTies [.int 1, .float 1] ∧ nnSort [.int 1, .float 1] = [.int 1, .float 1] ∧ nnSort [.float 1, .int 1] = [.float 1, .int 1] := by
  refine ⟨fun h => ?_, by decide +kernel, by decide +kernel⟩
  have := h (.int 1) (by simp) (.float 1) (by simp) (by simp)
  simp [GVal.before, GVal.parity, GVal.toFloat] at this

end Tablite
