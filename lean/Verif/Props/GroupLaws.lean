import Verif.Props.GroupBy
import Verif.Props.GroupByAcc
import Verif.Props.Pivot
import Verif.Props.JoinLaws
import Verif.Props.InferDate
/-!
# Laws of group-by (C112)

No new model.
-/

namespace Tablite

set_option linter.unusedSectionVars false

/-- the elements of a list collected by key -/
theorem groups_perm {ι κ : Type} [DecidableEq κ] (key : ι → κ) (l : List ι) : ((firstOccs (l.map key)).flatMap fun k => l.filter fun x => key x = k).Perm l := by
  induction hn : l.length using Nat.strong_induction_on generalizing l with
  | _ n ih =>
    cases l with
    | nil => simp [firstOccs]
    | cons a t =>
      have e1 : firstOccs ((a :: t).map key) = key a :: firstOccs ((t.filter fun x => key x ≠ key a).map key) := by
        rw [List.map_cons, firstOccs, ← firstOccs_filter, List.filter_map]
        rfl
      rw [e1, List.flatMap_cons]
      have e2 : (firstOccs ((t.filter fun x => key x ≠ key a).map key)).flatMap (fun k => (a :: t).filter fun x => key x = k) =
          (firstOccs ((t.filter fun x => key x ≠ key a).map key)).flatMap fun k => (t.filter fun x => key x ≠ key a).filter fun x => key x = k := by
        apply List.flatMap_congr
        intro k hk
        obtain ⟨y, hy, rfl⟩ := List.mem_map.1 (mem_firstOccs.1 hk)
        have hya : key y ≠ key a := by simpa using (List.mem_filter.1 hy).2
        rw [List.filter_filter, List.filter_cons_of_neg (by simpa using fun e => hya e.symm)]
        apply List.filter_congr
        intro x _
        by_cases h : key x = key y
        · simp [h, hya]
        · simp [h]
      rw [e2]
      have := ih (t.filter fun x => key x ≠ key a).length (by
        have := List.length_filter_le (fun x => decide (key x ≠ key a)) t
        simp only [List.length_cons] at hn
        omega) _ rfl
      refine (this.append_left _).trans ?_
      rw [List.filter_cons_of_pos (by simp), List.cons_append]
      refine List.Perm.cons a ?_
      have h := List.filter_append_perm (fun x => decide (key x = key a)) t
      refine List.Perm.trans (List.Perm.of_eq ?_) h
      congr 1
      apply List.filter_congr
      intro x _
      simp

/-- totals of groups add up to the total -/
theorem sum_groups {ι κ M : Type} [DecidableEq κ] [AddCommMonoid M] (key : ι → κ) (q : ι → M) (l : List ι) :
    ((firstOccs (l.map key)).map fun k => ((l.filter fun x => key x = k).map q).sum).sum = (l.map q).sum := by
  rw [← ((groups_perm key l).map q).sum_eq, List.map_flatMap, List.flatMap_def, List.sum_flatten, List.map_map]
  rfl

section
variable {ν α σ φ : Type} [DecidableEq ν] [DecidableEq α]

theorem mem_tblSet (t : Tbl ν α) (x : ν) (p : Pages α) (c : ν × Pages α) (h : c ∈ tblSet t x p) : c = (x, p) ∨ c ∈ t := by
  unfold tblSet at h
  induction t with
  | nil => simpa [dUpd] using h
  | cons a t ih =>
    obtain ⟨b, d⟩ := a
    rw [dUpd] at h
    split at h
    · rename_i e
      rcases List.mem_cons.1 h with h | h
      · exact Or.inl (by rw [h, e])
      · exact Or.inr (by simp [h])
    · rcases List.mem_cons.1 h with h | h
      · exact Or.inr (by simp [h])
      · rcases ih h with h | h
        · exact Or.inl h
        · exact Or.inr (by simp [h])

theorem storeColumns_pages (ps : Nat) (cols : List (ν × List α)) (t : Tbl ν α) (h : ∀ c ∈ t, ∃ l, c.2 = toPages ps l) : ∀ c ∈ storeColumns ps cols t, ∃ l, c.2 = toPages ps l := by
  induction cols generalizing t with
  | nil => exact h
  | cons a cols ih =>
    rw [storeColumns]
    apply ih
    intro c hc
    rcases mem_tblSet _ _ _ _ hc with rfl | hc
    · exact ⟨_, rfl⟩
    · exact h c hc

/-- the pages of the table a group-by returns are cut at the same places -/
theorem groupby_pages {nul : α} {init : φ → σ} {upd : φ → σ → α → Except Err σ} {val : φ → σ → Except Err α} {nm : φ → ν → ν} {ps : Nat} {t g : Tbl ν α} {keys : List ν} {functions : List (ν × φ)}
    (h : groupby nul init upd val nm ps t keys functions = .ok g) : ∀ c ∈ g, ∃ l, c.2 = toPages ps l := by
  unfold groupby at h
  split at h
  · cases h
  split at h
  · cases h
  split at h
  · obtain ⟨cols, -, h⟩ := ebind_ok h
    obtain ⟨rows, -, h⟩ := ebind_ok h
    cases h
    exact storeColumns_pages ps _ [] (by simp)
  · obtain ⟨cols, -, h⟩ := ebind_ok h
    obtain ⟨out, -, h⟩ := ebind_ok h
    cases h
    exact storeColumns_pages ps _ [] (by simp)

theorem toPages_lengths (ps : Nat) (l m : List α) (h : l.length = m.length) : (toPages ps l).map List.length = (toPages ps m).map List.length := by
  induction hn : l.length using Nat.strong_induction_on generalizing l m with
  | _ n ih =>
    unfold toPages
    by_cases hl : 0 < ps ∧ l ≠ []
    · have hm : 0 < ps ∧ m ≠ [] := ⟨hl.1, by rintro rfl; exact hl.2 (List.length_eq_zero_iff.1 h)⟩
      rw [dif_pos hl, dif_pos hm, List.map_cons, List.map_cons, List.length_take, List.length_take, h]
      congr 1
      have := List.length_pos_iff.2 hl.2
      exact ih (l.drop ps).length (by rw [List.length_drop]; omega) _ _ (by rw [List.length_drop, List.length_drop, h]) rfl
    · have hm : ¬ (0 < ps ∧ m ≠ []) := by
        intro hm
        exact hl ⟨hm.1, by rintro rfl; exact hm.2 (List.length_eq_zero_iff.1 h.symm)⟩
      rw [dif_neg hl, dif_neg hm]

/-- the result of a group-by meets the condition of the next one -/
theorem groupby_aligned {nul : α} {init : φ → σ} {upd : φ → σ → α → Except Err σ} {val : φ → σ → Except Err α} {nm : φ → ν → ν} {ps : Nat} (hps : 0 < ps) {t g : Tbl ν α} {keys : List ν}
    {functions : List (ν × φ)} (h : groupby nul init upd val nm ps t keys functions = .ok g) (n : Nat) (hn : ∀ c ∈ tview g, c.2.length = n) :
    ∃ L : List Nat, L.sum = n ∧ ∀ a ∈ g.map (·.1), ∃ p, dGet a g = some p ∧ p.map List.length = L := by
  refine ⟨(toPages ps (List.replicate n nul)).map List.length, ?_, ?_⟩
  · rw [← List.length_flatten, ← colIter_eq, toPages_flatten ps hps, List.length_replicate]
  · intro a ha
    obtain ⟨p, hp⟩ := Option.isSome_iff_exists.1 ((dGet_isSome a g).2 ha)
    refine ⟨p, hp, ?_⟩
    have hm := dGet_some_mem a g p hp
    obtain ⟨l, hl⟩ := groupby_pages h _ hm
    have h1 := hn (a, colIter p) (List.mem_map.2 ⟨_, hm, rfl⟩)
    dsimp only at hl h1
    rw [hl] at h1 ⊢
    rw [toPages_flatten ps hps] at h1
    exact toPages_lengths ps _ _ (by rw [h1, List.length_replicate])

/-- a group-by of a group-by: the groups of the first one are grouped by some of its keys -/
theorem rollup (nul : α) (init : φ → σ) (upd : φ → σ → α → Except Err σ) (val : φ → σ → Except Err α) (nm : φ → ν → ν) (ps : Nat) (hps : 0 < ps)
    (t : Tbl ν α) (L : List Nat) (K1 K2 : List ν) (c : ν) (f h : φ) (hnames : ∀ a ∈ K1 ++ K2 ++ [c], ∃ p, dGet a t = some p ∧ p.map List.length = L)
    (hnd : (K1 ++ K2 ++ [nm f c]).Nodup) (hnd2 : nm h (nm f c) ∉ K1) (G H : List α → α)
    (hG : ∀ k ∈ keyRows nul t (K1 ++ K2) L.sum, aggOf init upd val f ((rowsWith nul t (K1 ++ K2) L.sum k).map fun i => cell nul t c i) = .ok (G k))
    (hH : ∀ k ∈ keyRows nul t K1 L.sum, aggOf init upd val h (((firstOccs (keyRows nul t (K1 ++ K2) L.sum)).filter fun x => x.take K1.length = k).map G) = .ok (H k)) :
    ∃ g r, groupby nul init upd val nm ps t (K1 ++ K2) [(c, f)] = .ok g ∧ groupby nul init upd val nm ps g K1 [(nm f c, h)] = .ok r ∧
      tview r = (K1.zipIdx.map fun k => (k.1, (firstOccs (keyRows nul t K1 L.sum)).map fun key => key.getD k.2 nul)) ++
        [(nm h (nm f c), (firstOccs (keyRows nul t K1 L.sum)).map H)] := by
  obtain ⟨g, g1, g2⟩ := C33_partial nul init upd val nm ps hps t L (K1 ++ K2) [(c, f)] (by simpa using hnames) (by simp) (by simpa using hnd) (fun _ => G) (by
    intro x hx k hk
    simp only [List.mem_singleton] at hx
    subst hx
    exact hG k hk)
  simp only [groupView, List.map_cons, List.map_nil] at g2
  generalize hF : firstOccs (keyRows nul t (K1 ++ K2) L.sum) = F at *
  have hFk : ∀ k ∈ F, ∃ i < L.sum, k = (K1 ++ K2).map fun a => cell nul t a i := by
    intro k hk
    rw [← hF, mem_firstOccs] at hk
    obtain ⟨i, hi, rfl⟩ := List.mem_map.1 hk
    exact ⟨i, List.mem_range.1 hi, rfl⟩
  have hlen : ∀ c ∈ tview g, c.2.length = F.length := by
    rw [g2]
    intro c hc
    rcases List.mem_append.1 hc with hc | hc
    · obtain ⟨k, -, rfl⟩ := List.mem_map.1 hc
      simp
    · simp only [List.mem_singleton] at hc
      subst hc
      simp
  have hgn : g.map (·.1) = K1 ++ K2 ++ [nm f c] := by
    rw [← names_tview, g2, List.map_append, List.map_map]
    congr 1
    have : ((fun (x : ν × List α) => x.1) ∘ fun (k : ν × Nat) => (k.1, F.map fun key => key.getD k.2 nul)) = Prod.fst := rfl
    rw [this, List.zipIdx_map_fst]
  have hgnd : ((tview g).map (·.1)).Nodup := by rw [names_tview, hgn]; exact hnd
  obtain ⟨L', l1, l2⟩ := groupby_aligned hps g1 F.length hlen
  have hckey : ∀ i (hi : i < K1.length), ∀ j (hj : j < F.length), cell nul g K1[i] j = F[j].getD i nul := by
    intro i hi j hj
    have hm : (K1[i], F.map fun key => key.getD i nul) ∈ tview g := by
      rw [g2]
      refine List.mem_append_left _ (List.mem_map.2 ⟨(K1[i], i), ?_, rfl⟩)
      rw [List.mem_zipIdx_iff_getElem?, List.getElem?_append_left hi, List.getElem?_eq_getElem hi]
    rw [cell_tview, dGet_of_mem _ hgnd _ hm]
    simp [List.getD_eq_getElem?_getD, List.getElem?_eq_getElem hj]
  have hcval : ∀ j (hj : j < F.length), cell nul g (nm f c) j = G F[j] := by
    intro j hj
    have hm : (nm f c, F.map G) ∈ tview g := by
      rw [g2]
      exact List.mem_append_right _ (by simp)
    rw [cell_tview, dGet_of_mem _ hgnd _ hm]
    simp [List.getD_eq_getElem?_getD, List.getElem?_eq_getElem hj]
  have hkeyAt : ∀ j (hj : j < F.length), (K1.map fun a => cell nul g a j) = F[j].take K1.length := by
    intro j hj
    obtain ⟨r, -, hr⟩ := hFk _ (List.getElem_mem hj)
    apply List.ext_getElem
    · rw [List.length_map, List.length_take, hr, List.length_map, List.length_append]; omega
    · intro i h1 h2
      have hi : i < K1.length := by simpa using h1
      have h3 : i < F[j].length := by rw [hr, List.length_map, List.length_append]; omega
      rw [List.getElem_map, hckey i hi j hj, List.getElem_take, List.getD_eq_getElem?_getD, List.getElem?_eq_getElem h3]
      rfl
  have hkr : keyRows nul g K1 L'.sum = F.map fun k => k.take K1.length := by
    unfold keyRows
    rw [l1]
    apply List.ext_getElem
    · simp
    · intro j h1 h2
      have hj : j < F.length := by simpa using h1
      rw [List.getElem_map, List.getElem_range, List.getElem_map, hkeyAt j hj]
  have hfo : firstOccs (keyRows nul g K1 L'.sum) = firstOccs (keyRows nul t K1 L.sum) := by
    rw [hkr, ← hF, firstOccs_map_firstOccs]
    congr 1
    unfold keyRows
    rw [List.map_map]
    apply List.map_congr_left
    intro i _
    simp only [Function.comp, List.map_append]
    rw [List.take_left' (by simp)]
  have hrows : ∀ k, (rowsWith nul g K1 L'.sum k).map (fun i => cell nul g (nm f c) i) = (F.filter fun x => x.take K1.length = k).map G := by
    intro k
    have e := select_filter F [] (fun x => decide (x.take K1.length = k)) (fun i => decide (keyAt nul g K1 i = k)) (by
      intro j hj
      have h1 : keyAt nul g K1 j = F[j].take K1.length := hkeyAt j hj
      simp [h1, List.getD_eq_getElem?_getD, List.getElem?_eq_getElem hj])
    rw [← e, List.map_map]
    unfold rowsWith
    rw [l1]
    apply List.map_congr_left
    intro j hj
    have hj : j < F.length := List.mem_range.1 (List.mem_filter.1 hj).1
    rw [hcval j hj]
    simp [List.getD_eq_getElem?_getD, List.getElem?_eq_getElem hj]
  obtain ⟨r, r1, r2⟩ := C33_partial nul init upd val nm ps hps g L' K1 [(nm f c, h)] (by
      intro a ha
      apply l2
      rw [hgn]
      simp only [List.map_cons, List.map_nil, List.mem_append, List.mem_singleton] at ha ⊢
      rcases ha with ha | ha
      · exact Or.inl (Or.inl ha)
      · exact Or.inr ha) (by simp) (by
      simp only [List.map_cons, List.map_nil]
      rw [List.nodup_append]
      refine ⟨(List.nodup_append.1 (List.nodup_append.1 hnd).1).1, by simp, ?_⟩
      rintro x hx y hy rfl
      simp only [List.mem_singleton] at hy
      exact hnd2 (hy ▸ hx)) (fun _ => H) (by
      intro x hx k hk
      simp only [List.mem_singleton] at hx
      subst hx
      rw [hrows k]
      apply hH
      rw [← mem_firstOccs, ← hfo, mem_firstOccs]
      exact hk)
  refine ⟨g, r, g1, r1, ?_⟩
  rw [r2]
  simp only [groupView, List.map_cons, List.map_nil, hfo]

/-! ## C112 -/

/-- the groups of finer keys that belong to a group of coarser keys -/
theorem finer_groups (nul : α) (t : Tbl ν α) (n : Nat) (K1 K2 : List ν) (k : List α) :
    (firstOccs (keyRows nul t (K1 ++ K2) n)).filter (fun x => x.take K1.length = k) = firstOccs ((rowsWith nul t K1 n k).map fun i => (K1 ++ K2).map fun a => cell nul t a i) := by
  rw [← firstOccs_filter]
  congr 1
  unfold keyRows rowsWith
  rw [List.filter_map]
  congr 1
  apply List.filter_congr
  intro i _
  rw [Bool.eq_iff_iff]
  simp only [Function.comp, List.map_append, decide_eq_true_eq]
  rw [List.take_left' (by simp)]
  rfl

theorem finer_rows (nul : α) (t : Tbl ν α) (n : Nat) (K1 K2 : List ν) (k x : List α) (hx : x ∈ (rowsWith nul t K1 n k).map fun i => (K1 ++ K2).map fun a => cell nul t a i) :
    rowsWith nul t (K1 ++ K2) n x = (rowsWith nul t K1 n k).filter fun i => ((K1 ++ K2).map fun a => cell nul t a i) = x := by
  obtain ⟨j, hj, rfl⟩ := List.mem_map.1 hx
  have hj2 : (K1.map fun a => cell nul t a j) = k := of_decide_eq_true (List.mem_filter.1 hj).2
  unfold rowsWith
  rw [List.filter_filter]
  apply List.filter_congr
  intro i _
  rw [Bool.eq_iff_iff, Bool.and_eq_true, decide_eq_true_eq, decide_eq_true_eq, decide_eq_true_eq]
  constructor
  · intro h
    refine ⟨h, ?_⟩
    rw [← hj2]
    unfold keyAt at h ⊢
    rw [List.map_append, List.map_append] at h
    exact (List.append_inj h (by simp)).1
  · exact fun h => h.1

/-- numbers of the finer groups add up to the number of the coarser group -/
theorem finer_sum {M : Type} [AddCommMonoid M] (nul : α) (t : Tbl ν α) (n : Nat) (K1 K2 : List ν) (k : List α) (q : Nat → M) :
    (((firstOccs (keyRows nul t (K1 ++ K2) n)).filter fun x => x.take K1.length = k).map fun x => ((rowsWith nul t (K1 ++ K2) n x).map q).sum).sum = ((rowsWith nul t K1 n k).map q).sum := by
  rw [finer_groups, ← sum_groups (fun i => (K1 ++ K2).map fun a => cell nul t a i) q (rowsWith nul t K1 n k)]
  congr 1
  apply List.map_congr_left
  intro x hx
  rw [finer_rows nul t n K1 K2 k x (mem_firstOccs.1 hx)]

end

section
variable {ν : Type} [DecidableEq ν]

/-- `Table.groupby` with the accumulators of the code -/
abbrev groupbyG (sqrt : Rat → Rat) (nm : Acc → ν → ν) (ps : Nat) (t : Tbl ν GVal) (keys : List ν) (functions : List (ν × Acc)) : Except Err (Tbl ν GVal) :=
  groupby .none accInit accUpdate (accValue sqrt) nm ps t keys functions

/-- the pages of the named columns have the lengths `L` -/
def AlignedOn (t : Tbl ν GVal) (L : List Nat) (names : List ν) : Prop := ∀ a ∈ names, ∃ p, dGet a t = some p ∧ p.map List.length = L

theorem isNums_map {ι : Type} (l : List ι) (v : ι → GVal) (q : ι → Rat) (h : ∀ i ∈ l, IsNum (v i) (q i)) : IsNums (l.map v) (l.map q) := by
  induction l with
  | nil => exact .nil
  | cons a t ih => exact .cons (h a (by simp)) (ih fun i hi => h i (by simp [hi]))

theorem mem_rowsWith {nul : GVal} {t : Tbl ν GVal} {keys : List ν} {n : Nat} {k : List GVal} {i : Nat} (h : i ∈ rowsWith nul t keys n k) : i < n := List.mem_range.1 (List.mem_filter.1 h).1

/-- **C112** the numbers of rows of the groups add up to the number of rows of the table, and no group is empty -/
theorem C112_count (sqrt : Rat → Rat) (nm : Acc → ν → ν) (ps : Nat) (hps : 0 < ps) (t : Tbl ν GVal) (L : List Nat) (keys : List ν) (c : ν) (ha : AlignedOn t L (keys ++ [c]))
    (hnd : (keys ++ [nm .count c]).Nodup) :
    ∃ (g : Tbl ν GVal) (vals : List Nat), groupbyG sqrt nm ps t keys [(c, .count)] = .ok g ∧ dGet (nm .count c) (tview g) = some (vals.map fun v : Nat => GVal.int v) ∧ vals.sum = L.sum ∧ ∀ v ∈ vals, 0 < v := by
  obtain ⟨g, g1, g2⟩ := C33_partial .none accInit accUpdate (accValue sqrt) nm ps hps t L keys [(c, .count)] ha (by simp) (by simpa using hnd)
    (fun _ k => .int (rowsWith .none t keys L.sum k).length) (by
      intro x hx k hk
      simp only [List.mem_singleton] at hx
      subst hx
      rw [aggOf_acc, C34_count, List.length_map])
  simp only [groupView, List.map_cons, List.map_nil] at g2
  refine ⟨g, (firstOccs (keyRows .none t keys L.sum)).map fun k => (rowsWith .none t keys L.sum k).length, g1, ?_, ?_, ?_⟩
  · rw [dGet_of_mem (tview g) _ (nm .count c, (firstOccs (keyRows .none t keys L.sum)).map fun k => GVal.int (rowsWith .none t keys L.sum k).length)]
    · simp [List.map_map, Function.comp_def]
    · rw [g2]; simp
    · rw [g2, List.map_append, List.map_map]
      have : ((fun (x : ν × List GVal) => x.1) ∘ fun (k : ν × Nat) => (k.1, (firstOccs (keyRows .none t keys L.sum)).map fun key => key.getD k.2 .none)) = Prod.fst := rfl
      rw [this, List.zipIdx_map_fst]
      exact hnd
  · have := sum_groups (fun i => keys.map fun a => cell .none t a i) (fun _ => 1) (List.range L.sum)
    simp only [List.map_const', List.sum_replicate, nsmul_eq_mul, mul_one, List.length_range, Nat.cast_id] at this
    exact this
  · intro v hv
    obtain ⟨k, hk, rfl⟩ := List.mem_map.1 hv
    obtain ⟨i, hi, rfl⟩ := List.mem_map.1 (mem_firstOccs.1 hk)
    apply List.length_pos_of_mem (a := i)
    exact List.mem_filter.2 ⟨hi, by simp [keyAt]⟩

/-- **C112** the sums of the groups add up to the sum of the column -/
theorem C112_sum (sqrt : Rat → Rat) (nm : Acc → ν → ν) (ps : Nat) (hps : 0 < ps) (t : Tbl ν GVal) (L : List Nat) (keys : List ν) (c : ν) (ha : AlignedOn t L (keys ++ [c]))
    (hnd : (keys ++ [nm .sum c]).Nodup) (q : Nat → Rat) (hq : ∀ i < L.sum, IsNum (cell .none t c i) (q i)) :
    ∃ (g : Tbl ν GVal) (vals : List Rat), groupbyG sqrt nm ps t keys [(c, .sum)] = .ok g ∧ dGet (nm .sum c) (tview g) = some (vals.map GVal.float) ∧ vals.sum = ((List.range L.sum).map q).sum := by
  obtain ⟨g, g1, g2⟩ := C33_partial .none accInit accUpdate (accValue sqrt) nm ps hps t L keys [(c, .sum)] ha (by simp) (by simpa using hnd)
    (fun _ k => .float ((rowsWith .none t keys L.sum k).map q).sum) (by
      intro x hx k hk
      simp only [List.mem_singleton] at hx
      subst hx
      rw [aggOf_acc]
      exact C34_sum sqrt _ _ (isNums_map _ _ _ fun i hi => hq i (mem_rowsWith hi)))
  simp only [groupView, List.map_cons, List.map_nil] at g2
  refine ⟨g, (firstOccs (keyRows .none t keys L.sum)).map fun k => ((rowsWith .none t keys L.sum k).map q).sum, g1, ?_, ?_⟩
  · rw [dGet_of_mem (tview g) _ (nm .sum c, (firstOccs (keyRows .none t keys L.sum)).map fun k => GVal.float ((rowsWith .none t keys L.sum k).map q).sum)]
    · simp [List.map_map, Function.comp_def]
    · rw [g2]; simp
    · rw [g2, List.map_append, List.map_map]
      have : ((fun (x : ν × List GVal) => x.1) ∘ fun (k : ν × Nat) => (k.1, (firstOccs (keyRows .none t keys L.sum)).map fun key => key.getD k.2 .none)) = Prod.fst := rfl
      rw [this, List.zipIdx_map_fst]
      exact hnd
  · exact sum_groups (fun i => keys.map fun a => cell .none t a i) q (List.range L.sum)

/-- **C112** summing the sums of finer groups is summing by the coarser keys -/
theorem C112_rollup_sum (sqrt : Rat → Rat) (nm : Acc → ν → ν) (ps : Nat) (hps : 0 < ps) (t : Tbl ν GVal) (L : List Nat) (K1 K2 : List ν) (c : ν) (ha : AlignedOn t L (K1 ++ K2 ++ [c]))
    (hnd : (K1 ++ K2 ++ [nm .sum c]).Nodup) (hnd2 : nm .sum (nm .sum c) ∉ K1) (q : Nat → Rat) (hq : ∀ i < L.sum, IsNum (cell .none t c i) (q i)) :
    ∃ g r s ks vals, groupbyG sqrt nm ps t (K1 ++ K2) [(c, .sum)] = .ok g ∧ groupbyG sqrt nm ps g K1 [(nm .sum c, .sum)] = .ok r ∧ groupbyG sqrt nm ps t K1 [(c, .sum)] = .ok s ∧
      tview r = ks ++ [(nm .sum (nm .sum c), vals)] ∧ tview s = ks ++ [(nm .sum c, vals)] := by
  have hS : ∀ (keys : List ν) (k : List GVal), accRun sqrt .sum ((rowsWith .none t keys L.sum k).map fun i => cell .none t c i) = .ok (.float ((rowsWith .none t keys L.sum k).map q).sum) := by
    intro keys k
    exact C34_sum sqrt _ _ (isNums_map _ _ _ fun i hi => hq i (mem_rowsWith hi))
  obtain ⟨g, r, g1, r1, r2⟩ := rollup GVal.none accInit accUpdate (accValue sqrt) nm ps hps t L K1 K2 c .sum .sum ha hnd hnd2
    (fun k => .float ((rowsWith .none t (K1 ++ K2) L.sum k).map q).sum) (fun k => .float ((rowsWith .none t K1 L.sum k).map q).sum) (by
      intro k _
      rw [aggOf_acc]
      exact hS _ k) (by
      intro k _
      rw [aggOf_acc, ← finer_sum GVal.none t L.sum K1 K2 k q]
      exact C34_sum sqrt _ _ (isNums_map _ _ _ fun i _ => Or.inl rfl))
  obtain ⟨s, s1, s2⟩ := C33_partial .none accInit accUpdate (accValue sqrt) nm ps hps t L K1 [(c, .sum)] (by
      intro a h
      apply ha
      simp only [List.map_cons, List.map_nil, List.mem_append, List.mem_singleton] at h ⊢
      tauto) (by simp) (by
      refine List.Nodup.sublist ?_ hnd
      simp) (fun _ k => .float ((rowsWith .none t K1 L.sum k).map q).sum) (by
      intro x hx k hk
      simp only [List.mem_singleton] at hx
      subst hx
      rw [aggOf_acc]
      exact hS _ k)
  refine ⟨g, r, s, _, _, g1, r1, s1, r2, ?_⟩
  rw [s2]
  simp only [groupView, List.map_cons, List.map_nil]

/-- **C112** summing the counts of finer groups is counting by the coarser keys -/
theorem C112_rollup_count (sqrt : Rat → Rat) (nm : Acc → ν → ν) (ps : Nat) (hps : 0 < ps) (t : Tbl ν GVal) (L : List Nat) (K1 K2 : List ν) (c : ν) (ha : AlignedOn t L (K1 ++ K2 ++ [c]))
    (hnd : (K1 ++ K2 ++ [nm .count c]).Nodup) (hnd2 : nm .sum (nm .count c) ∉ K1) :
    ∃ (g r s : Tbl ν GVal) (ks : List (ν × List GVal)) (vals : List Nat), groupbyG sqrt nm ps t (K1 ++ K2) [(c, .count)] = .ok g ∧ groupbyG sqrt nm ps g K1 [(nm .count c, .sum)] = .ok r ∧ groupbyG sqrt nm ps t K1 [(c, .count)] = .ok s ∧
      tview r = ks ++ [(nm .sum (nm .count c), vals.map fun v : Nat => GVal.float v)] ∧ tview s = ks ++ [(nm .count c, vals.map fun v : Nat => GVal.int v)] := by
  have hS : ∀ (keys : List ν) (k : List GVal), accRun sqrt .count ((rowsWith .none t keys L.sum k).map fun i => cell .none t c i) = .ok (.int (rowsWith .none t keys L.sum k).length) := by
    intro keys k
    rw [C34_count, List.length_map]
  obtain ⟨g, r, g1, r1, r2⟩ := rollup GVal.none accInit accUpdate (accValue sqrt) nm ps hps t L K1 K2 c .count .sum ha hnd hnd2
    (fun k => .int (rowsWith .none t (K1 ++ K2) L.sum k).length) (fun k => .float (rowsWith .none t K1 L.sum k).length) (by
      intro k _
      rw [aggOf_acc]
      exact hS _ k) (by
      intro k _
      have e := finer_sum GVal.none t L.sum K1 K2 k (fun _ => (1 : Rat))
      simp only [List.map_const', List.sum_replicate, nsmul_eq_mul, mul_one] at e
      rw [aggOf_acc, ← e]
      exact C34_sum sqrt _ _ (isNums_map _ _ _ fun i _ => Or.inr ⟨_, rfl, by push_cast; rfl⟩))
  obtain ⟨s, s1, s2⟩ := C33_partial .none accInit accUpdate (accValue sqrt) nm ps hps t L K1 [(c, .count)] (by
      intro a h
      apply ha
      simp only [List.map_cons, List.map_nil, List.mem_append, List.mem_singleton] at h ⊢
      tauto) (by simp) (by
      refine List.Nodup.sublist ?_ hnd
      simp) (fun _ k => .int (rowsWith .none t K1 L.sum k).length) (by
      intro x hx k hk
      simp only [List.mem_singleton] at hx
      subst hx
      rw [aggOf_acc]
      exact hS _ k)
  refine ⟨g, r, s, K1.zipIdx.map fun k => (k.1, (firstOccs (keyRows GVal.none t K1 L.sum)).map fun key => key.getD k.2 .none), (firstOccs (keyRows GVal.none t K1 L.sum)).map fun k => (rowsWith .none t K1 L.sum k).length, g1, r1, s1, ?_, ?_⟩
  · rw [r2, List.map_map]
    rfl
  · rw [s2]
    simp only [groupView, List.map_cons, List.map_nil, List.map_map]
    rfl

/-- values of one kind of which none is less than the other are equal -/
theorem lt_antisymm' {a b : GVal} (hk : a.kind = b.kind) (h1 : GVal.lt a b = false) (h2 : GVal.lt b a = false) : a = b := by
  cases a <;> cases b <;> first
    | (simp [GVal.kind] at hk; done)
    | rfl
    | (simp only [GVal.lt, decide_eq_false_iff_not, not_lt] at h1 h2; rw [le_antisymm h2 h1])
    | (rename_i x y; cases x <;> cases y <;> simp_all [GVal.lt])

/-- the greatest (or least) of the greatest of finer groups -/
theorem rollup_limit (sqrt : Rat → Rat) (f : Acc) (less : GVal → GVal → Bool) (hf : ∀ l, SameKind l → l ≠ [] → ∃ v, accRun sqrt f l = .ok v ∧ v ∈ l ∧ ∀ x ∈ l, less v x = false)
    (hanti : ∀ a b : GVal, a.kind = b.kind → less a b = false → less b a = false → a = b) (htrans : ∀ a b c : GVal, a.kind = b.kind → b.kind = c.kind → less a b = false → less b c = false → less a c = false)
    (nm : Acc → ν → ν) (ps : Nat) (hps : 0 < ps) (t : Tbl ν GVal) (L : List Nat) (K1 K2 : List ν) (c : ν) (ha : AlignedOn t L (K1 ++ K2 ++ [c]))
    (hnd : (K1 ++ K2 ++ [nm f c]).Nodup) (hnd2 : nm f (nm f c) ∉ K1)
    (hk : ∀ i < L.sum, ∀ j < L.sum, (K1.map fun a => cell .none t a i) = (K1.map fun a => cell .none t a j) → (cell .none t c i).kind = (cell .none t c j).kind) :
    ∃ g r s ks vals, groupbyG sqrt nm ps t (K1 ++ K2) [(c, f)] = .ok g ∧ groupbyG sqrt nm ps g K1 [(nm f c, f)] = .ok r ∧ groupbyG sqrt nm ps t K1 [(c, f)] = .ok s ∧
      tview r = ks ++ [(nm f (nm f c), vals)] ∧ tview s = ks ++ [(nm f c, vals)] := by
  have hpre : ∀ {i j : Nat}, ((K1 ++ K2).map fun a => cell .none t a i) = ((K1 ++ K2).map fun a => cell .none t a j) → (K1.map fun a => cell .none t a i) = (K1.map fun a => cell .none t a j) := by
    intro i j h
    rw [List.map_append, List.map_append] at h
    exact (List.append_inj h (by simp)).1
  have hsk : ∀ (keys : List ν), (∀ i j, (keys.map fun a => cell .none t a i) = (keys.map fun a => cell .none t a j) → (K1.map fun a => cell .none t a i) = (K1.map fun a => cell .none t a j)) →
      ∀ k, SameKind ((rowsWith .none t keys L.sum k).map fun i => cell .none t c i) := by
    intro keys hkeys k x hx y hy
    obtain ⟨i, hi, rfl⟩ := List.mem_map.1 hx
    obtain ⟨j, hj, rfl⟩ := List.mem_map.1 hy
    have h1 : keyAt .none t keys i = k := by simpa using (List.mem_filter.1 hi).2
    have h2 : keyAt .none t keys j = k := by simpa using (List.mem_filter.1 hj).2
    exact hk i (mem_rowsWith hi) j (mem_rowsWith hj) (hkeys i j (h1.trans h2.symm))
  have hne : ∀ (keys : List ν) (k : List GVal), k ∈ keyRows .none t keys L.sum → (rowsWith .none t keys L.sum k).map (fun i => cell .none t c i) ≠ [] := by
    intro keys k h
    obtain ⟨i, hi, rfl⟩ := List.mem_map.1 h
    apply List.ne_nil_of_mem (a := cell .none t c i)
    exact List.mem_map.2 ⟨i, List.mem_filter.2 ⟨hi, by simp [keyAt]⟩, rfl⟩
  have hex : ∀ (keys : List ν), (∀ i j, (keys.map fun a => cell .none t a i) = (keys.map fun a => cell .none t a j) → (K1.map fun a => cell .none t a i) = (K1.map fun a => cell .none t a j)) →
      ∃ G : List GVal → GVal, ∀ k ∈ keyRows .none t keys L.sum, accRun sqrt f ((rowsWith .none t keys L.sum k).map fun i => cell .none t c i) = .ok (G k) ∧
        G k ∈ (rowsWith .none t keys L.sum k).map (fun i => cell .none t c i) ∧ ∀ x ∈ (rowsWith .none t keys L.sum k).map (fun i => cell .none t c i), less (G k) x = false := by
    intro keys hkeys
    classical
    have : ∀ k, ∃ v, k ∈ keyRows .none t keys L.sum → accRun sqrt f ((rowsWith .none t keys L.sum k).map fun i => cell .none t c i) = .ok v ∧
        v ∈ (rowsWith .none t keys L.sum k).map (fun i => cell .none t c i) ∧ ∀ x ∈ (rowsWith .none t keys L.sum k).map (fun i => cell .none t c i), less v x = false := by
      intro k
      by_cases h : k ∈ keyRows .none t keys L.sum
      · obtain ⟨v, hv⟩ := hf _ (hsk keys hkeys k) (hne keys k h)
        exact ⟨v, fun _ => hv⟩
      · exact ⟨.none, fun h' => absurd h' h⟩
    choose G hG using this
    exact ⟨G, fun k => hG k⟩
  obtain ⟨G, hG⟩ := hex (K1 ++ K2) fun i j h => hpre h
  obtain ⟨H, hH⟩ := hex K1 fun i j h => h
  have hin : ∀ k x, x ∈ (firstOccs (keyRows .none t (K1 ++ K2) L.sum)).filter (fun x => x.take K1.length = k) →
      x ∈ keyRows .none t (K1 ++ K2) L.sum ∧ ∀ i ∈ rowsWith .none t (K1 ++ K2) L.sum x, i ∈ rowsWith .none t K1 L.sum k := by
    intro k x hx
    refine ⟨mem_firstOccs.1 (List.mem_filter.1 hx).1, fun i hi => ?_⟩
    rw [finer_groups, mem_firstOccs] at hx
    rw [finer_rows _ t L.sum K1 K2 k x hx] at hi
    exact (List.mem_filter.1 hi).1
  have hval : ∀ k ∈ keyRows .none t K1 L.sum, accRun sqrt f (((firstOccs (keyRows .none t (K1 ++ K2) L.sum)).filter fun x => x.take K1.length = k).map G) = .ok (H k) := by
    intro k hkk
    have hGin : ∀ x ∈ (firstOccs (keyRows .none t (K1 ++ K2) L.sum)).filter (fun x => x.take K1.length = k), G x ∈ (rowsWith .none t K1 L.sum k).map fun i => cell .none t c i := by
      intro x hx
      obtain ⟨h1, h2⟩ := hin k x hx
      obtain ⟨i, hi, e⟩ := List.mem_map.1 (hG x h1).2.1
      exact List.mem_map.2 ⟨i, h2 i hi, e⟩
    have hfin : ∀ i ∈ rowsWith .none t K1 L.sum k, ∃ x ∈ (firstOccs (keyRows .none t (K1 ++ K2) L.sum)).filter (fun x => x.take K1.length = k), i ∈ rowsWith .none t (K1 ++ K2) L.sum x := by
      intro i hi
      refine ⟨(K1 ++ K2).map fun a => cell .none t a i, ?_, List.mem_filter.2 ⟨List.mem_range.2 (mem_rowsWith hi), by simp [keyAt]⟩⟩
      rw [finer_groups, mem_firstOccs]
      exact List.mem_map.2 ⟨i, hi, rfl⟩
    have hsame := hsk K1 (fun i j h => h) k
    have hsk2 : SameKind (((firstOccs (keyRows .none t (K1 ++ K2) L.sum)).filter fun x => x.take K1.length = k).map G) := by
      intro a ha b hb
      obtain ⟨x, hx, rfl⟩ := List.mem_map.1 ha
      obtain ⟨y, hy, rfl⟩ := List.mem_map.1 hb
      exact hsame _ (hGin x hx) _ (hGin y hy)
    obtain ⟨h1, h2, h3⟩ := hH k hkk
    obtain ⟨i, hi, e⟩ := List.mem_map.1 h2
    obtain ⟨x, hx, hix⟩ := hfin i hi
    obtain ⟨v, v1, v2, v3⟩ := hf _ hsk2 (List.ne_nil_of_mem (List.mem_map.2 ⟨x, hx, rfl⟩))
    rw [v1]
    obtain ⟨y, hy, rfl⟩ := List.mem_map.1 v2
    congr 1
    apply hanti
    · exact hsame _ (hGin y hy) _ h2
    · have hGx := hGin x hx
      refine htrans _ (G x) _ (hsame _ (hGin y hy) _ hGx) (hsame _ hGx _ h2) (v3 _ (List.mem_map.2 ⟨x, hx, rfl⟩)) ?_
      rw [← e]
      exact (hG x (hin k x hx).1).2.2 _ (List.mem_map.2 ⟨i, hix, rfl⟩)
    · exact h3 _ (hGin y hy)
  obtain ⟨g, r, g1, r1, r2⟩ := rollup GVal.none accInit accUpdate (accValue sqrt) nm ps hps t L K1 K2 c f f ha hnd hnd2 G H (fun k h => (hG k h).1) hval
  obtain ⟨s, s1, s2⟩ := C33_partial .none accInit accUpdate (accValue sqrt) nm ps hps t L K1 [(c, f)] (by
      intro a h
      apply ha
      simp only [List.map_cons, List.map_nil, List.mem_append, List.mem_singleton] at h ⊢
      tauto) (by simp) (by
      refine List.Nodup.sublist ?_ hnd
      simp) (fun _ => H) (by
      intro x hx k hk
      simp only [List.mem_singleton] at hx
      subst hx
      exact (hH k hk).1)
  refine ⟨g, r, s, _, _, g1, r1, s1, r2, ?_⟩
  rw [s2]
  simp only [groupView, List.map_cons, List.map_nil]

/-- **C112** the maximum of the maxima of finer groups is the maximum by the coarser keys -/
theorem C112_rollup_max (sqrt : Rat → Rat) (nm : Acc → ν → ν) (ps : Nat) (hps : 0 < ps) (t : Tbl ν GVal) (L : List Nat) (K1 K2 : List ν) (c : ν) (ha : AlignedOn t L (K1 ++ K2 ++ [c]))
    (hnd : (K1 ++ K2 ++ [nm .max c]).Nodup) (hnd2 : nm .max (nm .max c) ∉ K1)
    (hk : ∀ i < L.sum, ∀ j < L.sum, (K1.map fun a => cell .none t a i) = (K1.map fun a => cell .none t a j) → (cell .none t c i).kind = (cell .none t c j).kind) :
    ∃ g r s ks vals, groupbyG sqrt nm ps t (K1 ++ K2) [(c, .max)] = .ok g ∧ groupbyG sqrt nm ps g K1 [(nm .max c, .max)] = .ok r ∧ groupbyG sqrt nm ps t K1 [(c, .max)] = .ok s ∧
      tview r = ks ++ [(nm .max (nm .max c), vals)] ∧ tview s = ks ++ [(nm .max c, vals)] :=
  rollup_limit sqrt .max GVal.lt (C34_max sqrt) (fun _ _ => lt_antisymm') (fun _ _ _ => lt_neg_trans) nm ps hps t L K1 K2 c ha hnd hnd2 hk

/-- **C112** the minimum of the minima of finer groups is the minimum by the coarser keys -/
theorem C112_rollup_min (sqrt : Rat → Rat) (nm : Acc → ν → ν) (ps : Nat) (hps : 0 < ps) (t : Tbl ν GVal) (L : List Nat) (K1 K2 : List ν) (c : ν) (ha : AlignedOn t L (K1 ++ K2 ++ [c]))
    (hnd : (K1 ++ K2 ++ [nm .min c]).Nodup) (hnd2 : nm .min (nm .min c) ∉ K1)
    (hk : ∀ i < L.sum, ∀ j < L.sum, (K1.map fun a => cell .none t a i) = (K1.map fun a => cell .none t a j) → (cell .none t c i).kind = (cell .none t c j).kind) :
    ∃ g r s ks vals, groupbyG sqrt nm ps t (K1 ++ K2) [(c, .min)] = .ok g ∧ groupbyG sqrt nm ps g K1 [(nm .min c, .min)] = .ok r ∧ groupbyG sqrt nm ps t K1 [(c, .min)] = .ok s ∧
      tview r = ks ++ [(nm .min (nm .min c), vals)] ∧ tview s = ks ++ [(nm .min c, vals)] :=
  rollup_limit sqrt .min (fun a b => GVal.lt b a) (C34_min sqrt) (fun _ _ h h1 h2 => lt_antisymm' h h2 h1) (fun _ _ _ h1 h2 h3 h4 => lt_neg_trans h2.symm h1.symm h4 h3)
    nm ps hps t L K1 K2 c ha hnd hnd2 hk

end

section
variable {ν α σ φ : Type} [DecidableEq ν] [DecidableEq α]

/-- distinct values are the values at positions where no earlier one is the same -/
theorem firstOccs_positions {κ : Type} [DecidableEq κ] (f : Nat → κ) (n : Nat) :
    firstOccs ((List.range n).map f) = ((List.range n).filter fun i => (List.range i).all fun j => decide (f j ≠ f i)).map f := by
  induction n with
  | zero => rfl
  | succ n ih =>
    rw [List.range_succ, List.map_append, List.map_singleton, firstOccs_snoc, ih, List.filter_append, List.map_append]
    by_cases h : f n ∈ (List.range n).map f
    · rw [if_pos h]
      have : (List.range n).all (fun j => decide (f j ≠ f n)) = false := by
        obtain ⟨j, hj, e⟩ := List.mem_map.1 h
        rw [List.all_eq_false]
        exact ⟨j, hj, by simp [e]⟩
      rw [List.filter_cons_of_neg (by rw [this]; simp)]
      simp
    · rw [if_neg h]
      have : (List.range n).all (fun j => decide (f j ≠ f n)) = true := by
        rw [List.all_eq_true]
        intro j hj
        rw [decide_eq_true_eq]
        exact fun e => h (List.mem_map.2 ⟨j, hj, e⟩)
      rw [List.filter_cons_of_pos (by exact this)]
      simp

/-- **C112** a group-by without functions is `drop_duplicates` of the key columns -/
theorem C112_distinct {η : Type} [DecidableEq η] (hash : List α → η) (nul : α) (init : φ → σ) (upd : φ → σ → α → Except Err σ) (val : φ → σ → Except Err α) (nm : φ → ν → ν) (ps : Nat) (hps : 0 < ps)
    (t : Tbl ν α) (L : List Nat) (keys : List ν) (ha : ∀ a ∈ keys, ∃ p, dGet a t = some p ∧ p.map List.length = L) (hne : keys ≠ []) (hnd : keys.Nodup)
    (hinj : ∀ i < L.sum, ∀ j < L.sum, hash (keys.map fun a => cell nul t a i) = hash (keys.map fun a => cell nul t a j) → (keys.map fun a => cell nul t a i) = keys.map fun a => cell nul t a j) :
    ∃ g d, groupby nul init upd val nm ps t keys [] = .ok g ∧ dropDuplicates hash ps nul (subTable t keys) [] = .ok d ∧ tview g = tview d := by
  have hsn : (subTable t keys).map (·.1) = keys := by
    unfold subTable
    rw [List.map_map]
    exact List.map_id _
  have hsr : Rect (subTable t keys) L.sum := by
    intro c hc
    obtain ⟨a, h, rfl⟩ := List.mem_map.1 hc
    obtain ⟨p, h1, h2⟩ := ha a h
    rw [h1, colLen_eq, ← h2, List.length_flatten]
    rfl
  have hrow : ∀ i, rowAt nul (subTable t keys) i = keys.map fun a => cell nul t a i := by
    intro i
    unfold rowAt subTable
    rw [List.map_map]
    apply List.map_congr_left
    intro a h
    obtain ⟨p, h1, -⟩ := ha a h
    simp only [Function.comp, cell, h1]
    rfl
  obtain ⟨d, d1, d2⟩ := dropDup_view hash ps hps nul (subTable t keys) L.sum (by unfold TblWF; rw [hsn]; exact hnd) hsr (by unfold subTable; simpa using hne)
    (by intro i hi j hj; rw [hrow, hrow]; exact hinj i hi j hj)
  obtain ⟨g, g1, g2⟩ := C33_partial nul init upd val nm ps hps t L keys [] (by simpa using ha) (by simpa using hne) (by simpa using hnd) (fun _ _ => nul) (by simp)
  refine ⟨g, d, g1, d1, ?_⟩
  rw [g2, d2]
  simp only [groupView, List.map_nil, List.append_nil]
  have e : firstOccs (keyRows nul t keys L.sum) = ((List.range L.sum).filter (isFirst nul (subTable t keys))).map fun i => keys.map fun a => cell nul t a i := by
    unfold keyRows
    rw [firstOccs_positions]
    congr 2
    funext i
    simp only [isFirst, hrow]
  rw [e]
  unfold rowsOf
  apply List.ext_getElem
  · unfold subTable; simp
  · intro i h1 h2
    have hi : i < keys.length := by simpa using h1
    obtain ⟨p, hp, -⟩ := ha _ (List.getElem_mem hi)
    simp only [subTable, List.getElem_map, List.getElem_zipIdx, List.map_map, Function.comp, Prod.mk.injEq, true_and]
    apply List.map_congr_left
    intro j _
    simp [List.getD_eq_getElem?_getD, List.getElem?_eq_getElem hi, cell, hp]

end

/-! ## Examples -/

/-- sales by region and shop -/
def sales : Tbl String GVal :=
  [("region", [[.str "n", .str "s"], [.str "n"]]), ("shop", [[.int 1, .int 1], [.int 2]]), ("amount", [[.int 5, .float 7], [.int 9]])]

example : AlignedOn sales [2, 1] (["region"] ++ ["shop"] ++ ["amount"]) ∧ (["region"] ++ ["shop"] ++ [accName .sum "amount"]).Nodup ∧ accName .sum (accName .sum "amount") ∉ ["region"] := by
  refine ⟨?_, by decide +kernel, by decide +kernel⟩
  intro a ha
  simp only [List.cons_append, List.nil_append, List.mem_cons, List.not_mem_nil, or_false] at ha
  rcases ha with rfl | rfl | rfl
  · exact ⟨[[.str "n", .str "s"], [.str "n"]], by decide +kernel, by decide⟩
  · exact ⟨[[.int 1, .int 1], [.int 2]], by decide +kernel, by decide⟩
  · exact ⟨[[.int 5, .float 7], [.int 9]], by decide +kernel, by decide⟩

example : ∀ i < [2, 1].sum, IsNum (cell .none sales "amount" i) ([5, 7, 9].getD i 0) := by
  intro i hi
  have : i < 3 := hi
  obtain rfl | rfl | rfl : i = 0 ∨ i = 1 ∨ i = 2 := by omega
  · exact Or.inr ⟨5, by decide +kernel, by norm_num⟩
  · exact Or.inl (by decide +kernel)
  · exact Or.inr ⟨9, by decide +kernel, by norm_num⟩

example : firstOccs (keyRows .none sales ["region", "shop"] 3) = [[.str "n", .int 1], [.str "s", .int 1], [.str "n", .int 2]] ∧
    firstOccs (keyRows .none sales ["region"] 3) = [[.str "n"], [.str "s"]] ∧ rowsWith .none sales ["region"] 3 [.str "n"] = [0, 2] := by decide +kernel

end Tablite
