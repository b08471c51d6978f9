import Verif.Props.Nearest
import Mathlib.Algebra.Order.Field.Basic
/-!
# C143: which row a missing value is taken from
-/
namespace Tablite
set_option linter.unusedSectionVars false

/-! ## the smallest distance -/

theorem foldl_min_le (l : List (Option Rat)) (m : Option Rat) (e : Rat) (h : some e ∈ m :: l) :
    ∃ d, l.foldl (fun m x => if distLt x m then x else m) m = some d ∧ d ≤ e := by
  induction l generalizing m e with
  | nil =>
    rcases List.mem_cons.1 h with h | h
    · exact ⟨e, h.symm, le_refl _⟩
    · cases h
  | cons x l ih =>
    rw [List.foldl_cons]
    by_cases hl : some e ∈ l
    · exact ih _ _ (List.mem_cons_of_mem _ hl)
    · have hmx : some e = m ∨ some e = x := by
        rcases List.mem_cons.1 h with h | h
        · exact .inl h
        · rcases List.mem_cons.1 h with h | h
          · exact .inr h
          · exact absurd h hl
      have step : ∀ b, b ≤ e → ∃ d, l.foldl (fun m x => if distLt x m then x else m) (some b) = some d ∧ d ≤ e := by
        intro b hb
        obtain ⟨d, h1, h2⟩ := ih (some b) b List.mem_cons_self
        exact ⟨d, h1, le_trans h2 hb⟩
      rcases hmx with rfl | rfl
      · cases x with
        | none => exact step e (le_refl _)
        | some b =>
          by_cases hb : b < e
          · rw [if_pos (by simpa [distLt] using hb)]
            exact step b hb.le
          · rw [if_neg (by simpa [distLt] using hb)]
            exact step e (le_refl _)
      · cases m with
        | none => exact step e (le_refl _)
        | some b =>
          by_cases hb : e < b
          · rw [if_pos (by simpa [distLt] using hb)]
            exact step e (le_refl _)
          · rw [if_neg (by simpa [distLt] using hb)]
            exact step b (not_lt.1 hb)

theorem firstPlace_le (l : List (Option Rat)) (j : Nat) (x : Option Rat) (h : l[j]? = some x) : l.idxOf x ≤ j := by
  induction l generalizing j with
  | nil => simp at h
  | cons y l ih =>
    rw [List.idxOf_cons]
    by_cases e : y = x
    · simp [e]
    · cases j with
      | zero => exact absurd (by simpa using h) e
      | succ j =>
        have := ih j (by simpa using h)
        rw [show (y == x) = false by simpa using e]
        simp only [cond_false]
        omega

/-- the place `argMin` finds has the smallest distance and is the first such place -/
theorem argMin_first (l : List (Option Rat)) (j : Nat) (e : Rat) (h : l[j]? = some (some e)) :
    ∃ d, l[argMin l]? = some (some d) ∧ (d < e ∨ (d = e ∧ argMin l ≤ j)) := by
  have hl : l ≠ [] := by rintro rfl; simp at h
  have hm : ∃ d, minDist l = some d ∧ d ≤ e := by
    cases l with
    | nil => exact absurd rfl hl
    | cons x l => exact foldl_min_le l x e (List.mem_of_getElem? h)
  obtain ⟨d, h1, h2⟩ := hm
  refine ⟨d, by rw [argMin_get l hl, h1], ?_⟩
  rcases lt_or_eq_of_le h2 with h3 | h3
  · exact .inl h3
  · refine .inr ⟨h3, ?_⟩
    unfold argMin
    rw [h1, h3]
    by_contra hc
    obtain ⟨hj, e'⟩ := List.getElem?_eq_some_iff.1 h
    have := firstPlace_le l j _ h
    omega

section
variable {ν α : Type} [DecidableEq ν] [DecidableEq α]

/-- the value of a row as the loop sees it: the value remembered for it, or the original one -/
def seen (sp : Sparse ν α) (a : ν) (col : List α) (r : Nat) : Option α := (sp a r).or col[r]?

theorem seen_put (sp : Sparse ν α) (a : ν) (col : List α) (i : Nat) (v : α) (r : Nat) : seen (sp.put a i v) a col r = if r = i then some v else seen sp a col r := by
  unfold seen Sparse.put
  by_cases h : r = i <;> simp [h]

theorem nnFetch_seen (sp : Sparse ν α) (a : ν) (col : List α) (i : Nat) (v : α) (h : seen sp a col i = some v) :
    ∃ sp', nnFetch a col i sp = .ok (v, sp') ∧ ∀ r, seen sp' a col r = seen sp a col r := by
  unfold nnFetch
  cases hs : sp a i with
  | some w =>
    have : w = v := by simpa [seen, hs] using h
    subst this
    exact ⟨sp, rfl, fun _ => rfl⟩
  | none =>
    have hc : col[i]? = some v := by simpa [seen, hs] using h
    dsimp only
    rw [hc]
    refine ⟨_, rfl, fun r => ?_⟩
    rw [seen_put]
    split_ifs with hr
    · rw [hr, h]
    · rfl

/-- a row other than `i` with a value that is not missing -/
def Usable (missing : List α) (f : Nat → Option α) (i j : Nat) : Prop := j ≠ i ∧ ∃ w, f j = some w ∧ w ∉ missing

/-- `j` is the first of the nearest usable rows -/
def FirstNearest (missing : List α) (f : Nat → Option α) (n i : Nat) (dist : Nat → Rat) (j : Nat) : Prop :=
  j < n ∧ Usable missing f i j ∧ ∀ k, k < n → Usable missing f i k → dist j < dist k ∨ (dist j = dist k ∧ j ≤ k)

theorem nnSearch_near (missing : List α) (i : Nat) (a : ν) (col : List α) (dist : Nat → Rat) (fuel : Nat) (errs : List (Option Rat)) (sp : Sparse ν α) (hl : errs.length = col.length)
    (hd : ∀ j e, errs[j]? = some (some e) → e = dist j) (hrem : ∀ j, errs[j]? = some none → ¬ Usable missing (seen sp a col) i j)
    (hex : ∃ j, j < col.length ∧ Usable missing (seen sp a col) i j) (hfuel : errs.countP Option.isSome ≤ fuel) :
    ∃ j v sp', nnSearch missing i a col fuel errs sp = .ok (some v, sp') ∧ (∀ r, seen sp' a col r = seen sp a col r) ∧ seen sp a col j = some v ∧
      FirstNearest missing (seen sp a col) col.length i dist j := by
  have fin : ∀ j, j < col.length → Usable missing (seen sp a col) i j → errs[j]? = some (some (dist j)) := by
    intro j hj hu
    have hje : errs[j]? = some errs[j] := List.getElem?_eq_getElem (by omega)
    cases he : errs[j] with
    | none => exact absurd hu (hrem j (by rw [hje, he]))
    | some e => rw [hje, he, hd j e (by rw [hje, he])]
  induction fuel generalizing errs sp with
  | zero =>
    obtain ⟨j, hj, hu⟩ := hex
    have : 0 < errs.countP Option.isSome := List.countP_pos_iff.2 ⟨some (dist j), List.mem_of_getElem? (fin j hj hu), rfl⟩
    omega
  | succ fuel ih =>
    obtain ⟨j0, hj0, hu0⟩ := hex
    obtain ⟨d0, hm, -⟩ := argMin_first errs j0 _ (fin j0 hj0 hu0)
    have hlt : argMin errs < col.length := by rw [← hl]; exact (List.getElem?_eq_some_iff.1 hm).1
    have hsee : ∃ v, seen sp a col (argMin errs) = some v := by
      unfold seen
      cases sp a (argMin errs) with
      | some v => exact ⟨v, rfl⟩
      | none => exact ⟨_, List.getElem?_eq_getElem hlt⟩
    obtain ⟨v, hv⟩ := hsee
    obtain ⟨sp1, h1, h2⟩ := nnFetch_seen sp a col _ v hv
    have hfun : seen sp1 a col = seen sp a col := funext h2
    rw [nnSearch, h1]
    dsimp only [Except.bind]
    split_ifs with hb
    · have hnot : ¬ Usable missing (seen sp a col) i (argMin errs) := by
        rintro ⟨hne, w, hw, hwm⟩
        rcases hb with hb | hb
        · exact hne hb.symm
        · rw [hv] at hw; cases hw; exact hwm hb
      obtain ⟨j, v', sp2, g1, g2, g3, g4⟩ := ih (errs.set (argMin errs) none) sp1 (by rw [List.length_set]; exact hl) (by
          intro j e he
          rw [List.getElem?_set] at he
          split_ifs at he with h3 h4
          · cases he
          · exact hd j e he) (by
          intro j he
          rw [hfun]
          rw [List.getElem?_set] at he
          split_ifs at he with h3 h4
          · rw [← h3]; exact hnot
          · exact hrem j he) (by rw [hfun]; exact ⟨j0, hj0, hu0⟩) (by
          have := countP_set_none errs (argMin errs) d0 hm
          omega) (by
          intro j hj hu
          rw [hfun] at hu
          rw [List.getElem?_set_ne (by rintro rfl; exact hnot hu)]
          exact fin j hj hu)
      rw [hfun] at g2 g3 g4
      exact ⟨j, v', sp2, g1, g2, g3, g4⟩
    · rw [not_or] at hb
      refine ⟨argMin errs, v, sp1, rfl, h2, hv, hlt, ⟨fun e => hb.1 e.symm, v, hv, hb.2⟩, ?_⟩
      intro k hk hu
      obtain ⟨d, k1, k2⟩ := argMin_first errs k _ (fin k hk hu)
      rw [← hd _ _ k1]
      exact k2

theorem nnCell_near (missing : List α) (i : Nat) (a : ν) (col : List α) (dist : Nat → Rat) (errs : List (Option Rat)) (sp : Sparse ν α) (cur : α) (hl : errs.length = col.length)
    (hd : ∀ j, j < col.length → errs[j]? = some (some (dist j))) (hcur : cur ∈ missing) (hi : seen sp a col i = some cur)
    (hex : ∃ j, j < col.length ∧ Usable missing (seen sp a col) i j) :
    ∃ j v sp', nnCell missing errs i a col cur sp = .ok (v, sp') ∧ (∀ r, seen sp' a col r = if r = i then some v else seen sp a col r) ∧ seen sp a col j = some v ∧
      FirstNearest missing (seen sp a col) col.length i dist j := by
  unfold nnCell
  rw [if_neg (not_not.2 hcur)]
  obtain ⟨j0, hj0, hu0⟩ := hex
  obtain ⟨d0, hm, -⟩ := argMin_first errs j0 _ (hd j0 hj0)
  have hlt : argMin errs < col.length := by rw [← hl]; exact (List.getElem?_eq_some_iff.1 hm).1
  have hsee : ∃ v, seen sp a col (argMin errs) = some v := by
    unfold seen
    cases sp a (argMin errs) with
    | some v => exact ⟨v, rfl⟩
    | none => exact ⟨_, List.getElem?_eq_getElem hlt⟩
  obtain ⟨v, hv⟩ := hsee
  obtain ⟨sp1, h1, h2⟩ := nnFetch_seen sp a col _ v hv
  have hfun : seen sp1 a col = seen sp a col := funext h2
  rw [h1]
  dsimp only [Except.bind]
  split_ifs with hb
  rotate_left
  · refine ⟨argMin errs, v, _, rfl, fun r => by rw [seen_put, h2], hv, hlt, ⟨?_, v, hv, hb⟩, ?_⟩
    · rintro e
      rw [e, hi] at hv
      cases hv
      exact hb hcur
    · intro k hk hu
      obtain ⟨d, k1, k2⟩ := argMin_first errs k _ (hd k hk)
      rw [hd _ hlt] at k1
      cases k1
      exact k2
  · obtain ⟨j, v', sp2, g1, g2, g3, g4⟩ := nnSearch_near missing i a col dist errs.length errs sp1 hl (by
        intro j e he
        rw [hd j (by rw [← hl]; exact (List.getElem?_eq_some_iff.1 he).1)] at he
        cases he; rfl) (by
        intro j he
        rw [hd j (by rw [← hl]; exact (List.getElem?_eq_some_iff.1 he).1)] at he
        cases he) (by rw [hfun]; exact ⟨j0, hj0, hu0⟩) List.countP_le_length
    rw [hfun] at g2 g3 g4
    rw [g1]
    exact ⟨j, v', _, rfl, fun r => by rw [seen_put, g2], g3, g4⟩

theorem mapM_each_ok' {β γ : Type} (f : β → Except Err γ) (g : β → γ) (l : List β) (h : ∀ x ∈ l, f x = .ok (g x)) : l.mapM f = .ok (l.map g) := by
  induction l with
  | nil => rfl
  | cons a l ih => rw [List.mapM_cons, h a List.mem_cons_self, ih fun x hx => h x (List.mem_cons_of_mem _ hx)]; rfl

/-! ## distances -/

/-- the values of a column -/
def valuesOf (t : Tbl ν α) (b : ν) : List α := colIter ((dGet b t).getD [])

/-- Spec: the rank of a value among the distinct values of a column, as a part of the number of those that are not missing -/
def normRank (sortVals : List α → List α) (missing col : List α) (v : α) : Rat :=
  ((sortVals (firstOccs col)).idxOf v : Rat) / (((firstOccs col).filter fun v => v ∉ missing).length : Rat)

/-- Spec: the distance of two rows: the sum of the differences of the ranks of their values in the source columns -/
def rowDist (sortVals : List α → List α) (missing : List α) (nul : α) (t : Tbl ν α) (sources : List ν) (i j : Nat) : Rat :=
  (sources.map fun b => |normRank sortVals missing (valuesOf t b) (cell nul t b i) - normRank sortVals missing (valuesOf t b) (cell nul t b j)|).sum

theorem dGet_zipIdx_rank {β : Type} (l : List α) (g : α × Nat → β) (k : Nat) (v : α) (hv : v ∈ l) : dGet v ((l.zipIdx k).map fun x => (x.1, g x)) = some (g (v, k + l.idxOf v)) := by
  induction l generalizing k with
  | nil => cases hv
  | cons x l ih =>
    rw [List.zipIdx_cons, List.map_cons, List.idxOf_cons]
    by_cases e : x = v
    · subst e
      simp [dGet]
    · have hv' : v ∈ l := (List.mem_cons.1 hv).resolve_left fun h => e h.symm
      rw [show (x == v) = false by simpa using e]
      simp only [dGet, e, if_false, cond_false]
      rw [ih (k + 1) hv', Nat.add_assoc, Nat.add_comm 1]

theorem normAt_rank (sortVals : List α → List α) (hsv : ∀ l, (sortVals l).Perm l) (missing col : List α) (v : α) (hv : v ∈ col) :
    normAt (normMap missing (sortVals (firstOccs col))) v = .ok (if v ∉ missing then some (normRank sortVals missing col v) else none) := by
  have hm : v ∈ sortVals (firstOccs col) := (hsv _).mem_iff.2 (mem_firstOccs.2 hv)
  unfold normAt normMap
  dsimp only
  rw [dGet_zipIdx_rank (sortVals (firstOccs col)) (fun x => if x.1 ∉ missing then some ((x.2 : Rat) / (((sortVals (firstOccs col)).filter fun v => v ∉ missing).length : Rat)) else none) 0 v hm]
  dsimp only
  rw [((hsv (firstOccs col)).filter _).length_eq, Nat.zero_add]
  rfl

theorem addErrs_get (nv : Rat) (es ds : List (Option Rat)) (j : Nat) (e d : Rat) (he : es[j]? = some (some e)) (hd : ds[j]? = some (some d)) : (addErrs nv es ds)[j]? = some (some (e + |nv - d|)) := by
  induction es generalizing ds j with
  | nil => simp at he
  | cons x es ih =>
    cases ds with
    | nil => simp at hd
    | cons y ds =>
      cases j with
      | zero =>
        simp only [List.getElem?_cons_zero, Option.some.injEq] at he hd
        subst he hd
        rfl
      | succ j => exact ih ds j (by simpa using he) (by simpa using hd)

/-- page `k` and place `p` in it are row `r` -/
def PlaceOf (lens : List Nat) (k p r : Nat) : Prop := ∃ m, lens[k]? = some m ∧ p < m ∧ r = (lens.take k).sum + p

theorem PlaceOf.get {l : Pages α} {k p r : Nat} (h : PlaceOf (l.map List.length) k p r) :
    ∃ pg, l[k]? = some pg ∧ p < pg.length ∧ pg[p]? = l.flatten[r]? ∧ r < l.flatten.length ∧ ∀ v, (l.set k (pg.set p v)).flatten = l.flatten.set r v := by
  obtain ⟨m, h1, h2, h3⟩ := h
  induction l generalizing k r with
  | nil => simp at h1
  | cons q l ih =>
    cases k with
    | zero =>
      simp only [List.map_cons, List.getElem?_cons_zero, Option.some.injEq] at h1
      simp only [List.take_zero, List.sum_nil, Nat.zero_add] at h3
      subst h3
      refine ⟨q, rfl, by omega, ?_, ?_, ?_⟩
      · rw [List.flatten_cons, List.getElem?_append_left (by omega)]
      · rw [List.flatten_cons, List.length_append]; omega
      · intro v
        rw [List.set_cons_zero, List.flatten_cons, List.flatten_cons, List.set_append_left _ _ (by omega)]
    | succ k =>
      simp only [List.map_cons, List.getElem?_cons_succ] at h1
      simp only [List.map_cons, List.take_succ_cons, List.sum_cons] at h3
      obtain ⟨pg, g1, g2, g3, g4, g5⟩ := ih h1 rfl
      have hr : r = q.length + (((l.map List.length).take k).sum + p) := by omega
      refine ⟨pg, g1, g2, ?_, ?_, ?_⟩
      · rw [List.flatten_cons, hr, List.getElem?_append_right (by omega), Nat.add_sub_cancel_left]; exact g3
      · rw [List.flatten_cons, List.length_append]; omega
      · intro v
        rw [List.set_cons_succ, List.flatten_cons, List.flatten_cons, g5, hr, List.set_append_right _ _ (by omega), Nat.add_sub_cancel_left]

/-- a source column as the loop has it -/
structure SrcNear (sortVals : List α → List α) (missing : List α) (nul : α) (t : Tbl ν α) (n : Nat) (a : ν) (lens : List Nat) (b : ν) (s : NNSource ν α) : Prop where
  other : b ≠ a → ∀ k p r, PlaceOf lens k p r → nnAt k p s = .ok (some (normRank sortVals missing (valuesOf t b) (cell nul t b r)), s.values)
  own : b = a → ∀ k p r, PlaceOf lens k p r → cell nul t a r ∈ missing → nnAt k p s = .ok (none, s.values)
  vals : b ≠ a → ∀ j, j < n → s.values[j]? = some (some (normRank sortVals missing (valuesOf t b) (cell nul t b j)))

theorem nnSource_near (sortVals : List α → List α) (hsv : ∀ l, (sortVals l).Perm l) (missing : List α) (nul : α) (t : Tbl ν α) (n : Nat) (hr : Rect t n)
    (a b : ν) (hb : b ∈ t.map (·.1)) (hal : pageLens t b = pageLens t a) (hcl : b ≠ a → ∀ i < n, cell nul t b i ∉ missing) :
    ∃ s, nnSource sortVals missing t b = .ok s ∧ SrcNear sortVals missing nul t n a (pageLens t a) b s ∧ s.pages.map List.length = pageLens t a := by
  obtain ⟨pb, hpb⟩ := Option.isSome_iff_exists.1 ((dGet_isSome b t).2 hb)
  have hlb : (colIter pb).length = n := by
    have := hr _ (dGet_mem b t pb hpb)
    rw [colLen_eq] at this
    rw [colIter_eq]; exact this
  have hval : valuesOf t b = colIter pb := by unfold valuesOf; rw [hpb]; rfl
  have hcell : ∀ j, j < n → (colIter pb)[j]? = some (cell nul t b j) := by
    intro j hj
    unfold cell
    rw [hpb]
    show _ = some ((colIter pb).getD j nul)
    rw [List.getD_eq_getElem?_getD, List.getElem?_eq_getElem (by omega)]
    rfl
  have hlens : pb.map List.length = pageLens t a := by rw [← hal]; unfold pageLens; rw [hpb]; rfl
  have hmap : (colIter pb).mapM (normAt (normMap missing (sortVals (firstOccs (colIter pb))))) =
      .ok ((colIter pb).map fun v => if v ∉ missing then some (normRank sortVals missing (colIter pb) v) else none) :=
    mapM_each_ok' _ _ _ fun v hv => normAt_rank sortVals hsv missing (colIter pb) v hv
  refine ⟨⟨b, pb, normMap missing (sortVals (firstOccs (colIter pb))),
    (colIter pb).map fun v => if v ∉ missing then some (normRank sortVals missing (colIter pb) v) else none⟩, ?_, ⟨?_, ?_, ?_⟩, hlens⟩
  · unfold nnSource
    rw [hpb]
    dsimp only
    rw [hmap]
    rfl
  · intro hne k p r hp
    rw [← hlens] at hp
    obtain ⟨pg, g1, g2, g3, g4, -⟩ := hp.get
    rw [← colIter_eq] at g3 g4
    rw [hcell r (by omega)] at g3
    unfold nnAt
    rw [g1]
    dsimp only
    rw [g3]
    dsimp only
    rw [normAt_rank sortVals hsv missing (colIter pb) _ (List.mem_of_getElem? (hcell r (by omega))), if_pos (hcl hne r (by omega)), hval]
    rfl
  · rintro rfl k p r hp hm
    rw [← hlens] at hp
    obtain ⟨pg, g1, g2, g3, g4, -⟩ := hp.get
    rw [← colIter_eq] at g3 g4
    rw [hcell r (by omega)] at g3
    unfold nnAt
    rw [g1]
    dsimp only
    rw [g3]
    dsimp only
    rw [normAt_rank sortVals hsv missing (colIter pb) _ (List.mem_of_getElem? (hcell r (by omega))), if_neg (not_not.2 hm)]
    rfl
  · intro hne j hj
    rw [List.getElem?_map, hcell j hj, Option.map_some, if_pos (hcl hne j hj), hval]

theorem nnErrs_near {sortVals : List α → List α} {missing : List α} {nul : α} {t : Tbl ν α} {n : Nat} {a : ν} {lens : List Nat} {sources : List ν} {srcs : List (NNSource ν α)}
    (h : List.Forall₂ (SrcNear sortVals missing nul t n a lens) sources srcs) (k p r : Nat) (hp : PlaceOf lens k p r) (hm : cell nul t a r ∈ missing) :
    ∃ errs, nnErrs srcs n k p = .ok errs ∧ errs.length = n ∧ ∀ j, j < n → errs[j]? = some (some (rowDist sortVals missing nul t (sources.filter fun b => b ≠ a) r j)) := by
  have key : ∃ row, srcs.mapM (nnAt k p) = .ok row ∧ ∀ (errs : List (Option Rat)) (e0 : Nat → Rat), errs.length = n → (∀ j, j < n → errs[j]? = some (some (e0 j))) →
      (row.foldl nnAdd errs).length = n ∧ ∀ j, j < n → (row.foldl nnAdd errs)[j]? = some (some (e0 j + rowDist sortVals missing nul t (sources.filter fun b => b ≠ a) r j)) := by
    induction h with
    | nil =>
      refine ⟨[], rfl, fun errs e0 h1 h2 => ⟨h1, fun j hj => ?_⟩⟩
      simp only [List.foldl_nil, List.filter_nil, rowDist, List.map_nil, List.sum_nil, add_zero]
      exact h2 j hj
    | @cons b s bs ss hs _ ih =>
      obtain ⟨row, h1, h2⟩ := ih
      by_cases hba : b = a
      · refine ⟨(none, s.values) :: row, by rw [List.mapM_cons, hs.own hba k p r hp hm, h1]; rfl, fun errs e0 g1 g2 => ?_⟩
        rw [List.foldl_cons, List.filter_cons_of_neg (by simpa using hba)]
        exact h2 errs e0 g1 g2
      · refine ⟨_ :: row, by rw [List.mapM_cons, hs.other hba k p r hp, h1]; rfl, fun errs e0 g1 g2 => ?_⟩
        rw [List.foldl_cons, List.filter_cons_of_pos (by simpa using hba)]
        obtain ⟨i1, i2⟩ := h2 (nnAdd errs (some (normRank sortVals missing (valuesOf t b) (cell nul t b r)), s.values))
          (fun j => e0 j + |normRank sortVals missing (valuesOf t b) (cell nul t b r) - normRank sortVals missing (valuesOf t b) (cell nul t b j)|)
          (by unfold nnAdd; dsimp only; rw [addErrs_length]; exact g1)
          (by intro j hj; unfold nnAdd; exact addErrs_get _ _ _ j _ _ (g2 j hj) (hs.vals hba j hj))
        refine ⟨i1, fun j hj => ?_⟩
        rw [i2 j hj]
        simp only [rowDist, List.map_cons, List.sum_cons, add_assoc]
  obtain ⟨row, h1, h2⟩ := key
  obtain ⟨g1, g2⟩ := h2 (List.replicate n (some 0)) (fun _ => 0) List.length_replicate (fun j hj => by rw [List.getElem?_replicate, if_pos hj])
  refine ⟨_, by unfold nnErrs; rw [h1]; rfl, g1, fun j hj => ?_⟩
  rw [g2 j hj, zero_add]

/-! ## the loop over the rows -/

/-- the state of the loop when the column filled so far is `cur` -/
def NearInv (a : ν) (pa : Pages α) (s : NNState ν α) (cur : List α) : Prop :=
  ∃ o out, s.out = [out] ∧ out.length = pa.length ∧ o.map List.length = pa.map List.length ∧ o.flatten = cur ∧ (∀ r, seen s.sparse a (colIter pa) r = cur[r]?) ∧
    match s.loaded with
    | none => o = pa ∧ out = pa
    | some l => ∃ pg, l.2 = [pg] ∧ l.1 < pa.length ∧ o = out.set l.1 pg ∧ ∀ k, l.1 < k → o[k]? = pa[k]?

theorem nnSave_near {a : ν} {pa : Pages α} {s : NNState ν α} {cur : List α} (h : NearInv a pa s cur) :
    ∃ o, nnSave s = .ok [o] ∧ o.length = pa.length ∧ o.map List.length = pa.map List.length ∧ o.flatten = cur ∧
      match s.loaded with | none => o = pa | some l => ∀ k, l.1 < k → o[k]? = pa[k]? := by
  obtain ⟨o, out, h1, h2, h3, h4, -, h6⟩ := h
  have hlen : o.length = pa.length := by simpa using congrArg List.length h3
  unfold nnSave
  cases hl : s.loaded with
  | none =>
    rw [hl] at h6
    exact ⟨o, by rw [h1, h6.1, h6.2], hlen, h3, h4, h6.1⟩
  | some l =>
    rw [hl] at h6
    obtain ⟨pg, g1, g2, g3, g4⟩ := h6
    refine ⟨o, ?_, hlen, h3, h4, g4⟩
    dsimp only
    rw [h1, g1, savePages, if_pos (by omega), g3]
    rfl

theorem nnLoad_near {a : ν} {pa : Pages α} {s : NNState ν α} {cur : List α} (h : NearInv a pa s cur) (k : Nat) (hk : k < pa.length) (hle : ∀ l, s.loaded = some l → l.1 ≤ k) :
    ∃ s' g, nnLoad [(a, pa)] k s = .ok s' ∧ s'.loaded = some (k, g) ∧ NearInv a pa s' cur := by
  unfold nnLoad
  split_ifs with hp
  · cases hl : s.loaded with
    | none => rw [hl] at hp; cases hp
    | some l =>
      rw [hl] at hp
      simp only [Option.map_some, Option.some.injEq] at hp
      exact ⟨s, l.2, rfl, by rw [hl, ← hp], h⟩
  · obtain ⟨o, h1, h2, h3, h4, h5⟩ := nnSave_near h
    obtain ⟨-, -, -, -, -, -, hseen, -⟩ := h
    rw [h1]
    dsimp only [Except.bind]
    have hm : [(a, pa)].mapM (nnPage k) = .ok [pa[k]] := by
      have : nnPage k (a, pa) = .ok pa[k] := by unfold nnPage; rw [List.getElem?_eq_getElem hk]
      rw [List.mapM_cons, this]; rfl
    rw [hm]
    have hok : ∀ k', k ≤ k' → o[k']? = pa[k']? := by
      intro k' hk'
      cases hl : s.loaded with
      | none => rw [hl] at h5; rw [h5]
      | some l =>
        rw [hl] at h5 hp
        have := hle l hl
        have hne : l.1 ≠ k := fun e => hp (by simp [e])
        exact h5 k' (by omega)
    refine ⟨_, [pa[k]], rfl, rfl, o, o, rfl, h2, h3, h4, hseen, pa[k], rfl, hk, ?_, fun k' hk' => hok k' (by show k ≤ k'; exact Nat.le_of_lt hk')⟩
    show o = o.set k pa[k]
    apply List.ext_getElem?
    intro i
    rw [List.getElem?_set]
    split_ifs with e1 e2
    · rw [← e1, hok k (le_refl _), List.getElem?_eq_getElem hk]
    · omega
    · rfl

theorem nnVisit_near {sortVals : List α → List α} {missing : List α} {nul : α} {t : Tbl ν α} {a : ν} {pa : Pages α} {sources : List ν} {srcs : List (NNSource ν α)}
    (hsrc : List.Forall₂ (SrcNear sortVals missing nul t (colIter pa).length a (pa.map List.length)) sources srcs) {s : NNState ν α} {cur : List α} (h : NearInv a pa s cur)
    (x : Nat × Nat × Nat) (hx : PlaceOf (pa.map List.length) x.1 x.2.2 x.2.1) (hle : ∀ l, s.loaded = some l → l.1 ≤ x.1) (hm : cell nul t a x.2.1 ∈ missing)
    (w : α) (hcur : cur[x.2.1]? = some w) (hw : w ∈ missing) (hex : ∃ j, j < (colIter pa).length ∧ Usable missing (fun r => cur[r]?) x.2.1 j) :
    ∃ s' j v, nnVisit missing srcs (colIter pa).length [(a, pa)] s x = .ok s' ∧ NearInv a pa s' (cur.set x.2.1 v) ∧ (∀ l, s'.loaded = some l → l.1 = x.1) ∧ cur[j]? = some v ∧
      FirstNearest missing (fun r => cur[r]?) (colIter pa).length x.2.1 (rowDist sortVals missing nul t (sources.filter fun b => b ≠ a) x.2.1) j := by
  obtain ⟨errs, e1, e2, e3⟩ := nnErrs_near hsrc x.1 x.2.2 x.2.1 hx hm
  have hxk : x.1 < pa.length := by
    obtain ⟨m, h1, -⟩ := hx
    have := (List.getElem?_eq_some_iff.1 h1).1
    rw [List.length_map] at this
    exact this
  obtain ⟨s1, g, l1, l2, l3⟩ := nnLoad_near h x.1 hxk hle
  obtain ⟨o, out, h1, h2, h3, h4, h5, h6⟩ := l3
  rw [l2] at h6
  dsimp only at h6
  obtain ⟨pg, rfl, -, h7, h8⟩ := h6
  have hfun : seen s1.sparse a (colIter pa) = fun r => cur[r]? := funext h5
  have hpo : PlaceOf (o.map List.length) x.1 x.2.2 x.2.1 := by rw [h3]; exact hx
  obtain ⟨pg', p1, p2, p3, p4, p5⟩ := hpo.get
  have hpg : pg' = pg := by
    rw [h7, List.getElem?_set_self (by omega)] at p1
    exact (Option.some.inj p1).symm
  subst hpg
  rw [h4, hcur] at p3
  obtain ⟨j, v, sp', c1, c2, c3, c4⟩ := nnCell_near missing x.2.1 a (colIter pa) _ errs s1.sparse w e2 e3 hw (by rw [hfun]; exact hcur) (by rw [hfun]; exact hex)
  rw [hfun] at c3 c4
  have hrow : nnRow missing errs x.2.1 x.2.2 [(a, pa)] [pg'] s1.sparse = .ok ([pg'.set x.2.2 v], sp') := by
    rw [nnRow.eq_def]
    dsimp only
    rw [p3]
    dsimp only
    rw [c1]
    rfl
  refine ⟨⟨some (x.1, [pg'.set x.2.2 v]), sp', s1.out⟩, j, v, ?_, ⟨o.set x.1 (pg'.set x.2.2 v), out, h1, h2, ?_, ?_, ?_, ?_⟩, fun l hl => by cases hl; rfl, c3, c4⟩
  · unfold nnVisit
    rw [e1]
    dsimp only [Except.bind]
    rw [l1]
    dsimp only
    rw [l2]
    dsimp only
    rw [hrow]
  · rw [List.map_set, List.length_set, ← h3]
    apply List.ext_getElem?
    intro i
    rw [List.getElem?_set]
    split_ifs with q1 q2
    · rw [← q1, List.getElem?_map, p1]; rfl
    · exfalso
      apply q2
      rw [List.length_map]
      exact (List.getElem?_eq_some_iff.1 p1).1
    · rfl
  · rw [p5, h4]
  · intro r
    show seen sp' a (colIter pa) r = _
    rw [c2, List.getElem?_set]
    have hrl : x.2.1 < cur.length := (List.getElem?_eq_some_iff.1 hcur).1
    by_cases hr : r = x.2.1
    · rw [if_pos hr, if_pos hr.symm, if_pos hrl]
    · rw [if_neg hr, if_neg (fun e => hr e.symm), hfun]
  · refine ⟨pg'.set x.2.2 v, rfl, hxk, ?_, ?_⟩
    · rw [h7, List.set_set]
    · intro k hk
      rw [List.getElem?_set_ne (by have : x.1 < k := hk; omega)]
      exact h8 k hk

/-- Spec: the rows a missing value of row `i` may be taken from: those with a value, and those before `i`, which have been filled -/
def ReadyFor (missing : List α) (nul : α) (t : Tbl ν α) (a : ν) (i j : Nat) : Prop := j ≠ i ∧ (cell nul t a j ∉ missing ∨ j < i)

/-- Spec: row `i` of the column `new` has the value of the first of the nearest rows it may be taken from -/
def TakenFromNearest (missing : List α) (nul : α) (t : Tbl ν α) (a : ν) (n : Nat) (dist : Nat → Nat → Rat) (new : Nat → Option α) (i : Nat) : Prop :=
  ∃ j, j < n ∧ ReadyFor missing nul t a i j ∧ new i = new j ∧ ∀ k, k < n → ReadyFor missing nul t a i k → dist i j < dist i k ∨ (dist i j = dist i k ∧ j ≤ k)

theorem nnVisits_near {sortVals : List α → List α} {missing : List α} {nul : α} {t : Tbl ν α} {a : ν} {pa : Pages α} {sources : List ν} {srcs : List (NNSource ν α)}
    (hsrc : List.Forall₂ (SrcNear sortVals missing nul t (colIter pa).length a (pa.map List.length)) sources srcs)
    (known : ∃ j, j < (colIter pa).length ∧ cell nul t a j ∉ missing) (vs : List (Nat × Nat × Nat)) (hplace : ∀ x ∈ vs, PlaceOf (pa.map List.length) x.1 x.2.2 x.2.1)
    (hmiss : ∀ x ∈ vs, x.2.1 < (colIter pa).length ∧ cell nul t a x.2.1 ∈ missing) (hpage : vs.Pairwise fun x y => x.1 ≤ y.1) (hrows : vs.Pairwise fun x y => x.2.1 < y.2.1)
    (s : NNState ν α) (cur : List α) (h : NearInv a pa s cur) (hcl : cur.length = (colIter pa).length) (hle : ∀ l, s.loaded = some l → ∀ x ∈ vs, l.1 ≤ x.1)
    (before : ∀ i, i < (colIter pa).length → cell nul t a i ∈ missing → (∀ x ∈ vs, x.2.1 ≠ i) → ∀ x ∈ vs, i < x.2.1)
    (filled : ∀ i, i < (colIter pa).length → ((∃ w, cur[i]? = some w ∧ w ∉ missing) ↔ ∀ x ∈ vs, x.2.1 ≠ i))
    (near : ∀ i, i < (colIter pa).length → cell nul t a i ∈ missing → (∀ x ∈ vs, x.2.1 ≠ i) →
      TakenFromNearest missing nul t a (colIter pa).length (rowDist sortVals missing nul t (sources.filter fun b => b ≠ a)) (fun r => cur[r]?) i) :
    ∃ s' cur', vs.foldlM (nnVisit missing srcs (colIter pa).length [(a, pa)]) s = .ok s' ∧ NearInv a pa s' cur' ∧
      ∀ i, i < (colIter pa).length → cell nul t a i ∈ missing →
        TakenFromNearest missing nul t a (colIter pa).length (rowDist sortVals missing nul t (sources.filter fun b => b ≠ a)) (fun r => cur'[r]?) i := by
  induction vs generalizing s cur with
  | nil => exact ⟨s, cur, rfl, h, fun i hi hm => near i hi hm (by simp)⟩
  | cons x vs ih =>
    obtain ⟨hxn, hxm⟩ := hmiss x List.mem_cons_self
    rw [List.pairwise_cons] at hpage hrows
    have hnotin : ∀ k, k < (colIter pa).length → ((∀ y ∈ x :: vs, y.2.1 ≠ k) ↔ ReadyFor missing nul t a x.2.1 k) := by
      intro k hk
      constructor
      · intro hy
        refine ⟨fun e => hy x List.mem_cons_self e.symm, ?_⟩
        by_cases hkm : cell nul t a k ∈ missing
        · exact .inr (before k hk hkm hy x List.mem_cons_self)
        · exact .inl hkm
      · rintro ⟨h1, h2⟩ y hy e
        rcases h2 with h2 | h2
        · rw [← e] at h2
          exact h2 (hmiss y hy).2
        · rcases List.mem_cons.1 hy with rfl | hy
          · omega
          · have := hrows.1 y hy
            omega
    have husable : ∀ k, k < (colIter pa).length → (Usable missing (fun r => cur[r]?) x.2.1 k ↔ ReadyFor missing nul t a x.2.1 k) := by
      intro k hk
      rw [← hnotin k hk, ← filled k hk]
      refine ⟨fun h => h.2, fun h => ⟨?_, h⟩⟩
      rintro rfl
      exact (filled x.2.1 hk).1 h x List.mem_cons_self rfl
    have hcur : ∃ w, cur[x.2.1]? = some w ∧ w ∈ missing := by
      refine ⟨cur[x.2.1]'(by omega), List.getElem?_eq_getElem (by omega), ?_⟩
      by_contra hc
      exact (filled x.2.1 hxn).1 ⟨_, List.getElem?_eq_getElem (by omega), hc⟩ x List.mem_cons_self rfl
    obtain ⟨w, hw1, hw2⟩ := hcur
    obtain ⟨j0, hj0, hj0m⟩ := known
    obtain ⟨s1, j, v, g1, g2, g3, g4, g5⟩ := nnVisit_near hsrc h x (hplace x List.mem_cons_self) (fun l hl => hle l hl x List.mem_cons_self) hxm w hw1 hw2
      ⟨j0, hj0, (husable j0 hj0).2 ⟨by rintro rfl; exact hj0m hxm, .inl hj0m⟩⟩
    obtain ⟨hjn, hju, hjmin⟩ := g5
    have hvm : v ∉ missing := by
      obtain ⟨-, w', hw', hwm⟩ := hju
      change cur[j]? = some w' at hw'
      rw [g4] at hw'
      cases hw'
      exact hwm
    have hset : ∀ i, i ≠ x.2.1 → (cur.set x.2.1 v)[i]? = cur[i]? := fun i hi => List.getElem?_set_ne (fun e => hi e.symm)
    have hself : (cur.set x.2.1 v)[x.2.1]? = some v := List.getElem?_set_self (by omega)
    obtain ⟨s2, cur2, k1, k2, k3⟩ := ih (fun y hy => hplace y (List.mem_cons_of_mem _ hy)) (fun y hy => hmiss y (List.mem_cons_of_mem _ hy)) hpage.2 hrows.2 s1 (cur.set x.2.1 v) g2
      (by rw [List.length_set]; exact hcl) (fun l hl y hy => by rw [g3 l hl]; exact hpage.1 y hy)
      (by
        intro i hi hm hy y hyv
        by_cases hix : i = x.2.1
        · rw [hix]; exact hrows.1 y hyv
        · exact before i hi hm (fun z hz => by
            rcases List.mem_cons.1 hz with rfl | hz
            · exact fun e => hix e.symm
            · exact hy z hz) y (List.mem_cons_of_mem _ hyv))
      (by
        intro i hi
        by_cases hix : i = x.2.1
        · subst hix
          rw [hself]
          refine ⟨fun _ y hy => ?_, fun _ => ⟨v, rfl, hvm⟩⟩
          have := hrows.1 y hy
          omega
        · rw [hset i hix, filled i hi]
          refine ⟨fun h y hy => h y (List.mem_cons_of_mem _ hy), fun h y hy => ?_⟩
          rcases List.mem_cons.1 hy with rfl | hy
          · exact fun e => hix e.symm
          · exact h y hy)
      (by
        intro i hi hm hy
        by_cases hix : i = x.2.1
        · subst hix
          refine ⟨j, hjn, (husable j hjn).1 hju, ?_, fun k hk hr => hjmin k hk ((husable k hk).2 hr)⟩
          dsimp only
          rw [hself, hset j hju.1, g4]
        · have hyc : ∀ y ∈ x :: vs, y.2.1 ≠ i := by
            intro y hy'
            rcases List.mem_cons.1 hy' with rfl | hy'
            · exact fun e => hix e.symm
            · exact hy y hy'
          obtain ⟨j', q1, q2, q3, q4⟩ := near i hi hm hyc
          refine ⟨j', q1, q2, ?_, q4⟩
          have hix' := before i hi hm hyc x List.mem_cons_self
          have hjx : j' ≠ x.2.1 := by
            rcases q2.2 with q | q
            · rintro rfl; exact q hxm
            · omega
          dsimp only at q3 ⊢
          rw [hset i hix, hset j' hjx, q3])
    exact ⟨s2, cur2, by rw [List.foldlM_cons, g1]; exact k1, k2, k3⟩

theorem placesOf_place (m : α) (pa : Pages α) (page cnt : Nat) : ∀ x ∈ placesOf m pa page cnt, ∃ k r, x.1 = page + k ∧ x.2.1 = cnt + r ∧ PlaceOf (pa.map List.length) k x.2.2 r := by
  induction pa generalizing page cnt with
  | nil => intro x hx; cases hx
  | cons pg rest ih =>
    intro x hx
    rw [placesOf] at hx
    rcases List.mem_append.1 hx with hx | hx
    · obtain ⟨j, hj, rfl⟩ := List.mem_map.1 hx
      obtain ⟨v, _, h2, _⟩ := (mem_positionsFrom _ _ _ _).1 hj
      have hjl := (List.getElem?_eq_some_iff.1 h2).1
      exact ⟨0, j, rfl, rfl, pg.length, rfl, by simpa using hjl, by simp⟩
    · obtain ⟨k, r, h1, h2, m', h3, h4, h5⟩ := ih _ _ x hx
      refine ⟨k + 1, pg.length + r, by omega, by omega, m', by simpa using h3, h4, ?_⟩
      rw [List.map_cons, List.take_succ_cons, List.sum_cons]
      omega

theorem placesOf_rows (m : α) (pa : Pages α) (page cnt : Nat) : (placesOf m pa page cnt).map (·.2.1) = positionsFrom (fun v => decide (v = m)) cnt pa.flatten := by
  induction pa generalizing page cnt with
  | nil => rfl
  | cons pg rest ih =>
    rw [placesOf, List.map_append, ih, List.flatten_cons, positionsFrom_append, List.map_map]
    congr 1
    have hsh := positionsFrom_shift (fun v => decide (v = m)) 0 cnt pg
    rw [Nat.zero_add] at hsh
    rw [hsh]
    apply List.map_congr_left
    intro j _
    simp only [Function.comp_apply]
    omega

theorem cell_get (nul : α) (t : Tbl ν α) (a : ν) (p : Pages α) (h : dGet a t = some p) (i : Nat) (hi : i < (colIter p).length) : (colIter p)[i]? = some (cell nul t a i) := by
  unfold cell
  rw [h]
  show _ = some ((colIter p).getD i nul)
  rw [List.getD_eq_getElem?_getD, List.getElem?_eq_getElem hi]
  rfl

/-- the rows visited when there is one kind of missing value: those that have it, in order -/
theorem nnVisits_single (sortVals : List α → List α) (m : α) (pa : Pages α) (lens : List Nat) (hlens : lens = pa.map List.length) :
    ((nnOrder sortVals [m] ((firstOccs ((colIter pa).map fun v => [v])).map fun k => (k, positionsFrom (fun x => decide (x = k)) 0 ((colIter pa).map fun v => [v])))).flatMap
      fun e => locateRows lens 0 0 e.2) = placesOf m pa 0 0 := by
  subst hlens
  have hmem := nnOrder_single sortVals [m] (colIter pa)
  have hnd := nnOrder_nodup sortVals [m] ((colIter pa).map fun v => [v])
  generalize nnOrder sortVals [m] ((firstOccs ((colIter pa).map fun v => [v])).map fun k => (k, positionsFrom (fun x => decide (x = k)) 0 ((colIter pa).map fun v => [v]))) = ord at hmem hnd
  have hall : ∀ e ∈ ord, e = ([m], positionsFrom (fun x => decide (x = m)) 0 (colIter pa)) := by
    intro e he
    obtain ⟨v, -, h2, h3⟩ := (hmem e).1 he
    rw [List.mem_singleton] at h2
    rw [h3, h2]
  match ord, hmem, hnd, hall with
  | [], hmem, _, _ =>
    have hno : m ∉ pa.flatten := by
      intro h
      rw [← colIter_eq] at h
      exact absurd ((hmem _).2 ⟨m, h, by simp, rfl⟩) (by simp)
    have := congrArg List.length (placesOf_rows m pa 0 0)
    rw [List.length_map, show positionsFrom (fun v => decide (v = m)) 0 pa.flatten = [] from ?_] at this
    · rw [List.flatMap_nil]
      exact (List.length_eq_zero_iff.1 this).symm
    · rw [List.eq_nil_iff_forall_not_mem]
      intro j hj
      obtain ⟨v, _, h2, h3⟩ := (mem_positionsFrom _ _ _ _).1 hj
      rw [of_decide_eq_true h3] at h2
      exact hno (List.mem_of_getElem? h2)
  | [e], _, _, hall =>
    rw [List.flatMap_cons, List.flatMap_nil, List.append_nil, hall e (by simp)]
    have := locateRows_places m pa 0 0
    rw [← colIter_eq] at this
    exact this
  | e :: e' :: r, _, hnd, hall =>
    exfalso
    have e1 := hall e (by simp)
    have e2 := hall e' (by simp)
    simp [e1, e2] at hnd

/-! ## the property -/

/-- C143 in full: a missing value becomes the value of a nearest row among those whose value was known -/
def C143_statement : Prop :=
  ∀ (ν α : Type) [DecidableEq ν] [DecidableEq α] (sortVals : List α → List α) (m : α) (sources : List ν) (a : ν) (t : Tbl ν α) (n : Nat) (nul : α),
    (∀ l, (sortVals l).Perm l) → (t.map (·.1)).Nodup → Rect t n → sources ≠ [] → (∀ b ∈ sources, b ∈ t.map (·.1)) → a ∈ t.map (·.1) → FillCond [m] sources t n a →
    (∃ j < n, cell nul t a j ≠ m) →
    ∃ t', nearest sortVals [m] sources [a] t = .ok t' ∧ ∀ i < n, cell nul t a i = m → ∃ j < n, cell nul t a j ≠ m ∧ cell nul t' a i = cell nul t a j ∧
      ∀ k < n, cell nul t a k ≠ m → rowDist sortVals [m] nul t (sources.filter fun b => b ≠ a) i j ≤ rowDist sortVals [m] nul t (sources.filter fun b => b ≠ a) i k

/-- C143 with the rows before counted as known: a missing value becomes the value that the nearest row has in the result, among the rows whose value was known
and the rows before, which have been filled; of several nearest rows the first one is taken.  Nothing else changes.  Missing: that values filled in
before are not passed on, see `C143_fails`. -/
theorem C143_partial (sortVals : List α → List α) (m : α) (sources : List ν) (a : ν) (t : Tbl ν α) (n : Nat) (nul : α)
    (hsv : ∀ l, (sortVals l).Perm l) (hw : (t.map (·.1)).Nodup) (hr : Rect t n) (hs0 : sources ≠ []) (hs : ∀ b ∈ sources, b ∈ t.map (·.1)) (ha : a ∈ t.map (·.1))
    (hf : FillCond [m] sources t n a) (known : ∃ j < n, cell nul t a j ≠ m) :
    ∃ t', nearest sortVals [m] sources [a] t = .ok t' ∧ ImputedOk nul [m] [a] t t' n ∧ ∀ i < n, cell nul t a i = m →
      ∃ j < n, ReadyFor [m] nul t a i j ∧ cell nul t' a i = cell nul t' a j ∧ ∀ k < n, ReadyFor [m] nul t a i k →
        rowDist sortVals [m] nul t (sources.filter fun b => b ≠ a) i j < rowDist sortVals [m] nul t (sources.filter fun b => b ≠ a) i k ∨
          (rowDist sortVals [m] nul t (sources.filter fun b => b ≠ a) i j = rowDist sortVals [m] nul t (sources.filter fun b => b ≠ a) i k ∧ j ≤ k) := by
  obtain ⟨t', h1, h2⟩ := C57_partial sortVals [m] sources [a] t n nul hsv hw hr hs0 (by simp) (by simp) hs (by simpa using ha) ⟨a, rfl, hf⟩
  refine ⟨t', h1, h2, ?_⟩
  obtain ⟨pa, hpa⟩ := Option.isSome_iff_exists.1 ((dGet_isSome a t).2 ha)
  have hla : (colIter pa).length = n := by
    have := hr _ (dGet_mem a t pa hpa)
    rw [colLen_eq] at this
    rw [colIter_eq]; exact this
  have hlp : pageLens t a = pa.map List.length := by unfold pageLens; rw [hpa]; rfl
  have htl : tblLen t = (colIter pa).length := by
    rw [hla]
    refine tblLen_rect t n hr ?_
    rintro rfl
    cases ha
  obtain ⟨srcs, s1, s2⟩ := mapM_ok_forall₂ sources (nnSource sortVals [m] t) fun b hb =>
    nnSource_near sortVals hsv [m] nul t n hr a b (hs b hb) (hf.aligned b hb) fun hne => hf.clean b hb hne nul
  have hsrc : List.Forall₂ (SrcNear sortVals [m] nul t (colIter pa).length a (pa.map List.length)) sources srcs := by
    rw [hla, ← hlp]
    exact s2.imp fun _ _ h => h.1
  have hidx := C19_index nul t n hr [a] (by simp) (by simpa using ha)
  rw [keyRows_single nul t a pa hpa n hla] at hidx
  have htp : [a].mapM (nnTarget t) = .ok [(a, pa)] := by
    have : nnTarget t a = .ok (a, pa) := by unfold nnTarget; rw [hpa]
    rw [List.mapM_cons, this]; rfl
  have hord : [a] = (t.map (·.1)).filter fun b => b ∈ [a] := (filter_one _ hw a ha).symm
  have hfil := targets_in_order t hw [a] hord _ (nnTargets_eq t [a] _ htp)
  have hcell := cell_get nul t a pa hpa
  cases srcs with
  | nil =>
    cases s2
    exact absurd rfl hs0
  | cons s0 ss =>
    have hlens : s0.pages.map List.length = pa.map List.length := by
      cases s2 with
      | cons h _ => rw [h.2, hlp]
    have hvis := nnVisits_single sortVals m pa _ hlens
    have hvm : ∀ i, i < (colIter pa).length → ((∀ x ∈ placesOf m pa 0 0, x.2.1 ≠ i) ↔ cell nul t a i ∉ [m]) := by
      intro i hi
      have : (∃ x ∈ placesOf m pa 0 0, x.2.1 = i) ↔ cell nul t a i ∈ [m] := by
        rw [show (∃ x ∈ placesOf m pa 0 0, x.2.1 = i) ↔ i ∈ (placesOf m pa 0 0).map (·.2.1) from List.mem_map.symm, placesOf_rows, mem_positionsFrom, ← colIter_eq]
        rw [List.mem_singleton]
        constructor
        · rintro ⟨v, -, g1, g2⟩
          rw [Nat.sub_zero, hcell i hi] at g1
          rw [Option.some.inj g1]
          exact of_decide_eq_true g2
        · intro e
          exact ⟨m, Nat.zero_le _, by rw [Nat.sub_zero, hcell i hi, e], by simp⟩
      rw [← this]
      push Not
      rfl
    obtain ⟨st, cur, v1, v2, v3⟩ := nnVisits_near hsrc (by rw [hla]; simpa using known) (placesOf m pa 0 0)
      (by
        intro x hx
        obtain ⟨k, r, g1, g2, g3⟩ := placesOf_place m pa 0 0 x hx
        rw [g1, g2, Nat.zero_add, Nat.zero_add]
        exact g3)
      (by
        intro x hx
        obtain ⟨k, r, g1, g2, g3⟩ := placesOf_place m pa 0 0 x hx
        have hlt : x.2.1 < (colIter pa).length := by
          obtain ⟨_, _, _, _, g4, _⟩ := g3.get
          rw [colIter_eq, g2, Nat.zero_add]
          exact g4
        refine ⟨hlt, ?_⟩
        by_contra hc
        exact (hvm _ hlt).2 hc x hx rfl)
      (placesOf_sorted m pa 0 0)
      (by
        rw [← List.pairwise_map (f := fun x : Nat × Nat × Nat => x.2.1) (R := (· < ·)), placesOf_rows]
        exact positionsFrom_sorted _ _ _)
      ⟨none, fun _ _ => none, [pa]⟩ pa.flatten ⟨pa, pa, rfl, rfl, rfl, rfl, fun r => by rw [← colIter_eq]; rfl, rfl, rfl⟩ (by rw [colIter_eq]) (fun l hl => by cases hl)
      (fun i hi hm hx => absurd hm ((hvm i hi).1 hx))
      (by
        intro i hi
        rw [hvm i hi, ← colIter_eq, hcell i hi]
        constructor
        · rintro ⟨w, e, hwm⟩
          rw [Option.some.inj e]
          exact hwm
        · exact fun h => ⟨_, rfl, h⟩)
      (fun i hi hm hx => absurd hm ((hvm i hi).1 hx))
    obtain ⟨o, o1, o2, o3, o4, -⟩ := nnSave_near v2
    have he : nearest sortVals [m] sources [a] t = .ok (nnTable [a] t [o]) := by
      unfold nearest
      rw [s1]
      dsimp only [Except.bind]
      rw [hidx]
      dsimp only
      rw [htp]
      dsimp only
      rw [hvis, htl, ← hfil]
      rw [List.map_cons, List.map_nil, v1]
      dsimp only
      rw [o1]
    rw [he] at h1
    cases h1
    have hco : ∀ i, i < n → cur[i]? = some (cell nul (nnTable [a] t [o]) a i) := by
      intro i hi
      have := cell_get nul (nnTable [a] t [o]) a o (nnTable_get a t o ha) i (by
        have := congrArg List.sum o3
        rw [← List.length_flatten, ← List.length_flatten, ← colIter_eq, ← colIter_eq] at this
        omega)
      rw [colIter_eq, o4] at this
      exact this
    intro i hi him
    obtain ⟨j, g1, g2, g3, g4⟩ := v3 i (by omega) (by simpa using him)
    rw [hla] at g1 g4
    refine ⟨j, g1, g2, ?_, g4⟩
    dsimp only at g3
    rw [hco i hi, hco j g1] at g3
    exact Option.some.inj g3

/-- when all values before are known, a missing value becomes the value of the first of the nearest rows with a known value -/
theorem C143_first (sortVals : List α → List α) (m : α) (sources : List ν) (a : ν) (t : Tbl ν α) (n : Nat) (nul : α)
    (hsv : ∀ l, (sortVals l).Perm l) (hw : (t.map (·.1)).Nodup) (hr : Rect t n) (hs0 : sources ≠ []) (hs : ∀ b ∈ sources, b ∈ t.map (·.1)) (ha : a ∈ t.map (·.1))
    (hf : FillCond [m] sources t n a) (known : ∃ j < n, cell nul t a j ≠ m) (t' : Tbl ν α) (he : nearest sortVals [m] sources [a] t = .ok t')
    (i : Nat) (hi : i < n) (him : cell nul t a i = m) (hb : ∀ k < i, cell nul t a k ≠ m) :
    ∃ j < n, cell nul t a j ≠ m ∧ cell nul t' a i = cell nul t a j ∧ ∀ k < n, cell nul t a k ≠ m →
      rowDist sortVals [m] nul t (sources.filter fun b => b ≠ a) i j < rowDist sortVals [m] nul t (sources.filter fun b => b ≠ a) i k ∨
        (rowDist sortVals [m] nul t (sources.filter fun b => b ≠ a) i j = rowDist sortVals [m] nul t (sources.filter fun b => b ≠ a) i k ∧ j ≤ k) := by
  obtain ⟨t'', h1, ⟨-, -, h2⟩, h3⟩ := C143_partial sortVals m sources a t n nul hsv hw hr hs0 hs ha hf known
  rw [he] at h1
  cases h1
  obtain ⟨j, g1, ⟨g2, g3⟩, g4, g5⟩ := h3 i hi him
  have hjm : cell nul t a j ≠ m := by
    rcases g3 with g3 | g3
    · simpa using g3
    · exact hb j g3
  refine ⟨j, g1, hjm, ?_, fun k hk hkm => g5 k hk ⟨?_, .inl (by simpa using hkm)⟩⟩
  · have := h2 a ha j g1
    rw [if_neg (fun c => hjm (by simpa using c.2.1))] at this
    rw [g4, this]
  · rintro rfl
    exact hkm him

end

/-- a value that was filled in is passed on: the row before is as near as the row after, and got its value from further away -/
theorem C143_fails : ¬ C143_statement := by
  intro h
  have hf : FillCond [0] [1] ([(1, [[1, 2, 3, 4, 5]]), (2, [[10, 0, 0, 0, 20]])] : Tbl Nat Nat) 5 2 := by
    refine ⟨by decide, fun b hb hne nul i hi => ?_, .inl ⟨0, rfl⟩⟩
    rw [List.mem_singleton] at hb
    subst hb
    have : i = 0 ∨ i = 1 ∨ i = 2 ∨ i = 3 ∨ i = 4 := by omega
    rcases this with rfl | rfl | rfl | rfl | rfl <;> simp [cell, dGet, colIter]
  obtain ⟨t', h1, h2⟩ := h Nat Nat sortNat 0 [1] 2 [(1, [[1, 2, 3, 4, 5]]), (2, [[10, 0, 0, 0, 20]])] 5 0 sortNat_perm (by decide) (by unfold Rect; decide) (by decide)
    (by decide) (by decide) hf ⟨0, by decide, by decide⟩
  have e : nearest sortNat [0] [1] [2] [(1, [[1, 2, 3, 4, 5]]), (2, [[10, 0, 0, 0, 20]])] = .ok [(1, [[1, 2, 3, 4, 5]]), (2, [[10, 10, 10, 10, 20]])] := by decide +kernel
  rw [e] at h1
  cases h1
  have := h2 3 (by decide) (by decide)
  revert this
  decide +kernel

/-- `C143_partial` applies to a target with two pages: row 0 takes the value of row 1, row 3 that of row 2 -/
example : FillCond [0] [1, 2] ([(1, [[1, 2], [3, 4]]), (2, [[0, 6], [5, 0]])] : Tbl Nat Nat) 4 2 ∧
    (∃ j < 4, cell 0 ([(1, [[1, 2], [3, 4]]), (2, [[0, 6], [5, 0]])] : Tbl Nat Nat) 2 j ≠ 0) ∧
    rowDist sortNat [0] 0 ([(1, [[1, 2], [3, 4]]), (2, [[0, 6], [5, 0]])] : Tbl Nat Nat) [1] 3 2 = 1 / 4 ∧
    rowDist sortNat [0] 0 ([(1, [[1, 2], [3, 4]]), (2, [[0, 6], [5, 0]])] : Tbl Nat Nat) [1] 3 1 = 2 / 4 := by
  refine ⟨⟨by decide, fun b hb hne nul i hi => ?_, .inl ⟨0, rfl⟩⟩, ⟨1, by decide, by decide⟩, by decide +kernel, by decide +kernel⟩
  simp only [List.mem_cons, List.not_mem_nil, or_false] at hb
  rcases hb with rfl | rfl
  · have : i = 0 ∨ i = 1 ∨ i = 2 ∨ i = 3 := by omega
    rcases this with rfl | rfl | rfl | rfl <;> simp [cell, dGet, colIter]
  · exact absurd rfl hne

end Tablite
