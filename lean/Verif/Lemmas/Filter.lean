import Verif.Model.Filter
import Verif.Props.Reindex
import Mathlib.Data.List.Forall2
/-!
# Lemmas about masks, compression and the page loops of the filter
-/

namespace Tablite
set_option linter.unusedSectionVars false

section
variable {ν α κ : Type} [DecidableEq ν]

theorem npCompress_nil (m : List Bool) : npCompress m ([] : List α) = [] := by simp [npCompress]

theorem npCompress_append (a b : List Bool) (x y : List α) (h : a.length = x.length) : npCompress (a ++ b) (x ++ y) = npCompress a x ++ npCompress b y := by
  unfold npCompress
  rw [List.zip_append h, List.filter_append, List.map_append]

theorem npCompress_take (a : List Bool) (x y : List α) (h : a.length ≤ x.length) : npCompress a (x ++ y) = npCompress a x := by
  induction a generalizing x with
  | nil => rfl
  | cons b u ih =>
    cases x with
    | nil => simp at h
    | cons v w =>
      have := ih w (by simpa using h)
      unfold npCompress at this ⊢
      simp only [List.cons_append, List.zip_cons_cons, List.filter_cons]
      cases b <;> simp [this]

theorem npCompress_drop (a b : List Bool) (x : List α) (h : a.length + b.length ≤ x.length) :
    npCompress (a ++ b) x = npCompress a x ++ npCompress b (x.drop a.length) := by
  conv_lhs => rw [← List.take_append_drop a.length x]
  rw [npCompress_append _ _ _ _ (by rw [List.length_take]; omega)]
  congr 1
  conv_rhs => rw [← List.take_append_drop a.length x]
  rw [npCompress_take _ _ _ (by rw [List.length_take]; omega)]

/-- the values of a column at the given rows -/
def valuesAt (nul : α) (data : List α) (rows : List Nat) : List α := rows.map fun i => data.getD i nul

theorem npCompress_range (nul : α) (f : Nat → Bool) (data : List α) :
    npCompress ((List.range data.length).map f) data = valuesAt nul data ((List.range data.length).filter f) := by
  unfold npCompress valuesAt
  have : data = (List.range data.length).map fun i => data.getD i nul := by
    apply List.ext_getElem
    · simp
    · intro i h1 h2; simp [List.getD_eq_getElem?_getD, List.getElem?_eq_getElem h1]
  have hz : ((List.range data.length).map f).zip data = (List.range data.length).map fun i => (f i, data.getD i nul) := by
    conv_lhs => rhs; rw [this]
    generalize List.range data.length = l
    induction l with
    | nil => rfl
    | cons a u ih => simp only [List.map_cons, List.zip_cons_cons, ih]
  rw [hz, List.filter_map, List.map_map]
  rfl

theorem maskLoop_append (h : Bool → α → Bool) (pages : Pages α) (A M : List Bool) (hM : M.length = pages.flatten.length) :
    maskLoop h A.length pages (A ++ M) = A ++ List.zipWith h M pages.flatten := by
  induction pages generalizing A M with
  | nil =>
    simp only [List.flatten_nil, List.length_nil, List.length_eq_zero_iff] at hM
    subst hM
    simp [maskLoop]
  | cons p rest ih =>
    simp only [List.flatten_cons, List.length_append] at hM
    obtain ⟨M1, M2, rfl, h1⟩ : ∃ M1 M2, M = M1 ++ M2 ∧ M1.length = p.length :=
      ⟨M.take p.length, M.drop p.length, (List.take_append_drop _ _).symm, by rw [List.length_take]; omega⟩
    unfold maskLoop
    dsimp only
    have e1 : (A ++ (M1 ++ M2)).take A.length = A := by simp
    have e2 : ((A ++ (M1 ++ M2)).take (A.length + p.length)).drop A.length = M1 := by
      rw [List.take_length_add_append, List.drop_left, ← h1, List.take_left]
    have e3 : (A ++ (M1 ++ M2)).drop (A.length + p.length) = M2 := by
      rw [List.drop_length_add_append, ← h1, List.drop_left]
    rw [e1, e2, e3]
    have hl : A.length + p.length = (A ++ List.zipWith h M1 p).length := by simp [h1]
    rw [hl, ih _ M2 (by rw [List.length_append] at hM; omega), List.flatten_cons, List.append_assoc, List.zipWith_append h1]

theorem maskLoop_eq (h : Bool → α → Bool) (pages : Pages α) (M : List Bool) (hM : M.length = pages.flatten.length) :
    maskLoop h 0 pages M = List.zipWith h M pages.flatten := maskLoop_append h pages [] M hM

theorem maskLoop_range (nul : α) (h : Bool → α → Bool) (pages : Pages α) (f : Nat → Bool) (n : Nat) (hn : colLen pages = n) :
    maskLoop h 0 pages ((List.range n).map f) = (List.range n).map fun i => h (f i) ((colIter pages).getD i nul) := by
  rw [colLen_eq] at hn
  rw [maskLoop_eq _ _ _ (by simpa using hn.symm), colIter_eq]
  apply List.ext_getElem
  · simp only [List.length_zipWith, List.length_map, List.length_range]; omega
  · intro i h1 h2
    simp only [List.length_map, List.length_range] at h2
    simp [List.getD_eq_getElem?_getD, List.getElem?_eq_getElem (show i < pages.flatten.length by omega)]

theorem compressCol_ok (ps : Nat) (hps : 0 < ps) (n : Nat) (mask : List Bool) (pages : Pages α) (hm : mask.length = n) (hn : colLen pages = n) :
    ∃ q, compressCol ps n mask pages = .ok q ∧ colIter q = npCompress mask (colIter pages) := by
  rw [colLen_eq, ← colIter_eq] at hn
  unfold compressCol
  obtain ⟨q, h1, h2⟩ := foldlM_extend ps hps (pageSteps ps n)
    (fun se => do
      let data ← getSlice pages { start := some (se.1 : Int), stop := some (se.2 : Int) }
      Except.ok (npCompress ((mask.take se.2).drop se.1) data))
    (fun se => (((((mask.zip (colIter pages)).take se.2).drop se.1).filter (·.1)).map (·.2))) (by
      intro se hse
      have := (C49_page_steps ps n hps).2.1 se hse
      rw [getSlice_nat _ se.1 se.2 this.1]
      simp only [bind, Except.bind]
      unfold npCompress
      rw [List.zip, ← List.drop_zipWith, ← List.take_zipWith]) []
  refine ⟨q, ?_, ?_⟩
  · rw [← h1]
    congr 1
    funext new se
    simp only [bind, Except.bind]
    cases getSlice pages { start := some (se.1 : Int), stop := some (se.2 : Int) } <;> rfl
  · rw [h2]
    unfold npCompress
    have := pageSteps_slices ps hps (mask.zip (colIter pages))
    rw [List.length_zip, hm, hn, Nat.min_self] at this
    conv_rhs => rw [← this]
    rw [List.filter_flatten, List.map_flatten, List.map_map, List.map_map]
    rfl

/-! ## `filter.nim` -/

theorem takeAt_compress (page : List α) (ind : Nat) (B : List Bool) (k : Nat) (q : Bool → Bool) (h : ind + k + B.length ≤ page.length) :
    takeAt page (((B.zipIdx k).filter (fun b => q b.1)).map fun b => b.2 + ind) = .ok (npCompress (B.map q) (page.drop (ind + k))) := by
  induction B generalizing k with
  | nil => rfl
  | cons b u ih =>
    simp only [List.length_cons] at h
    have := ih (k + 1) (by omega)
    unfold takeAt at this ⊢
    rw [List.zipIdx_cons, List.filter_cons]
    have hd : page.drop (ind + k) = page[ind + k]'(by omega) :: page.drop (ind + (k + 1)) := by
      rw [List.drop_eq_getElem_cons (by omega)]; rfl
    rw [hd]
    unfold npCompress at this ⊢
    simp only [List.map_cons, List.zip_cons_cons, List.filter_cons]
    cases hq : q b
    · simp only [Bool.false_eq_true, if_false]
      exact this
    · simp only [if_true, List.map_cons, List.mapM_cons]
      rw [List.getElem?_eq_getElem (by omega)]
      simp only [bind, Except.bind]
      rw [this]
      simp only [pure, Except.pure, Nat.add_comm k ind]

theorem dumpSlice_ok (page : List α) (idx : List Nat) (v : List α) (h : takeAt page idx = .ok v) : ∃ q, dumpSlice page idx = .ok q ∧ q.flatten = v := by
  unfold dumpSlice
  by_cases hi : idx.length > 0
  · rw [if_pos hi, h]; exact ⟨[v], rfl, by simp⟩
  · rw [if_neg hi]
    have : idx = [] := List.length_eq_zero_iff.1 (by omega)
    subst this
    have h' : Except.ok [] = Except.ok v := h
    injection h' with h'
    exact ⟨[], rfl, by simpa using h'⟩

theorem dumpLoop_ok (bitmask : List Bool) (pages : Pages α) (mo left ind : Nat) (B : List Bool) (hB : (bitmask.drop mo).take left = B)
    (hl : B.length = left) (hin : ∀ p, pages.head? = some p → ind ≤ p.length) (hlen : ind + left ≤ pages.flatten.length) :
    ∃ p f, dumpLoop bitmask mo left ind pages = .ok (p, f) ∧ p.flatten = npCompress B (pages.flatten.drop ind) ∧
      f.flatten = npCompress (B.map (!·)) (pages.flatten.drop ind) := by
  induction pages generalizing mo left ind B with
  | nil =>
    simp only [List.flatten_nil, List.length_nil] at hlen
    have : left = 0 := by omega
    subst this
    have : B = [] := List.length_eq_zero_iff.1 hl
    subst this
    exact ⟨[], [], by unfold dumpLoop; rfl, rfl, rfl⟩
  | cons page rest ih =>
    cases left with
    | zero =>
      have : B = [] := List.length_eq_zero_iff.1 hl
      subst this
      exact ⟨[], [], by unfold dumpLoop; rfl, rfl, rfl⟩
    | succ left =>
      have hip := hin page rfl
      simp only [List.flatten_cons, List.length_append] at hlen
      generalize hsl : min (left + 1) (page.length - ind) = sl
      have hslB : sl ≤ B.length := by omega
      have h1 : (bitmask.drop mo).take sl = B.take sl := by
        rw [← hB, List.take_take]; congr 1; omega
      have hb1 : (B.take sl).length = sl := by rw [List.length_take]; omega
      obtain ⟨p1, q1, r1⟩ := dumpSlice_ok page _ _ (takeAt_compress page ind (B.take sl) 0 id (by omega))
      obtain ⟨p2, q2, r2⟩ := dumpSlice_ok page _ _ (takeAt_compress page ind (B.take sl) 0 (!·) (by omega))
      obtain ⟨ps, fs, e1, e2, e3⟩ := ih (mo + sl) (left + 1 - sl) 0 (B.drop sl)
        (by rw [← hB, ← List.drop_drop, List.drop_take])
        (by rw [List.length_drop, hl]) (fun _ _ => by omega) (by omega)
      refine ⟨p1 ++ ps, p2 ++ fs, ?_, ?_, ?_⟩
      · unfold dumpLoop
        dsimp only
        rw [hsl, h1]
        have a1 : dumpSlice page (((B.take sl).zipIdx.filter (·.1)).map fun b => b.2 + ind) = .ok p1 := q1
        rw [a1, q2]
        simp only [bind, Except.bind]
        rw [e1]
      · rw [List.flatten_append, r1, e2, List.map_id, List.drop_zero, Nat.add_zero]
        conv_rhs => rw [← List.take_append_drop sl B]
        rw [List.flatten_cons, List.drop_append_of_le_length hip]
        by_cases hs : sl = page.length - ind
        · rw [npCompress_append _ _ _ _ (by rw [hb1, List.length_drop]; exact hs)]
        · have hs2 : sl = left + 1 := by omega
          have : B.drop sl = [] := List.drop_eq_nil_of_le (by omega)
          rw [this, List.append_nil, npCompress_take _ _ _ (by rw [hb1, List.length_drop]; omega)]
          simp [npCompress]
      · rw [List.flatten_append, r2, e3, List.drop_zero, Nat.add_zero]
        conv_rhs => rw [← List.take_append_drop sl B]
        rw [List.flatten_cons, List.drop_append_of_le_length hip, List.map_append]
        by_cases hs : sl = page.length - ind
        · rw [npCompress_append _ _ _ _ (by rw [List.length_map, hb1, List.length_drop]; exact hs)]
        · have hs2 : sl = left + 1 := by omega
          have : B.drop sl = [] := List.drop_eq_nil_of_le (by omega)
          rw [this, List.map_nil, List.append_nil, npCompress_take _ _ _ (by rw [List.length_map, hb1, List.length_drop]; omega)]
          simp [npCompress]

theorem skipPages_ok (offset cur : Nat) (pages : Pages α) (hc : cur ≤ offset) (h : offset < cur + pages.flatten.length) :
    ∃ ind rest, skipPages offset cur pages = .ok (ind, rest) ∧ (∀ p, rest.head? = some p → ind ≤ p.length) ∧
      rest.flatten.drop ind = pages.flatten.drop (offset - cur) ∧ ind + (pages.flatten.length - (offset - cur)) = rest.flatten.length := by
  induction pages generalizing cur with
  | nil => simp only [List.flatten_nil, List.length_nil] at h; omega
  | cons p u ih =>
    unfold skipPages
    simp only [List.flatten_cons, List.length_append] at h
    by_cases hp : offset < cur + p.length
    · rw [if_pos hp]
      refine ⟨_, _, rfl, ?_, rfl, ?_⟩
      · intro q hq
        injection hq with hq
        subst hq
        omega
      · simp only [List.flatten_cons, List.length_append]; omega
    · rw [if_neg hp]
      obtain ⟨ind, rest, h1, h2, h3, h4⟩ := ih (cur + p.length) (by omega) (by omega)
      refine ⟨ind, rest, h1, h2, ?_, ?_⟩
      · rw [h3, List.flatten_cons, List.drop_append, List.drop_eq_nil_of_le (show p.length ≤ offset - cur by omega), List.nil_append]
        congr 1; omega
      · simp only [List.flatten_cons, List.length_append]; omega

theorem dumpPage_ok (offset bitNum : Nat) (bitmask : List Bool) (pages : Pages α) (hb : bitNum ≤ bitmask.length) (hpos : 0 < bitNum)
    (hlen : offset + bitNum ≤ pages.flatten.length) :
    ∃ p f, dumpPage offset bitNum bitmask pages = .ok (p, f) ∧ p.flatten = npCompress (bitmask.take bitNum) (pages.flatten.drop offset) ∧
      f.flatten = npCompress ((bitmask.take bitNum).map (!·)) (pages.flatten.drop offset) := by
  obtain ⟨ind, rest, h1, h2, h3, h4⟩ := skipPages_ok offset 0 pages (by omega) (by omega)
  rw [Nat.sub_zero] at h3 h4
  obtain ⟨p, f, e1, e2, e3⟩ := dumpLoop_ok bitmask rest 0 bitNum ind (bitmask.take bitNum) (by simp) (by rw [List.length_take]; omega) h2 (by omega)
  refine ⟨p, f, ?_, ?_, ?_⟩
  · unfold dumpPage
    rw [h1]
    exact e1
  · rw [e2, h3]
  · rw [e3, h3]

/-- what has been written to the pass and fail columns after the bits `B` -/
def Dumped (B : List Bool) (col : Pages α) (o : Pages α × Pages α) : Prop :=
  o.1.flatten = npCompress B col.flatten ∧ o.2.flatten = npCompress (B.map (!·)) col.flatten

theorem dumpPages_ok (cols : List (Pages α)) (s : FState α) (B : List Bool) (hB : B.length = s.offset) (hb : s.bitNum ≤ s.bitmask.length)
    (hpos : 0 < s.bitNum) (N : Nat) (hcols : ∀ c ∈ cols, c.flatten.length = N) (hN : s.offset + s.bitNum ≤ N) (hout : List.Forall₂ (Dumped B) cols s.out) :
    ∃ out, dumpPages cols s = .ok out ∧ List.Forall₂ (Dumped (B ++ s.bitmask.take s.bitNum)) cols out := by
  unfold dumpPages
  generalize s.out = o at hout
  induction hout with
  | nil => exact ⟨[], rfl, .nil⟩
  | @cons c o cs os h _ ih =>
    obtain ⟨out, h1, h2⟩ := ih (fun c hc => hcols c (by simp [hc]))
    have hc := hcols c (by simp)
    obtain ⟨p, f, e1, e2, e3⟩ := dumpPage_ok s.offset s.bitNum s.bitmask c hb hpos (by omega)
    refine ⟨(o.1 ++ p, o.2 ++ f) :: out, ?_, .cons ?_ h2⟩
    · rw [List.zip_cons_cons, List.mapM_cons]
      simp only
      rw [e1]
      simp only [bind, Except.bind] at h1 ⊢
      rw [h1]
      rfl
    · constructor
      · rw [List.flatten_append, h.1, e2, npCompress_drop _ _ _ (by rw [List.length_take]; omega), hB]
      · rw [List.flatten_append, h.2, e3, List.map_append, npCompress_drop _ _ _ (by rw [List.length_map, List.length_map, List.length_take]; omega),
          List.length_map, hB]

theorem filterLoop_ok (ps : Nat) (cols : List (Pages α)) (N : Nat) (hcols : ∀ c ∈ cols, c.flatten.length = N) (bits : List Bool) (s : FState α) (B : List Bool)
    (hps : s.bitmask.length = ps) (hbn : s.bitNum < ps) (hB : B.length = s.offset) (hN : s.offset + s.bitNum + bits.length ≤ N)
    (hout : List.Forall₂ (Dumped B) cols s.out) :
    ∃ s' B', filterLoop ps cols bits s = .ok s' ∧ s'.bitmask.length = ps ∧ s'.bitNum < ps ∧ B'.length = s'.offset ∧
      List.Forall₂ (Dumped B') cols s'.out ∧ B' ++ s'.bitmask.take s'.bitNum = B ++ s.bitmask.take s.bitNum ++ bits := by
  induction bits generalizing s B with
  | nil => exact ⟨s, B, rfl, hps, hbn, hB, hout, by simp⟩
  | cons b bs ih =>
    simp only [List.length_cons] at hN
    unfold filterLoop
    have htake : (s.bitmask.set s.bitNum b).take (s.bitNum + 1) = s.bitmask.take s.bitNum ++ [b] := by
      rw [List.take_set, List.take_succ, List.getElem?_eq_getElem (by omega)]
      simp only [Option.toList_some]
      rw [List.set_append_right _ _ (by rw [List.length_take]; omega), List.length_take, Nat.min_eq_left (by omega)]
      simp
    simp only [bind, Except.bind]
    by_cases hge : s.bitNum + 1 ≥ ps
    · rw [if_pos hge]
      obtain ⟨out, h1, h2⟩ := dumpPages_ok cols { s with bitmask := s.bitmask.set s.bitNum b, bitNum := s.bitNum + 1 } B hB
        (by simp only [List.length_set]; omega) (by simp) N hcols (by simp only; omega) hout
      rw [h1]
      simp only
      obtain ⟨s', B', g1, g2, g3, g4, g5, g6⟩ := ih
        { bitmask := s.bitmask.set s.bitNum b, bitNum := 0, offset := s.offset + (s.bitNum + 1), out := out } (B ++ (s.bitmask.set s.bitNum b).take (s.bitNum + 1))
        (by simp only [List.length_set]; exact hps) (by simp only; omega)
        (by simp only [List.length_append, List.length_take, List.length_set]; omega) (by simp only; omega) h2
      refine ⟨s', B', g1, g2, g3, g4, g5, ?_⟩
      rw [g6]
      simp only [List.take_zero, List.append_nil]
      rw [htake]
      simp
    · rw [if_neg hge]
      obtain ⟨s', B', g1, g2, g3, g4, g5, g6⟩ := ih { s with bitmask := s.bitmask.set s.bitNum b, bitNum := s.bitNum + 1 } B
        (by simp only [List.length_set]; exact hps) (by simp only; omega) hB (by simp only; omega) hout
      refine ⟨s', B', g1, g2, g3, g4, g5, ?_⟩
      rw [g6]
      simp only
      rw [htake]
      simp

end

end Tablite
