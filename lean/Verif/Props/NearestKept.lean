import Verif.Props.NearestRow
import Verif.Props.Pivot

/-!
# C57, exactly: which missing cells are filled when there are several kinds of missing values and several pages
-/

namespace Tablite

/-! ## which visits last -/

/-- the value written at visit `w` is still there at the end: the page was not left and entered again -/
def KeptVisit (vs : List (Nat × Nat × Nat)) (w : Nat × Nat × Nat) : Prop := w ∈ vs ∧ ¬ ∃ z y, [w, z, y].Sublist vs ∧ z.1 ≠ w.1 ∧ y.1 = w.1

theorem kept_snoc (vs : List (Nat × Nat × Nat)) (x w : Nat × Nat × Nat) (hn : (vs ++ [x]).Nodup) :
    KeptVisit (vs ++ [x]) w ↔ w = x ∨ (KeptVisit vs w ∧ (w.1 = x.1 → vs.getLast?.map (·.1) = some x.1)) := by
  have hx : x ∉ vs := fun h => (List.nodup_append.1 hn).2.2 x h x (by simp) rfl
  have hsub : ∀ l : List (Nat × Nat × Nat), l.Sublist (vs ++ [x]) → l.Sublist vs ∨ ∃ l', l = l' ++ [x] ∧ l'.Sublist vs := by
    intro l hl
    obtain ⟨l1, l2, rfl, h1, h2⟩ := List.sublist_append_iff.1 hl
    rcases List.sublist_singleton.1 h2 with rfl | rfl
    · left; simpa using h1
    · exact .inr ⟨l1, rfl, h1⟩
  constructor
  · rintro ⟨h1, h2⟩
    by_cases hwx : w = x
    · exact .inl hwx
    · right
      have hw : w ∈ vs := by simpa [hwx] using h1
      refine ⟨⟨hw, fun ⟨z, y, g, g'⟩ => h2 ⟨z, y, g.trans (List.sublist_append_left _ _), g'⟩⟩, fun hp => ?_⟩
      rcases List.eq_nil_or_concat vs with rfl | ⟨vs', l, rfl⟩
      · cases hw
      · rw [List.concat_eq_append, List.getLast?_append_of_ne_nil _ (by simp)]
        by_contra hc
        have hlx : l.1 ≠ x.1 := by simpa using hc
        apply h2
        refine ⟨l, x, ?_, by rw [hp]; exact hlx, hp.symm⟩
        have hw' : w ∈ vs' := by
          rw [List.concat_eq_append, List.mem_append, List.mem_singleton] at hw
          rcases hw with hw | rfl
          · exact hw
          · exact absurd hp hlx
        rw [List.concat_eq_append]
        exact ((List.singleton_sublist.2 hw').append (List.Sublist.refl [l])).append (List.Sublist.refl [x])
  · rintro (rfl | ⟨⟨h1, h2⟩, h3⟩)
    · refine ⟨by simp, ?_⟩
      rintro ⟨z, y, g, -, -⟩
      rcases hsub _ g with g | ⟨l', e, g⟩
      · exact hx (g.subset (by simp))
      · have : l' = [w, z] := by
          have := congrArg List.dropLast e
          simpa using this.symm
        rw [this] at g
        exact hx (g.subset (by simp))
    · refine ⟨List.mem_append_left _ h1, ?_⟩
      rintro ⟨z, y, g, g1, g2⟩
      rcases hsub _ g with g | ⟨l', e, g⟩
      · exact h2 ⟨z, y, g, g1, g2⟩
      · have e1 : l' = [w, z] := by
          have := congrArg List.dropLast e
          simpa using this.symm
        have e2 : y = x := by
          rw [e1] at e
          simpa using e
        rw [e1] at g
        rw [e2] at g2
        have h4 := h3 g2.symm
        rcases List.eq_nil_or_concat vs with rfl | ⟨vs', l, rfl⟩
        · cases h1
        · rw [List.concat_eq_append] at h4 g h2
          rw [List.getLast?_append_of_ne_nil _ (by simp)] at h4
          have hl : l.1 = x.1 := by simpa using h4
          obtain ⟨l1, l2, e3, g3, g4⟩ := List.sublist_append_iff.1 g
          rcases List.sublist_singleton.1 g4 with rfl | rfl
          · rw [List.append_nil] at e3
            subst e3
            exact h2 ⟨z, l, by simpa using g3.append (List.Sublist.refl [l]), g1, by rw [hl, g2]⟩
          · have : z = l := by
              have := congrArg List.getLast? e3
              simpa using this
            exact g1 (by rw [this, hl, g2])

theorem PlaceOf.inj {lens : List Nat} {k p k' p' r : Nat} (h : PlaceOf lens k p r) (h' : PlaceOf lens k' p' r) : k = k' ∧ p = p' := by
  induction lens generalizing k k' r with
  | nil => obtain ⟨m, h1, -⟩ := h; simp at h1
  | cons x l ih =>
    obtain ⟨m, h1, h2, h3⟩ := h
    obtain ⟨m', h1', h2', h3'⟩ := h'
    cases k with
    | zero =>
      cases k' with
      | zero => simp at h3 h3'; exact ⟨rfl, by omega⟩
      | succ k' =>
        simp only [List.getElem?_cons_zero, Option.some.injEq] at h1
        simp at h3 h3'
        omega
    | succ k =>
      cases k' with
      | zero =>
        simp only [List.getElem?_cons_zero, Option.some.injEq] at h1'
        simp at h3 h3'
        omega
      | succ k' =>
        simp only [List.getElem?_cons_succ] at h1 h1'
        simp only [List.take_succ_cons, List.sum_cons] at h3 h3'
        obtain ⟨e1, e2⟩ := ih (k := k) (k' := k') (r := (l.take k).sum + p) ⟨m, h1, h2, rfl⟩ ⟨m', h1', h2', by omega⟩
        exact ⟨by omega, e2⟩

/-- Spec: the page a row is on -/
def pageOfRow : List Nat → Nat → Nat
  | [], _ => 0
  | n :: lens, r => if r < n then 0 else pageOfRow lens (r - n) + 1

theorem PlaceOf.page {lens : List Nat} {k p r : Nat} (h : PlaceOf lens k p r) : pageOfRow lens r = k := by
  induction lens generalizing k r with
  | nil => obtain ⟨m, h1, -⟩ := h; simp at h1
  | cons x l ih =>
    obtain ⟨m, h1, h2, h3⟩ := h
    rw [pageOfRow]
    cases k with
    | zero =>
      simp only [List.getElem?_cons_zero, Option.some.injEq] at h1
      simp at h3
      rw [if_pos (by omega)]
    | succ k =>
      simp only [List.getElem?_cons_succ] at h1
      simp only [List.take_succ_cons, List.sum_cons] at h3
      rw [if_neg (by omega), ih (k := k) ⟨m, h1, h2, by omega⟩]

section
variable {ν α : Type} [DecidableEq ν] [DecidableEq α]

theorem place_same {l l' : Pages α} {k p r : Nat} (h : PlaceOf (l.map List.length) k p r) (hl : l'.map List.length = l.map List.length) (e : l'[k]? = l[k]?) :
    l'.flatten[r]? = l.flatten[r]? := by
  obtain ⟨pg, g1, -, g3, -⟩ := h.get
  have h' : PlaceOf (l'.map List.length) k p r := by rw [hl]; exact h
  obtain ⟨pg', q1, -, q3, -⟩ := h'.get
  rw [← g3, ← q3]
  rw [e, g1] at q1
  rw [Option.some.inj q1]

/-! ## the loop -/

/-- the state of the loop after the visits `vs` -/
structure KeptInv (missing : List α) (a : ν) (pa : Pages α) (s : NNState ν α) (vs : List (Nat × Nat × Nat)) (o out : Pages α) : Prop where
  outIs : s.out = [out]
  outLen : out.length = pa.length
  lens : o.map List.length = pa.map List.length
  last : s.loaded.map (·.1) = vs.getLast?.map (·.1)
  cur : match s.loaded with
    | none => o = out
    | some l => ∃ pg, l.2 = [pg] ∧ l.1 < pa.length ∧ o = out.set l.1 pg
  fresh : ∀ r, (∀ x ∈ vs, x.2.1 ≠ r) → seen s.sparse a (colIter pa) r = (colIter pa)[r]?
  kept : ∀ k q r, PlaceOf (pa.map List.length) k q r → KeptVisit vs (k, r, q) → ∃ v, o.flatten[r]? = some v ∧ v ∉ missing
  lost : ∀ k q r, PlaceOf (pa.map List.length) k q r → ¬ KeptVisit vs (k, r, q) → o.flatten[r]? = pa.flatten[r]?

theorem KeptInv.save {missing : List α} {a : ν} {pa : Pages α} {s : NNState ν α} {vs : List (Nat × Nat × Nat)} {o out : Pages α} (h : KeptInv missing a pa s vs o out) :
    nnSave s = .ok [o] := by
  unfold nnSave
  have hc := h.cur
  cases hl : s.loaded with
  | none => rw [hl] at hc; dsimp only; rw [h.outIs, hc]
  | some l =>
    rw [hl] at hc
    obtain ⟨pg, g1, g2, g3⟩ := hc
    dsimp only
    rw [h.outIs, g1, savePages, if_pos (by rw [h.outLen]; exact g2), g3]
    rfl

/-- loading the page of a visit -/
theorem KeptInv.load {missing : List α} {a : ν} {pa : Pages α} {s : NNState ν α} {vs : List (Nat × Nat × Nat)} {o out : Pages α} (h : KeptInv missing a pa s vs o out)
    (k : Nat) (hk : k < pa.length) : ∃ s1 pg o1 out1, nnLoad [(a, pa)] k s = .ok s1 ∧ s1.loaded = some (k, [pg]) ∧ s1.sparse = s.sparse ∧ s1.out = [out1] ∧ out1.length = pa.length ∧
      o1 = out1.set k pg ∧ o1.map List.length = pa.map List.length ∧ (∀ k' q r, PlaceOf (pa.map List.length) k' q r → k' ≠ k ∨ vs.getLast?.map (·.1) = some k → o1.flatten[r]? = o.flatten[r]?) ∧
      ∀ q r, PlaceOf (pa.map List.length) k q r → vs.getLast?.map (·.1) ≠ some k → o1.flatten[r]? = pa.flatten[r]? := by
  have hlo : o.length = pa.length := by simpa using congrArg List.length h.lens
  unfold nnLoad
  split_ifs with hp
  · have hc := h.cur
    cases hl : s.loaded with
    | none => rw [hl] at hp; cases hp
    | some l =>
      rw [hl] at hc
      obtain ⟨pg, g1, g2, g3⟩ := hc
      have hlk : l.1 = k := by rw [hl] at hp; simpa using hp
      refine ⟨s, pg, o, out, rfl, by rw [hl, ← g1, ← hlk], rfl, h.outIs, h.outLen, by rw [g3, hlk], h.lens, fun _ _ _ _ _ => rfl, fun q r _ hne => ?_⟩
      rw [← h.last] at hne
      exact absurd hp hne
  · rw [h.save]
    dsimp only [Except.bind]
    have hm : [(a, pa)].mapM (nnPage k) = .ok [pa[k]] := by
      have : nnPage k (a, pa) = .ok pa[k] := by unfold nnPage; rw [List.getElem?_eq_getElem hk]
      rw [List.mapM_cons, this]; rfl
    rw [hm]
    have hlens : (o.set k pa[k]).map List.length = pa.map List.length := by
      rw [List.map_set, h.lens]
      apply List.ext_getElem?
      intro i
      rw [List.getElem?_set]
      split_ifs with e1 e2
      · rw [← e1, List.getElem?_map, List.getElem?_eq_getElem hk]; rfl
      · exact absurd (by rw [List.length_map]; exact hk) e2
      · rfl
    refine ⟨⟨some (k, [pa[k]]), s.sparse, [o]⟩, pa[k], o.set k pa[k], o, rfl, rfl, rfl, rfl, hlo, rfl, hlens, ?_, ?_⟩
    · rintro k' q r hpl (hne | hla)
      · exact place_same (by rw [h.lens]; exact hpl) (by rw [hlens, h.lens]) (List.getElem?_set_ne (fun e => hne e.symm))
      · rw [← h.last] at hla
        exact absurd hla hp
    · intro q r hpl _
      refine place_same hpl hlens ?_
      rw [List.getElem?_set_self (by omega), List.getElem?_eq_getElem hk]

theorem KeptInv.visit {sortVals : List α → List α} {missing : List α} {nul : α} {t : Tbl ν α} {a : ν} {pa : Pages α} {sources : List ν} {srcs : List (NNSource ν α)}
    (hsrc : List.Forall₂ (SrcNear sortVals missing nul t (colIter pa).length a (pa.map List.length)) sources srcs) {s : NNState ν α} {vs : List (Nat × Nat × Nat)} {o out : Pages α}
    (h : KeptInv missing a pa s vs o out) (x : Nat × Nat × Nat) (hx : PlaceOf (pa.map List.length) x.1 x.2.2 x.2.1) (hn : (vs ++ [x]).Nodup) (hxr : ∀ y ∈ vs, y.2.1 ≠ x.2.1)
    (hm : cell nul t a x.2.1 ∈ missing) (w : α) (hcur : (colIter pa)[x.2.1]? = some w) (hw : w ∈ missing)
    (hex : ∃ j w', (∀ y ∈ vs, y.2.1 ≠ j) ∧ (colIter pa)[j]? = some w' ∧ w' ∉ missing) :
    ∃ s' o' out', nnVisit missing srcs (colIter pa).length [(a, pa)] s x = .ok s' ∧ KeptInv missing a pa s' (vs ++ [x]) o' out' := by
  obtain ⟨errs, e1, e2, e3⟩ := nnErrs_near hsrc x.1 x.2.2 x.2.1 hx hm
  have hxk : x.1 < pa.length := by
    obtain ⟨m, h1, -⟩ := hx
    have := (List.getElem?_eq_some_iff.1 h1).1
    rw [List.length_map] at this
    exact this
  obtain ⟨s1, pg, o1, out1, l1, l2, l3, l4, l5, l6, l7, l8, l9⟩ := h.load x.1 hxk
  have hpo : PlaceOf (o1.map List.length) x.1 x.2.2 x.2.1 := by rw [l7]; exact hx
  obtain ⟨pg', p1, p2, p3, p4, p5⟩ := hpo.get
  have hpg : pg' = pg := by
    rw [l6, List.getElem?_set_self (by omega)] at p1
    exact (Option.some.inj p1).symm
  subst hpg
  have hnk : ¬ KeptVisit vs (x.1, x.2.1, x.2.2) := fun hk => hxr _ hk.1 rfl
  have ho1 : o1.flatten[x.2.1]? = pa.flatten[x.2.1]? := by
    by_cases hla : vs.getLast?.map (·.1) = some x.1
    · rw [l8 _ _ _ hx (.inr hla)]
      exact h.lost _ _ _ hx hnk
    · exact l9 _ _ hx hla
  rw [ho1, ← colIter_eq, hcur] at p3
  have hsx : seen s1.sparse a (colIter pa) x.2.1 = some w := by rw [l3, h.fresh _ hxr, hcur]
  obtain ⟨j0, w', hj1, hj2, hj3⟩ := hex
  have hex' : ∃ j, j < (colIter pa).length ∧ Usable missing (seen s1.sparse a (colIter pa)) x.2.1 j := by
    refine ⟨j0, (List.getElem?_eq_some_iff.1 hj2).1, ?_, w', by rw [l3, h.fresh _ hj1, hj2], hj3⟩
    rintro rfl
    rw [hcur] at hj2
    cases hj2
    exact hj3 hw
  obtain ⟨j, v, sp', c1, c2, c3, c4⟩ := nnCell_near missing x.2.1 a (colIter pa) _ errs s1.sparse w e2 e3 hw hsx hex'
  have hvm : v ∉ missing := by
    obtain ⟨-, ⟨-, w2, hw2, hwm⟩, -⟩ := c4
    rw [c3] at hw2
    cases hw2
    exact hwm
  have hrow : nnRow missing errs x.2.1 x.2.2 [(a, pa)] [pg'] s1.sparse = .ok ([pg'.set x.2.2 v], sp') := by
    rw [nnRow.eq_def]
    dsimp only
    rw [p3]
    dsimp only
    rw [c1]
    rfl
  have hflat := p5 v
  have hlens : (o1.set x.1 (pg'.set x.2.2 v)).map List.length = pa.map List.length := by
    rw [List.map_set, List.length_set, ← l7]
    apply List.ext_getElem?
    intro i
    rw [List.getElem?_set]
    split_ifs with q1 q2
    · rw [← q1, List.getElem?_map, p1]; rfl
    · exfalso
      apply q2
      rw [List.length_map]
      exact (List.getElem?_eq_some_iff.1 p1).1
    · rfl
  have hother : ∀ k q r, PlaceOf (pa.map List.length) k q r → (k, r, q) ≠ x → (o1.set x.1 (pg'.set x.2.2 v)).flatten[r]? = o1.flatten[r]? := by
    intro k q r hp hne
    rw [hflat, List.getElem?_set_ne]
    rintro rfl
    obtain ⟨i1, i2⟩ := hp.inj hx
    exact hne (by rw [i1, i2])
  refine ⟨⟨some (x.1, [pg'.set x.2.2 v]), sp', s1.out⟩, o1.set x.1 (pg'.set x.2.2 v), out1, ?_, ⟨l4, l5, hlens, ?_, ⟨_, rfl, hxk, ?_⟩, ?_, ?_, ?_⟩⟩
  · unfold nnVisit
    rw [e1]
    dsimp only [Except.bind]
    rw [l1]
    dsimp only
    rw [l2]
    dsimp only
    rw [hrow]
  · rw [List.getLast?_append_of_ne_nil _ (by simp)]
    rfl
  · rw [l6, List.set_set]
  · intro r hr
    show seen sp' a (colIter pa) r = _
    have hrx : r ≠ x.2.1 := fun e => hr x (by simp) e.symm
    rw [c2, if_neg hrx, l3]
    exact h.fresh r fun y hy => hr y (List.mem_append_left _ hy)
  · intro k q r hp hk
    rw [kept_snoc vs x _ hn] at hk
    rcases hk with hk | ⟨hk, hpage⟩
    · rw [hflat]
      have hr : r = x.2.1 := by rw [← hk]
      rw [hr, List.getElem?_set_self (by exact p4)]
      exact ⟨v, rfl, hvm⟩
    · have hne : (k, r, q) ≠ x := fun e => hnk (by rw [← e] at *; exact hk)
      rw [hother k q r hp hne, l8 k q r hp]
      · exact h.kept k q r hp hk
      · by_cases hkx : k = x.1
        · exact .inr (by rw [← hpage hkx])
        · exact .inl hkx
  · intro k q r hp hk
    rw [kept_snoc vs x _ hn, not_or] at hk
    obtain ⟨hne, hk⟩ := hk
    rw [hother k q r hp hne]
    by_cases hkx : k = x.1
    · by_cases hla : vs.getLast?.map (·.1) = some x.1
      · rw [l8 k q r hp (.inr (by rw [hla]))]
        exact h.lost k q r hp fun hkk => hk ⟨hkk, fun _ => hla⟩
      · rw [hkx] at hp
        exact l9 q r hp hla
    · rw [l8 k q r hp (.inl hkx)]
      exact h.lost k q r hp fun hkk => hk ⟨hkk, fun e => absurd e hkx⟩

theorem KeptInv.visits {sortVals : List α → List α} {missing : List α} {nul : α} {t : Tbl ν α} {a : ν} {pa : Pages α} {sources : List ν} {srcs : List (NNSource ν α)}
    (hsrc : List.Forall₂ (SrcNear sortVals missing nul t (colIter pa).length a (pa.map List.length)) sources srcs) (rest : List (Nat × Nat × Nat)) {s : NNState ν α} {vs : List (Nat × Nat × Nat)}
    {o out : Pages α} (h : KeptInv missing a pa s vs o out) (hx : ∀ x ∈ rest, PlaceOf (pa.map List.length) x.1 x.2.2 x.2.1) (hn : ((vs ++ rest).map (·.2.1)).Nodup)
    (hm : ∀ x ∈ rest, cell nul t a x.2.1 ∈ missing ∧ ∃ w, (colIter pa)[x.2.1]? = some w ∧ w ∈ missing)
    (hex : ∃ j w', (∀ y ∈ vs ++ rest, y.2.1 ≠ j) ∧ (colIter pa)[j]? = some w' ∧ w' ∉ missing) :
    ∃ s' o' out', rest.foldlM (nnVisit missing srcs (colIter pa).length [(a, pa)]) s = .ok s' ∧ KeptInv missing a pa s' (vs ++ rest) o' out' := by
  induction rest generalizing s vs o out with
  | nil => exact ⟨s, o, out, rfl, by rw [List.append_nil]; exact h⟩
  | cons x rest ih =>
    have happ : vs ++ x :: rest = (vs ++ [x]) ++ rest := by simp
    rw [happ] at hn hex ⊢
    have hn1 : ((vs ++ [x]).map (·.2.1)).Nodup := by
      rw [List.map_append] at hn
      exact (List.nodup_append.1 hn).1
    obtain ⟨hm1, w, hm2, hm3⟩ := hm x List.mem_cons_self
    obtain ⟨j, w', hj1, hj2, hj3⟩ := hex
    obtain ⟨s1, o1, out1, g1, g2⟩ := h.visit hsrc x (hx x List.mem_cons_self) (List.Nodup.of_map _ hn1) (by
        intro y hy e
        rw [List.map_append] at hn1
        exact (List.nodup_append.1 hn1).2.2 _ (List.mem_map.2 ⟨y, hy, rfl⟩) x.2.1 (by simp) e) hm1 w hm2 hm3
      ⟨j, w', fun y hy => hj1 y (List.mem_append_left _ (List.mem_append_left _ hy)), hj2, hj3⟩
    obtain ⟨s2, o2, out2, k1, k2⟩ := ih g2 (fun y hy => hx y (List.mem_cons_of_mem _ hy)) hn (fun y hy => hm y (List.mem_cons_of_mem _ hy)) ⟨j, w', hj1, hj2, hj3⟩
    exact ⟨s2, o2, out2, by rw [List.foldlM_cons, g1]; exact k1, k2⟩

/-! ## the order of the visits -/

/-- Spec: the kinds of missing values in a column in the order they are worked on: from the last to the first -/
def kindsDown (sortVals : List α → List α) (missing col : List α) : List α := (sortVals ((firstOccs col).filter fun v => v ∈ missing)).reverse

/-- Spec: the rows with missing values in the order they are filled: kind by kind, each from top to bottom -/
def fillOrder (sortVals : List α → List α) (missing col : List α) : List Nat :=
  (kindsDown sortVals missing col).flatMap fun v => (List.range col.length).filter fun i => col[i]? = some v

theorem positions_filter (v : α) (col : List α) : positionsFrom (fun x => decide (x = v)) 0 col = (List.range col.length).filter fun i => col[i]? = some v := by
  refine List.Perm.eq_of_pairwise (le := (· < ·)) (fun a b _ _ h1 h2 => by omega) (positionsFrom_sorted _ _ _) (List.pairwise_lt_range.filter _) ?_
  rw [List.perm_ext_iff_of_nodup ((positionsFrom_sorted _ _ _).imp fun h => Nat.ne_of_lt h) (List.nodup_range.filter _)]
  intro i
  rw [mem_positionsFrom, List.mem_filter, List.mem_range]
  constructor
  · rintro ⟨w, -, h2, h3⟩
    rw [Nat.sub_zero] at h2
    rw [of_decide_eq_true h3] at h2
    exact ⟨(List.getElem?_eq_some_iff.1 h2).1, by simpa using h2⟩
  · rintro ⟨-, h⟩
    exact ⟨v, Nat.zero_le _, by simpa using h, by simp⟩

theorem firstOccs_single (col : List α) : firstOccs (col.map fun v => [v]) = (firstOccs col).map fun v => [v] := by
  rw [← firstOccs_map_firstOccs]
  exact firstOccs_of_nodup ((nodup_firstOccs col).map fun a b h => by simpa using h)

theorem nnOrder_down (sortVals : List α → List α) (hsv : ∀ l, (sortVals l).Perm l) (missing col : List α) :
    nnOrder sortVals missing ((firstOccs (col.map fun v => [v])).map fun k => (k, positionsFrom (fun x => decide (x = k)) 0 (col.map fun v => [v]))) =
      (kindsDown sortVals missing col).map fun v => ([v], positionsFrom (fun x => decide (x = v)) 0 col) := by
  set ks := (firstOccs col).filter fun v => v ∈ missing with hks
  have hnd : ks.Nodup := (nodup_firstOccs col).filter _
  have hkeys : (((firstOccs (col.map fun v => [v])).map fun k => (k, positionsFrom (fun x => decide (x = k)) 0 (col.map fun v => [v]))).filter
      fun e => e.1.any fun v => decide (v ∈ missing)) = ks.map fun v => ([v], positionsFrom (fun x => decide (x = v)) 0 col) := by
    rw [firstOccs_single, List.map_map, List.filter_map, hks]
    have : ((fun e : List α × List Nat => e.1.any fun v => decide (v ∈ missing)) ∘ ((fun k => (k, positionsFrom (fun x => decide (x = k)) 0 (col.map fun v => [v]))) ∘ fun v : α => [v])) =
        fun v => decide (v ∈ missing) := by
      funext v
      simp
    rw [this]
    apply List.map_congr_left
    intro v _
    simp only [Function.comp_apply]
    rw [positionsFrom_map]
    simp
  unfold nnOrder
  dsimp only
  rw [hkeys]
  have hitem : firstOccs ((ks.map fun v => ([v], positionsFrom (fun x => decide (x = v)) 0 col)).flatMap (·.1)) = ks := by
    rw [List.flatMap_map]
    have : (ks.flatMap fun v => [v]) = ks := by simp
    rw [this]
    exact firstOccs_of_nodup hnd
  rw [hitem]
  set S := sortVals ks with hS
  have hSn : S.Nodup := (hsv ks).nodup_iff.2 hnd
  rw [← List.map_insertionSort (r := fun v w => S.idxOf w ≤ S.idxOf v) (s := fun a b : List α × List Nat => rankGe (a.1.map S.idxOf) (b.1.map S.idxOf) = true)]
  · congr 1
    have i1 : Std.Total fun v w : α => S.idxOf w ≤ S.idxOf v := ⟨fun v w => le_total _ _⟩
    have i2 : IsTrans α fun v w : α => S.idxOf w ≤ S.idxOf v := ⟨fun _ _ _ h1 h2 => le_trans h2 h1⟩
    have hmS : ∀ {v}, v ∈ ks ↔ v ∈ S := (hsv ks).mem_iff.symm
    refine List.Perm.eq_of_pairwise (le := fun v w => S.idxOf w ≤ S.idxOf v) ?_ (List.pairwise_insertionSort _ _) ?_ ?_
    · intro v w hv hw h1 h2
      rw [List.mem_insertionSort, hmS] at hv
      exact (List.idxOf_inj hv).1 (le_antisymm h2 h1)
    · unfold kindsDown
      rw [← hks, ← hS, List.pairwise_reverse, List.pairwise_iff_getElem]
      intro i j hi hj hij
      rw [hSn.idxOf_getElem, hSn.idxOf_getElem]
      omega
    · unfold kindsDown
      rw [← hks]
      exact (List.perm_insertionSort _ _).trans ((List.reverse_perm _).trans (hsv ks)).symm
  · intro v _ w _
    simp only [List.map_cons, List.map_nil, rankGe]
    split_ifs with e
    · simp [e]
    · simp only [decide_eq_true_eq]
      omega

/-! ## the property -/

/-- Spec: after row `i` a row of another page is filled, and after that one of the page of `i` again -/
def Revisited (page : Nat → Nat) (rows : List Nat) (i : Nat) : Prop := ∃ z y, [i, z, y].Sublist rows ∧ page z ≠ page i ∧ page y = page i

/-- **C57, exactly**: imputation of one target from sources that are cut into pages alike and have no missing values, when the target has a known value.  It succeeds; a missing value is
filled if and only if its page is not left for another one and worked on again afterwards: then the original page is read again and what was filled in is lost. -/
theorem C57_exact (sortVals : List α → List α) (hsv : ∀ l, (sortVals l).Perm l) (missing : List α) (sources : List ν) (a : ν) (t : Tbl ν α) (n : Nat) (nul : α)
    (hw : (t.map (·.1)).Nodup) (hr : Rect t n) (hs0 : sources ≠ []) (hs : ∀ b ∈ sources, b ∈ t.map (·.1)) (ha : a ∈ t.map (·.1))
    (aligned : ∀ b ∈ sources, pageLens t b = pageLens t a) (clean : ∀ b ∈ sources, b ≠ a → ∀ i < n, cell nul t b i ∉ missing) (known : ∃ j < n, cell nul t a j ∉ missing) :
    ∃ t', nearest sortVals missing sources [a] t = .ok t' ∧ ∀ i < n, cell nul t a i ∈ missing →
      (cell nul t' a i ∉ missing ↔ ¬ Revisited (pageOfRow (pageLens t a)) (fillOrder sortVals missing ((List.range n).map (cell nul t a))) i) := by
  obtain ⟨pa, hpa⟩ := Option.isSome_iff_exists.1 ((dGet_isSome a t).2 ha)
  have hla : (colIter pa).length = n := by
    have := hr _ (dGet_mem a t pa hpa)
    rw [colLen_eq] at this
    rw [colIter_eq]; exact this
  have hlp : pageLens t a = pa.map List.length := by unfold pageLens; rw [hpa]; rfl
  have htl : tblLen t = (colIter pa).length := by
    rw [hla]
    refine tblLen_rect t n hr ?_
    rintro rfl
    cases ha
  have hcell := cell_get nul t a pa hpa
  have hcol : (List.range n).map (cell nul t a) = colIter pa := by
    apply List.ext_getElem?
    intro i
    rw [List.getElem?_map]
    by_cases hi : i < n
    · rw [List.getElem?_range hi, hcell i (by omega)]
      rfl
    · rw [List.getElem?_eq_none (by rw [List.length_range]; omega), List.getElem?_eq_none (by omega)]
      rfl
  rw [hcol, hlp]
  obtain ⟨srcs, s1, s2⟩ := mapM_ok_forall₂ sources (nnSource sortVals missing t) fun b hb =>
    nnSource_near sortVals hsv missing nul t n hr a b (hs b hb) (aligned b hb) fun hne => clean b hb hne
  have hsrc : List.Forall₂ (SrcNear sortVals missing nul t (colIter pa).length a (pa.map List.length)) sources srcs := by
    rw [hla, ← hlp]
    exact s2.imp fun _ _ h => h.1
  have hidx := C19_index nul t n hr [a] (by simp) (by simpa using ha)
  rw [keyRows_single nul t a pa hpa n hla] at hidx
  have htp : [a].mapM (nnTarget t) = .ok [(a, pa)] := by
    have : nnTarget t a = .ok (a, pa) := by unfold nnTarget; rw [hpa]
    rw [List.mapM_cons, this]; rfl
  have hord : [a] = (t.map (·.1)).filter fun b => b ∈ [a] := (filter_one _ hw a ha).symm
  have hfil := targets_in_order t hw [a] hord _ (nnTargets_eq t [a] _ htp)
  cases srcs with
  | nil =>
    cases s2
    exact absurd rfl hs0
  | cons s0 ss =>
    have hlens : s0.pages.map List.length = pa.map List.length := by
      cases s2 with
      | cons h _ => rw [h.2, hlp]
    set visits := (kindsDown sortVals missing (colIter pa)).flatMap fun v => placesOf v pa 0 0 with hvisits
    have hvis : ((nnOrder sortVals missing ((firstOccs ((colIter pa).map fun v => [v])).map fun k => (k, positionsFrom (fun x => decide (x = k)) 0 ((colIter pa).map fun v => [v])))).flatMap
        fun e => locateRows (s0.pages.map List.length) 0 0 e.2) = visits := by
      rw [nnOrder_down sortVals hsv, List.flatMap_map, hvisits]
      congr 1
      funext v
      rw [hlens, colIter_eq]
      exact locateRows_places v pa 0 0
    have hrows : visits.map (·.2.1) = fillOrder sortVals missing (colIter pa) := by
      rw [hvisits, List.map_flatMap, fillOrder]
      congr 1
      funext v
      rw [placesOf_rows, ← colIter_eq, positions_filter]
    have hkind : ∀ v, v ∈ kindsDown sortVals missing (colIter pa) ↔ v ∈ colIter pa ∧ v ∈ missing := by
      intro v
      unfold kindsDown
      rw [List.mem_reverse, (hsv _).mem_iff, List.mem_filter, mem_firstOccs]
      simp
    have hknd : (kindsDown sortVals missing (colIter pa)).Nodup := by
      unfold kindsDown
      rw [List.nodup_reverse, (hsv _).nodup_iff]
      exact (nodup_firstOccs _).filter _
    have hmem : ∀ r, r ∈ fillOrder sortVals missing (colIter pa) ↔ r < n ∧ cell nul t a r ∈ missing := by
      intro r
      unfold fillOrder
      rw [List.mem_flatMap]
      constructor
      · rintro ⟨v, hv, hr'⟩
        rw [List.mem_filter, List.mem_range] at hr'
        have h2 : (colIter pa)[r]? = some v := by simpa using hr'.2
        rw [hcell r hr'.1] at h2
        rw [Option.some.inj h2]
        exact ⟨by omega, ((hkind v).1 hv).2⟩
      · rintro ⟨h1, h2⟩
        have h3 := hcell r (by omega)
        exact ⟨cell nul t a r, (hkind _).2 ⟨List.mem_of_getElem? h3, h2⟩, List.mem_filter.2 ⟨List.mem_range.2 (by omega), by simpa using h3⟩⟩
    have hplace : ∀ x ∈ visits, PlaceOf (pa.map List.length) x.1 x.2.2 x.2.1 := by
      intro x hx
      rw [hvisits, List.mem_flatMap] at hx
      obtain ⟨v, -, hx⟩ := hx
      obtain ⟨k, r, g1, g2, g3⟩ := placesOf_place v pa 0 0 x hx
      rw [g1, g2, Nat.zero_add, Nat.zero_add]
      exact g3
    have hrow : ∀ x ∈ visits, x.2.1 < n ∧ cell nul t a x.2.1 ∈ missing := by
      intro x hx
      rw [← hmem, ← hrows]
      exact List.mem_map.2 ⟨x, hx, rfl⟩
    have hnd : (visits.map (·.2.1)).Nodup := by
      rw [hrows, fillOrder, List.nodup_flatMap]
      refine ⟨fun v _ => List.nodup_range.filter _, hknd.imp ?_⟩
      intro v w hvw r h1 h2
      rw [List.mem_filter] at h1 h2
      have g1 : (colIter pa)[r]? = some v := by simpa using h1.2
      have g2 : (colIter pa)[r]? = some w := by simpa using h2.2
      rw [g1] at g2
      exact hvw (Option.some.inj g2)
    have h0 : KeptInv missing a pa (⟨none, fun _ _ => none, [pa]⟩ : NNState ν α) [] pa pa :=
      ⟨rfl, rfl, rfl, rfl, rfl, fun r _ => rfl, fun k q r _ hk => (by cases hk.1), fun _ _ _ _ _ => rfl⟩
    obtain ⟨j0, hj0, hj0m⟩ := known
    obtain ⟨st, o, out, v1, v2⟩ := h0.visits hsrc visits hplace hnd (fun x hx => ⟨(hrow x hx).2, _, hcell _ (by have := (hrow x hx).1; omega), (hrow x hx).2⟩)
      ⟨j0, _, fun y hy e => hj0m (by rw [← e]; exact (hrow y hy).2), hcell j0 (by omega), hj0m⟩
    rw [List.nil_append] at v2
    refine ⟨nnTable [a] t [o], ?_, ?_⟩
    · unfold nearest
      rw [s1]
      dsimp only [Except.bind]
      rw [hidx]
      dsimp only
      rw [htp]
      dsimp only
      rw [hvis, htl, ← hfil]
      rw [List.map_cons, List.map_nil, v1]
      dsimp only
      rw [v2.save]
    · intro i hi him
      have hio : o.flatten[i]? = some (cell nul (nnTable [a] t [o]) a i) := by
        have := cell_get nul (nnTable [a] t [o]) a o (nnTable_get a t o ha) i (by
          have := congrArg List.sum v2.lens
          rw [← List.length_flatten, ← List.length_flatten, ← colIter_eq, ← colIter_eq] at this
          omega)
        rw [colIter_eq] at this
        exact this
      have hiv : i ∈ visits.map (·.2.1) := by rw [hrows, hmem]; exact ⟨hi, him⟩
      obtain ⟨x, hx, rfl⟩ := List.mem_map.1 hiv
      have hxp := hplace x hx
      have hkr : KeptVisit visits x ↔ ¬ Revisited (pageOfRow (pa.map List.length)) (fillOrder sortVals missing (colIter pa)) x.2.1 := by
        unfold KeptVisit Revisited
        rw [and_iff_right hx, ← hrows]
        apply not_congr
        constructor
        · rintro ⟨z, y, g1, g2, g3⟩
          have hz := hplace z (g1.subset (by simp))
          have hy := hplace y (g1.subset (by simp))
          refine ⟨z.2.1, y.2.1, g1.map fun x : Nat × Nat × Nat => x.2.1, ?_, ?_⟩
          · rw [hz.page, hxp.page]; exact g2
          · rw [hy.page, hxp.page]; exact g3
        · rintro ⟨z, y, g1, g2, g3⟩
          obtain ⟨l', g4, g5⟩ := List.sublist_map_iff.1 g1
          rcases l' with _ | ⟨x', _ | ⟨z', _ | ⟨y', _ | ⟨_, _⟩⟩⟩⟩
          · simp at g5
          · simp at g5
          · simp at g5
          · simp only [List.map_cons, List.map_nil, List.cons.injEq, and_true] at g5
            obtain ⟨e1, e2, e3⟩ := g5
            have hz := hplace z' (g4.subset (by simp))
            have hy := hplace y' (g4.subset (by simp))
            have hx' := hplace x' (g4.subset (by simp))
            have hxx : x' = x := by
              rw [← e1] at hx'
              obtain ⟨i1, i2⟩ := hx'.inj hxp
              obtain ⟨x1, x2, x3⟩ := x
              obtain ⟨y1, y2, y3⟩ := x'
              simp only at i1 i2 e1
              rw [i1, i2, e1]
            subst hxx
            refine ⟨z', y', g4, ?_, ?_⟩
            · rw [e2, hz.page, hxp.page] at g2; exact g2
            · rw [e3, hy.page, hxp.page] at g3; exact g3
          · simp at g5
      rw [← hkr]
      constructor
      · intro hm
        by_contra hk
        have := v2.lost x.1 x.2.2 x.2.1 hxp hk
        rw [hio, ← colIter_eq, hcell _ (by omega)] at this
        rw [Option.some.inj this] at hm
        exact hm him
      · intro hk
        obtain ⟨v, g1, g2⟩ := v2.kept x.1 x.2.2 x.2.1 hxp hk
        rw [hio] at g1
        rw [Option.some.inj g1]
        exact g2

end

/-- `C57_exact` applies, and both cases occur: rows 2, 0 and 3 are filled in this order; the page of row 2 is left and worked on again, so row 2 stays missing -/
example : (let t : Tbl Nat Nat := [(1, [[1, 2], [3, 4]]), (2, [[0, 5], [9, 0]])]
    (∀ b ∈ [1], pageLens t b = pageLens t 2) ∧ (∀ i < 4, cell 7 t 1 i ∉ [0, 9]) ∧ (∃ j < 4, cell 7 t 2 j ∉ [0, 9]) ∧
    fillOrder sortNat [0, 9] ((List.range 4).map (cell 7 t 2)) = [2, 0, 3] ∧ Revisited (pageOfRow (pageLens t 2)) [2, 0, 3] 2 ∧
    nearest sortNat [0, 9] [1] [2] t = .ok [(1, [[1, 2], [3, 4]]), (2, [[5, 5], [9, 5]])]) := by
  refine ⟨by decide, by decide, ⟨1, by decide, by decide⟩, by decide +kernel, ⟨0, 3, by decide, by decide, by decide⟩, by decide +kernel⟩

end Tablite
