import Verif.Props.TableSim
import Verif.Props.GroupSorted
import Verif.Props.GroupLaws
/-!
# C128: grouping the result of a pipeline

`groupby` takes the pages of the columns in parallel, so it sees all rows only if the columns of the table are cut at the same places (C33).  A user does not choose where pages are cut.  Here: every operation
but one gives columns cut at the same places when it got such columns, so pipelines of these operations may end in a group-by; `stack` of tables with different columns is the exception.
-/

namespace Tablite

section
variable {ν α : Type}

/-- all columns are cut into pages at the same places -/
def Aligned (t : Tbl ν α) : Prop := ∃ L : List Nat, ∀ c ∈ t, c.2.map List.length = L

/-- no page is empty -/
def Solid (t : Tbl ν α) : Prop := ∀ c ∈ t, ∀ p ∈ c.2, p ≠ []

theorem paginate_solid {ps : Nat} (hps : 0 < ps) (v : List α) : ∀ p ∈ paginate ps v, p ≠ [] :=
  fun p hp => List.ne_nil_of_length_pos (paginate_sizes hps v p hp).1

/-- a table made column by column with a function whose pages depend on the pages of the column only -/
theorem Aligned.mapM {t t' : Tbl ν α} (h : Aligned t) (f : Pages α → Except Err (Pages α))
    (hf : ∀ p q p' q' : Pages α, p.map List.length = q.map List.length → f p = .ok p' → f q = .ok q' → p'.map List.length = q'.map List.length)
    (ht : t.mapM (fun c => (f c.2).bind fun p => .ok (c.1, p)) = .ok t') : Aligned t' := by
  obtain ⟨L, hL⟩ := h
  have hm := mapM_mem _ _ _ ht
  cases t' with
  | nil => exact ⟨[], by simp⟩
  | cons d u =>
    have key : ∀ y ∈ d :: u, ∃ p, p.map List.length = L ∧ f p = .ok y.2 := by
      intro y hy
      obtain ⟨x, hx, e⟩ := hm y hy
      obtain ⟨p, hp, e⟩ := ebind_ok e
      cases e
      exact ⟨x.2, hL x hx, hp⟩
    refine ⟨d.2.map List.length, ?_⟩
    intro c hc
    obtain ⟨p, hp, ep⟩ := key c hc
    obtain ⟨q, hq, eq⟩ := key d (by simp)
    exact hf p q _ _ (hp.trans hq.symm) ep eq

theorem Solid.mapM {t t' : Tbl ν α} (h : Solid t) (f : Pages α → Except Err (Pages α))
    (hf : ∀ p p' : Pages α, (∀ x ∈ p, x ≠ []) → f p = .ok p' → ∀ x ∈ p', x ≠ [])
    (ht : t.mapM (fun c => (f c.2).bind fun p => .ok (c.1, p)) = .ok t') : Solid t' := by
  intro c hc
  obtain ⟨x, hx, e⟩ := mapM_mem _ _ _ ht c hc
  obtain ⟨p, hp, e⟩ := ebind_ok e
  cases e
  exact hf x.2 p (h x hx) hp

/-! ## slices -/

theorem pySlice_length_congr {β γ : Type} (l : List β) (m : List γ) (h : l.length = m.length) (s : PySlice) : (pySlice l s).length = (pySlice m s).length := by
  have e : l.map (fun _ => ()) = m.map fun _ => () := by
    rw [List.map_const', List.map_const', h]
  have := congrArg (fun x => (pySlice x s).length) e
  simpa only [pySlice_map', List.length_map] using this

theorem sliceItemsLoop_shape (rev : Bool) (r : PyRange) (p q : Pages α) (h : p.map List.length = q.map List.length) (start : Int) (a b : List (Bool × List α))
    (ha : sliceItemsLoop rev r start p = .ok a) (hb : sliceItemsLoop rev r start q = .ok b) :
    a.map (fun x => (x.1, x.2.length)) = b.map fun x => (x.1, x.2.length) := by
  induction p generalizing q start a b with
  | nil =>
    cases q with
    | cons y q => simp at h
    | nil => cases ha; cases hb; rfl
  | cons x p ih =>
    cases q with
    | nil => simp at h
    | cons y q =>
      simp only [List.map_cons, List.cons.injEq] at h
      obtain ⟨h1, h2⟩ := h
      unfold sliceItemsLoop at ha hb
      dsimp only at ha hb
      rw [← h1] at hb
      split at ha
      · next c => rw [if_pos c] at hb; cases ha; cases hb; rfl
      next c1 =>
      rw [if_neg c1] at hb
      split at ha
      · next c => rw [if_pos c] at hb; exact ih q h2 _ _ _ ha hb
      next c2 =>
      rw [if_neg c2] at hb
      split at ha
      · next c => rw [if_pos c] at hb; cases ha; cases hb; rfl
      next c3 =>
      rw [if_neg c3] at hb
      split at ha
      · next c => rw [if_pos c] at hb; exact ih q h2 _ _ _ ha hb
      next c4 =>
      rw [if_neg c4] at hb
      obtain ⟨ro, e1, ha⟩ := ebind_ok ha
      obtain ⟨ro', e2, hb⟩ := ebind_ok hb
      rw [e1] at e2
      cases e2
      obtain ⟨ma, m1, ha⟩ := ebind_ok ha
      obtain ⟨mb, m2, hb⟩ := ebind_ok hb
      have hm := ih q h2 _ _ _ m1 m2
      split at ha
      · next c => rw [if_pos c] at hb; cases ha; cases hb; exact hm
      next c5 =>
      rw [if_neg c5] at hb
      split at ha
      · next c => rw [if_pos c] at hb; cases ha; cases hb; simp [hm, h1]
      next c6 =>
      rw [if_neg c6] at hb
      cases ha
      cases hb
      simp only [List.map_cons, hm, List.cons.injEq, Prod.mk.injEq, true_and, and_true]
      exact pySlice_length_congr _ _ h1 _

theorem sliceItems_shape (p q : Pages α) (h : p.map List.length = q.map List.length) (s : PySlice) (a b : List (Bool × List α))
    (ha : sliceItems p s = .ok a) (hb : sliceItems q s = .ok b) : a.map (fun x => (x.1, x.2.length)) = b.map fun x => (x.1, x.2.length) := by
  have hl : colLen p = colLen q := by rw [colLen_eq, colLen_eq, List.length_flatten, List.length_flatten, h]
  unfold sliceItems at ha hb
  split at ha
  · cases ha
  next c =>
  rw [if_neg c, ← hl] at hb
  dsimp only at ha hb
  obtain ⟨x, x1, ha⟩ := ebind_ok ha
  obtain ⟨y, y1, hb⟩ := ebind_ok hb
  have hxy := sliceItemsLoop_shape _ _ p q h _ _ _ x1 y1
  cases ha
  cases hb
  split
  · rw [List.map_map, List.map_map]
    have e : ((fun x : Bool × List α => (x.1, x.2.length)) ∘ fun x : Bool × List α => (false, x.2.reverse)) = (fun z : Bool × Nat => (false, z.2)) ∘ fun x => (x.1, x.2.length) := by
      funext z
      simp [Function.comp]
    rw [e, ← List.map_map, ← List.map_map]
    simp only [List.map_reverse, hxy]
  · exact hxy

theorem sliceFold_shape (ps : Nat) (a b : List (Bool × List α)) (h : a.map (fun x => (x.1, x.2.length)) = b.map fun x => (x.1, x.2.length)) (p q : Pages α) (hpq : p.map List.length = q.map List.length) :
    (a.foldl (fun new it => if it.1 then new ++ [it.2] else extend ps new it.2) p).map List.length = (b.foldl (fun new it => if it.1 then new ++ [it.2] else extend ps new it.2) q).map List.length := by
  induction a generalizing b p q with
  | nil =>
    cases b with
    | nil => exact hpq
    | cons => simp at h
  | cons x a ih =>
    cases b with
    | nil => simp at h
    | cons y b =>
      simp only [List.map_cons, List.cons.injEq, Prod.mk.injEq] at h
      obtain ⟨⟨h1, h2⟩, h3⟩ := h
      rw [List.foldl_cons, List.foldl_cons]
      apply ih b h3
      rw [h1]
      split
      · rw [List.map_append, List.map_append, hpq, List.map_singleton, List.map_singleton, h2]
      · unfold extend
        rw [List.map_append, List.map_append, hpq, paginate_layout, paginate_layout, h2]

theorem sliceCol_shape (ps : Nat) (s : PySlice) (p q p' q' : Pages α) (h : p.map List.length = q.map List.length) (hp : sliceCol ps p s = .ok p') (hq : sliceCol ps q s = .ok q') :
    p'.map List.length = q'.map List.length := by
  unfold sliceCol at hp hq
  obtain ⟨a, a1, hp⟩ := ebind_ok hp
  obtain ⟨b, b1, hq⟩ := ebind_ok hq
  cases hp
  cases hq
  exact sliceFold_shape ps a b (sliceItems_shape p q h s a b a1 b1) [] [] rfl

theorem sliceItemsLoop_solid (rev : Bool) (r : PyRange) (p : Pages α) (start : Int) (a : List (Bool × List α)) (h : ∀ x ∈ p, x ≠ []) (ha : sliceItemsLoop rev r start p = .ok a) :
    ∀ x ∈ a, x.1 = true → x.2 ≠ [] := by
  induction p generalizing start a with
  | nil => cases ha; simp
  | cons y p ih =>
    have ih := fun st a' => ih st a' (fun x hx => h x (by simp [hx]))
    unfold sliceItemsLoop at ha
    dsimp only at ha
    split at ha
    · cases ha; simp
    split at ha
    · exact ih _ _ ha
    split at ha
    · cases ha; simp
    split at ha
    · exact ih _ _ ha
    obtain ⟨ro, e1, ha⟩ := ebind_ok ha
    obtain ⟨ma, m1, ha⟩ := ebind_ok ha
    have hm := ih _ _ m1
    split at ha
    · cases ha; exact hm
    split at ha
    · cases ha
      intro x hx
      rcases List.mem_cons.1 hx with rfl | hx
      · exact fun _ => h _ (by simp)
      · exact hm x hx
    · cases ha
      intro x hx
      rcases List.mem_cons.1 hx with rfl | hx
      · simp
      · exact hm x hx

theorem sliceCol_solid {ps : Nat} (hps : 0 < ps) (s : PySlice) (p p' : Pages α) (h : ∀ x ∈ p, x ≠ []) (hp : sliceCol ps p s = .ok p') : ∀ x ∈ p', x ≠ [] := by
  unfold sliceCol at hp
  obtain ⟨a, a1, hp⟩ := ebind_ok hp
  have ha : ∀ x ∈ a, x.1 = true → x.2 ≠ [] := by
    unfold sliceItems at a1
    split at a1
    · cases a1
    dsimp only at a1
    obtain ⟨x, x1, a1⟩ := ebind_ok a1
    have := sliceItemsLoop_solid _ _ p _ _ h x1
    cases a1
    split
    · intro z hz
      obtain ⟨w, -, rfl⟩ := List.mem_map.1 hz
      simp
    · exact this
  injection hp with hp
  subst hp
  have gen : ∀ (new : Pages α), (∀ x ∈ new, x ≠ []) → ∀ x ∈ a.foldl (fun new it => if it.1 then new ++ [it.2] else extend ps new it.2) new, x ≠ [] := by
    clear a1 hp
    induction a with
    | nil => exact fun new hn => hn
    | cons y a ih =>
      intro new hn
      rw [List.foldl_cons]
      apply ih (fun x hx => ha x (by simp [hx]))
      intro x hx
      split at hx
      · next c =>
        rcases List.mem_append.1 hx with hx | hx
        · exact hn x hx
        · rw [List.mem_singleton.1 hx]
          exact ha y (by simp) c
      · rcases List.mem_append.1 hx with hx | hx
        · exact hn x hx
        · exact paginate_solid hps _ x hx
  exact gen [] (by simp)

/-! ## reindexing -/

theorem reindexCol_solid {ps : Nat} (hps : 0 < ps) (nul : α) (p p' : Pages α) (index : List Int) (h : reindexCol ps nul p index = .ok p') : ∀ x ∈ p', x ≠ [] := by
  unfold reindexCol at h
  have gen : ∀ (steps : List (Nat × Nat)) (new : Pages α), (∀ x ∈ new, x ≠ []) → ∀ p', steps.foldlM (fun new se => do
      let vals ← reindexChunk nul p index.length ((index.take se.2).drop se.1)
      .ok (extend ps new vals)) new = .ok p' → ∀ x ∈ p', x ≠ [] := by
    intro steps
    induction steps with
    | nil => intro new hn p' e; cases e; exact hn
    | cons a t ih =>
      intro new hn p' e
      rw [List.foldlM_cons] at e
      obtain ⟨v, v1, e⟩ := ebind_ok e
      obtain ⟨w, w1, v1⟩ := ebind_ok v1
      cases v1
      refine ih _ ?_ _ e
      intro x hx
      rcases List.mem_append.1 hx with hx | hx
      · exact hn x hx
      · exact paginate_solid hps _ x hx
  exact gen _ [] (by simp) _ h

/-- the pages of a reindexed column depend on the number of rows only, even if a row number is too large -/
theorem reindexCol_shape (ps : Nat) (nul : α) (pages q : Pages α) (index : List Int) (hv : ∀ i ∈ index, 0 ≤ i) (hq : reindexCol ps nul pages index = .ok q) :
    q.map List.length = ((pageSteps ps index.length).map fun se => layoutOf ps (min se.2 index.length - se.1)).flatten := by
  unfold reindexCol at hq
  have := foldlM_extend_layout ps (pageSteps ps index.length) (fun se => reindexChunk nul pages index.length ((index.take se.2).drop se.1))
    (fun se => min se.2 index.length - se.1) (by
      intro se _ r hr
      have hn : ∀ i ∈ (index.take se.2).drop se.1, 0 ≤ i := fun i hi => hv i (List.mem_of_mem_take (List.mem_of_mem_drop hi))
      unfold reindexChunk at hr
      rw [getByIndices_ok _ _ (fun h => absurd (hn _ h) (by omega))] at hr
      simp only [bind, Except.bind] at hr
      rw [if_neg (by
        rw [Bool.not_eq_true, List.any_eq_false]
        intro b hb
        obtain ⟨i, hi, rfl⟩ := List.mem_map.1 hb
        have := hn i hi
        simp only [id, decide_eq_true_eq]
        omega)] at hr
      injection hr with hr
      rw [← hr, List.length_map, List.length_map, List.length_drop, List.length_take]) [] q hq
  simpa using this

theorem tblReindex_aligned (ps : Nat) (nul : α) (t t' : Tbl ν α) (index : List Int) (hv : ∀ i ∈ index, 0 ≤ i) (h : tblReindex ps nul t index = .ok t') : Aligned t' := by
  refine ⟨((pageSteps ps index.length).map fun se => layoutOf ps (min se.2 index.length - se.1)).flatten, fun c hc => ?_⟩
  obtain ⟨x, hx, e⟩ := mapM_mem _ _ _ h c hc
  obtain ⟨p, hp, e⟩ := ebind_ok e
  cases e
  exact reindexCol_shape ps nul x.2 p index hv hp

theorem tblReindex_solid {ps : Nat} (hps : 0 < ps) (nul : α) (t t' : Tbl ν α) (index : List Int) (h : tblReindex ps nul t index = .ok t') : Solid t' := by
  intro c hc
  obtain ⟨x, hx, e⟩ := mapM_mem _ _ _ h c hc
  obtain ⟨p, hp, e⟩ := ebind_ok e
  cases e
  exact reindexCol_solid hps nul x.2 p index hp

/-! ## filters -/

theorem takeAt_length (page : List α) (idx : List Nat) (r : List α) (h : takeAt page idx = .ok r) : r.length = idx.length := by
  unfold takeAt at h
  induction idx generalizing r with
  | nil => cases h; rfl
  | cons a t ih =>
    rw [List.mapM_cons] at h
    obtain ⟨v, -, h⟩ := ebind_ok h
    obtain ⟨w, w1, h⟩ := ebind_ok h
    cases h
    simp [ih w w1]

theorem dumpSlice_shape (page : List α) (idx : List Nat) (r : Pages α) (h : dumpSlice page idx = .ok r) : r.map List.length = if idx.length > 0 then [idx.length] else [] := by
  unfold dumpSlice at h
  split at h
  · next c =>
    obtain ⟨v, v1, h⟩ := ebind_ok h
    cases h
    rw [if_pos c, List.map_singleton, takeAt_length _ _ _ v1]
  · next c => cases h; rw [if_neg c]; rfl

theorem shape_solid (r : Pages α) : (∀ x ∈ r, x ≠ []) ↔ 0 ∉ r.map List.length := by
  constructor
  · intro h h0
    obtain ⟨x, hx, e⟩ := List.mem_map.1 h0
    exact h x hx (List.length_eq_zero_iff.1 e)
  · intro h x hx e
    exact h (List.mem_map.2 ⟨x, hx, by rw [e]; rfl⟩)

theorem dumpSlice_solid (page : List α) (idx : List Nat) (r : Pages α) (h : dumpSlice page idx = .ok r) : ∀ x ∈ r, x ≠ [] := by
  rw [shape_solid, dumpSlice_shape _ _ _ h]
  split
  · simp; omega
  · simp

theorem dumpLoop_shape (bitmask : List Bool) (p q : Pages α) (h : p.map List.length = q.map List.length) (off left ind : Nat) (a b : Pages α × Pages α)
    (ha : dumpLoop bitmask off left ind p = .ok a) (hb : dumpLoop bitmask off left ind q = .ok b) :
    a.1.map List.length = b.1.map List.length ∧ a.2.map List.length = b.2.map List.length := by
  induction p generalizing q off left ind a b with
  | nil =>
    cases q with
    | cons y q => simp at h
    | nil =>
      cases left with
      | zero => cases ha; cases hb; exact ⟨rfl, rfl⟩
      | succ => cases ha
  | cons x p ih =>
    cases q with
    | nil => simp at h
    | cons y q =>
      simp only [List.map_cons, List.cons.injEq] at h
      obtain ⟨h1, h2⟩ := h
      cases left with
      | zero => cases ha; cases hb; exact ⟨rfl, rfl⟩
      | succ left =>
        unfold dumpLoop at ha hb
        dsimp only at ha hb
        rw [← h1] at hb
        obtain ⟨a1, e1, ha⟩ := ebind_ok ha
        obtain ⟨a2, e2, ha⟩ := ebind_ok ha
        obtain ⟨a3, e3, ha⟩ := ebind_ok ha
        obtain ⟨b1, g1, hb⟩ := ebind_ok hb
        obtain ⟨b2, g2, hb⟩ := ebind_ok hb
        obtain ⟨b3, g3, hb⟩ := ebind_ok hb
        cases ha
        cases hb
        have := ih q h2 _ _ _ _ _ e3 g3
        simp only [List.map_append]
        rw [dumpSlice_shape _ _ _ e1, dumpSlice_shape _ _ _ e2, dumpSlice_shape _ _ _ g1, dumpSlice_shape _ _ _ g2, this.1, this.2]
        exact ⟨rfl, rfl⟩

theorem dumpLoop_solid (bitmask : List Bool) (p : Pages α) (off left ind : Nat) (a : Pages α × Pages α) (ha : dumpLoop bitmask off left ind p = .ok a) : (∀ x ∈ a.1, x ≠ []) ∧ ∀ x ∈ a.2, x ≠ [] := by
  induction p generalizing off left ind a with
  | nil =>
    cases left with
    | zero => cases ha; simp
    | succ => cases ha
  | cons x p ih =>
    cases left with
    | zero => cases ha; simp
    | succ left =>
      unfold dumpLoop at ha
      dsimp only at ha
      obtain ⟨a1, e1, ha⟩ := ebind_ok ha
      obtain ⟨a2, e2, ha⟩ := ebind_ok ha
      obtain ⟨a3, e3, ha⟩ := ebind_ok ha
      cases ha
      have := ih _ _ _ _ e3
      refine ⟨fun y hy => ?_, fun y hy => ?_⟩
      · rcases List.mem_append.1 hy with hy | hy
        · exact dumpSlice_solid _ _ _ e1 y hy
        · exact this.1 y hy
      · rcases List.mem_append.1 hy with hy | hy
        · exact dumpSlice_solid _ _ _ e2 y hy
        · exact this.2 y hy

theorem skipPages_shape (off : Nat) (p q : Pages α) (h : p.map List.length = q.map List.length) (cur : Nat) (a b : Nat × Pages α) (ha : skipPages off cur p = .ok a) (hb : skipPages off cur q = .ok b) :
    a.1 = b.1 ∧ a.2.map List.length = b.2.map List.length := by
  induction p generalizing q cur with
  | nil => cases ha
  | cons x p ih =>
    cases q with
    | nil => simp at h
    | cons y q =>
      have h0 := h
      simp only [List.map_cons, List.cons.injEq] at h
      obtain ⟨h1, h2⟩ := h
      unfold skipPages at ha hb
      rw [← h1] at hb
      split at ha
      · next c => rw [if_pos c] at hb; cases ha; cases hb; exact ⟨rfl, h0⟩
      · next c => rw [if_neg c] at hb; exact ih q h2 _ ha hb

theorem dumpPage_shape (off n : Nat) (bitmask : List Bool) (p q : Pages α) (h : p.map List.length = q.map List.length) (a b : Pages α × Pages α)
    (ha : dumpPage off n bitmask p = .ok a) (hb : dumpPage off n bitmask q = .ok b) : a.1.map List.length = b.1.map List.length ∧ a.2.map List.length = b.2.map List.length := by
  unfold dumpPage at ha hb
  obtain ⟨x, x1, ha⟩ := ebind_ok ha
  obtain ⟨y, y1, hb⟩ := ebind_ok hb
  have := skipPages_shape off p q h 0 x y x1 y1
  dsimp only at ha hb
  rw [← this.1] at hb
  exact dumpLoop_shape bitmask _ _ this.2 _ _ _ _ _ ha hb

/-- the pages written so far are not empty, and cut at the same places for all columns if `A` -/
def OutCut (A : Prop) (out : List (Pages α × Pages α)) : Prop :=
  (A → ∃ P F : List Nat, ∀ x ∈ out, x.1.map List.length = P ∧ x.2.map List.length = F) ∧ ∀ x ∈ out, (∀ y ∈ x.1, y ≠ []) ∧ ∀ y ∈ x.2, y ≠ []

theorem dumpPages_shape (A : Prop) (cols : List (Pages α)) (L : List Nat) (hL : A → ∀ p ∈ cols, p.map List.length = L) (s : FState α) (h : OutCut A s.out) (out : List (Pages α × Pages α)) (hd : dumpPages cols s = .ok out) :
    OutCut A out := by
  unfold dumpPages at hd
  have hm := mapM_mem _ _ _ hd
  obtain ⟨h1, h2⟩ := h
  have key : ∀ y ∈ out, ∃ p o d, p ∈ cols ∧ o ∈ s.out ∧ dumpPage s.offset s.bitNum s.bitmask p = .ok d ∧ y = (o.1 ++ d.1, o.2 ++ d.2) := by
    intro y hy
    obtain ⟨x, hx, e⟩ := hm y hy
    obtain ⟨d, d1, e⟩ := ebind_ok e
    cases e
    exact ⟨x.1, x.2, d, (List.of_mem_zip hx).1, (List.of_mem_zip hx).2, d1, rfl⟩
  refine ⟨?_, ?_⟩
  · intro hA
    obtain ⟨P, F, h1⟩ := h1 hA
    cases out with
    | nil => exact ⟨[], [], by simp⟩
    | cons z zs =>
      refine ⟨z.1.map List.length, z.2.map List.length, ?_⟩
      intro y hy
      obtain ⟨p, o, d, a1, a2, a3, rfl⟩ := key y hy
      obtain ⟨p', o', d', b1, b2, b3, rfl⟩ := key z (by simp)
      have := dumpPage_shape _ _ _ p p' ((hL hA p a1).trans (hL hA p' b1).symm) d d' a3 b3
      simp only [List.map_append]
      rw [this.1, this.2, (h1 o a2).1, (h1 o a2).2, (h1 o' b2).1, (h1 o' b2).2]
      exact ⟨rfl, rfl⟩
  · intro y hy
    obtain ⟨p, o, d, a1, a2, a3, rfl⟩ := key y hy
    have hd : (∀ x ∈ d.1, x ≠ []) ∧ ∀ x ∈ d.2, x ≠ [] := by
      unfold dumpPage at a3
      obtain ⟨x, -, a3⟩ := ebind_ok a3
      exact dumpLoop_solid _ _ _ _ _ _ a3
    refine ⟨fun x hx => ?_, fun x hx => ?_⟩
    · rcases List.mem_append.1 hx with hx | hx
      · exact (h2 o a2).1 x hx
      · exact hd.1 x hx
    · rcases List.mem_append.1 hx with hx | hx
      · exact (h2 o a2).2 x hx
      · exact hd.2 x hx

theorem filterLoop_shape (A : Prop) (ps : Nat) (cols : List (Pages α)) (L : List Nat) (hL : A → ∀ p ∈ cols, p.map List.length = L) (bits : List Bool) (s s' : FState α) (h : OutCut A s.out)
    (hs : filterLoop ps cols bits s = .ok s') : OutCut A s'.out := by
  induction bits generalizing s with
  | nil => cases hs; exact h
  | cons b bs ih =>
    unfold filterLoop at hs
    dsimp only at hs
    split at hs
    · obtain ⟨out, o1, hs⟩ := ebind_ok hs
      exact ih _ (dumpPages_shape A cols L hL { s with bitmask := s.bitmask.set s.bitNum b, bitNum := s.bitNum + 1 } h _ o1) hs
    · exact ih _ (by exact h) hs

/-- both tables of a filter -/
theorem tblFilter_shape {κ : Type} [DecidableEq ν] (nul : α) (cmp : κ → α → α → Bool) (ps : Nat) (all : Bool) (t : Tbl ν α) (es : List (FExpr ν α κ)) (a b : Tbl ν α) (h2 : Solid t)
    (h : tblFilter nul cmp ps all t es = .ok (a, b)) : ((Aligned t → Aligned a) ∧ Solid a) ∧ (Aligned t → Aligned b) ∧ Solid b := by
  unfold tblFilter at h
  split at h
  · cases h; exact ⟨⟨id, h2⟩, id, h2⟩
  split at h
  · cases h; exact ⟨⟨id, h2⟩, fun _ => ⟨[], by simp⟩, fun c hc => absurd hc (by simp)⟩
  split at h
  · cases h
  split at h
  · cases h
  split at h
  · cases h
  obtain ⟨its, -, h⟩ := ebind_ok h
  dsimp only at h
  obtain ⟨s, s1, h⟩ := ebind_ok h
  obtain ⟨out, o1, h⟩ := ebind_ok h
  obtain ⟨L, hL⟩ : ∃ L, Aligned t → ∀ p ∈ t.map (·.2), p.map List.length = L := by
    by_cases ha : Aligned t
    · obtain ⟨L, hL⟩ := ha
      refine ⟨L, fun _ p hp => ?_⟩
      obtain ⟨c, hc, rfl⟩ := List.mem_map.1 hp
      exact hL c hc
    · exact ⟨[], fun h => absurd h ha⟩
  have hs := filterLoop_shape (Aligned t) ps _ L hL _ _ s ⟨fun _ => ⟨[], [], by
    intro x hx
    obtain ⟨c, -, rfl⟩ := List.mem_map.1 hx
    exact ⟨rfl, rfl⟩⟩, by
    intro x hx
    obtain ⟨c, -, rfl⟩ := List.mem_map.1 hx
    simp⟩ s1
  have ho : OutCut (Aligned t) out := by
    unfold filterFinish at o1
    split at o1
    · exact dumpPages_shape _ _ L hL s hs _ o1
    · cases o1; exact hs
  obtain ⟨g1, g2⟩ := ho
  cases h
  refine ⟨⟨fun hA => ?_, ?_⟩, fun hA => ?_, ?_⟩
  · obtain ⟨P, F, g1⟩ := g1 hA
    refine ⟨P, fun c hc => ?_⟩
    obtain ⟨x, hx, rfl⟩ := List.mem_map.1 hc
    exact (g1 _ (List.of_mem_zip hx).2).1
  · intro c hc
    obtain ⟨x, hx, rfl⟩ := List.mem_map.1 hc
    exact (g2 _ (List.of_mem_zip hx).2).1
  · obtain ⟨P, F, g1⟩ := g1 hA
    refine ⟨F, fun c hc => ?_⟩
    obtain ⟨x, hx, rfl⟩ := List.mem_map.1 hc
    exact (g1 _ (List.of_mem_zip hx).2).2
  · intro c hc
    obtain ⟨x, hx, rfl⟩ := List.mem_map.1 hc
    exact (g2 _ (List.of_mem_zip hx).2).2

end

/-! ## joins -/

section
variable {ν α : Type} [DecidableEq ν]

/-- a dictionary of lists, extended under the names in turn -/
theorem foldl_dUpd_lists {β : Type} (rs : List (ν × List β)) (init : List (ν × List β)) (ks : List ν) (hks : ks.Nodup) (g : ν → List β) (h : init = ks.map fun x => (x, g x)) (hin : ∀ r ∈ rs, r.1 ∈ ks) :
    rs.foldl (fun tb r => dUpd [] r.1 (fun p => p ++ r.2) tb) init = ks.map fun x => (x, g x ++ (rs.filter fun r => r.1 = x).flatMap (·.2)) := by
  induction rs generalizing init g with
  | nil => simp [h]
  | cons r t ih =>
    simp only [List.foldl_cons]
    have hr := hin r (by simp)
    rw [ih _ (fun x => if x = r.1 then g x ++ r.2 else g x) (by
      rw [h, dUpd_eq _ _ _ ks hks g (fun h => absurd hr h), if_pos hr]) (fun q hq => hin q (by simp [hq]))]
    apply List.map_congr_left
    intro x _
    congr 1
    have c1 : (r.1 = x) ↔ (x = r.1) := eq_comm
    by_cases e : x = r.1
    · simp [e]
    · simp [e, c1]

theorem assemble_shape (ps : Nat) (rs : List (ν × List α)) (init : Tbl ν α) :
    (assemble ps init rs).map (fun c => (c.1, c.2.map List.length)) =
      (rs.map fun r => (r.1, layoutOf ps r.2.length)).foldl (fun tb r => dUpd [] r.1 (fun p => p ++ r.2) tb) (init.map fun c => (c.1, c.2.map List.length)) := by
  unfold assemble
  induction rs generalizing init with
  | nil => rfl
  | cons r t ih =>
    rw [List.foldl_cons, ih, List.map_cons, List.foldl_cons]
    congr 1
    rw [dUpd_map_snd (List.map List.length) _ (fun p => p ++ layoutOf ps r.2.length) (fun b => by
      unfold extend
      rw [List.map_append, paginate_layout])]
    rfl

theorem filter_flatMap_name {β γ : Type} (l : List (ν × β)) (hn : (l.map (·.1)).Nodup) (P : List γ) (s : ν × β) (hs : s ∈ l) :
    (l.flatMap fun s => P.map fun k => (s.1, k)).filter (fun r => decide (r.1 = s.1)) = P.map fun k => (s.1, k) := by
  induction l with
  | nil => cases hs
  | cons a u ih =>
    rw [List.map_cons, List.nodup_cons] at hn
    rw [List.flatMap_cons, List.filter_append]
    rcases List.mem_cons.1 hs with rfl | hsu
    · rw [List.filter_eq_self.2, List.filter_eq_nil_iff.2, List.append_nil]
      · intro r hr hd
        obtain ⟨b, hb, h⟩ := List.mem_flatMap.1 hr
        obtain ⟨k, -, rfl⟩ := List.mem_map.1 h
        simp only [decide_eq_true_eq] at hd
        exact hn.1 (List.mem_map.2 ⟨b, hb, hd⟩)
      · intro r hr
        obtain ⟨k, -, rfl⟩ := List.mem_map.1 hr
        simp
    · rw [ih hn.2 hsu, List.filter_eq_nil_iff.2, List.nil_append]
      intro r hr hd
      obtain ⟨k, -, rfl⟩ := List.mem_map.1 hr
      simp only [decide_eq_true_eq] at hd
      exact hn.1 (List.mem_map.2 ⟨s, hsu, hd.symm⟩)

/-- the columns of a join are cut at the same places, whatever the pages of the two tables are -/
theorem joinColumns_layout (ps : Nat) (hps : 0 < ps) (mk : ν → Nat → ν) (hmk : ∀ d a b, mk d a = mk d b → a = b) (nul : α) (t o : Tbl ν α)
    (lc rc : List ν) (hlc : lc.Nodup) (hl : ∀ x ∈ lc, x ∈ t.map (·.1)) (hr : ∀ x ∈ rc, x ∈ o.map (·.1)) (mapping : List (Int × Int))
    (hvl : ∀ p ∈ mapping, ∀ c ∈ t, p.1 = -1 ∨ (0 ≤ p.1 ∧ p.1 < colLen c.2))
    (hvr : ∀ p ∈ mapping, ∀ c ∈ o, p.2 = -1 ∨ (0 ≤ p.2 ∧ p.2 < colLen c.2))
    (hnl : (∃ p ∈ mapping, p.1 = -1) → ∀ c ∈ t, ∀ q ∈ c.2, q ≠ []) (hnr : (∃ p ∈ mapping, p.2 = -1) → ∀ c ∈ o, ∀ q ∈ c.2, q ≠ []) (t' : Tbl ν α)
    (h : joinColumns ps mk nul t o lc rc mapping = .ok t') : (∃ n, ∀ c ∈ t', c.2.map List.length = ((joinParts ps n).map fun se => layoutOf ps (se.2 - se.1)).flatten) ∧ Solid t' := by
  unfold joinColumns at h
  rw [if_neg (by simpa using hlc)] at h
  dsimp only at h
  rw [joinSources_ok mk t o lc rc _ _ hl hr] at h
  simp only [bind, Except.bind] at h
  generalize hsrcs : (lc.map (fun x => (x, (dGet x t).getD [], paginate ps (mapping.map (·.1)))) ++
      (rc.zip (rightNames mk lc rc)).map fun x => (x.2, (dGet x.1 o).getD [], paginate ps (mapping.map (·.2)))) = srcs at h
  have hsrc : ∀ s ∈ srcs, ∃ m : List Int, s.2.2 = paginate ps m ∧ m.length = mapping.length ∧
      (∀ i ∈ m, i = -1 ∨ (0 ≤ i ∧ i < colLen s.2.1)) ∧ (-1 ∈ m → ∀ q ∈ s.2.1, q ≠ []) := by
    intro s hs
    rw [← hsrcs, List.mem_append] at hs
    rcases hs with hs | hs
    · obtain ⟨x, hx, rfl⟩ := List.mem_map.1 hs
      obtain ⟨p, e⟩ := Option.isSome_iff_exists.1 ((dGet_isSome x t).2 (hl _ hx))
      have hmem := dGet_mem x t p e
      refine ⟨mapping.map (·.1), rfl, by simp, ?_, ?_⟩
      · intro i hi
        obtain ⟨q, hq, rfl⟩ := List.mem_map.1 hi
        rw [e]
        exact hvl q hq _ hmem
      · intro h
        obtain ⟨q, hq, e'⟩ := List.mem_map.1 h
        rw [e]
        exact hnl ⟨q, hq, e'⟩ _ hmem
    · obtain ⟨x, hx, rfl⟩ := List.mem_map.1 hs
      obtain ⟨p, e⟩ := Option.isSome_iff_exists.1 ((dGet_isSome x.1 o).2 (hr _ (List.of_mem_zip hx).1))
      have hmem := dGet_mem x.1 o p e
      refine ⟨mapping.map (·.2), rfl, by simp, ?_, ?_⟩
      · intro i hi
        obtain ⟨q, hq, rfl⟩ := List.mem_map.1 hi
        rw [e]
        exact hvr q hq _ hmem
      · intro h
        obtain ⟨q, hq, e'⟩ := List.mem_map.1 h
        rw [e]
        exact hnr ⟨q, hq, e'⟩ _ hmem
  have hnames : srcs.map (·.1) = lc ++ rightNames mk lc rc := by
    rw [← hsrcs, List.map_append, List.map_map, List.map_map]
    congr 1
    · exact List.map_id _
    · exact map_zip_snd rc _ (rightNames_length mk lc rc)
  have hnodup : (srcs.map (·.1)).Nodup := by rw [hnames]; exact rightNames_nodup mk hmk lc rc hlc
  have hrun : (srcs.flatMap fun s => colTasks ps mapping.length s.2.2 s.1 s.2.1).mapM (fun k => (do .ok (k.new, ← k.run nul) : Except Err (ν × List α))) =
      .ok (srcs.flatMap fun s => (colTasks ps mapping.length s.2.2 s.1 s.2.1).map fun k =>
        (k.new, (((colIter s.2.2).map (pick nul (colIter s.2.1))).take k.end_).drop k.start)) := by
    apply mapM_flatMap_ok
    intro s hs k hk
    obtain ⟨m, hm1, hm2, hm3, hm4⟩ := hsrc s hs
    unfold colTasks at hk
    obtain ⟨se, hse, rfl⟩ := List.mem_map.1 hk
    have hb := joinParts_bounds ps hps _ se hse
    unfold JoinTask.run
    simp only
    rw [hm1, mpReindexPage_ok ps hps nul s.2.1 m se.1 se.2 hb.1 (by omega) hm3 hm4]
    rw [colIter_eq (paginate ps m), paginate_flatten hps]
    rfl
  simp only [bind, Except.bind] at hrun
  rw [hrun] at h
  injection h with h
  have hshape := assemble_shape ps (srcs.flatMap fun s => (colTasks ps mapping.length s.2.2 s.1 s.2.1).map fun k =>
        (k.new, (((colIter s.2.2).map (pick nul (colIter s.2.1))).take k.end_).drop k.start)) (srcs.map fun s => (s.1, []))
  rw [h] at hshape
  have hrs : (srcs.flatMap fun s => (colTasks ps mapping.length s.2.2 s.1 s.2.1).map fun k =>
        (k.new, (((colIter s.2.2).map (pick nul (colIter s.2.1))).take k.end_).drop k.start)).map (fun r => (r.1, layoutOf ps r.2.length)) =
      srcs.flatMap fun s => ((joinParts ps mapping.length).map fun se => layoutOf ps (se.2 - se.1)).map fun k => (s.1, k) := by
    rw [List.map_flatMap]
    apply List.flatMap_congr
    intro s hs
    obtain ⟨m, hm1, hm2, -, -⟩ := hsrc s hs
    unfold colTasks
    rw [List.map_map, List.map_map, List.map_map]
    apply List.map_congr_left
    intro se hse
    have hb := joinParts_bounds ps hps _ se hse
    simp only [Function.comp, Prod.mk.injEq, true_and]
    rw [hm1, colIter_eq (paginate ps m), paginate_flatten hps, List.length_drop, List.length_take, List.length_map, hm2, Nat.min_eq_left hb.2]
  rw [hrs, foldl_dUpd_lists _ _ (srcs.map (·.1)) hnodup (fun _ => []) (by rw [List.map_map, List.map_map]; rfl) (by
    intro r hr'
    obtain ⟨s, hs, h⟩ := List.mem_flatMap.1 hr'
    obtain ⟨k, hk, rfl⟩ := List.mem_map.1 h
    exact List.mem_map.2 ⟨s, hs, rfl⟩)] at hshape
  have hlen : ∀ c ∈ t', c.2.map List.length = ((joinParts ps mapping.length).map fun se => layoutOf ps (se.2 - se.1)).flatten := by
    intro c hc
    have hm : (c.1, c.2.map List.length) ∈ t'.map fun c => (c.1, c.2.map List.length) := List.mem_map.2 ⟨c, hc, rfl⟩
    rw [hshape] at hm
    obtain ⟨x, hx, e⟩ := List.mem_map.1 hm
    obtain ⟨s, hs, rfl⟩ := List.mem_map.1 hx
    rw [filter_flatMap_name srcs hnodup _ s hs] at e
    injection e with _ e
    rw [← e, List.nil_append, List.flatMap_map, List.flatMap_id']
  refine ⟨⟨_, hlen⟩, fun c hc => ?_⟩
  rw [shape_solid, hlen c hc]
  intro h0
  obtain ⟨l, hl, h0⟩ := List.mem_flatten.1 h0
  obtain ⟨se, -, rfl⟩ := List.mem_map.1 hl
  unfold layoutOf at h0
  exact (shape_solid _).1 (paginate_solid hps _) h0

end

section
variable {ν α : Type} [DecidableEq ν] [DecidableEq α]

omit [DecidableEq α] in
theorem keyIndex_lt (nul : α) (t : Tbl ν α) (n : Nat) (lk : List ν) (a : Nat) (k : List α) (h : (keyRows nul t lk n)[a]? = some k) : a < n := ((keyRows_get nul t lk n a k).1 h).1

/-- the columns of any join are cut at the same places; an outer join needs tables without empty pages to succeed at all -/
theorem tblJoin_layout (ps : Nat) (hps : 0 < ps) (mk : ν → Nat → ν) (hmk : ∀ d a b, mk d a = mk d b → a = b) (ord : List (List α) → List (List α)) (hord : ∀ l, (ord l).Perm l) (nul : α) (kind : JoinKind)
    (t o : Tbl ν α) (n m : Nat) (ht : Rect t n) (ho : Rect o m) (tne : t ≠ []) (one : o ≠ []) (lk rk lc rc : List ν) (h : JoinOk t o lk rk lc rc)
    (hs : kind = .left ∨ kind = .outer → Solid t ∧ Solid o) (t' : Tbl ν α) (hj : tblJoin ps mk ord nul kind t o lk rk lc rc = .ok t') : (∃ n, ∀ c ∈ t', c.2.map List.length = ((joinParts ps n).map fun se => layoutOf ps (se.2 - se.1)).flatten) ∧ Solid t' := by
  unfold tblJoin at hj
  rw [joinCheck_ok h] at hj
  obtain ⟨-, -, hj⟩ := ebind_ok hj
  obtain ⟨mapping, hm, hj⟩ := ebind_ok hj
  have hL := tblIndex_idxOf nul t n ht lk h.key h.lkIn
  have hR := tblIndex_idxOf nul o m ho rk h.rkey h.rkIn
  have hval : ∀ p ∈ mapping, ((p.1 = -1 ∧ kind = .outer) ∨ (0 ≤ p.1 ∧ p.1 < n)) ∧ ((p.2 = -1 ∧ (kind = .left ∨ kind = .outer)) ∨ (0 ≤ p.2 ∧ p.2 < m)) := by
    have hleft : ∀ p ∈ leftMapping (idxOf (keyRows nul t lk n)) (idxOf (keyRows nul o rk m)), (0 ≤ p.1 ∧ p.1 < n) ∧ (p.2 = -1 ∨ (0 ≤ p.2 ∧ p.2 < m)) := by
      rintro ⟨i, j⟩ hp
      rw [mem_left] at hp
      obtain ⟨a, k, rfl, h1, h2⟩ := hp
      have := keyIndex_lt nul t n lk a k h1
      refine ⟨⟨by omega, by omega⟩, ?_⟩
      rcases h2 with ⟨b, rfl, hb⟩ | ⟨rfl, -⟩
      · have := keyIndex_lt nul o m rk b k hb
        exact .inr ⟨by omega, by omega⟩
      · exact .inl rfl
    cases kind with
    | cross =>
      simp only [joinMapping, crossMapping] at hm
      split at hm
      · cases hm
      injection hm with hm
      subst hm
      intro p hp
      obtain ⟨i, hi, hp⟩ := List.mem_flatMap.1 hp
      obtain ⟨j, hj, rfl⟩ := List.mem_map.1 hp
      rw [List.mem_range, tblLen_rect t n ht tne] at hi
      rw [List.mem_range, tblLen_rect o m ho one] at hj
      exact ⟨.inr ⟨by simp, by simpa using hi⟩, .inr ⟨by simp, by simpa using hj⟩⟩
    | inner =>
      simp only [joinMapping, hL, hR, bind, Except.bind] at hm
      injection hm with hm
      subst hm
      rintro ⟨i, j⟩ hp
      rw [mem_inner] at hp
      obtain ⟨a, b, k, rfl, rfl, h1, h2⟩ := hp
      have := keyIndex_lt nul t n lk a k h1
      have := keyIndex_lt nul o m rk b k h2
      exact ⟨.inr ⟨by simp, by simpa⟩, .inr ⟨by simp, by simpa⟩⟩
    | left =>
      simp only [joinMapping, hL, hR, bind, Except.bind] at hm
      injection hm with hm
      subst hm
      intro p hp
      obtain ⟨h1, h2⟩ := hleft p hp
      exact ⟨.inr h1, h2.imp (fun e => ⟨e, .inl rfl⟩) id⟩
    | outer =>
      simp only [joinMapping, hL, hR, bind, Except.bind] at hm
      injection hm with hm
      subst hm
      intro p hp
      rw [outer_eq] at hp
      rcases List.mem_append.1 hp with hp | hp
      · obtain ⟨h1, h2⟩ := hleft p hp
        exact ⟨.inr h1, h2.imp (fun e => ⟨e, .inr rfl⟩) id⟩
      · obtain ⟨j, hj, rfl⟩ := List.mem_map.1 hp
        rw [mem_outerRest ord hord] at hj
        obtain ⟨b, k, rfl, hb, -⟩ := hj
        have := keyIndex_lt nul o m rk b k hb
        exact ⟨.inl ⟨rfl, rfl⟩, .inr ⟨by simp, by simpa⟩⟩
  refine joinColumns_layout ps hps mk hmk nul t o lc rc h.lcnd h.lcIn h.rcIn mapping ?_ ?_ ?_ ?_ t' hj
  · intro p hp c hc
    rw [ht c hc]
    exact (hval p hp).1.imp And.left id
  · intro p hp c hc
    rw [ho c hc]
    exact (hval p hp).2.imp And.left id
  · rintro ⟨p, hp, e⟩
    rcases (hval p hp).1 with ⟨-, e'⟩ | h
    · exact (hs (.inr e')).1
    · omega
  · rintro ⟨p, hp, e⟩
    rcases (hval p hp).2 with ⟨-, e'⟩ | h
    · exact (hs e').2
    · omega

/-- so they are cut at the same places -/
theorem tblJoin_shape (ps : Nat) (hps : 0 < ps) (mk : ν → Nat → ν) (hmk : ∀ d a b, mk d a = mk d b → a = b) (ord : List (List α) → List (List α)) (hord : ∀ l, (ord l).Perm l) (nul : α) (kind : JoinKind)
    (t o : Tbl ν α) (n m : Nat) (ht : Rect t n) (ho : Rect o m) (tne : t ≠ []) (one : o ≠ []) (lk rk lc rc : List ν) (h : JoinOk t o lk rk lc rc)
    (hs : kind = .left ∨ kind = .outer → Solid t ∧ Solid o) (t' : Tbl ν α) (hj : tblJoin ps mk ord nul kind t o lk rk lc rc = .ok t') : Aligned t' ∧ Solid t' :=
  let ⟨⟨_, h1⟩, h2⟩ := tblJoin_layout ps hps mk hmk ord hord nul kind t o n m ht ho tne one lk rk lc rc h hs t' hj
  ⟨⟨_, h1⟩, h2⟩

/-! ## the other operations -/

omit [DecidableEq ν] [DecidableEq α] in
theorem shape_congr {t t' : Tbl ν α} (h : t'.map (fun c => c.2.map List.length) = t.map fun c => c.2.map List.length) : (Aligned t → Aligned t') ∧ (Solid t → Solid t') := by
  have hm : ∀ c ∈ t', ∃ d ∈ t, d.2.map List.length = c.2.map List.length := by
    intro c hc
    have : c.2.map List.length ∈ t'.map fun c => c.2.map List.length := List.mem_map.2 ⟨c, hc, rfl⟩
    rw [h] at this
    exact List.mem_map.1 this
  refine ⟨?_, ?_⟩
  · rintro ⟨L, hL⟩
    refine ⟨L, fun c hc => ?_⟩
    obtain ⟨d, hd, e⟩ := hm c hc
    rw [← e, hL d hd]
  · intro hs c hc
    obtain ⟨d, hd, e⟩ := hm c hc
    rw [shape_solid, ← e, ← shape_solid]
    exact hs d hd

theorem replace_shape (mapping : List (α × α)) (ns : List ν) (t : Tbl ν α) : (ns.foldl (replaceIn mapping) t).map (fun c => c.2.map List.length) = t.map fun c => c.2.map List.length := by
  induction ns generalizing t with
  | nil => rfl
  | cons x ns ih =>
    rw [List.foldl_cons, ih]
    unfold replaceIn
    rw [List.map_map]
    apply List.map_congr_left
    intro c _
    simp only [Function.comp]
    split
    · unfold replaceVals
      rw [List.map_map]
      apply List.map_congr_left
      intro d _
      simp only [Function.comp]
      split <;> simp
    · rfl

omit [DecidableEq ν] [DecidableEq α] in
theorem times_shape (t t' : Tbl ν α) (n : Int) (h : tblIMul t n = .ok t') : (Aligned t → Aligned t') ∧ (Solid t → Solid t') := by
  unfold tblIMul at h
  split at h
  · next c =>
    refine ⟨fun ha => ha.mapM (fun p => colIMul p n) ?_ h, fun hs => hs.mapM (fun p => colIMul p n) ?_ h⟩
    · intro p q p' q' e h1 h2
      simp only [colIMul, if_pos c] at h1 h2
      cases h1
      cases h2
      rw [List.map_flatten, List.map_flatten, List.map_replicate, List.map_replicate, e]
    · intro p p' hp h1
      simp only [colIMul, if_pos c] at h1
      cases h1
      intro x hx
      obtain ⟨l, hl, hx⟩ := List.mem_flatten.1 hx
      rw [(List.mem_replicate.1 hl).2] at hx
      exact hp x hx
  · cases h

omit [DecidableEq α] in
theorem plus_shape (t u v : Tbl ν α) (h : tblIAdd t u = .ok v) : (Aligned t → Aligned u → Aligned v) ∧ (Solid t → Solid u → Solid v) := by
  unfold tblIAdd at h
  split at h
  · split at h
    · have hm := mapM_mem _ _ _ h
      have key : ∀ c ∈ v, ∃ d ∈ t, ∃ e ∈ u, c.2 = d.2 ++ e.2 := by
        intro c hc
        obtain ⟨d, hd, e⟩ := hm c hc
        cases hg : dGet d.1 u with
        | none => rw [hg] at e; cases e
        | some p =>
          rw [hg] at e
          cases e
          exact ⟨d, hd, (d.1, p), dGet_some_mem _ _ _ hg, rfl⟩
      refine ⟨?_, ?_⟩
      · rintro ⟨L, hL⟩ ⟨M, hM⟩
        refine ⟨L ++ M, fun c hc => ?_⟩
        obtain ⟨d, hd, e, he, eq⟩ := key c hc
        rw [eq, List.map_append, hL d hd, hM e he]
      · intro hs hs' c hc x hx
        obtain ⟨d, hd, e, he, eq⟩ := key c hc
        rw [eq] at hx
        rcases List.mem_append.1 hx with hx | hx
        · exact hs d hd x hx
        · exact hs' e he x hx
    · cases h
  · cases h

omit [DecidableEq α] in
/-- a stack of tables with the same columns joins their pages -/
theorem stack_same (ps : Nat) (nul : α) (t u : Tbl ν α) (ht : TblWF t) (hu : TblWF u) (hn : ∀ x, x ∈ t.map (·.1) ↔ x ∈ u.map (·.1)) :
    tblStack ps nul t u = t.map fun c => (c.1, c.2 ++ (dGet c.1 u).getD []) := by
  have hself : t = (t.map (·.1)).map fun x => (x, (dGet x t).getD (paginate ps (List.replicate (tblLen t) nul))) := by
    rw [List.map_map]
    conv_lhs => rw [← List.map_id t]
    apply List.map_congr_left
    intro c hc
    simp only [Function.comp, id]
    rw [dGet_of_mem _ ht c hc]
    rfl
  have h1 : u.foldl (stackStep ps nul (tblLen t)) t = t.map fun c => (c.1, c.2 ++ (dGet c.1 u).getD []) := by
    have := foldl_dUpd_append (ν := ν) (paginate ps (List.replicate (tblLen t) nul)) u hu (List.map Prod.fst t : List ν) ht (fun x => (dGet x t).getD (paginate ps (List.replicate (tblLen t) nul))) (by
      intro x hx
      cases e : dGet x t with
      | none => rfl
      | some p => exact absurd (List.mem_map.2 ⟨_, dGet_some_mem x t p e, rfl⟩) hx)
    rw [← hself] at this
    refine (show u.foldl (stackStep ps nul (tblLen t)) t = _ from this).trans ?_
    rw [List.filter_eq_nil_iff.2 (by
      intro x hx
      simpa using (hn x).2 hx), List.append_nil, List.map_map]
    apply List.map_congr_left
    intro c hc
    simp only [Function.comp]
    rw [dGet_of_mem _ ht c hc]
    rfl
  unfold tblStack
  dsimp only
  rw [h1]
  have gen : ∀ (l : Tbl ν α), (∀ c ∈ l, c ∈ t) → ∀ cp : Tbl ν α, l.foldl (fun cp c =>
      if (dGet c.1 u).isSome then cp
      else if tblLen cp > 0 then dUpd [] c.1 (fun p => extend ps p (List.replicate (tblLen u) nul)) cp
      else cp) cp = cp := by
    intro l
    induction l with
    | nil => exact fun _ _ => rfl
    | cons c l ih =>
      intro hl cp
      rw [List.foldl_cons, if_pos ((dGet_isSome _ _).2 ((hn _).1 (List.mem_map.2 ⟨c, hl c (by simp), rfl⟩)))]
      exact ih (fun c hc => hl c (by simp [hc])) cp
  exact gen t (fun _ h => h) _

omit [DecidableEq α] in
theorem stack_shape (ps : Nat) (nul : α) (t u : Tbl ν α) (ht : TblWF t) (hu : TblWF u) (hn : ∀ x, x ∈ t.map (·.1) ↔ x ∈ u.map (·.1)) (h1 : Aligned t) (h2 : Aligned u) : Aligned (tblStack ps nul t u) := by
  rw [stack_same ps nul t u ht hu hn]
  obtain ⟨L, hL⟩ := h1
  obtain ⟨M, hM⟩ := h2
  refine ⟨L ++ M, fun c hc => ?_⟩
  obtain ⟨d, hd, rfl⟩ := List.mem_map.1 hc
  obtain ⟨p, e⟩ := Option.isSome_iff_exists.1 ((dGet_isSome d.1 u).2 ((hn _).1 (List.mem_map.2 ⟨d, hd, rfl⟩)))
  rw [e, List.map_append, hL d hd, Option.getD_some, hM _ (dGet_some_mem _ _ _ e)]

omit [DecidableEq α] in
theorem dUpd_all {β : Type} (P : β → Prop) (init : β) (k : ν) (f : β → β) (hi : P (f init)) (hf : ∀ b, P b → P (f b)) (d : List (ν × β)) (h : ∀ c ∈ d, P c.2) : ∀ c ∈ dUpd init k f d, P c.2 := by
  induction d with
  | nil =>
    intro c hc
    rw [dUpd, List.mem_singleton] at hc
    rw [hc]
    exact hi
  | cons a d ih =>
    obtain ⟨k', b⟩ := a
    unfold dUpd
    intro c hc
    split at hc
    · rcases List.mem_cons.1 hc with rfl | hc
      · exact hf b (h (k', b) (by simp))
      · exact h c (by simp [hc])
    · rcases List.mem_cons.1 hc with rfl | hc
      · exact h (k', b) (by simp)
      · exact ih (fun c hc => h c (by simp [hc])) c hc

omit [DecidableEq α] in
theorem stack_solid {ps : Nat} (hps : 0 < ps) (nul : α) (t u : Tbl ν α) (h1 : Solid t) (h2 : Solid u) : Solid (tblStack ps nul t u) := by
  have g1 : ∀ (l cp : Tbl ν α), (∀ c ∈ l, c ∈ u) → Solid cp → Solid (l.foldl (stackStep ps nul (tblLen t)) cp) := by
    intro l
    induction l with
    | nil => exact fun _ _ h => h
    | cons c l ih =>
      intro cp hl hs
      rw [List.foldl_cons]
      refine ih _ (fun c hc => hl c (by simp [hc])) ?_
      have hc : ∀ x ∈ c.2, x ≠ [] := h2 c (hl c (by simp))
      have hadd : ∀ b : Pages α, (∀ x ∈ b, x ≠ []) → ∀ x ∈ b ++ c.2, x ≠ [] := by
        intro b hb x hx
        rcases List.mem_append.1 hx with hx | hx
        · exact hb x hx
        · exact hc x hx
      exact dUpd_all (fun b => ∀ x ∈ b, x ≠ []) _ c.1 (fun p => p ++ c.2) (hadd _ (paginate_solid hps _)) hadd cp hs
  have g2 : ∀ (l cp : Tbl ν α), Solid cp → Solid (l.foldl (fun cp c =>
      if (dGet c.1 u).isSome then cp
      else if tblLen cp > 0 then dUpd [] c.1 (fun p => extend ps p (List.replicate (tblLen u) nul)) cp
      else cp) cp) := by
    intro l
    induction l with
    | nil => exact fun _ h => h
    | cons c l ih =>
      intro cp hs
      rw [List.foldl_cons]
      apply ih
      split
      · exact hs
      split
      · have hadd : ∀ b : Pages α, (∀ x ∈ b, x ≠ []) → ∀ x ∈ extend ps b (List.replicate (tblLen u) nul), x ≠ [] := by
          intro b hb x hx
          rcases List.mem_append.1 hx with hx | hx
          · exact hb x hx
          · exact paginate_solid hps _ x hx
        exact dUpd_all (fun b => ∀ x ∈ b, x ≠ []) [] c.1 _ (hadd [] (by simp)) hadd cp hs
      · exact hs
  exact g2 t _ (g1 u t (fun _ h => h) h1)

theorem select_shape (ps : Nat) (t v : Tbl ν α) (names : List ν) (hl : 2 ≤ names.length) (hn : names.Nodup) (hin : ∀ x ∈ names, x ∈ t.map (·.1)) (h : selectCols ps t names = .ok v) : ∀ c ∈ v, c ∈ t := by
  have hnames : (t.zipIdx.map fun p => (p.1.1, p.2)).map (·.1) = t.map (·.1) := by
    rw [List.map_map]
    conv_rhs => rw [← List.zipIdx_map_fst 0 t, List.map_map]
    rfl
  obtain ⟨u, h1, h2, h3⟩ := C74_names ps (t.map (·.2)) (t.zipIdx.map fun p => (p.1.1, p.2)) names hl hn (by rw [hnames]; exact hin)
  unfold selectCols at h
  rw [h1] at h
  injection h with h
  subst h
  intro c hc
  unfold Tablite.view at hc
  obtain ⟨d, hd, rfl⟩ := List.mem_map.1 hc
  have hx : d.1 ∈ names := by rw [← h2]; exact List.mem_map.2 ⟨d, hd, rfl⟩
  have e : (dGet d.1 u).map (colAt (t.map (·.2))) = dGet d.1 t := by
    rw [h3 d.1 hx]
    exact dGet_zipIdx d.1 t 0 (t.map (·.2)) (by
        intro i hi
        simp [colAt, List.getD_eq_getElem?_getD])
  rw [dGet_of_mem _ (by rw [h2]; exact hn) d hd] at e
  exact dGet_some_mem _ _ _ e.symm

/-! ## group-by and outer joins on tables that show rows -/

/-- Spec: the keys of the rows, each once, in the order of their first rows -/
def Rel.keysOf (nul : α) (r : Rel ν α) (keys : List ν) : List (List α) := firstOccs (r.rows.map fun row => keys.map (r.get nul row))

/-- Spec: the rows with these keys -/
def Rel.withKey (nul : α) (r : Rel ν α) (keys : List ν) (k : List α) : List (List α) := r.rows.filter fun row => decide (keys.map (r.get nul row) = k)

/-- Spec: the names and rows of a group-by: one row for each key, with the keys and the values of the functions on the rows with that key -/
def Rel.grouped {φ : Type} (nul : α) (nm : φ → ν → ν) (r : Rel ν α) (keys : List ν) (functions : List (ν × φ)) (agg : ν × φ → List α → α) : Rel ν α :=
  ⟨keys ++ functions.map fun f => nm f.2 f.1, (r.keysOf nul keys).map fun k => k ++ functions.map fun f => agg f k⟩

theorem Shows.keyRows {nul : α} {t : Tbl ν α} {r : Rel ν α} (h : Shows nul t r) (keys : List ν) : Tablite.keyRows nul t keys r.rows.length = r.rows.map fun row => keys.map (r.get nul row) := by
  unfold Tablite.keyRows
  conv_rhs => rw [← range_rows r.rows, List.map_map]
  apply List.map_congr_left
  intro i _
  simp only [Function.comp]
  apply List.map_congr_left
  intro a _
  exact h.cell a i

theorem Shows.withKey {nul : α} {t : Tbl ν α} {r : Rel ν α} (h : Shows nul t r) (keys : List ν) (k : List α) (x : ν) :
    ((rowsWith nul t keys r.rows.length k).map fun i => Tablite.cell nul t x i) = (r.withKey nul keys k).map fun row => r.get nul row x := by
  unfold rowsWith Rel.withKey
  rw [← select_filter r.rows [] (fun row => decide (keys.map (r.get nul row) = k)) (fun i => keyAt nul t keys i = k) (by
    intro i _
    unfold keyAt
    congr 2
    apply List.map_congr_left
    intro a _
    exact h.cell a i), List.map_map]
  apply List.map_congr_left
  intro i _
  exact h.cell x i

omit [DecidableEq α] in
theorem toPages_solid (ps : Nat) (l : List α) : ∀ x ∈ toPages ps l, x ≠ [] := by
  induction hn : l.length using Nat.strong_induction_on generalizing l with
  | _ n ih =>
    unfold toPages
    split
    · next h =>
      have := List.length_pos_iff.2 h.2
      intro x hx
      rcases List.mem_cons.1 hx with rfl | hx
      · intro e
        have := congrArg List.length e
        rw [List.length_take] at this
        simp only [List.length_nil] at this
        omega
      · exact ih (l.drop ps).length (by rw [List.length_drop]; omega) _ rfl x hx
    · simp

/-- a group-by of a table with columns cut at the same places: the groups of its rows -/
theorem Shows.groupby {σ φ : Type} {nul : α} {t : Tbl ν α} {r : Rel ν α} (h : Shows nul t r) (ha : Aligned t) (init : φ → σ) (upd : φ → σ → α → Except Err σ) (val : φ → σ → Except Err α) (nm : φ → ν → ν) (ps : Nat)
    (hps : 0 < ps) (keys : List ν) (functions : List (ν × φ)) (hin : ∀ a ∈ keys ++ functions.map (·.1), a ∈ r.names) (hsome : keys ++ functions.map (·.1) ≠ [])
    (hnd : (keys ++ functions.map fun f => nm f.2 f.1).Nodup) (agg : ν × φ → List α → α)
    (hagg : ∀ f ∈ functions, ∀ k ∈ r.keysOf nul keys, aggOf init upd val f.2 ((r.withKey nul keys k).map fun row => r.get nul row f.1) = .ok (agg f k)) :
    ∃ g, Tablite.groupby nul init upd val nm ps t keys functions = .ok g ∧ Shows nul g (r.grouped nul nm keys functions agg) ∧ Aligned g ∧ Solid g := by
  obtain ⟨L, hL⟩ := ha
  have hn : L.sum = r.rows.length := by
    obtain ⟨c, hc⟩ := List.exists_mem_of_ne_nil t h.ne
    rw [← h.2.2.1 c hc, colLen_eq, List.length_flatten, hL c hc]
  have hnames : ∀ a ∈ keys ++ functions.map (·.1), ∃ p, dGet a t = some p ∧ p.map List.length = L := by
    intro a ha
    obtain ⟨p, e⟩ := Option.isSome_iff_exists.1 ((dGet_isSome a t).2 (by rw [h.2.1]; exact hin a ha))
    exact ⟨p, e, hL _ (dGet_some_mem _ _ _ e)⟩
  have hk : Tablite.keyRows nul t keys L.sum = r.rows.map fun row => keys.map (r.get nul row) := by rw [hn]; exact h.keyRows keys
  obtain ⟨g, g1, g2⟩ := C33_partial nul init upd val nm ps hps t L keys functions hnames (by
    intro e
    apply hsome
    have h1 : keys = [] := List.length_eq_zero_iff.1 (by omega)
    have h2 : functions = [] := List.length_eq_zero_iff.1 (by omega)
    rw [h1, h2]; rfl) hnd agg (by
    intro f hf k hkm
    rw [hn, h.withKey]
    exact hagg f hf k (by
      unfold Rel.keysOf
      rw [mem_firstOccs, ← hk]
      exact hkm))
  have hview : tview g = (keys.zipIdx.map fun k => (k.1, (r.keysOf nul keys).map fun key => key.getD k.2 nul)) ++ functions.map fun f => (nm f.2 f.1, (r.keysOf nul keys).map (agg f)) := by
    rw [g2]
    unfold groupView
    rw [hk]
    rfl
  have hkl : ∀ k ∈ r.keysOf nul keys, k.length = keys.length := by
    intro k hk'
    unfold Rel.keysOf at hk'
    rw [mem_firstOccs] at hk'
    obtain ⟨row, -, rfl⟩ := List.mem_map.1 hk'
    rw [List.length_map]
  have hwf : (r.grouped nul nm keys functions agg).WF := by
    refine ⟨?_, hnd, ?_⟩
    · intro e
      apply hsome
      have := congrArg List.length e
      simp only [Rel.grouped, List.length_append, List.length_map, List.length_nil] at this
      apply List.length_eq_zero_iff.1
      simp only [List.length_append, List.length_map]
      exact this
    · intro row hr
      obtain ⟨k, hk', rfl⟩ := List.mem_map.1 hr
      simp only [Rel.grouped, List.length_append, List.length_map, hkl k hk']
  have hshow : Shows nul g (r.grouped nul nm keys functions agg) := by
    rw [shows_iff]
    refine ⟨hwf, ?_⟩
    rw [hview]
    unfold Rel.cols
    apply List.ext_getElem
    · simp [Rel.grouped]
    · intro i h1 h2
      have hi : i < (keys ++ functions.map fun f => nm f.2 f.1).length := by simpa [Rel.grouped] using h2
      have hidx : (keys ++ functions.map fun f => nm f.2 f.1).idxOf ((keys ++ functions.map fun f => nm f.2 f.1)[i]) = i := hnd.idxOf_getElem i hi
      rw [List.getElem_map]
      simp only [Rel.grouped, Rel.get, List.map_map, Function.comp_def, hidx]
      by_cases hik : i < keys.length
      · rw [List.getElem_append_left (by simpa using hik), List.getElem_map, List.getElem_zipIdx, List.getElem_append_left hik]
        simp only [Nat.zero_add, Prod.mk.injEq, true_and]
        apply List.map_congr_left
        intro k hk'
        rw [List.getD_eq_getElem?_getD, List.getD_eq_getElem?_getD, List.getElem?_append_left (by rw [hkl k hk']; exact hik)]
      · rw [List.getElem_append_right (by simpa using hik), List.getElem_map, List.getElem_append_right (by omega)]
        simp only [List.getElem_map, List.length_map, List.length_zipIdx, Prod.mk.injEq, true_and]
        apply List.map_congr_left
        intro k hk'
        have hj : i - keys.length < functions.length := by
          simp only [List.length_append, List.length_map] at hi
          omega
        rw [List.getD_eq_getElem?_getD, List.getElem?_append_right (by rw [hkl k hk']; omega), hkl k hk', List.getElem?_map, List.getElem?_eq_getElem hj]
        rfl
  have hrect : ∀ c ∈ tview g, c.2.length = (r.keysOf nul keys).length := by
    intro c hc
    rw [hview] at hc
    rcases List.mem_append.1 hc with hc | hc <;> obtain ⟨x, -, rfl⟩ := List.mem_map.1 hc <;> simp
  refine ⟨g, g1, hshow, ?_, ?_⟩
  · obtain ⟨M, -, hM⟩ := groupby_aligned hps g1 _ hrect
    refine ⟨M, fun c hc => ?_⟩
    obtain ⟨p, e, hp⟩ := hM c.1 (List.mem_map.2 ⟨c, hc, rfl⟩)
    rw [dGet_of_mem _ hshow.wf c hc] at e
    injection e with e
    rw [e]
    exact hp
  · intro c hc
    obtain ⟨l, e⟩ := groupby_pages g1 c hc
    rw [e]
    exact toPages_solid ps l

/-- Spec: the rows of `r` without a partner in `s` -/
def Rel.alone (nul : α) (r s : Rel ν α) (lk rk : List ν) : List (List α) := r.rows.filter fun a => s.rows.all fun b => !decide (lk.map (r.get nul a) = rk.map (s.get nul b))

/-- Spec: the rows of a left join: those of the inner join, and the rows of `r` without a partner beside missing values -/
def Rel.leftJoined (nul : α) (r s : Rel ν α) (lk rk lc rc : List ν) : List (List α) :=
  r.joined nul s lk rk lc rc ++ (r.alone nul s lk rk).map fun a => lc.map (r.get nul a) ++ rc.map fun _ => nul

/-- Spec: the rows of an outer join: those of the left join, and the rows of `s` without a partner beside missing values -/
def Rel.outerJoined (nul : α) (r s : Rel ν α) (lk rk lc rc : List ν) : List (List α) :=
  r.leftJoined nul s lk rk lc rc ++ (s.alone nul r rk lk).map fun b => (lc.map fun _ => nul) ++ rc.map (s.get nul b)

theorem unmatched_shows {nul : α} {t u : Tbl ν α} {r s : Rel ν α} (ht : Shows nul t r) (hu : Shows nul u s) (lk rk : List ν) :
    (unmatched nul t u r.rows.length s.rows.length lk rk).map (fun i => r.rows.getD i []) = r.alone nul s lk rk := by
  unfold unmatched Rel.alone
  apply select_filter
  intro i _
  conv_rhs => rw [← range_rows s.rows, List.all_map]
  congr 1
  funext j
  simp only [Function.comp, keysMeet]
  congr 2
  rw [List.map_congr_left fun x _ => ht.cell x i, List.map_congr_left fun x _ => hu.cell x j]

theorem shows_joined_opt {nul : α} {t u t' : Tbl ν α} {mk : ν → Nat → ν} (hmk : ∀ d a b, mk d a = mk d b → a = b) {lc rc : List ν} (hne : lc ≠ []) (hnd : lc.Nodup) {pairs : List (Option Nat × Option Nat)}
    (hv : tview t' = joinedView mk nul t u lc rc pairs) : Shows nul t' ⟨lc ++ rightNames mk lc rc, pairs.map (joinRow nul t u lc rc)⟩ := by
  refine ⟨⟨by simp [hne], rightNames_nodup mk hmk lc rc hnd, ?_⟩, joined_names hv, ?_, joined_rows hv hne⟩
  · intro row hr
    obtain ⟨p, -, rfl⟩ := List.mem_map.1 hr
    simp [joinRow, rightNames_length]
  · have := joined_rect hv
    simpa using this

theorem Shows.left {nul : α} {t u : Tbl ν α} {r s : Rel ν α} (ht : Shows nul t r) (hu : Shows nul u s) (hs : Solid u) (ps : Nat) (hps : 0 < ps) (mk : ν → Nat → ν) (hmk : ∀ d a b, mk d a = mk d b → a = b)
    (ord : List (List α) → List (List α)) (lk rk lc rc : List ν) (h : Rel.JoinArgs r s lk rk lc rc) :
    ∃ t' rows, tblJoin ps mk ord nul .left t u lk rk lc rc = .ok t' ∧ rows.Perm (r.leftJoined nul s lk rk lc rc) ∧ Shows nul t' ⟨lc ++ rightNames mk lc rc, rows⟩ := by
  have hj := ht.joinOk hu h
  obtain ⟨pairs, -, -, t', h1, h2⟩ := C24_left_partial ps hps mk hmk ord nul t u _ _ ht.2.2.1 hu.2.2.1 lk rk lc rc hj hs
  obtain ⟨a, b, ra, rb, g1, g2, g3, g4, g5⟩ := C111_left ps hps mk hmk ord nul t u _ _ ht.2.2.1 hu.2.2.1 lk rk lc rc hj hs
  obtain ⟨a', rows, i1, i2, i3⟩ := ht.inner hu ps hps mk hmk ord lk rk lc rc h
  rw [h1] at g3
  injection g3 with g3
  subst g3
  rw [g1] at i1
  injection i1 with i1
  subst i1
  have hra := i3.2.2.2
  rw [g2] at hra
  injection hra with hra
  dsimp only at hra
  have hsh := shows_joined_opt hmk h.lcne h.lcnd h2
  refine ⟨t', _, h1, ?_, hsh⟩
  have hrb := hsh.2.2.2
  rw [g4] at hrb
  injection hrb with hrb
  dsimp only at hrb
  rw [← hrb]
  refine g5.trans ?_
  rw [hra]
  unfold Rel.leftJoined
  refine i2.append (List.Perm.of_eq ?_)
  rw [← unmatched_shows ht hu, List.map_map]
  apply List.map_congr_left
  intro i _
  simp only [joinRow, Function.comp, optCell]
  rw [List.map_congr_left fun x _ => ht.cell x i]

theorem Shows.outer {nul : α} {t u : Tbl ν α} {r s : Rel ν α} (ht : Shows nul t r) (hu : Shows nul u s) (hst : Solid t) (hs : Solid u) (ps : Nat) (hps : 0 < ps) (mk : ν → Nat → ν) (hmk : ∀ d a b, mk d a = mk d b → a = b)
    (ord : List (List α) → List (List α)) (hord : ∀ l, (ord l).Perm l) (lk rk lc rc : List ν) (h : Rel.JoinArgs r s lk rk lc rc) :
    ∃ t' rows, tblJoin ps mk ord nul .outer t u lk rk lc rc = .ok t' ∧ rows.Perm (r.outerJoined nul s lk rk lc rc) ∧ Shows nul t' ⟨lc ++ rightNames mk lc rc, rows⟩ := by
  have hj := ht.joinOk hu h
  obtain ⟨lp, rest, -, a2, -, a4, t', tl, h1, h2, h3, h4⟩ := C25_outer ps hps mk hmk ord hord nul t u _ _ ht.2.2.1 hu.2.2.1 lk rk lc rc hj hst hs
  obtain ⟨b, rows, i1, i2, i3⟩ := ht.left hu hs ps hps mk hmk ord lk rk lc rc h
  rw [h3] at i1
  injection i1 with i1
  subst i1
  have hsh := shows_joined_opt hmk h.lcne h.lcnd h2
  have hshl := (shows_joined_opt hmk h.lcne h.lcnd h4).2.2.2
  rw [i3.2.2.2] at hshl
  injection hshl with hshl
  dsimp only at hshl
  refine ⟨t', _, h1, ?_, hsh⟩
  rw [List.map_append, ← hshl]
  unfold Rel.outerJoined
  refine i2.append ?_
  have hperm : rest.Perm (unmatched nul u t s.rows.length r.rows.length rk lk) := by
    unfold unmatched
    rw [List.perm_ext_iff_of_nodup a2 (List.nodup_range.filter _)]
    intro j
    rw [a4]
    simp only [keysMeet, List.mem_filter, List.mem_range, List.all_eq_true, Bool.not_eq_true', decide_eq_false_iff_not]
    constructor
    · rintro ⟨x, y⟩
      exact ⟨x, fun i hi e => y i hi e.symm⟩
    · rintro ⟨x, y⟩
      exact ⟨x, fun i hi e => y i hi e.symm⟩
  rw [List.map_map]
  refine (hperm.map _).trans (List.Perm.of_eq ?_)
  rw [← unmatched_shows hu ht, List.map_map]
  apply List.map_congr_left
  intro j _
  simp only [joinRow, Function.comp, optCell]
  rw [List.map_congr_left fun x _ => hu.cell x j]

end
/-! ## pipelines -/

section
variable {K : Type} [LinearOrder K] {ν κ η : Type} [DecidableEq ν] [DecidableEq η]

/-- The columns of the result are cut at the same places: sorting, picking rows, dropping duplicates and joins cut them anew, the other operations keep the cuts, and a stack needs tables with the same columns. -/
def Query.Cut (S : Surroundings ν κ K η) (rels : Nat → Rel ν SVal) : Query ν κ → Prop
  | .table _ => True
  | .filter _ _ _ q => q.Cut S rels
  | .sort .. => True
  | .slice _ q => q.Cut S rels
  | .pick .. => True
  | .unique _ => True
  | .replace _ _ q => q.Cut S rels
  | .select _ q => q.Cut S rels
  | .times _ q => q.Cut S rels
  | .stack q p => q.Cut S rels ∧ p.Cut S rels ∧ ∀ a b, q.Gives S rels a → p.Gives S rels b → ∀ x, x ∈ a.names ↔ x ∈ b.names
  | .plus q p => q.Cut S rels ∧ p.Cut S rels
  | .inner .. => True
  | .cross .. => True

/-- pages of the result of a pipeline -/
theorem run_shape (S : Surroundings ν κ K η) (hmk : ∀ d a b, S.fresh d a = S.fresh d b → a = b) (hord : ∀ l v, v ∈ S.ord l ↔ v ∈ l) (hjord : ∀ l, (S.jord l).Perm l) (ps : Nat) (hps : 0 < ps) (db : Nat → Tbl ν SVal)
    (rels : Nat → Rel ν SVal) (hdb : ∀ i, Shows .none (db i) (rels i)) (hal : ∀ i, Aligned (db i)) (hso : ∀ i, Solid (db i)) (q : Query ν κ) (hq : q.Ok S true rels) (t : Tbl ν SVal) (ht : q.run S ps db = .ok t) :
    (q.Cut S rels → Aligned t) ∧ Solid t := by
  induction q generalizing t with
  | table i => cases ht; exact ⟨fun _ => hal i, hso i⟩
  | filter pass all es q ih =>
    obtain ⟨u, u1, ht⟩ := ebind_ok ht
    obtain ⟨⟨a, b⟩, r1, ht⟩ := ebind_ok ht
    have hu := ih hq.1 u u1
    have hs := tblFilter_shape _ _ _ _ _ _ a b hu.2 r1
    cases pass with
    | true =>
      cases ht
      exact ⟨fun hc => hs.1.1 (hu.1 hc), hs.1.2⟩
    | false =>
      cases ht
      exact ⟨fun hc => hs.2.1 (hu.1 hc), hs.2.2⟩
  | sort keys q ih =>
    obtain ⟨u, u1, ht⟩ := ebind_ok ht
    unfold tblSort at ht
    obtain ⟨idx, -, ht⟩ := ebind_ok ht
    exact ⟨fun _ => tblReindex_aligned ps _ u t _ (by
      intro i hi
      obtain ⟨n, -, rfl⟩ := List.mem_map.1 hi
      omega) ht, tblReindex_solid hps _ u t _ ht⟩
  | slice s q ih =>
    obtain ⟨u, u1, ht⟩ := ebind_ok ht
    have hu := ih hq.1 u u1
    exact ⟨fun hc => (hu.1 hc).mapM (fun p => sliceCol ps p s) (fun p q p' q' => sliceCol_shape ps s p q p' q') ht, hu.2.mapM (fun p => sliceCol ps p s) (fun p p' => sliceCol_solid hps s p p') ht⟩
  | pick index q ih =>
    obtain ⟨u, u1, ht⟩ := ebind_ok ht
    obtain ⟨t0, a, h1, h2, h3⟩ := C127_partial S hmk hord ps hps db rels hdb q hq.1
    exact ⟨fun _ => tblReindex_aligned ps _ u t _ (fun i hi => (hq.2 a h2 i hi).1) ht, tblReindex_solid hps _ u t _ ht⟩
  | unique q ih =>
    obtain ⟨u, u1, ht⟩ := ebind_ok ht
    unfold dropDuplicates at ht
    obtain ⟨idx, -, ht⟩ := ebind_ok ht
    exact ⟨fun _ => tblReindex_aligned ps _ u t _ (by
      intro i hi
      obtain ⟨n, -, rfl⟩ := List.mem_map.1 hi
      omega) ht, tblReindex_solid hps _ u t _ ht⟩
  | replace mapping ns q ih =>
    obtain ⟨u, u1, ht⟩ := ebind_ok ht
    have hu := ih hq.1 u u1
    split at ht
    · next e =>
      injection ht with ht
      subst ht
      unfold tblReplace at e ⊢
      split at e
      · cases e
      · next ns' h =>
        have := shape_congr (replace_shape mapping ns' u)
        exact ⟨fun hc => this.1 (hu.1 hc), this.2 hu.2⟩
    · cases ht
  | select names q ih =>
    obtain ⟨u, u1, ht⟩ := ebind_ok ht
    have hu := ih hq.1 u u1
    obtain ⟨hq, hnd, hne, hl, hc⟩ := hq
    obtain ⟨u', a, h1, h2, h3⟩ := C127_partial S hmk hord ps hps db rels hdb q hq
    rw [u1] at h1
    injection h1 with h1
    subst h1
    have := List.length_pos_of_ne_nil hne
    have := hl rfl
    have hsub := select_shape ps u t names (by omega) hnd (by rw [h3.2.1]; exact hc a h2) ht
    refine ⟨fun hc => ?_, fun c hc => hu.2 c (hsub c hc)⟩
    obtain ⟨L, hL⟩ := hu.1 hc
    exact ⟨L, fun c hc => hL c (hsub c hc)⟩
  | times n q ih =>
    obtain ⟨u, u1, ht⟩ := ebind_ok ht
    have hu := ih hq.1 u u1
    have := times_shape u t n ht
    exact ⟨fun hc => this.1 (hu.1 hc), this.2 hu.2⟩
  | stack q p ihq ihp =>
    obtain ⟨u, u1, ht⟩ := ebind_ok ht
    obtain ⟨v, v1, ht⟩ := ebind_ok ht
    injection ht with ht
    subst ht
    have hu := ihq hq.1 u u1
    have hv := ihp hq.2 v v1
    obtain ⟨u', a, h1, h2, h3⟩ := C127_partial S hmk hord ps hps db rels hdb q hq.1
    obtain ⟨v', b, g1, g2, g3⟩ := C127_partial S hmk hord ps hps db rels hdb p hq.2
    rw [u1] at h1
    injection h1 with h1
    subst h1
    rw [v1] at g1
    injection g1 with g1
    subst g1
    refine ⟨?_, stack_solid hps _ u v hu.2 hv.2⟩
    rintro ⟨c1, c2, c3⟩
    exact stack_shape ps _ u v h3.wf g3.wf (by rw [h3.2.1, g3.2.1]; exact c3 a b h2 g2) (hu.1 c1) (hv.1 c2)
  | plus q p ihq ihp =>
    obtain ⟨u, u1, ht⟩ := ebind_ok ht
    obtain ⟨v, v1, ht⟩ := ebind_ok ht
    have hu := ihq hq.1 u u1
    have hv := ihp hq.2.1 v v1
    have := plus_shape u v t ht
    exact ⟨fun hc => this.1 (hu.1 hc.1) (hv.1 hc.2), this.2 hu.2 hv.2⟩
  | inner lk rk lc rc q p ihq ihp =>
    obtain ⟨u, u1, ht⟩ := ebind_ok ht
    obtain ⟨v, v1, ht⟩ := ebind_ok ht
    obtain ⟨hq, hp, hc⟩ := hq
    obtain ⟨u', a, h1, h2, h3⟩ := C127_partial S hmk hord ps hps db rels hdb q hq
    obtain ⟨v', b, g1, g2, g3⟩ := C127_partial S hmk hord ps hps db rels hdb p hp
    rw [u1] at h1
    injection h1 with h1
    subst h1
    rw [v1] at g1
    injection g1 with g1
    subst g1
    have := tblJoin_shape ps hps S.fresh hmk S.jord hjord .none .inner u v _ _ h3.2.2.1 g3.2.2.1 h3.ne g3.ne lk rk lc rc (h3.joinOk g3 (hc a b h2 g2)) (by simp) t ht
    exact ⟨fun _ => this.1, this.2⟩
  | cross lk rk lc rc q p ihq ihp =>
    obtain ⟨u, u1, ht⟩ := ebind_ok ht
    obtain ⟨v, v1, ht⟩ := ebind_ok ht
    obtain ⟨hq, hp, hc⟩ := hq
    obtain ⟨u', a, h1, h2, h3⟩ := C127_partial S hmk hord ps hps db rels hdb q hq
    obtain ⟨v', b, g1, g2, g3⟩ := C127_partial S hmk hord ps hps db rels hdb p hp
    rw [u1] at h1
    injection h1 with h1
    subst h1
    rw [v1] at g1
    injection g1 with g1
    subst g1
    have := tblJoin_shape ps hps S.fresh hmk S.jord hjord .none .cross u v _ _ h3.2.2.1 g3.2.2.1 h3.ne g3.ne lk rk lc rc (h3.joinOk g3 (hc a b h2 g2).1) (by simp) t ht
    exact ⟨fun _ => this.1, this.2⟩

end

end Tablite
