import Verif.Lemmas.Join
/-!
# Joins: C23 inner, C24 left, C25 outer, C26 cross, C27 chunk and worker independence

Spec vocabulary: a row reference is `some i` or `none` (no row on this side); `optCell` reads a cell through it.
-/

namespace Tablite

set_option linter.unusedSectionVars false

section
variable {ν α : Type} [DecidableEq ν]

/-- the cell of column `x` in row `r`; None if there is no such row -/
def optCell (nul : α) (t : Tbl ν α) (x : ν) (r : Option Nat) : α := match r with
  | none => nul
  | some i => cell nul t x i

/-- row number of the mapping as a row reference -/
def dec (i : Int) : Option Nat := if i = -1 then none else some i.toNat

theorem pick_dec (nul : α) (t : Tbl ν α) (x : ν) (p : Pages α) (h : dGet x t = some p) (i : Int) :
    pick nul (colIter p) i = optCell nul t x (dec i) := by
  unfold pick dec optCell cell
  rw [h]
  split <;> rfl

/-- what the joined table looks like for row pairs `pairs`: the left columns under their names, then the right columns under names made
unique, every cell read through the pair's row references. -/
def joinedView (mk : ν → Nat → ν) (nul : α) (t o : Tbl ν α) (lc rc : List ν) (pairs : List (Option Nat × Option Nat)) : List (ν × List α) :=
  lc.map (fun x => (x, pairs.map fun p => optCell nul t x p.1)) ++
  (rc.zip (rightNames mk lc rc)).map fun x => (x.2, pairs.map fun p => optCell nul o x.1 p.2)

theorem joinSources_ok (mk : ν → Nat → ν) (t o : Tbl ν α) (lc rc : List ν) (lm rm : Pages Int)
    (hl : ∀ x ∈ lc, x ∈ t.map (·.1)) (hr : ∀ x ∈ rc, x ∈ o.map (·.1)) :
    joinSources mk t o lc rc lm rm = .ok (lc.map (fun x => (x, (dGet x t).getD [], lm)) ++
      (rc.zip (rightNames mk lc rc)).map fun x => (x.2, (dGet x.1 o).getD [], rm)) := by
  unfold joinSources
  rw [mapM_ok lc _ (fun x => (x, (dGet x t).getD [], lm)), mapM_ok (rc.zip (rightNames mk lc rc)) _ (fun x => (x.2, (dGet x.1 o).getD [], rm))]
  · rfl
  · intro x hx
    have := (dGet_isSome x.1 o).2 (hr _ (List.of_mem_zip hx).1)
    cases e : dGet x.1 o with
    | none => rw [e] at this; cases this
    | some p => rfl
  · intro x hx
    have := (dGet_isSome x t).2 (hl _ hx)
    cases e : dGet x t with
    | none => rw [e] at this; cases this
    | some p => rfl

theorem map_zip_snd {β : Type} (a : List β) (b : List ν) (h : b.length = a.length) : (a.zip b).map (·.2) = b :=
  List.map_snd_zip (by omega)

/-- The reindexing machinery, for every page size and every layout: each column of the result reads its source column through the mapping. -/
theorem joinColumns_view (ps : Nat) (hps : 0 < ps) (mk : ν → Nat → ν) (hmk : ∀ d a b, mk d a = mk d b → a = b) (nul : α) (t o : Tbl ν α)
    (lc rc : List ν) (hlc : lc.Nodup) (hl : ∀ x ∈ lc, x ∈ t.map (·.1)) (hr : ∀ x ∈ rc, x ∈ o.map (·.1)) (mapping : List (Int × Int))
    (hvl : ∀ p ∈ mapping, ∀ c ∈ t, p.1 = -1 ∨ (0 ≤ p.1 ∧ p.1 < colLen c.2))
    (hvr : ∀ p ∈ mapping, ∀ c ∈ o, p.2 = -1 ∨ (0 ≤ p.2 ∧ p.2 < colLen c.2))
    (hnl : (∃ p ∈ mapping, p.1 = -1) → ∀ c ∈ t, ∀ q ∈ c.2, q ≠ []) (hnr : (∃ p ∈ mapping, p.2 = -1) → ∀ c ∈ o, ∀ q ∈ c.2, q ≠ []) :
    ∃ t', joinColumns ps mk nul t o lc rc mapping = .ok t' ∧
      tview t' = joinedView mk nul t o lc rc (mapping.map fun p => (dec p.1, dec p.2)) := by
  unfold joinColumns
  rw [if_neg (by simpa using hlc)]
  dsimp only
  rw [joinSources_ok mk t o lc rc _ _ hl hr]
  simp only [bind, Except.bind]
  generalize hsrcs : (lc.map (fun x => (x, (dGet x t).getD [], paginate ps (mapping.map (·.1)))) ++
      (rc.zip (rightNames mk lc rc)).map fun x => (x.2, (dGet x.1 o).getD [], paginate ps (mapping.map (·.2)))) = srcs
  -- every source: its mapping column is `paginate` of a valid list of row numbers
  have hsrc : ∀ s ∈ srcs, ∃ m : List Int, s.2.2 = paginate ps m ∧ m.length = mapping.length ∧
      (∀ i ∈ m, i = -1 ∨ (0 ≤ i ∧ i < colLen s.2.1)) ∧ (-1 ∈ m → ∀ q ∈ s.2.1, q ≠ []) := by
    intro s hs
    rw [← hsrcs, List.mem_append] at hs
    rcases hs with hs | hs
    · obtain ⟨x, hx, rfl⟩ := List.mem_map.1 hs
      have hsome := (dGet_isSome x t).2 (hl _ hx)
      cases e : dGet x t with
      | none => rw [e] at hsome; cases hsome
      | some p =>
        have hmem := dGet_mem x t p e
        refine ⟨mapping.map (·.1), rfl, by simp, ?_, ?_⟩
        · intro i hi
          obtain ⟨q, hq, rfl⟩ := List.mem_map.1 hi
          exact hvl q hq _ hmem
        · intro h
          obtain ⟨q, hq, e'⟩ := List.mem_map.1 h
          exact hnl ⟨q, hq, e'⟩ _ hmem
    · obtain ⟨x, hx, rfl⟩ := List.mem_map.1 hs
      have hsome := (dGet_isSome x.1 o).2 (hr _ (List.of_mem_zip hx).1)
      cases e : dGet x.1 o with
      | none => rw [e] at hsome; cases hsome
      | some p =>
        have hmem := dGet_mem x.1 o p e
        refine ⟨mapping.map (·.2), rfl, by simp, ?_, ?_⟩
        · intro i hi
          obtain ⟨q, hq, rfl⟩ := List.mem_map.1 hi
          exact hvr q hq _ hmem
        · intro h
          obtain ⟨q, hq, e'⟩ := List.mem_map.1 h
          exact hnr ⟨q, hq, e'⟩ _ hmem
  have hnames : srcs.map (·.1) = lc ++ rightNames mk lc rc := by
    rw [← hsrcs, List.map_append, List.map_map, List.map_map]
    congr 1
    · exact List.map_id _
    · exact map_zip_snd rc _ (rightNames_length mk lc rc)
  have hnodup : (srcs.map (·.1)).Nodup := by rw [hnames]; exact rightNames_nodup mk hmk lc rc hlc
  -- the results of the tasks
  have hrun : (srcs.flatMap fun s => colTasks ps mapping.length s.2.2 s.1 s.2.1).mapM (fun k => (do .ok (k.new, ← k.run nul) : Except Err (ν × List α))) =
      .ok (srcs.flatMap fun s => (colTasks ps mapping.length s.2.2 s.1 s.2.1).map fun k =>
        (k.new, (((colIter s.2.2).map (pick nul (colIter s.2.1))).take k.end_).drop k.start)) := by
    apply mapM_flatMap_ok
    intro s hs k hk
    obtain ⟨m, hm1, hm2, hm3, hm4⟩ := hsrc s hs
    unfold colTasks at hk
    obtain ⟨se, hse, rfl⟩ := List.mem_map.1 hk
    have hb := joinParts_bounds ps hps _ se hse
    unfold JoinTask.run
    simp only
    rw [hm1, mpReindexPage_ok ps hps nul s.2.1 m se.1 se.2 hb.1 (by omega) hm3 hm4]
    rw [colIter_eq (paginate ps m), paginate_flatten hps]
    rfl
  have hrun' := hrun
  simp only [bind, Except.bind] at hrun'
  rw [hrun']
  refine ⟨_, rfl, ?_⟩
  rw [assemble_view ps hps _ _ (srcs.map (·.1)) hnodup (fun _ => []) (by
    unfold tview; rw [List.map_map, List.map_map]; rfl) (by
    intro r hr'
    obtain ⟨s, hs, h⟩ := List.mem_flatMap.1 hr'
    obtain ⟨k, hk, rfl⟩ := List.mem_map.1 h
    unfold colTasks at hk
    obtain ⟨se, _, rfl⟩ := List.mem_map.1 hk
    exact List.mem_map.2 ⟨s, hs, rfl⟩)]
  -- the tasks filed under one name are those of its source
  have hone : ∀ s ∈ srcs, ((srcs.flatMap fun s => (colTasks ps mapping.length s.2.2 s.1 s.2.1).map fun k =>
        (k.new, (((colIter s.2.2).map (pick nul (colIter s.2.1))).take k.end_).drop k.start)).filter fun r => decide (r.1 = s.1)).flatMap (·.2) =
      (colIter s.2.2).map (pick nul (colIter s.2.1)) := by
    intro s hs
    obtain ⟨m, hm1, hm2, _, _⟩ := hsrc s hs
    have hfilt : ∀ (l : List (ν × Pages α × Pages Int)), (l.map (·.1)).Nodup → s ∈ l →
        ((l.flatMap fun s => (colTasks ps mapping.length s.2.2 s.1 s.2.1).map fun k =>
          (k.new, (((colIter s.2.2).map (pick nul (colIter s.2.1))).take k.end_).drop k.start)).filter fun r => decide (r.1 = s.1)) =
        ((colTasks ps mapping.length s.2.2 s.1 s.2.1).map fun k =>
          (k.new, (((colIter s.2.2).map (pick nul (colIter s.2.1))).take k.end_).drop k.start)) := by
      intro l hn hsl
      induction l with
      | nil => cases hsl
      | cons a u ih =>
        rw [List.map_cons, List.nodup_cons] at hn
        rw [List.flatMap_cons, List.filter_append]
        rcases List.mem_cons.1 hsl with rfl | hsu
        · rw [List.filter_eq_self.2, List.filter_eq_nil_iff.2, List.append_nil]
          · intro r hr' hd
            obtain ⟨b, hb, h⟩ := List.mem_flatMap.1 hr'
            obtain ⟨k, hk, rfl⟩ := List.mem_map.1 h
            unfold colTasks at hk
            obtain ⟨se, _, rfl⟩ := List.mem_map.1 hk
            simp only [decide_eq_true_eq] at hd
            exact hn.1 (List.mem_map.2 ⟨b, hb, hd⟩)
          · intro r hr'
            obtain ⟨k, hk, rfl⟩ := List.mem_map.1 hr'
            unfold colTasks at hk
            obtain ⟨se, _, rfl⟩ := List.mem_map.1 hk
            simp
        · rw [ih hn.2 hsu, List.filter_eq_nil_iff.2, List.nil_append]
          intro r hr' hd
          obtain ⟨k, hk, rfl⟩ := List.mem_map.1 hr'
          unfold colTasks at hk
          obtain ⟨se, _, rfl⟩ := List.mem_map.1 hk
          simp only [decide_eq_true_eq] at hd
          exact hn.1 (List.mem_map.2 ⟨s, hsu, hd.symm⟩)
    rw [hfilt srcs hnodup hs]
    unfold colTasks
    rw [List.map_map, List.flatMap_map]
    simp only [Function.comp]
    have hlen : mapping.length = ((colIter s.2.2).map (pick nul (colIter s.2.1))).length := by
      rw [hm1, colIter_eq (paginate ps m), paginate_flatten hps, List.length_map, hm2]
    rw [hlen, List.flatMap_def]
    exact joinParts_slices ps hps _
  rw [List.map_map]
  have : srcs.map ((fun x => (x, ([] : List α) ++ (List.filter (fun r => decide (r.1 = x)) (srcs.flatMap fun s => (colTasks ps mapping.length s.2.2 s.1 s.2.1).map fun k =>
        (k.new, (((colIter s.2.2).map (pick nul (colIter s.2.1))).take k.end_).drop k.start))).flatMap (·.2))) ∘ fun s => s.1) =
      srcs.map fun s => (s.1, (colIter s.2.2).map (pick nul (colIter s.2.1))) := by
    apply List.map_congr_left
    intro s hs
    simp only [Function.comp, List.nil_append]
    rw [hone s hs]
  rw [this, ← hsrcs, List.map_append, List.map_map, List.map_map]
  unfold joinedView
  congr 1
  · apply List.map_congr_left
    intro x hx
    simp only [Function.comp]
    rw [colIter_eq (paginate ps _), paginate_flatten hps, List.map_map, List.map_map]
    congr 1
    apply List.map_congr_left
    intro p _
    have hsome := (dGet_isSome x t).2 (hl _ hx)
    cases e : dGet x t with
    | none => rw [e] at hsome; cases hsome
    | some q => exact pick_dec nul t x q e p.1
  · apply List.map_congr_left
    intro x hx
    simp only [Function.comp]
    rw [colIter_eq (paginate ps _), paginate_flatten hps, List.map_map, List.map_map]
    congr 1
    apply List.map_congr_left
    intro p _
    have hsome := (dGet_isSome x.1 o).2 (hr _ (List.of_mem_zip hx).1)
    cases e : dGet x.1 o with
    | none => rw [e] at hsome; cases hsome
    | some q => exact pick_dec nul o x.1 q e p.2

/-! ## the joins -/

variable [DecidableEq α]

theorem tblIndex_idxOf (nul : α) (t : Tbl ν α) (n : Nat) (hr : Rect t n) (args : List ν) (hne : args ≠ []) (h : ∀ a ∈ args, a ∈ t.map (·.1)) :
    tblIndex t args = .ok (idxOf (keyRows nul t args n)) := C19_index nul t n hr args hne h

omit [DecidableEq α] in
theorem keyRows_get (nul : α) (t : Tbl ν α) (args : List ν) (n i : Nat) (k : List α) :
    (keyRows nul t args n)[i]? = some k ↔ i < n ∧ k = args.map fun a => cell nul t a i := by
  unfold keyRows
  rw [List.getElem?_map]
  by_cases h : i < n
  · rw [List.getElem?_range h]
    simp only [Option.map_some, Option.some.injEq, h, true_and]
    exact eq_comm
  · rw [List.getElem?_eq_none (by simp; omega)]
    simp [h]

/-- the arguments of a join are acceptable: known columns, as many left as right keys, at least one key and one column on each side -/
structure JoinOk (t o : Tbl ν α) (lk rk lc rc : List ν) : Prop where
  lkIn : ∀ a ∈ lk, a ∈ t.map (·.1)
  rkIn : ∀ a ∈ rk, a ∈ o.map (·.1)
  len : lk.length = rk.length
  key : lk ≠ []
  lcIn : ∀ a ∈ lc, a ∈ t.map (·.1)
  rcIn : ∀ a ∈ rc, a ∈ o.map (·.1)
  lcne : lc ≠ []
  rcne : rc ≠ []
  lcnd : lc.Nodup

omit [DecidableEq α] in
theorem joinCheck_ok {t o : Tbl ν α} {lk rk lc rc : List ν} (h : JoinOk t o lk rk lc rc) : joinCheck t o lk rk lc rc = .ok () := by
  unfold joinCheck
  have H : ∀ (l : List ν) (t : Tbl ν α), (∀ a ∈ l, a ∈ t.map (·.1)) → ¬ (l.any (fun k => decide (k ∉ t.map (·.1))) = true) := by
    intro l t h hc
    rw [List.any_eq_true] at hc
    obtain ⟨x, hx, hd⟩ := hc
    simp only [decide_eq_true_eq] at hd
    exact hd (h x hx)
  rw [if_neg (H _ _ h.lkIn), if_neg (H _ _ h.rkIn), if_neg (by simpa using h.len), if_neg h.lcne, if_neg (H _ _ h.lcIn), if_neg h.rcne, if_neg (H _ _ h.rcIn)]

omit [DecidableEq α] in
theorem JoinOk.rkey {t o : Tbl ν α} {lk rk lc rc : List ν} (h : JoinOk t o lk rk lc rc) : rk ≠ [] := by
  intro e
  have := h.len
  rw [e] at this
  exact h.key (List.length_eq_zero_iff.1 this)

/-- C23: the inner join has exactly one row for every pair (left row, right row) with equal keys, and no other row; each row shows the left
row's values and the right row's values.  For every page size and layout, any number of keys, duplicates on both sides. -/
theorem C23_inner (ps : Nat) (hps : 0 < ps) (mk : ν → Nat → ν) (hmk : ∀ d a b, mk d a = mk d b → a = b) (ord : List (List α) → List (List α))
    (nul : α) (t o : Tbl ν α) (n m : Nat) (ht : Rect t n) (ho : Rect o m) (lk rk lc rc : List ν) (h : JoinOk t o lk rk lc rc) :
    ∃ pairs : List (Nat × Nat), pairs.Nodup ∧
      (∀ i j, (i, j) ∈ pairs ↔ i < n ∧ j < m ∧ (lk.map fun a => cell nul t a i) = rk.map fun a => cell nul o a j) ∧
      ∃ t', tblJoin ps mk ord nul .inner t o lk rk lc rc = .ok t' ∧
        tview t' = joinedView mk nul t o lc rc (pairs.map fun p => (some p.1, some p.2)) := by
  have hL := tblIndex_idxOf nul t n ht lk h.key h.lkIn
  have hR := tblIndex_idxOf nul o m ho rk h.rkey h.rkIn
  have hmem := mem_inner (keyRows nul t lk n) (keyRows nul o rk m)
  have hnd := nodup_inner (keyRows nul t lk n) (keyRows nul o rk m)
  simp only [keyRows_get] at hmem
  generalize hM : innerMapping (idxOf (keyRows nul t lk n)) (idxOf (keyRows nul o rk m)) = M at *
  have hval : ∀ p ∈ M, ∃ i j : Nat, p.1 = i ∧ p.2 = j ∧ i < n ∧ j < m := by
    rintro ⟨i, j⟩ hp
    obtain ⟨a, b, k, h1, h2, h3, h4⟩ := (hmem i j).1 hp
    exact ⟨a, b, h1, h2, h3.1, h4.1⟩
  refine ⟨M.map fun p => (p.1.toNat, p.2.toNat), ?_, ?_, ?_⟩
  · refine hnd.map_on ?_
    intro x hx y hy e
    obtain ⟨i, j, h1, h2, _⟩ := hval x hx
    obtain ⟨i', j', h1', h2', _⟩ := hval y hy
    injection e with e1 e2
    apply Prod.ext <;> omega
  · intro i j
    rw [List.mem_map]
    constructor
    · rintro ⟨⟨x, y⟩, hp, e⟩
      obtain ⟨a, b, k, h1, h2, h3, h4⟩ := (hmem x y).1 hp
      injection e with e1 e2
      have : a = i := by simp only at e1; omega
      have : b = j := by simp only at e2; omega
      subst a; subst b
      exact ⟨h3.1, h4.1, h3.2.symm.trans h4.2⟩
    · rintro ⟨h1, h2, h3⟩
      refine ⟨((i : Int), (j : Int)), (hmem _ _).2 ⟨i, j, _, rfl, rfl, ⟨h1, rfl⟩, ⟨h2, h3⟩⟩, by simp⟩
  · obtain ⟨t', h1, h2⟩ := joinColumns_view ps hps mk hmk nul t o lc rc h.lcnd h.lcIn h.rcIn M
      (fun p hp c hc => by obtain ⟨i, j, e1, _, e3, _⟩ := hval p hp; have := ht c hc; omega)
      (fun p hp c hc => by obtain ⟨i, j, _, e2, _, e4⟩ := hval p hp; have := ho c hc; omega)
      (by rintro ⟨p, hp, e⟩; obtain ⟨i, j, e1, _⟩ := hval p hp; omega)
      (by rintro ⟨p, hp, e⟩; obtain ⟨i, j, _, e2, _⟩ := hval p hp; omega)
    refine ⟨t', ?_, ?_⟩
    · unfold tblJoin joinMapping
      rw [joinCheck_ok h]
      simp only [bind, Except.bind]
      rw [hL, hR]
      simp only
      rw [hM]
      exact h1
    · rw [h2, List.map_map]
      congr 1
      apply List.map_congr_left
      intro p hp
      obtain ⟨i, j, e1, e2, _⟩ := hval p hp
      simp only [dec, Function.comp]
      rw [if_neg (by omega), if_neg (by omega)]

theorem leftOuter_core (ps : Nat) (hps : 0 < ps) (mk : ν → Nat → ν) (hmk : ∀ d a b, mk d a = mk d b → a = b)
    (nul : α) (t o : Tbl ν α) (n m : Nat) (ht : Rect t n) (ho : Rect o m) (lc rc : List ν) (hlc : lc.Nodup)
    (hl : ∀ a ∈ lc, a ∈ t.map (·.1)) (hr : ∀ a ∈ rc, a ∈ o.map (·.1)) (M : List (Int × Int)) (hM : M.Nodup)
    (hval : ∀ p ∈ M, (p.1 = -1 ∨ (0 ≤ p.1 ∧ p.1 < n)) ∧ (p.2 = -1 ∨ (0 ≤ p.2 ∧ p.2 < m)))
    (hnl : (∃ p ∈ M, p.1 = -1) → ∀ c ∈ t, ∀ q ∈ c.2, q ≠ []) (hnr : (∃ p ∈ M, p.2 = -1) → ∀ c ∈ o, ∀ q ∈ c.2, q ≠ []) :
    (M.map fun p => (dec p.1, dec p.2)).Nodup ∧
    ∃ t', joinColumns ps mk nul t o lc rc M = .ok t' ∧ tview t' = joinedView mk nul t o lc rc (M.map fun p => (dec p.1, dec p.2)) := by
  constructor
  · refine hM.map_on ?_
    intro x hx y hy e
    have h1 := hval x hx
    have h2 := hval y hy
    injection e with e1 e2
    unfold dec at e1 e2
    apply Prod.ext
    · split at e1 <;> split at e1 <;> first | omega | (injection e1 with e1; omega) | (cases e1)
    · split at e2 <;> split at e2 <;> first | omega | (injection e2 with e2; omega) | (cases e2)
  · exact joinColumns_view ps hps mk hmk nul t o lc rc hlc hl hr M
      (fun p hp c hc => by have := hval p hp; have := ht c hc; omega)
      (fun p hp c hc => by have := hval p hp; have := ho c hc; omega) hnl hnr

theorem dec_some (i : Int) (a : Nat) (h : i = -1 ∨ 0 ≤ i) : dec i = some a ↔ i = a := by
  unfold dec
  split
  · constructor
    · intro e; cases e
    · intro e; omega
  · rw [Option.some.injEq]; omega

theorem dec_none (i : Int) : dec i = none ↔ i = -1 := by
  unfold dec
  split <;> simp_all

/-- C24 (partial): the left join has exactly the rows of the inner join plus, for every left row without partner, one row with None in all
right columns.  Hypothesis: no column of the right table contains an empty page (it is needed only if some left row has no partner).  Missing
from the English claim: the left row order, see `C24_order_fails`. -/
theorem C24_left_partial (ps : Nat) (hps : 0 < ps) (mk : ν → Nat → ν) (hmk : ∀ d a b, mk d a = mk d b → a = b) (ord : List (List α) → List (List α))
    (nul : α) (t o : Tbl ν α) (n m : Nat) (ht : Rect t n) (ho : Rect o m) (lk rk lc rc : List ν) (h : JoinOk t o lk rk lc rc)
    (hpg : ∀ c ∈ o, ∀ q ∈ c.2, q ≠ []) :
    ∃ pairs : List (Option Nat × Option Nat), pairs.Nodup ∧
      (∀ r s, (r, s) ∈ pairs ↔ ∃ i, r = some i ∧ i < n ∧
        ((∃ j, s = some j ∧ j < m ∧ (lk.map fun a => cell nul t a i) = rk.map fun a => cell nul o a j) ∨
         (s = none ∧ ∀ j, j < m → (lk.map fun a => cell nul t a i) ≠ rk.map fun a => cell nul o a j))) ∧
      ∃ t', tblJoin ps mk ord nul .left t o lk rk lc rc = .ok t' ∧ tview t' = joinedView mk nul t o lc rc pairs := by
  have hL := tblIndex_idxOf nul t n ht lk h.key h.lkIn
  have hR := tblIndex_idxOf nul o m ho rk h.rkey h.rkIn
  have hmem := mem_left (keyRows nul t lk n) (keyRows nul o rk m)
  have hnd := nodup_left (keyRows nul t lk n) (keyRows nul o rk m)
  have hnot : ∀ k, k ∉ keyRows nul o rk m ↔ ∀ j, j < m → k ≠ rk.map fun a => cell nul o a j := by
    intro k
    constructor
    · intro hk j hj e
      exact hk (List.mem_of_getElem? ((keyRows_get nul o rk m j k).2 ⟨hj, e⟩))
    · intro hk hin
      obtain ⟨j, hj, e⟩ := List.getElem_of_mem hin
      have := (keyRows_get nul o rk m j k).1 (by rw [List.getElem?_eq_getElem hj, e])
      exact hk j this.1 this.2
  simp only [keyRows_get, hnot] at hmem
  generalize hM : leftMapping (idxOf (keyRows nul t lk n)) (idxOf (keyRows nul o rk m)) = M at *
  have hval : ∀ p ∈ M, (p.1 = -1 ∨ (0 ≤ p.1 ∧ p.1 < n)) ∧ (p.2 = -1 ∨ (0 ≤ p.2 ∧ p.2 < m)) := by
    rintro ⟨i, j⟩ hp
    obtain ⟨a, k, h1, h2, h3⟩ := (hmem i j).1 hp
    simp only
    refine ⟨by have := h2.1; omega, ?_⟩
    rcases h3 with ⟨b, h4, h5⟩ | ⟨h4, _⟩
    · have := h5.1; omega
    · exact Or.inl h4
  obtain ⟨c1, t', c2, c3⟩ := leftOuter_core ps hps mk hmk nul t o n m ht ho lc rc h.lcnd h.lcIn h.rcIn M hnd hval (by
    rintro ⟨⟨i, j⟩, hp, e⟩
    obtain ⟨a, k, h1, _⟩ := (hmem i j).1 hp
    simp only at e
    omega) (fun _ => hpg)
  refine ⟨_, c1, ?_, t', ?_, c3⟩
  · intro r s
    rw [List.mem_map]
    constructor
    · rintro ⟨⟨x, y⟩, hp, e⟩
      have hv := hval _ hp
      simp only at hv
      obtain ⟨a, k, h1, h2, h3⟩ := (hmem x y).1 hp
      injection e with e1 e2
      refine ⟨a, by rw [← e1, dec_some _ _ (by omega)]; exact h1, h2.1, ?_⟩
      rcases h3 with ⟨b, h4, h5⟩ | ⟨h4, h5⟩
      · exact Or.inl ⟨b, by rw [← e2, dec_some _ _ (by omega)]; exact h4, h5.1, h2.2.symm.trans h5.2⟩
      · refine Or.inr ⟨by rw [← e2, dec_none]; exact h4, ?_⟩
        rw [← h2.2]; exact h5
    · rintro ⟨i, rfl, h1, h2⟩
      rcases h2 with ⟨j, rfl, h3, h4⟩ | ⟨rfl, h3⟩
      · refine ⟨((i : Int), (j : Int)), (hmem _ _).2 ⟨i, _, rfl, ⟨h1, rfl⟩, Or.inl ⟨j, rfl, h3, h4⟩⟩, ?_⟩
        simp only [Prod.mk.injEq]
        exact ⟨(dec_some _ _ (by omega)).2 rfl, (dec_some _ _ (by omega)).2 rfl⟩
      · refine ⟨((i : Int), -1), (hmem _ _).2 ⟨i, _, rfl, ⟨h1, rfl⟩, Or.inr ⟨rfl, h3⟩⟩, ?_⟩
        simp only [Prod.mk.injEq]
        exact ⟨(dec_some _ _ (by omega)).2 rfl, (dec_none _).2 rfl⟩
  · unfold tblJoin joinMapping
    rw [joinCheck_ok h]
    simp only [bind, Except.bind]
    rw [hL, hR]
    simp only
    rw [hM]
    exact c2

/-- C25: the outer join is the left join's row pairs followed by, for every right row whose key does not occur on the left, exactly one row
with None in all left columns; `ord` is the arbitrary order in which Python iterates over the set of unused keys.  Hypothesis as in C24:
columns without empty pages. -/
theorem C25_outer (ps : Nat) (hps : 0 < ps) (mk : ν → Nat → ν) (hmk : ∀ d a b, mk d a = mk d b → a = b)
    (ord : List (List α) → List (List α)) (hord : ∀ l, (ord l).Perm l)
    (nul : α) (t o : Tbl ν α) (n m : Nat) (ht : Rect t n) (ho : Rect o m) (lk rk lc rc : List ν) (h : JoinOk t o lk rk lc rc)
    (hpgl : ∀ c ∈ t, ∀ q ∈ c.2, q ≠ []) (hpg : ∀ c ∈ o, ∀ q ∈ c.2, q ≠ []) :
    ∃ (lpairs : List (Option Nat × Option Nat)) (rest : List Nat), lpairs.Nodup ∧ rest.Nodup ∧
      (∀ r s, (r, s) ∈ lpairs ↔ ∃ i, r = some i ∧ i < n ∧
        ((∃ j, s = some j ∧ j < m ∧ (lk.map fun a => cell nul t a i) = rk.map fun a => cell nul o a j) ∨
         (s = none ∧ ∀ j, j < m → (lk.map fun a => cell nul t a i) ≠ rk.map fun a => cell nul o a j))) ∧
      (∀ j, j ∈ rest ↔ j < m ∧ ∀ i, i < n → (lk.map fun a => cell nul t a i) ≠ rk.map fun a => cell nul o a j) ∧
      ∃ t' tl, tblJoin ps mk ord nul .outer t o lk rk lc rc = .ok t' ∧
        tview t' = joinedView mk nul t o lc rc (lpairs ++ rest.map fun j => (none, some j)) ∧
        tblJoin ps mk ord nul .left t o lk rk lc rc = .ok tl ∧ tview tl = joinedView mk nul t o lc rc lpairs := by
  have hL := tblIndex_idxOf nul t n ht lk h.key h.lkIn
  have hR := tblIndex_idxOf nul o m ho rk h.rkey h.rkIn
  have hmem := mem_left (keyRows nul t lk n) (keyRows nul o rk m)
  have hnd := nodup_left (keyRows nul t lk n) (keyRows nul o rk m)
  have hrm := mem_outerRest ord hord (keyRows nul t lk n) (keyRows nul o rk m)
  have hrn := nodup_outerRest ord hord (keyRows nul t lk n) (keyRows nul o rk m)
  have heq := outer_eq ord (keyRows nul t lk n) (keyRows nul o rk m)
  have hnotg : ∀ (t : Tbl ν α) (args : List ν) (n : Nat) k, k ∉ keyRows nul t args n ↔ ∀ j, j < n → k ≠ args.map fun a => cell nul t a j := by
    intro t args n k
    constructor
    · intro hk j hj e
      exact hk (List.mem_of_getElem? ((keyRows_get nul t args n j k).2 ⟨hj, e⟩))
    · intro hk hin
      obtain ⟨j, hj, e⟩ := List.getElem_of_mem hin
      have := (keyRows_get nul t args n j k).1 (by rw [List.getElem?_eq_getElem hj, e])
      exact hk j this.1 this.2
  simp only [keyRows_get, hnotg] at hmem hrm
  generalize hM : leftMapping (idxOf (keyRows nul t lk n)) (idxOf (keyRows nul o rk m)) = M at *
  generalize hO : outerRest ord (keyRows nul t lk n) (keyRows nul o rk m) = O at *
  have hval : ∀ p ∈ M, (p.1 = -1 ∨ (0 ≤ p.1 ∧ p.1 < n)) ∧ (p.2 = -1 ∨ (0 ≤ p.2 ∧ p.2 < m)) := by
    rintro ⟨i, j⟩ hp
    obtain ⟨a, k, h1, h2, h3⟩ := (hmem i j).1 hp
    simp only
    refine ⟨by have := h2.1; omega, ?_⟩
    rcases h3 with ⟨b, h4, h5⟩ | ⟨h4, _⟩
    · have := h5.1; omega
    · exact Or.inl h4
  have hOv : ∀ j ∈ O, 0 ≤ j ∧ j < (m : Int) := by
    intro j hj
    obtain ⟨b, k, rfl, h1, _⟩ := (hrm j).1 hj
    have := h1.1
    omega
  have hvalO : ∀ p ∈ M ++ O.map (fun j => ((-1 : Int), j)), (p.1 = -1 ∨ (0 ≤ p.1 ∧ p.1 < n)) ∧ (p.2 = -1 ∨ (0 ≤ p.2 ∧ p.2 < m)) := by
    intro p hp
    rw [List.mem_append] at hp
    rcases hp with hp | hp
    · exact hval p hp
    · obtain ⟨j, hj, rfl⟩ := List.mem_map.1 hp
      exact ⟨Or.inl rfl, Or.inr (hOv j hj)⟩
  have hndO : (M ++ O.map (fun j => ((-1 : Int), j))).Nodup := by
    rw [List.nodup_append]
    refine ⟨hnd, hrn.map (fun a b e => by injection e), ?_⟩
    rintro ⟨i, j⟩ hp q hq e
    obtain ⟨a, k, h1, _⟩ := (hmem i j).1 hp
    obtain ⟨j', _, rfl⟩ := List.mem_map.1 hq
    injection e with e1 _
    omega
  obtain ⟨c1, t', c2, c3⟩ := leftOuter_core ps hps mk hmk nul t o n m ht ho lc rc h.lcnd h.lcIn h.rcIn _ hndO hvalO (fun _ => hpgl) (fun _ => hpg)
  obtain ⟨d1, tl, d2, d3⟩ := leftOuter_core ps hps mk hmk nul t o n m ht ho lc rc h.lcnd h.lcIn h.rcIn M hnd hval (by
    rintro ⟨⟨i, j⟩, hp, e⟩
    obtain ⟨a, k, h1, _⟩ := (hmem i j).1 hp
    simp only at e
    omega) (fun _ => hpg)
  refine ⟨_, O.map Int.toNat, d1, ?_, ?_, ?_, t', tl, ?_, ?_, ?_, d3⟩
  · refine hrn.map_on ?_
    intro x hx y hy e
    have := hOv x hx
    have := hOv y hy
    omega
  · intro r s
    rw [List.mem_map]
    constructor
    · rintro ⟨⟨x, y⟩, hp, e⟩
      have hv := hval _ hp
      simp only at hv
      obtain ⟨a, k, h1, h2, h3⟩ := (hmem x y).1 hp
      injection e with e1 e2
      refine ⟨a, by rw [← e1, dec_some _ _ (by omega)]; exact h1, h2.1, ?_⟩
      rcases h3 with ⟨b, h4, h5⟩ | ⟨h4, h5⟩
      · exact Or.inl ⟨b, by rw [← e2, dec_some _ _ (by omega)]; exact h4, h5.1, h2.2.symm.trans h5.2⟩
      · refine Or.inr ⟨by rw [← e2, dec_none]; exact h4, ?_⟩
        rw [← h2.2]; exact h5
    · rintro ⟨i, rfl, h1, h2⟩
      rcases h2 with ⟨j, rfl, h3, h4⟩ | ⟨rfl, h3⟩
      · refine ⟨((i : Int), (j : Int)), (hmem _ _).2 ⟨i, _, rfl, ⟨h1, rfl⟩, Or.inl ⟨j, rfl, h3, h4⟩⟩, ?_⟩
        simp only [Prod.mk.injEq]
        exact ⟨(dec_some _ _ (by omega)).2 rfl, (dec_some _ _ (by omega)).2 rfl⟩
      · refine ⟨((i : Int), -1), (hmem _ _).2 ⟨i, _, rfl, ⟨h1, rfl⟩, Or.inr ⟨rfl, h3⟩⟩, ?_⟩
        simp only [Prod.mk.injEq]
        exact ⟨(dec_some _ _ (by omega)).2 rfl, (dec_none _).2 rfl⟩
  · intro j
    rw [List.mem_map]
    constructor
    · rintro ⟨x, hx, rfl⟩
      obtain ⟨b, k, rfl, ⟨h1, rfl⟩, h2⟩ := (hrm x).1 hx
      exact ⟨h1, fun i hi e => h2 i hi e.symm⟩
    · rintro ⟨h1, h2⟩
      exact ⟨(j : Int), (hrm _).2 ⟨j, _, rfl, ⟨h1, rfl⟩, fun i hi e => h2 i hi e.symm⟩, by simp⟩
  · unfold tblJoin joinMapping
    rw [joinCheck_ok h]
    simp only [bind, Except.bind]
    rw [hL, hR]
    simp only
    rw [heq]
    exact c2
  · rw [c3]
    congr 1
    rw [List.map_append, List.map_map, List.map_map]
    congr 1
    apply List.map_congr_left
    intro j hj
    have := hOv j hj
    simp only [Function.comp, Prod.mk.injEq]
    exact ⟨(dec_none _).2 rfl, (dec_some _ _ (by omega)).2 (by omega)⟩
  · unfold tblJoin joinMapping
    rw [joinCheck_ok h]
    simp only [bind, Except.bind]
    rw [hL, hR]
    simp only
    rw [hM]
    exact d2

/-- C24: the left rows appear in order -/
def C24_order_statement : Prop :=
  ∀ (KL KR : List (List Nat)), ((leftMapping (idxOf KL) (idxOf KR)).map (·.1)).Pairwise (· ≤ ·)

/-- C24 fails as to order: equal left keys are grouped, so rows 0, 1, 2 with keys a, b, a come out as 0, 2, 1. -/
theorem C24_order_fails : ¬ C24_order_statement := by
  intro h
  have := h [[1], [2], [1]] []
  revert this
  decide

/-- C24 (partial): the left row order is kept if the left keys are pairwise different. -/
theorem C24_order_partial (KL KR : List (List α)) (hn : KL.Nodup) : ((leftMapping (idxOf KL) (idxOf KR)).map (·.1)).Pairwise (· ≤ ·) := by
  rw [left_eq, List.pairwise_map]
  rw [List.pairwise_flatMap]
  have hpos : ∀ (i : Nat) (hi : i < KL.length), ∀ a ∈ positionsFrom (fun x => decide (x = KL[i])) 0 KL, a = i := by
    intro i hi a ha
    rw [mem_pos] at ha
    obtain ⟨ha', e⟩ := List.getElem?_eq_some_iff.1 ha
    exact (List.nodup_iff_injective_get.1 hn (a₁ := ⟨a, ha'⟩) (a₂ := ⟨i, hi⟩) e) |> Fin.mk.inj
  constructor
  · intro e he
    unfold idxOf at he
    obtain ⟨k, hk, rfl⟩ := List.mem_map.1 he
    rw [mem_firstOccs] at hk
    obtain ⟨i, hi, rfl⟩ := List.getElem_of_mem hk
    have : ∀ p ∈ crossIx (positionsFrom (fun x => decide (x = KL[i])) 0 KL) (rIx KR [-1] KL[i]), p.1 = i := by
      rintro ⟨x, y⟩ hp
      rw [mem_crossIx] at hp
      obtain ⟨a, ha, rfl, _⟩ := hp
      simp only [hpos i hi a ha]
    exact List.pairwise_of_forall_mem_list fun a ha b hb => by rw [this a ha, this b hb]; exact Int.le_refl _
  · unfold idxOf
    rw [List.pairwise_map, firstOccs_of_nodup hn, List.pairwise_iff_getElem]
    intro i j hi hj hij
    rintro ⟨x, y⟩ hx ⟨x', y'⟩ hy
    rw [mem_crossIx] at hx hy
    obtain ⟨a, ha, rfl, _⟩ := hx
    obtain ⟨b, hb, rfl, _⟩ := hy
    have h1 := hpos i hi a ha
    have h2 := hpos j hj b hb
    simp only
    omega

/-- C26 (partial): the cross join of non-empty tables has `n * m` rows, row `i * m + j` showing left row `i` and right row `j`. -/
theorem C26_cross_partial (ps : Nat) (hps : 0 < ps) (mk : ν → Nat → ν) (hmk : ∀ d a b, mk d a = mk d b → a = b) (ord : List (List α) → List (List α))
    (nul : α) (t o : Tbl ν α) (n m : Nat) (ht : Rect t n) (ho : Rect o m) (hn : 0 < n) (hm : 0 < m) (lk rk lc rc : List ν) (h : JoinOk t o lk rk lc rc) :
    ∃ t', tblJoin ps mk ord nul .cross t o lk rk lc rc = .ok t' ∧
      tview t' = joinedView mk nul t o lc rc ((List.range (n * m)).map fun k => (some (k / m), some (k % m))) := by
  have hne : ∀ (t : Tbl ν α) (l : List ν), l ≠ [] → (∀ a ∈ l, a ∈ t.map (·.1)) → t ≠ [] := by
    intro t l hl hs e
    obtain ⟨a, ha⟩ := List.exists_mem_of_ne_nil l hl
    have := hs a ha
    rw [e] at this
    cases this
  have hprod : ∀ n : Nat, ((List.range n).flatMap fun i => (List.range m).map fun j => ((i : Nat), (j : Nat))) =
      (List.range (n * m)).map fun k => (k / m, k % m) := by
    intro n
    induction n with
    | zero => simp
    | succ n ih =>
      rw [List.range_succ, List.flatMap_append, ih, Nat.add_mul, Nat.one_mul, List.range_add, List.map_append, List.map_map]
      congr 1
      simp only [List.flatMap_cons, List.flatMap_nil, List.append_nil]
      apply List.map_congr_left
      intro j hj
      rw [List.mem_range] at hj
      simp only [Function.comp]
      rw [Nat.mul_comm n m, Nat.mul_add_div hm, Nat.mul_add_mod, Nat.div_eq_of_lt hj, Nat.mod_eq_of_lt hj, Nat.add_zero]
  have hprodI : ((List.range n).flatMap fun i => (List.range m).map fun j => (((i : Nat) : Int), ((j : Nat) : Int))) =
      (List.range (n * m)).map fun k => (((k / m : Nat) : Int), ((k % m : Nat) : Int)) := by
    have := congrArg (List.map fun p : Nat × Nat => ((p.1 : Int), (p.2 : Int))) (hprod n)
    rw [List.map_flatMap, List.map_map] at this
    simp only [List.map_map] at this
    exact this
  have hnm : 0 < n * m := Nat.mul_pos hn hm
  have hcm : crossMapping (tblLen t) (tblLen o) = .ok ((List.range (n * m)).map fun k => (((k / m : Nat) : Int), ((k % m : Nat) : Int))) := by
    rw [tblLen_rect t n ht (hne t lc h.lcne h.lcIn), tblLen_rect o m ho (hne o rc h.rcne h.rcIn)]
    unfold crossMapping
    dsimp only
    rw [hprodI, if_neg]
    intro e
    have := congrArg List.length e
    simp at this
    omega
  have hb : ∀ k, k < n * m → k / m < n ∧ k % m < m := fun k hk => ⟨(Nat.div_lt_iff_lt_mul hm).2 hk, Nat.mod_lt _ hm⟩
  obtain ⟨t', h1, h2⟩ := joinColumns_view ps hps mk hmk nul t o lc rc h.lcnd h.lcIn h.rcIn
    ((List.range (n * m)).map fun k => (((k / m : Nat) : Int), ((k % m : Nat) : Int)))
    (fun p hp c hc => by
      obtain ⟨k, hk, rfl⟩ := List.mem_map.1 hp
      have := (hb k (List.mem_range.1 hk)).1; have := ht c hc; simp only; generalize k / m = x at *; omega)
    (fun p hp c hc => by
      obtain ⟨k, hk, rfl⟩ := List.mem_map.1 hp
      have := (hb k (List.mem_range.1 hk)).2; have := ho c hc; simp only; generalize k % m = x at *; omega)
    (by rintro ⟨p, hp, e⟩; obtain ⟨k, hk, rfl⟩ := List.mem_map.1 hp; simp only at e; first | (generalize k / m = x at e; omega) | (generalize k % m = x at e; omega))
    (by rintro ⟨p, hp, e⟩; obtain ⟨k, hk, rfl⟩ := List.mem_map.1 hp; simp only at e; first | (generalize k / m = x at e; omega) | (generalize k % m = x at e; omega))
  refine ⟨t', ?_, ?_⟩
  · unfold tblJoin joinMapping
    rw [joinCheck_ok h]
    simp only [bind, Except.bind]
    rw [hcm]
    exact h1
  · rw [h2, List.map_map]
    rfl

/-- C26 fails for empty tables: the cross join raises ValueError instead of returning an empty table. -/
theorem C26_empty_raises (ps : Nat) (mk : ν → Nat → ν) (ord : List (List α) → List (List α)) (nul : α) (t o : Tbl ν α)
    (h0 : tblLen t = 0 ∨ tblLen o = 0) (lk rk lc rc : List ν) (h : JoinOk t o lk rk lc rc) :
    tblJoin ps mk ord nul .cross t o lk rk lc rc = .error .value := by
  unfold tblJoin joinMapping
  rw [joinCheck_ok h]
  have : crossMapping (tblLen t) (tblLen o) = .error .value := by
    unfold crossMapping
    dsimp only
    rw [if_pos]
    rcases h0 with h0 | h0
    · rw [h0]; rfl
    · rw [h0]; simp
  simp only [bind, Except.bind, this]

/-- C26 in full -/
def C26_statement : Prop :=
  ∀ (ps : Nat), 0 < ps → ∀ (t o : Tbl String Nat) (n m : Nat), Rect t n → Rect o m → ∀ (lk rk lc rc : List String), JoinOk t o lk rk lc rc →
    ∃ t', tblJoin ps suffixed id 0 .cross t o lk rk lc rc = .ok t' ∧
      tview t' = joinedView suffixed 0 t o lc rc ((List.range (n * m)).map fun k => (some (k / m), some (k % m)))

theorem C26_fails : ¬ C26_statement := by
  intro h
  have hok : JoinOk ([("a", [])] : Tbl String Nat) [("b", [[1]])] ["a"] ["b"] ["a"] ["b"] :=
    ⟨by decide, by decide, by decide, by decide, by decide, by decide, by decide, by decide, by decide⟩
  obtain ⟨t', h1, _⟩ := h 2 (by omega) [("a", [])] [("b", [[1]])] 0 1 (by unfold Rect; decide) (by unfold Rect; decide) _ _ _ _ hok
  rw [C26_empty_raises 2 suffixed id 0 _ _ (Or.inl (by decide)) _ _ _ _ hok] at h1
  cases h1

/-! ## C27 -/

omit [DecidableEq α] in
/-- C27, pages: the joined table depends only on the names and values of the two tables and on the row mapping, not on the page size nor on
how the source columns are cut into pages. -/
theorem C27_page_independent (ps ps' : Nat) (hps : 0 < ps) (hps' : 0 < ps') (mk : ν → Nat → ν) (hmk : ∀ d a b, mk d a = mk d b → a = b) (nul : α)
    (t o t₂ o₂ : Tbl ν α) (htt : tview t₂ = tview t) (hoo : tview o₂ = tview o) (n m : Nat) (ht : Rect t n) (ho : Rect o m)
    (lc rc : List ν) (hlc : lc.Nodup) (hl : ∀ x ∈ lc, x ∈ t.map (·.1)) (hr : ∀ x ∈ rc, x ∈ o.map (·.1)) (mapping : List (Int × Int))
    (hval : ∀ p ∈ mapping, (p.1 = -1 ∨ (0 ≤ p.1 ∧ p.1 < n)) ∧ (p.2 = -1 ∨ (0 ≤ p.2 ∧ p.2 < m)))
    (hp1 : ∀ c ∈ t, ∀ q ∈ c.2, q ≠ []) (hp2 : ∀ c ∈ o, ∀ q ∈ c.2, q ≠ []) (hp3 : ∀ c ∈ t₂, ∀ q ∈ c.2, q ≠ []) (hp4 : ∀ c ∈ o₂, ∀ q ∈ c.2, q ≠ []) :
    ∃ a b, joinColumns ps mk nul t o lc rc mapping = .ok a ∧ joinColumns ps' mk nul t₂ o₂ lc rc mapping = .ok b ∧ tview a = tview b := by
  have hrect : ∀ (t t₂ : Tbl ν α) (n : Nat), tview t₂ = tview t → Rect t n → Rect t₂ n := by
    intro t t₂ n e hr c hc
    have : (c.1, colIter c.2) ∈ tview t := by rw [← e]; exact List.mem_map.2 ⟨c, hc, rfl⟩
    obtain ⟨d, hd, e'⟩ := List.mem_map.1 this
    injection e' with _ e2
    have := hr d hd
    rw [colLen_eq, ← colIter_eq, ← e2, colIter_eq, ← colLen_eq]
    exact this
  have hnames : ∀ (t t₂ : Tbl ν α), tview t₂ = tview t → t₂.map (·.1) = t.map (·.1) := by
    intro t t₂ e
    have := congrArg (List.map (·.1)) e
    simpa [tview, Function.comp_def] using this
  have hcell : ∀ (t t₂ : Tbl ν α), tview t₂ = tview t → ∀ x i, cell nul t₂ x i = cell nul t x i := by
    intro t t₂ e x i
    have h1 := dGet_tview t x
    have h2 := dGet_tview t₂ x
    rw [e, h1] at h2
    unfold cell
    cases a : dGet x t <;> cases b : dGet x t₂ <;> rw [a, b] at h2 <;> simp at h2
    · simp [h2]
  obtain ⟨a, a1, a2⟩ := joinColumns_view ps hps mk hmk nul t o lc rc hlc hl hr mapping
    (fun p hp c hc => by have := hval p hp; have := ht c hc; omega)
    (fun p hp c hc => by have := hval p hp; have := ho c hc; omega) (fun _ => hp1) (fun _ => hp2)
  obtain ⟨b, b1, b2⟩ := joinColumns_view ps' hps' mk hmk nul t₂ o₂ lc rc hlc (by rw [hnames t t₂ htt]; exact hl) (by rw [hnames o o₂ hoo]; exact hr) mapping
    (fun p hp c hc => by have := hval p hp; have := hrect t t₂ n htt ht c hc; omega)
    (fun p hp c hc => by have := hval p hp; have := hrect o o₂ m hoo ho c hc; omega) (fun _ => hp3) (fun _ => hp4)
  refine ⟨a, b, a1, b1, ?_⟩
  rw [a2, b2]
  unfold joinedView
  have hoc : ∀ (t t₂ : Tbl ν α), tview t₂ = tview t → ∀ x r, optCell nul t₂ x r = optCell nul t x r := by
    intro t t₂ e x r
    unfold optCell
    cases r with
    | none => rfl
    | some i => exact hcell t t₂ e x i
  simp only [hoc t t₂ htt, hoc o o₂ hoo]

omit [DecidableEq α] in
theorem runPool_aux {β γ : Type} (f : β → γ) (tasks : List β) (done : List Nat) (res : List (Option γ)) (hres : res.length = tasks.length) (i : Nat) :
    (done.foldl (poolStep f tasks) res)[i]? = if i ∈ done then (tasks[i]?).map (fun k => some (f k)) else res[i]? := by
  induction done generalizing res with
  | nil => simp
  | cons j t ih =>
    simp only [List.foldl_cons]
    rw [ih _ (by unfold poolStep; split <;> simp [hres])]
    unfold poolStep
    by_cases hi : i ∈ t
    · simp [hi]
    · by_cases hij : i = j
      · subst hij
        simp only [hi, if_false, List.mem_cons, true_or, if_true]
        cases e : tasks[i]? with
        | none =>
          rw [List.getElem?_eq_none_iff] at e
          simp only [Option.map_none]
          rw [List.getElem?_eq_none_iff]; omega
        | some k =>
          simp only [Option.map_some]
          have := (List.getElem?_eq_some_iff.1 e).1
          rw [List.getElem?_set_self (by omega)]
      · simp only [hi, if_false, List.mem_cons, hij, or_self]
        split
        · rw [List.getElem?_set_ne (fun h => hij h.symm)]
        · rfl

omit [DecidableEq α] in
/-- C27, workers: in whatever order a pool of workers finishes the tasks, the list of results equals running them one after another. -/
theorem C27_worker_independent {β γ : Type} (f : β → γ) (tasks : List β) (done : List Nat) (h : done.Perm (List.range tasks.length)) :
    runPool f tasks done = tasks.map fun k => some (f k) := by
  apply List.ext_getElem?
  intro i
  unfold runPool
  rw [runPool_aux f tasks done _ (by simp) i]
  by_cases hi : i < tasks.length
  · rw [if_pos (h.mem_iff.2 (List.mem_range.2 hi)), List.getElem?_map]
  · rw [if_neg (fun hm => hi (List.mem_range.1 (h.mem_iff.1 hm)))]
    rw [List.getElem?_eq_none (by simp; omega), List.getElem?_eq_none (by simp; omega)]

example : runPool (fun x => x * 10) [1, 2, 3] [2, 0, 1] = [some 10, some 20, some 30] := by decide

example : (tblJoin 2 (fun d i => d * 10 + i) id 0 .outer [(1, [[5, 6], [5]]), (2, [[1, 2, 3]])] [(1, [[5, 7]]), (3, [[8], [9]])] [1] [1] [1, 2] [1, 3]).map tview =
    .ok [(1, [5, 5, 6, 0]), (2, [1, 3, 2, 0]), (11, [5, 5, 0, 7]), (3, [8, 8, 0, 9])] := by decide
example : (tblJoin 2 (fun d i => d * 10 + i) id 0 .inner [(1, [[5, 6], [5]]), (2, [[1, 2, 3]])] [(1, [[5, 7]]), (3, [[8], [9]])] [1] [1] [1, 2] [1, 3]).map tview =
    .ok [(1, [5, 5]), (2, [1, 3]), (11, [5, 5]), (3, [8, 8])] := by decide
example : JoinOk ([(1, [[5, 6], [5]]), (2, [[1, 2, 3]])] : Tbl Nat Nat) [(1, [[5, 7]]), (3, [[8], [9]])] [1] [1] [1, 2] [1, 3] :=
  ⟨by decide, by decide, by decide, by decide, by decide, by decide, by decide, by decide, by decide⟩

end

end Tablite
