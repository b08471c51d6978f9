import Verif.Model.Types
import Verif.Lemmas.OrdDict
/-!
# C122: types of columns and predominant types
-/

namespace Tablite

variable {α τ ν : Type} [DecidableEq τ]

/-- the types of the values in the order in which they first occur, each with the number of values that have it -/
def typesOfValues (ts : List τ) : List (τ × Nat) := (firstOccs ts).map fun t => (t, ts.count t)

theorem foldl_incr (l : List α) (n : Nat) : l.foldl (fun b _ => b + 1) n = n + l.length := by
  induction l generalizing n with
  | nil => rfl
  | cons a l ih => rw [List.foldl_cons, ih, List.length_cons]; omega

theorem dGroup_count (ty : α → τ) (l : List α) : dGroup ty 0 (fun _ n => n + 1) l = typesOfValues (l.map ty) := by
  rw [dGroup_eq]
  apply List.map_congr_left
  intro t _
  rw [foldl_incr, Nat.zero_add, List.count, List.countP_map, List.countP_eq_length_filter]
  congr 2

theorem count_pos_of_mem_firstOccs {ts : List τ} {t : τ} (h : t ∈ firstOccs ts) : 0 < ts.count t := List.count_pos_iff.2 (mem_firstOccs.1 h)

theorem foldl_dUpd_add (ks : List τ) (hk : ks.Nodup) (c : τ → Nat) : ∀ (Ks : List τ) (g : τ → Nat), Ks.Nodup → (∀ t, t ∉ Ks → g t = 0) →
    (ks.map fun t => (t, c t)).foldl (fun d x => dUpd 0 x.1 (· + x.2) d) (Ks.map fun t => (t, g t)) =
      (Ks ++ ks.filter fun t => decide (t ∉ Ks)).map fun t => (t, g t + if t ∈ ks then c t else 0) := by
  induction ks with
  | nil => intro Ks g _ _; simp
  | cons k ks ih =>
    intro Ks g hK hg
    rw [List.nodup_cons] at hk
    rw [List.map_cons, List.foldl_cons, dUpd_eq 0 k _ Ks hK g (hg k)]
    have hK' : (if k ∈ Ks then Ks else Ks ++ [k]).Nodup := by
      split
      · exact hK
      · rename_i h
        rw [List.nodup_append]
        exact ⟨hK, by simp, by intro a ha b hb e; rw [List.mem_singleton] at hb; subst hb; subst e; exact h ha⟩
    rw [ih hk.2 _ (fun x => if x = k then g x + c k else g x) hK' (by
      intro t ht
      have htk : t ≠ k := by
        rintro rfl
        by_cases h : t ∈ Ks
        · rw [if_pos h] at ht; exact ht h
        · rw [if_neg h] at ht; exact ht (by simp)
      rw [if_neg htk]
      apply hg
      intro h
      apply ht
      split
      · exact h
      · exact List.mem_append_left _ h)]
    have hl : ((if k ∈ Ks then Ks else Ks ++ [k]) ++ ks.filter fun t => decide (t ∉ (if k ∈ Ks then Ks else Ks ++ [k]))) =
        Ks ++ (k :: ks).filter fun t => decide (t ∉ Ks) := by
      by_cases h : k ∈ Ks
      · rw [if_pos h, List.filter_cons_of_neg (by simpa using h)]
      · rw [if_neg h, List.filter_cons_of_pos (by simpa using h), List.append_assoc]
        congr 1
        rw [List.singleton_append]
        congr 1
        apply List.filter_congr
        intro t ht
        have : t ≠ k := by rintro rfl; exact hk.1 ht
        simp [this]
    rw [hl]
    apply List.map_congr_left
    intro t _
    congr 1
    by_cases htk : t = k
    · subst htk
      rw [if_pos rfl, if_neg hk.1, if_pos (by simp), Nat.add_zero]
    · rw [if_neg htk]
      simp [htk]

theorem counterAdd_types (l m : List τ) : counterAdd (typesOfValues l) (typesOfValues m) = typesOfValues (l ++ m) := by
  unfold counterAdd
  have hfold := foldl_dUpd_add (firstOccs m) (nodup_firstOccs m) (fun t => m.count t) (firstOccs l) (fun t => l.count t) (nodup_firstOccs l)
    (fun t ht => List.count_eq_zero.2 fun h => ht (mem_firstOccs.2 h))
  have heq : (typesOfValues m).foldl (fun d x => dUpd 0 x.1 (· + x.2) d) (typesOfValues l) = typesOfValues (l ++ m) := by
    unfold typesOfValues
    rw [hfold, firstOccs_append]
    have : (firstOccs m).filter (fun t => decide (t ∉ firstOccs l)) = (firstOccs m).filter fun x => decide (x ∉ l) := by
      apply List.filter_congr
      intro t _
      simp [mem_firstOccs]
    rw [this]
    apply List.map_congr_left
    intro t _
    rw [List.count_append]
    congr 2
    split
    · rfl
    · rename_i h
      exact (List.count_eq_zero.2 fun h' => h (mem_firstOccs.2 h')).symm
  rw [heq, List.filter_eq_self]
  intro x hx
  obtain ⟨t, ht, rfl⟩ := List.mem_map.1 hx
  exact decide_eq_true (count_pos_of_mem_firstOccs ht)

theorem counterAdd_zero (l : List τ) (t : τ) : counterAdd (typesOfValues l) [(t, 0)] = typesOfValues l := by
  unfold counterAdd typesOfValues
  rw [List.foldl_cons, List.foldl_nil, dUpd_eq 0 t _ _ (nodup_firstOccs l) (fun t => l.count t) fun h => List.count_eq_zero.2 fun h' => h (mem_firstOccs.2 h')]
  simp only [Nat.add_zero, ite_self]
  split
  · rw [List.filter_eq_self]
    intro x hx
    obtain ⟨t, ht, rfl⟩ := List.mem_map.1 hx
    simpa using List.count_pos_iff.1 (count_pos_of_mem_firstOccs ht)
  · rename_i h
    rw [List.map_append, List.filter_append]
    have h0 : l.count t = 0 := List.count_eq_zero.2 fun h' => h (mem_firstOccs.2 h')
    rw [List.map_singleton, List.filter_cons_of_neg (by simp [h0]), List.filter_nil, List.append_nil, List.filter_eq_self]
    intro x hx
    obtain ⟨t, ht, rfl⟩ := List.mem_map.1 hx
    simpa using List.count_pos_iff.1 (count_pos_of_mem_firstOccs ht)

/-- **C122, types of a column**: the types of its values in the order in which they first occur, each with the number of values that have it, however the values are paged
and whatever the numpy types of empty pages are -/
theorem C122_types (ty : α → τ) (pages : List (Option τ × List α)) :
    columnTypes ty pages = typesOfValues ((pages.map (·.2)).flatten.map ty) := by
  have H : ∀ (pages : List (Option τ × List α)) (l : List τ),
      pages.foldl (fun d p => counterAdd d (pageTypeDict ty p.1 p.2)) (typesOfValues l) = typesOfValues (l ++ (pages.map (·.2)).flatten.map ty) := by
    intro pages
    induction pages with
    | nil => intro l; simp
    | cons p pages ih =>
      intro l
      rw [List.foldl_cons]
      have hp : counterAdd (typesOfValues l) (pageTypeDict ty p.1 p.2) = typesOfValues (l ++ p.2.map ty) := by
        obtain ⟨o, v⟩ := p
        cases v with
        | cons a v =>
          rw [show pageTypeDict ty o (a :: v) = dGroup ty 0 (fun _ n => n + 1) (a :: v) by cases o <;> rfl, dGroup_count, counterAdd_types]
        | nil =>
          cases o with
          | none => rw [show pageTypeDict ty none ([] : List α) = dGroup ty 0 (fun _ n => n + 1) ([] : List α) from rfl, dGroup_count, counterAdd_types]
          | some t => rw [show pageTypeDict ty (some t) ([] : List α) = [(t, 0)] from rfl, counterAdd_zero]; simp
      rw [hp, ih]
      simp
  have := H pages []
  simpa [columnTypes, typesOfValues, firstOccs] using this

/-- the number of values of each type, and the total -/
theorem C122_counts (ty : α → τ) (pages : List (Option τ × List α)) (t : τ) :
    (dGet t (columnTypes ty pages)).getD 0 = (pages.map fun p => p.2.countP fun v => decide (ty v = t)).sum := by
  rw [C122_types]
  unfold typesOfValues
  rw [dGet_map]
  have hs : (pages.map fun p => p.2.countP fun v => decide (ty v = t)).sum = ((pages.map (·.2)).flatten.map ty).count t := by
    induction pages with
    | nil => rfl
    | cons p pages ih =>
      rw [List.map_cons, List.sum_cons, ih, List.map_cons, List.flatten_cons, List.map_append, List.count_append]
      congr 1
      rw [List.count, List.countP_map]
      congr 1
  rw [hs]
  split
  · rfl
  · rename_i h
    exact (List.count_eq_zero.2 fun h' => h (mem_firstOccs.2 h')).symm

/-- what the predominant type of a list of types is: not `NoneType`, none occurs more often, and of those that occur as often it occurs first -/
def Predominant (noneTy : τ) (ts : List τ) (t : τ) : Prop :=
  t ∈ ts ∧ t ≠ noneTy ∧ ∀ u ∈ ts, u ≠ noneTy → u ≠ t → ts.count u < ts.count t ∨ (ts.count u = ts.count t ∧ ts.idxOf t < ts.idxOf u)

theorem predominant_unique (noneTy : τ) (ts : List τ) (t u : τ) (ht : Predominant noneTy ts t) (hu : Predominant noneTy ts u) : t = u := by
  by_cases h : t = u
  · exact h
  · have h1 := ht.2.2 u hu.1 hu.2.1 (fun e => h e.symm)
    have h2 := hu.2.2 t ht.1 ht.2.1 h
    omega

theorem firstOccs_ordered (ts : List τ) : (firstOccs ts).Pairwise fun a b => ts.idxOf a < ts.idxOf b := by
  induction ts with
  | nil => simp [firstOccs]
  | cons a l ih =>
    rw [firstOccs, List.pairwise_cons]
    constructor
    · intro b hb
      have : b ≠ a := by simpa using (List.mem_filter.1 hb).2
      rw [List.idxOf_cons_self, List.idxOf_cons, show (a == b) = false by simpa using fun e : a = b => this e.symm]
      simp
    · have h1 := ih.filter (fun b => decide (b ≠ a))
      refine h1.imp_of_mem ?_
      intro x y hx hy hxy
      have hx' : x ≠ a := by simpa using (List.mem_filter.1 hx).2
      have hy' : y ≠ a := by simpa using (List.mem_filter.1 hy).2
      rw [List.idxOf_cons, List.idxOf_cons, show (a == x) = false by simpa using fun e : a = x => hx' e.symm,
        show (a == y) = false by simpa using fun e : a = y => hy' e.symm]
      simpa using hxy

theorem selectTypeName_typesOf (noneTy : τ) (ts : List τ) (t : τ) (h : selectTypeName noneTy (typesOfValues ts) = some t) : Predominant noneTy ts t := by
  unfold selectTypeName at h
  generalize hl : (typesOfValues ts).filter (fun x => decide (x.1 ≠ noneTy)) = l at h
  have hmem : ∀ x, x ∈ l ↔ x.1 ∈ ts ∧ x.1 ≠ noneTy ∧ x.2 = ts.count x.1 := by
    intro x
    rw [← hl, List.mem_filter]
    unfold typesOfValues
    rw [List.mem_map]
    constructor
    · rintro ⟨⟨t, ht, rfl⟩, h2⟩
      exact ⟨mem_firstOccs.1 ht, by simpa using h2, rfl⟩
    · rintro ⟨h1, h2, h3⟩
      exact ⟨⟨x.1, mem_firstOccs.2 h1, by rw [← h3]⟩, by simpa using h2⟩
  have hord : l.Pairwise fun a b => ts.idxOf a.1 < ts.idxOf b.1 := by
    rw [← hl]
    apply List.Pairwise.filter
    unfold typesOfValues
    rw [List.pairwise_map]
    exact firstOccs_ordered ts
  have hnd : l.Nodup := hord.imp fun {a b} h e => by rw [e] at h; omega
  cases hs : l.mergeSort fun a b => decide (b.2 ≤ a.2) with
  | nil => rw [hs] at h; cases h
  | cons x rest =>
    rw [hs] at h
    have hx : x.1 = t := by simpa using h
    have hperm : (x :: rest).Perm l := by rw [← hs]; exact List.mergeSort_perm l _
    have hxl : x ∈ l := hperm.mem_iff.1 (by simp)
    have hsorted : (x :: rest).Pairwise fun a b => decide (b.2 ≤ a.2) = true := by
      rw [← hs]
      refine List.pairwise_mergeSort ?_ ?_ l
      · intro a b c h1 h2; simp only [decide_eq_true_eq] at *; omega
      · intro a b; simp only [Bool.or_eq_true, decide_eq_true_eq]; omega
    rw [List.pairwise_cons] at hsorted
    obtain ⟨m1, m2, m3⟩ := (hmem x).1 hxl
    rw [hx] at m1 m2 m3
    refine ⟨m1, m2, ?_⟩
    intro u hu hun hut
    have hul : (u, ts.count u) ∈ l := (hmem _).2 ⟨hu, hun, rfl⟩
    have hur : (u, ts.count u) ∈ rest := by
      have := hperm.mem_iff.2 hul
      rcases List.mem_cons.1 this with e | e
      · rw [← e] at hx; exact absurd hx hut
      · exact e
    have hle : ts.count u ≤ ts.count t := by
      have := hsorted.1 _ hur
      rw [decide_eq_true_eq, m3] at this
      exact this
    rcases Nat.lt_or_ge (ts.count u) (ts.count t) with hlt | hge
    · exact Or.inl hlt
    · right
      refine ⟨by omega, ?_⟩
      by_cases hidx : ts.idxOf t < ts.idxOf u
      · exact hidx
      · exfalso
        have hne : ts.idxOf u ≠ ts.idxOf t := by
          intro e
          have h1 := List.getElem_idxOf (List.idxOf_lt_length_iff.2 hu)
          have h2 := List.getElem_idxOf (List.idxOf_lt_length_iff.2 m1)
          apply hut
          rw [← h1, ← h2]
          simp only [e]
        have hsub : [(u, ts.count u), x].Sublist l := by
          have hp : ∀ (l : List (τ × Nat)), l.Pairwise (fun a b => ts.idxOf a.1 < ts.idxOf b.1) → (u, ts.count u) ∈ l → x ∈ l → [(u, ts.count u), x].Sublist l := by
            intro l
            induction l with
            | nil => intro _ h; cases h
            | cons a l ih =>
              intro hp h1 h2
              rw [List.pairwise_cons] at hp
              rcases List.mem_cons.1 h1 with e1 | h1
              · rw [← e1] at h2 ⊢
                rcases List.mem_cons.1 h2 with e | h2
                · rw [e] at hx; exact absurd hx hut
                · exact List.Sublist.cons_cons _ (List.singleton_sublist.2 h2)
              · rcases List.mem_cons.1 h2 with e | h2
                · have := hp.1 _ h1
                  rw [← e] at this
                  rw [hx] at this
                  dsimp only at this
                  omega
                · exact (ih hp.2 h1 h2).cons _
          exact hp l hord hul hxl
        have hst := List.pair_sublist_mergeSort (le := fun a b : τ × Nat => decide (b.2 ≤ a.2))
          (by intro a b c h1 h2; simp only [decide_eq_true_eq] at *; omega) (by intro a b; simp only [Bool.or_eq_true, decide_eq_true_eq]; omega)
          (by simp only [decide_eq_true_eq]; omega) hsub
        rw [hs] at hst
        have hndr : (x :: rest).Nodup := hperm.nodup_iff.2 hnd
        rw [List.nodup_cons] at hndr
        cases hst with
        | cons _ h' => exact hndr.1 (h'.subset (by simp))
        | cons_cons _ h' => exact hut hx

theorem selectTypeName_none (noneTy : τ) (ts : List τ) : selectTypeName noneTy (typesOfValues ts) = none ↔ ∀ u ∈ ts, u = noneTy := by
  unfold selectTypeName
  rw [Option.map_eq_none_iff, List.head?_eq_none_iff]
  have : ((typesOfValues ts).filter (fun x => decide (x.1 ≠ noneTy))).mergeSort (fun a b => decide (b.2 ≤ a.2)) = [] ↔ (typesOfValues ts).filter (fun x => decide (x.1 ≠ noneTy)) = [] := by
    rw [← List.length_eq_zero_iff, List.length_mergeSort, List.length_eq_zero_iff]
  rw [this, List.filter_eq_nil_iff]
  unfold typesOfValues
  simp only [List.mem_map, decide_eq_true_eq, ne_eq, Decidable.not_not]
  constructor
  · intro h u hu
    exact h (u, ts.count u) ⟨u, mem_firstOccs.2 hu, rfl⟩
  · rintro h x ⟨t, ht, rfl⟩
    exact h t (mem_firstOccs.1 ht)

/-- **C122, predominant type**: of a column, `get_predominant_types` gives the type that most values have, `None` not counted, and of types that equally many values have the
one that occurs first; it gives "empty" if and only if the column holds nothing but `None`.  The pages do not matter. -/
theorem C122_predominant (ty : α → τ) (noneTy : τ) (pages : List (Option τ × List α)) :
    (∀ t, selectTypeName noneTy (columnTypes ty pages) = some t ↔ Predominant noneTy ((pages.map (·.2)).flatten.map ty) t) ∧
      (selectTypeName noneTy (columnTypes ty pages) = none ↔ ∀ v ∈ (pages.map (·.2)).flatten, ty v = noneTy) := by
  rw [C122_types]
  constructor
  · intro t
    refine ⟨selectTypeName_typesOf noneTy _ t, fun h => ?_⟩
    cases hs : selectTypeName noneTy (typesOfValues ((pages.map (·.2)).flatten.map ty)) with
    | none => exact absurd ((selectTypeName_none noneTy _).1 hs t h.1) h.2.1
    | some u => rw [predominant_unique noneTy _ u t (selectTypeName_typesOf noneTy _ u hs) h]
  · rw [selectTypeName_none]
    constructor
    · intro h v hv
      exact h _ (List.mem_map.2 ⟨v, hv, rfl⟩)
    · intro h u hu
      obtain ⟨v, hv, rfl⟩ := List.mem_map.1 hu
      exact h v hv

/-- C122, tables: one entry for every column, in order, with the types and the predominant type of that column -/
theorem C122_table (ty : α → τ) (noneTy : τ) (t : List (ν × List (Option τ × List α))) :
    tableTypes ty t = t.map (fun c => (c.1, typesOfValues ((c.2.map (·.2)).flatten.map ty))) ∧
      (predominantTypes ty noneTy t).map (·.1) = t.map (·.1) ∧
      ∀ c ∈ predominantTypes ty noneTy t, ∃ c0 ∈ t, c.1 = c0.1 ∧ ∀ u, c.2 = some u ↔ Predominant noneTy ((c0.2.map (·.2)).flatten.map ty) u := by
  refine ⟨?_, ?_, ?_⟩
  · unfold tableTypes
    simp only [C122_types]
  · unfold predominantTypes tableTypes
    rw [List.map_map, List.map_map]
    rfl
  · intro c hc
    unfold predominantTypes tableTypes at hc
    rw [List.map_map] at hc
    obtain ⟨c0, h0, rfl⟩ := List.mem_map.1 hc
    exact ⟨c0, h0, rfl, (C122_predominant ty noneTy c0.2).1⟩

/-- None twice, then two ints and two texts in pages of different lengths, one of them empty -/
example : columnTypes (fun v : Nat => v % 3) [(none, [0, 1, 5]), (some 2, []), (none, [3, 4, 2])] = [(0, 2), (1, 2), (2, 2)] := by decide

example : Predominant 0 [0, 1, 2, 0, 1, 2] 1 := by unfold Predominant; decide

example : ¬ Predominant 0 [0, 1, 2, 0, 1, 2] 2 := by unfold Predominant; decide

end Tablite
