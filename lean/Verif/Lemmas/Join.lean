import Verif.Model.Join
import Verif.Props.Reindex
import Mathlib.Data.List.Nodup
/-! Lemmas about joins. -/

namespace Tablite

set_option linter.unusedSectionVars false

section
variable {ν α : Type} [DecidableEq ν]

/-- the key index of a list of keys -/
def idxOf {κ : Type} [DecidableEq κ] (K : List κ) : List (κ × List Nat) :=
  (firstOccs K).map fun k => (k, positionsFrom (fun x => decide (x = k)) 0 K)

theorem dGet_idxOf {κ : Type} [DecidableEq κ] (K : List κ) (k : κ) :
    dGet k (idxOf K) = if k ∈ K then some (positionsFrom (fun x => decide (x = k)) 0 K) else none := by
  unfold idxOf
  rw [dGet_map]
  simp only [mem_firstOccs]

theorem mem_pos {κ : Type} [DecidableEq κ] (K : List κ) (k : κ) (i : Nat) :
    i ∈ positionsFrom (fun x => decide (x = k)) 0 K ↔ K[i]? = some k := by
  rw [mem_positionsFrom]
  simp only [Nat.zero_le, Nat.sub_zero, true_and, decide_eq_true_eq]
  constructor
  · rintro ⟨a, h, rfl⟩; exact h
  · intro h; exact ⟨k, h, rfl⟩

theorem nodup_pos {κ : Type} [DecidableEq κ] (K : List κ) (k : κ) : (positionsFrom (fun x => decide (x = k)) 0 K).Nodup :=
  (positionsFrom_sorted _ _ _).imp (fun h => Nat.ne_of_lt h)

theorem mem_crossIx (ls : List Nat) (rs : List Int) (i j : Int) : (i, j) ∈ crossIx ls rs ↔ ∃ a ∈ ls, i = (a : Int) ∧ j ∈ rs := by
  unfold crossIx
  rw [List.mem_flatMap]
  constructor
  · rintro ⟨a, ha, h⟩
    obtain ⟨b, hb, e⟩ := List.mem_map.1 h
    injection e with e1 e2
    exact ⟨a, ha, e1.symm, e2 ▸ hb⟩
  · rintro ⟨a, ha, rfl, h⟩
    exact ⟨a, ha, List.mem_map.2 ⟨j, h, rfl⟩⟩

theorem nodup_crossIx (ls : List Nat) (rs : List Int) (hl : ls.Nodup) (hr : rs.Nodup) : (crossIx ls rs).Nodup := by
  unfold crossIx
  rw [List.nodup_flatMap]
  constructor
  · intro a _
    exact hr.map (fun x y e => by injection e)
  · refine List.Pairwise.imp ?_ (List.nodup_iff_pairwise_ne.1 hl)
    intro a b hab
    simp only [Function.onFun]
    intro x hx hy
    obtain ⟨_, _, e1⟩ := List.mem_map.1 hx
    obtain ⟨_, _, e2⟩ := List.mem_map.1 hy
    rw [← e2] at e1
    injection e1 with e1 _
    exact hab (by omega)

/-- shape shared by the inner and left mapping -/
theorem mem_mapping {κ : Type} [DecidableEq κ] (K : List κ) (R : κ → List Int) (i j : Int) :
    (i, j) ∈ ((idxOf K).flatMap fun e => crossIx e.2 (R e.1)) ↔ ∃ (a : Nat) (k : κ), i = (a : Int) ∧ K[a]? = some k ∧ j ∈ R k := by
  rw [List.mem_flatMap]
  unfold idxOf
  constructor
  · rintro ⟨e, he, h⟩
    obtain ⟨k, hk, rfl⟩ := List.mem_map.1 he
    rw [mem_crossIx] at h
    obtain ⟨a, ha, rfl, hj⟩ := h
    exact ⟨a, k, rfl, (mem_pos K k a).1 ha, hj⟩
  · rintro ⟨a, k, rfl, ha, hj⟩
    refine ⟨(k, positionsFrom (fun x => decide (x = k)) 0 K), List.mem_map.2 ⟨k, ?_, rfl⟩, ?_⟩
    · rw [mem_firstOccs]; exact List.mem_of_getElem? ha
    · rw [mem_crossIx]; exact ⟨a, (mem_pos K k a).2 ha, rfl, hj⟩

theorem nodup_mapping {κ : Type} [DecidableEq κ] (K : List κ) (R : κ → List Int) (hR : ∀ k, (R k).Nodup) :
    ((idxOf K).flatMap fun e => crossIx e.2 (R e.1)).Nodup := by
  rw [List.nodup_flatMap]
  unfold idxOf
  constructor
  · intro e he
    obtain ⟨k, hk, rfl⟩ := List.mem_map.1 he
    exact nodup_crossIx _ _ (nodup_pos K k) (hR k)
  · rw [List.pairwise_map]
    refine List.Pairwise.imp ?_ (List.nodup_iff_pairwise_ne.1 (nodup_firstOccs K))
    intro a b hab
    simp only [Function.onFun]
    rintro ⟨i, j⟩ hx hy
    rw [mem_crossIx] at hx hy
    obtain ⟨x, hx, rfl, _⟩ := hx
    obtain ⟨y, hy, e, _⟩ := hy
    have : x = y := by omega
    subst this
    rw [mem_pos] at hx hy
    rw [hx] at hy
    injection hy with hy
    exact hab hy

theorem natInt_nodup (l : List Nat) (h : l.Nodup) : (l.map fun (j : Nat) => (j : Int)).Nodup :=
  h.map (fun a b e => by omega)

theorem mem_natInt (l : List Nat) (j : Int) : j ∈ (l.map fun (j : Nat) => (j : Int)) ↔ ∃ b ∈ l, j = (b : Int) := by
  rw [List.mem_map]
  constructor
  · rintro ⟨b, hb, rfl⟩; exact ⟨b, hb, rfl⟩
  · rintro ⟨b, hb, rfl⟩; exact ⟨b, hb, rfl⟩

variable [DecidableEq α]

/-- the right row numbers filed under a key, or a default -/
def rIx (KR : List (List α)) (dflt : List Int) (k : List α) : List Int :=
  if k ∈ KR then (positionsFrom (fun x => decide (x = k)) 0 KR).map (fun (j : Nat) => (j : Int)) else dflt

theorem inner_eq (KL KR : List (List α)) :
    innerMapping (idxOf KL) (idxOf KR) = (idxOf KL).flatMap fun e => crossIx e.2 (rIx KR [] e.1) := by
  unfold innerMapping
  congr 1
  funext e
  rw [dGet_idxOf]
  unfold rIx
  by_cases h : e.1 ∈ KR
  · simp [h]
  · simp only [h, if_false]
    unfold crossIx
    simp

theorem left_eq (KL KR : List (List α)) :
    leftMapping (idxOf KL) (idxOf KR) = (idxOf KL).flatMap fun e => crossIx e.2 (rIx KR [-1] e.1) := by
  unfold leftMapping
  congr 1
  funext e
  rw [dGet_idxOf]
  unfold rIx
  by_cases h : e.1 ∈ KR
  · simp [h]
  · simp [h]

theorem mem_inner (KL KR : List (List α)) (i j : Int) :
    (i, j) ∈ innerMapping (idxOf KL) (idxOf KR) ↔ ∃ (a b : Nat) (k : List α), i = a ∧ j = b ∧ KL[a]? = some k ∧ KR[b]? = some k := by
  rw [inner_eq, mem_mapping KL (rIx KR [])]
  constructor
  · rintro ⟨a, k, rfl, h1, h2⟩
    unfold rIx at h2
    split at h2
    · rw [mem_natInt] at h2
      obtain ⟨b, hb, rfl⟩ := h2
      exact ⟨a, b, k, rfl, rfl, h1, (mem_pos KR k b).1 hb⟩
    · cases h2
  · rintro ⟨a, b, k, rfl, rfl, h1, h2⟩
    refine ⟨a, k, rfl, h1, ?_⟩
    unfold rIx
    rw [if_pos (List.mem_of_getElem? h2), mem_natInt]
    exact ⟨b, (mem_pos KR k b).2 h2, rfl⟩

theorem nodup_inner (KL KR : List (List α)) : (innerMapping (idxOf KL) (idxOf KR)).Nodup := by
  rw [inner_eq]
  apply nodup_mapping KL (rIx KR [])
  intro k
  unfold rIx
  split
  · exact natInt_nodup _ (nodup_pos KR k)
  · exact List.nodup_nil

theorem mem_left (KL KR : List (List α)) (i j : Int) :
    (i, j) ∈ leftMapping (idxOf KL) (idxOf KR) ↔ ∃ (a : Nat) (k : List α), i = a ∧ KL[a]? = some k ∧
      ((∃ b : Nat, j = b ∧ KR[b]? = some k) ∨ (j = -1 ∧ k ∉ KR)) := by
  rw [left_eq, mem_mapping KL (rIx KR [-1])]
  constructor
  · rintro ⟨a, k, rfl, h1, h2⟩
    refine ⟨a, k, rfl, h1, ?_⟩
    unfold rIx at h2
    split at h2
    · rw [mem_natInt] at h2
      obtain ⟨b, hb, rfl⟩ := h2
      exact Or.inl ⟨b, rfl, (mem_pos KR k b).1 hb⟩
    · rename_i h
      exact Or.inr ⟨by simpa using h2, h⟩
  · rintro ⟨a, k, rfl, h1, h2⟩
    refine ⟨a, k, rfl, h1, ?_⟩
    unfold rIx
    rcases h2 with ⟨b, rfl, h2⟩ | ⟨rfl, h⟩
    · rw [if_pos (List.mem_of_getElem? h2), mem_natInt]
      exact ⟨b, (mem_pos KR k b).2 h2, rfl⟩
    · rw [if_neg h]; simp

theorem nodup_left (KL KR : List (List α)) : (leftMapping (idxOf KL) (idxOf KR)).Nodup := by
  rw [left_eq]
  apply nodup_mapping KL (rIx KR [-1])
  intro k
  unfold rIx
  split
  · exact natInt_nodup _ (nodup_pos KR k)
  · simp

theorem pos_ne_nil {κ : Type} [DecidableEq κ] (K : List κ) (k : κ) (h : k ∈ K) : positionsFrom (fun x => decide (x = k)) 0 K ≠ [] := by
  obtain ⟨i, hi, e⟩ := List.getElem_of_mem h
  have := (mem_pos K k i).2 (by rw [List.getElem?_eq_getElem hi, e])
  intro hn; rw [hn] at this; cases this

theorem rightUnused_eq (KL KR : List (List α)) : rightUnused (idxOf KL) (idxOf KR) = (firstOccs KR).filter (fun k => k ∉ KL) := by
  unfold rightUnused
  have e : (idxOf KR).map (·.1) = firstOccs KR := by
    unfold idxOf; rw [List.map_map]; exact List.map_id _
  rw [e]
  apply List.filter_congr
  intro k _
  by_cases h : k ∈ KL
  · have : ((idxOf KL).any fun e => decide (e.1 = k) && !e.2.isEmpty) = true := by
      rw [List.any_eq_true]
      refine ⟨(k, positionsFrom (fun x => decide (x = k)) 0 KL), List.mem_map.2 ⟨k, mem_firstOccs.2 h, rfl⟩, ?_⟩
      simp [pos_ne_nil KL k h]
    simp [this, h]
  · have : ((idxOf KL).any fun e => decide (e.1 = k) && !e.2.isEmpty) = false := by
      rw [List.any_eq_false]
      intro e he
      obtain ⟨k', hk', rfl⟩ := List.mem_map.1 he
      rw [mem_firstOccs] at hk'
      have : k' ≠ k := by rintro rfl; exact h hk'
      simp [this]
    simp [this, h]

/-- the rows the outer join adds for unmatched right rows -/
def outerRest (ord : List (List α) → List (List α)) (KL KR : List (List α)) : List Int :=
  (ord ((firstOccs KR).filter (fun k => k ∉ KL))).flatMap fun k =>
    if k ∈ KR then (positionsFrom (fun x => decide (x = k)) 0 KR).map (fun (j : Nat) => (j : Int)) else []

theorem outer_eq (ord : List (List α) → List (List α)) (KL KR : List (List α)) :
    outerMapping ord (idxOf KL) (idxOf KR) = leftMapping (idxOf KL) (idxOf KR) ++ (outerRest ord KL KR).map fun j => (-1, j) := by
  unfold outerMapping outerRest
  rw [rightUnused_eq, List.map_flatMap]
  congr 1
  congr 1
  funext k
  rw [dGet_idxOf]
  by_cases h : k ∈ KR <;> simp [h]

theorem mem_outerRest (ord : List (List α) → List (List α)) (hord : ∀ l, (ord l).Perm l) (KL KR : List (List α)) (j : Int) :
    j ∈ outerRest ord KL KR ↔ ∃ (b : Nat) (k : List α), j = b ∧ KR[b]? = some k ∧ k ∉ KL := by
  unfold outerRest
  rw [List.mem_flatMap]
  simp only [(hord _).mem_iff, List.mem_filter, mem_firstOccs, decide_eq_true_eq]
  constructor
  · rintro ⟨k, ⟨h1, h2⟩, h3⟩
    rw [if_pos h1, mem_natInt] at h3
    obtain ⟨b, hb, rfl⟩ := h3
    exact ⟨b, k, rfl, (mem_pos KR k b).1 hb, h2⟩
  · rintro ⟨b, k, rfl, h1, h2⟩
    have := List.mem_of_getElem? h1
    refine ⟨k, ⟨this, h2⟩, ?_⟩
    rw [if_pos this, mem_natInt]
    exact ⟨b, (mem_pos KR k b).2 h1, rfl⟩

theorem nodup_outerRest (ord : List (List α) → List (List α)) (hord : ∀ l, (ord l).Perm l) (KL KR : List (List α)) :
    (outerRest ord KL KR).Nodup := by
  unfold outerRest
  rw [List.nodup_flatMap]
  constructor
  · intro k _
    split
    · exact natInt_nodup _ (nodup_pos KR k)
    · exact List.nodup_nil
  · have hn : (ord ((firstOccs KR).filter (fun k => k ∉ KL))).Nodup := (hord _).nodup_iff.2 ((nodup_firstOccs KR).filter _)
    refine List.Pairwise.imp ?_ (List.nodup_iff_pairwise_ne.1 hn)
    intro a b hab
    simp only [Function.onFun]
    intro x hx hy
    split at hx
    · split at hy
      · rw [mem_natInt] at hx hy
        obtain ⟨i, hi, rfl⟩ := hx
        obtain ⟨j, hj, e⟩ := hy
        have : i = j := by omega
        subst this
        rw [mem_pos] at hi hj
        rw [hi] at hj
        injection hj with hj
        exact hab hj
      · cases hy
    · cases hx

/-! ### reindexing -/

omit [DecidableEq α] in
theorem joinParts_slices {β : Type} (ps : Nat) (hps : 0 < ps) (l : List β) :
    ((joinParts ps l.length).map fun se => (l.take se.2).drop se.1).flatten = l := by
  unfold joinParts
  rw [List.map_map]
  have H : ∀ K, ((List.range K).map ((fun se : Nat × Nat => (l.take se.2).drop se.1) ∘ fun k => (k * ps, min (k * ps + ps) l.length))).flatten = l.take (K * ps) := by
    intro K
    induction K with
    | zero => simp
    | succ K ih =>
      rw [List.range_succ, List.map_append, List.flatten_append, ih]
      simp only [List.map_cons, List.map_nil, List.flatten_cons, List.flatten_nil, List.append_nil, Function.comp]
      have e : l.take (min (K * ps + ps) l.length) = l.take ((K + 1) * ps) := by
        rw [Nat.add_mul, Nat.one_mul]
        rcases Nat.le_total (K * ps + ps) l.length with h | h
        · rw [Nat.min_eq_left h]
        · rw [Nat.min_eq_right h, List.take_of_length_le (Nat.le_refl _), List.take_of_length_le h]
      rw [e]
      have : l.take (K * ps) = (l.take ((K + 1) * ps)).take (K * ps) := by
        rw [List.take_take, Nat.min_eq_left (by rw [Nat.add_mul]; omega)]
      rw [this, List.take_append_drop]
  rw [H]
  apply List.take_of_length_le
  have := div_succ_mul l.length ps hps
  omega

omit [DecidableEq α] in
theorem joinParts_bounds (ps : Nat) (hps : 0 < ps) (n : Nat) : ∀ se ∈ joinParts ps n, se.1 ≤ se.2 ∧ se.2 ≤ n := by
  intro se hse
  unfold joinParts at hse
  obtain ⟨k, hk, rfl⟩ := List.mem_map.1 hse
  rw [List.mem_range] at hk
  have : k * ps ≤ n := by
    have h1 : k ≤ n / ps := by omega
    have h2 := Nat.mul_le_mul_right ps h1
    have h3 := Nat.div_mul_le_self n ps
    omega
  simp only
  omega

omit [DecidableEq α] in
theorem mpReindexPage_ok (ps : Nat) (hps : 0 < ps) (nul : α) (pages : Pages α) (m : List Int) (s e : Nat) (hse : s ≤ e) (hem : e ≤ m.length)
    (hv : ∀ i ∈ m, i = -1 ∨ (0 ≤ i ∧ i < colLen pages)) (hne : -1 ∈ m → ∀ p ∈ pages, p ≠ []) :
    mpReindexPage nul pages (paginate ps m) s e = .ok ((m.map (pick nul (colIter pages))).take e |>.drop s) := by
  unfold mpReindexPage
  have hm : colIter (paginate ps m) = m := by rw [colIter_eq, paginate_flatten hps]
  rw [getSlice_nat _ s e hse, hm]
  simp only [bind, Except.bind]
  have hsub : ∀ i ∈ (m.take e).drop s, i ∈ m := fun i hi => List.mem_of_mem_take (List.mem_of_mem_drop hi)
  have hlen : ((m.take e).drop s).length = e - s := by simp; omega
  split
  · rename_i h
    rw [getSlice_nat _ s e hse]
    congr 1
    rcases h with h | ⟨_, _, h⟩
    · have : e - s = 0 := by rw [← hlen, h]; rfl
      have : s = e := by omega
      subst this
      rw [List.drop_eq_nil_of_le (by rw [List.length_take]; omega), List.drop_eq_nil_of_le (by rw [List.length_take]; omega)]
    · rw [← List.map_take, ← List.map_drop, h, take_drop_eq_range', List.map_map]
      have hb : ∀ i ∈ List.range' s (e - s), i < (colIter pages).length := by
        intro i hi
        have hi' : ((i : Nat) : Int) ∈ (m.take e).drop s := by rw [h]; exact List.mem_map.2 ⟨i, hi, rfl⟩
        have := hv _ (hsub _ hi')
        rw [colLen_eq, ← colIter_eq] at this
        omega
      generalize List.range' s (e - s) = r at hb
      clear h hlen hsub
      induction r with
      | nil => rfl
      | cons i t ih =>
        have hi := hb i (by simp)
        rw [List.filterMap_cons, List.getElem?_eq_getElem hi, List.map_cons, ih (fun j hj => hb j (by simp [hj]))]
        simp only [Function.comp, pick]
        rw [if_neg (by omega)]
        simp [List.getD_eq_getElem?_getD, List.getElem?_eq_getElem hi]
  · have hr := reindexChunk_ok nul pages ((m.take e).drop s).length ((m.take e).drop s) (fun i hi => hv i (hsub i hi)) (fun h => hne (hsub _ h)) (fun _ => rfl)
    unfold reindexChunk at hr
    simp only [bind, Except.bind] at hr
    rw [hr, List.map_drop, List.map_take]

/-! ### names and assembly -/

omit [DecidableEq α] in
theorem rightNames_length (mk : ν → Nat → ν) (h rc : List ν) : (rightNames mk h rc).length = rc.length := by
  induction rc generalizing h with
  | nil => rfl
  | cons x t ih => simp [rightNames, ih]

omit [DecidableEq α] in
theorem rightNames_nodup (mk : ν → Nat → ν) (hmk : ∀ d a b, mk d a = mk d b → a = b) (h rc : List ν) (hn : h.Nodup) :
    (h ++ rightNames mk h rc).Nodup := by
  induction rc generalizing h with
  | nil => simpa [rightNames] using hn
  | cons x t ih =>
    simp only [rightNames]
    have hf := (C47_unique_name mk x h (hmk x)).1
    have := ih (h ++ [uniqueName mk x h]) (by
      rw [List.nodup_append]
      refine ⟨hn, by simp, ?_⟩
      intro a ha b hb e
      simp only [List.mem_singleton] at hb
      subst hb; subst e; exact hf ha)
    rwa [List.append_assoc, List.singleton_append] at this

omit [DecidableEq α] in
theorem assemble_view (ps : Nat) (hps : 0 < ps) (rs : List (ν × List α)) (init : Tbl ν α) (ks : List ν) (hks : ks.Nodup) (g : ν → List α)
    (h : tview init = ks.map fun x => (x, g x)) (hin : ∀ r ∈ rs, r.1 ∈ ks) :
    tview (assemble ps init rs) = ks.map fun x => (x, g x ++ (rs.filter fun r => r.1 = x).flatMap (·.2)) := by
  unfold assemble
  induction rs generalizing init g with
  | nil => simp [h]
  | cons r t ih =>
    simp only [List.foldl_cons]
    have hr := hin r (by simp)
    rw [ih _ (fun x => if x = r.1 then g x ++ r.2 else g x) (by
      unfold tview
      rw [dUpd_map_snd colIter _ (fun p => p ++ r.2) (fun b => colIter_extend ps hps b _)]
      rw [show init.map (fun c => (c.1, colIter c.2)) = ks.map fun x => (x, g x) from h]
      rw [dUpd_eq _ _ _ ks hks g (fun h => absurd hr h), if_pos hr]) (fun q hq => hin q (by simp [hq]))]
    apply List.map_congr_left
    intro x _
    congr 1
    have c1 : (r.1 = x) ↔ (x = r.1) := eq_comm
    by_cases e : x = r.1
    · simp [e]
    · simp [e, c1]

omit [DecidableEq α] in
theorem mapM_flatMap_ok {β γ δ : Type} (l : List β) (f : β → List γ) (g : γ → Except Err δ) (r : β → γ → δ)
    (h : ∀ b ∈ l, ∀ c ∈ f b, g c = .ok (r b c)) : (l.flatMap f).mapM g = .ok (l.flatMap fun b => (f b).map (r b)) := by
  induction l with
  | nil => rfl
  | cons a t ih =>
    rw [List.flatMap_cons, List.mapM_append, mapM_ok _ _ (r a) (h a (by simp)), ih (fun b hb => h b (by simp [hb]))]
    rfl

end

end Tablite
