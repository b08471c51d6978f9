import Verif.Props.ImportUniform
/-!
# C130: exactly which texts are read alike in all pages
-/
namespace Tablite
set_option linter.unusedSectionVars false

/-! ## Spec -/

/-- place of a type in the order in which types are tried -/
def typePlace (t : DType) : Nat := DType.all.idxOf t

/-- Spec: a text on its own is read as `t`: `t` is the first type it can be read as -/
def TakenAs (pf : List Char → Option Rat) (t : DType) (s : List Char) : Prop :=
  (∃ v, inferAs pf t s = .ok v) ∧ ∀ u, typePlace u < typePlace t → inferAs pf u s = .error .value

/-- types that become one type of number when they meet in a page -/
def Clash (t u : DType) : Prop :=
  (t.isInt = true ∧ u.isFloat = true) ∨ (t = .dateShort ∧ (u.isInt = true ∨ u.isFloat = true))

instance (t u : DType) : Decidable (Clash t u) := by unfold Clash; infer_instance

/-- Spec: two texts do not disturb each other: neither can be read as the type of the other with another value, and their types are not turned into one another -/
def TextsAgree (pf : List Char → Option Rat) (T : List Char → Prop) : Prop :=
  ∀ s s' t t', T s → T s' → TakenAs pf t s → TakenAs pf t' s' → (inferAs pf t' s = .error .value ∨ inferAs pf t' s = inferAs pf t s) ∧ ¬ Clash t t'

/-! ## ranks with any counted types -/

theorem foldl_split (cmp : DType × Nat → DType × Nat → Bool) (h0 : ∀ v x, v.2 = 0 → cmp v x = false) (h1 : ∀ v x, 0 < v.2 → x.2 = 0 → cmp v x = true) (L zs P : Rank)
    (hz : ∀ p ∈ zs, p.2 = 0) : ∃ P', L.foldl (fun sorted v => insertBack cmp v sorted) (zs ++ P) = (L.filter fun p => decide (p.2 = 0)).reverse ++ zs ++ P' ∧
      P'.Perm ((L.filter fun p => decide (0 < p.2)) ++ P) := by
  induction L generalizing zs P with
  | nil => exact ⟨P, rfl, List.Perm.refl _⟩
  | cons v L ih =>
    rw [List.foldl_cons]
    by_cases hv : v.2 = 0
    · have : insertBack cmp v (zs ++ P) = (v :: zs) ++ P := by
        rw [List.cons_append]
        generalize zs ++ P = l
        cases l with
        | nil => rfl
        | cons x xs => rw [insertBack, if_neg (by rw [h0 _ _ hv]; simp)]
      rw [this]
      obtain ⟨P', e, hp⟩ := ih (v :: zs) P (by intro p hp; rcases List.mem_cons.1 hp with rfl | hp; exacts [hv, hz p hp])
      refine ⟨P', ?_, ?_⟩
      · rw [e, List.filter_cons_of_pos (by simp [hv]), List.reverse_cons]
        simp
      · rw [List.filter_cons_of_neg (by simp [hv])]
        exact hp
    · rw [insertBack_zeros cmp h1 v (by omega) zs P hz]
      obtain ⟨P', e, hp⟩ := ih zs (insertBack cmp v P) hz
      refine ⟨P', ?_, ?_⟩
      · rw [e, List.filter_cons_of_neg (by simp [hv])]
      · rw [List.filter_cons_of_pos (by simp; omega)]
        refine hp.trans (((insertBack_perm cmp v P).append_left _).trans ?_)
        exact List.perm_middle

/-- sorting puts the counted types before the others and leaves the order of these -/
theorem sort_split (b : Bool) (L : Rank) : ∃ X, sortRanks b L = X ++ (L.filter fun p => decide (p.2 = 0)) ∧ X.Perm (L.filter fun p => decide (0 < p.2)) := by
  obtain ⟨cmp, h, h0, h1, _⟩ := sortRanks_cmp b
  obtain ⟨P', e, hp⟩ := foldl_split cmp h0 h1 L [] [] (by simp)
  rw [List.append_nil] at hp
  refine ⟨P'.reverse, ?_, (List.reverse_perm P').trans hp⟩
  rw [h, insertSort]
  change (List.foldl (fun sorted v => insertBack cmp v sorted) ([] ++ []) L).reverse = _
  rw [e]
  simp

/-- the ranks that occur: every type once, types not counted last and in the order of the enumeration -/
def CountInv (U : DType → Prop) (r : Rank) : Prop :=
  (r.map (·.1)).Perm DType.all ∧ (r.Pairwise fun a b => a.2 = 0 → b.2 = 0 ∧ typePlace a.1 < typePlace b.1) ∧ ∀ p ∈ r, 0 < p.2 → U p.1

theorem perm_split (r : Rank) : r.Perm ((r.filter fun p => decide (0 < p.2)) ++ r.filter fun p => decide (p.2 = 0)) := by
  have h := List.filter_append_perm (fun p : DType × Nat => decide (0 < p.2)) r
  refine h.symm.trans (List.Perm.append_left _ (List.Perm.of_eq ?_))
  apply List.filter_congr
  intro p _
  by_cases hp : p.2 = 0 <;> simp [hp]; omega

theorem newRank_count (U : DType → Prop) : CountInv U newRank := by
  refine ⟨by decide, by decide, ?_⟩
  intro p hp h
  unfold newRank at hp
  obtain ⟨t, _, rfl⟩ := List.mem_map.1 hp
  exact absurd h (by simp)

/-- sorting keeps the invariant, also after one more text of type `t` -/
theorem sort_inv (U : DType → Prop) (b : Bool) (pre post : Rank) (t : DType) (n m : Nat) (hr : CountInv U (pre ++ (t, n) :: post)) (ht : 0 < m → U t) (hnm : m = 0 → n = 0) :
    CountInv U (sortRanks b (pre ++ (t, m) :: post)) := by
  obtain ⟨X, e, hX⟩ := sort_split b (pre ++ (t, m) :: post)
  obtain ⟨h1, h2, h3⟩ := hr
  rw [e]
  refine ⟨?_, ?_, ?_⟩
  · refine (List.Perm.map _ ((hX.append_right _).trans (perm_split _).symm)).trans ?_
    refine List.Perm.trans (List.Perm.of_eq ?_) h1
    simp
  · refine List.pairwise_append.2 ⟨?_, ?_, ?_⟩
    · apply List.Pairwise.imp_of_mem (R := fun _ _ => True) _ (List.pairwise_of_forall fun _ _ => trivial)
      intro a c ha _ _ h0
      have := (List.mem_filter.1 (hX.mem_iff.1 ha)).2
      simp only [decide_eq_true_eq] at this
      omega
    · by_cases hm : m = 0
      · have hn := hnm hm
        subst hm
        subst hn
        exact h2.sublist List.filter_sublist
      · rw [List.filter_append, List.filter_cons_of_neg (by simp [hm])]
        refine h2.sublist (List.Sublist.append List.filter_sublist ((List.filter_sublist).trans (List.sublist_cons_self _ _)))
    · intro a ha c _ h0
      have := (List.mem_filter.1 (hX.mem_iff.1 ha)).2
      simp only [decide_eq_true_eq] at this
      omega
  · intro p hp hpos
    rcases List.mem_append.1 hp with hp | hp
    · have := (List.mem_filter.1 (hX.mem_iff.1 hp)).1
      rcases List.mem_append.1 this with hq | hq
      · exact h3 p (List.mem_append_left _ hq) hpos
      · rcases List.mem_cons.1 hq with rfl | hq
        · exact ht hpos
        · exact h3 p (List.mem_append_right _ (List.mem_cons_of_mem _ hq)) hpos
    · have := (List.mem_filter.1 hp).2
      simp only [decide_eq_true_eq] at this
      omega

theorem sort_inv' (U : DType → Prop) (b : Bool) (r : Rank) (hr : CountInv U r) : CountInv U (sortRanks b r) := by
  have hs : r ≠ [] := by
    intro h
    have := hr.1.length_eq
    rw [h] at this
    revert this
    decide
  obtain ⟨⟨t, n⟩, post, rfl⟩ := List.exists_cons_of_ne_nil hs
  exact sort_inv U b [] post t n n hr (fun h => hr.2.2 _ List.mem_cons_self h) (fun h => h)

/-- the first type of a rank that accepts a text: its own type or another one in `U` with the same value -/
theorem rank_first (pf : List Char → Option Rat) (U : DType → Prop) (r : Rank) (hr : CountInv U r) (t : DType) (s : List Char) (ht : TakenAs pf t s)
    (hU : ∀ u, U u → inferAs pf u s = .error .value ∨ inferAs pf u s = inferAs pf t s) :
    ∃ pre u n post, r = pre ++ (u, n) :: post ∧ (∀ p ∈ pre, inferAs pf p.1 s = .error .value) ∧ inferAs pf u s = inferAs pf t s ∧ (u = t ∨ U u) := by
  obtain ⟨h1, h2, h3⟩ := hr
  have hmem : t ∈ r.map (·.1) := h1.mem_iff.2 (by cases t <;> decide)
  have hex : ∃ p ∈ r, inferAs pf p.1 s ≠ .error .value := by
    obtain ⟨p, hp, e⟩ := List.mem_map.1 hmem
    refine ⟨p, hp, ?_⟩
    rw [e]
    obtain ⟨⟨v, hv⟩, _⟩ := ht
    rw [hv]
    nofun
  clear hmem
  have hsplit : ∃ pre x post, r = pre ++ x :: post ∧ (∀ p ∈ pre, inferAs pf p.1 s = .error .value) ∧ inferAs pf x.1 s ≠ .error .value := by
    clear h1 h2 h3
    induction r with
    | nil => obtain ⟨p, hp, _⟩ := hex; cases hp
    | cons x r ih =>
      by_cases hx : inferAs pf x.1 s = .error .value
      · obtain ⟨pre, y, post, e, g1, g2⟩ := ih (by
          obtain ⟨p, hp, hne⟩ := hex
          rcases List.mem_cons.1 hp with rfl | hp
          · exact absurd hx hne
          · exact ⟨p, hp, hne⟩)
        exact ⟨x :: pre, y, post, by rw [e]; rfl, by
          intro p hp
          rcases List.mem_cons.1 hp with rfl | hp
          exacts [hx, g1 p hp], g2⟩
      · exact ⟨[], x, r, rfl, by simp, hx⟩
  obtain ⟨pre, ⟨u, n⟩, post, rfl, g1, g2⟩ := hsplit
  refine ⟨pre, u, n, post, rfl, g1, ?_⟩
  by_cases hn : n = 0
  · -- not counted: the types before it in the enumeration are refused
    have hut : u = t := by
      by_contra hne
      have htr : t ∈ (pre ++ (u, n) :: post).map (·.1) := h1.mem_iff.2 (by cases t <;> decide)
      obtain ⟨p, hp, e⟩ := List.mem_map.1 htr
      rcases List.mem_append.1 hp with hp | hp
      · have := g1 p hp
        rw [e] at this
        obtain ⟨⟨v, hv⟩, _⟩ := ht
        rw [hv] at this
        cases this
      · rcases List.mem_cons.1 hp with rfl | hp
        · exact hne e
        · have hlt := ((List.pairwise_cons.1 (List.pairwise_append.1 h2).2.1).1 p hp hn).2
          rw [e] at hlt
          exact g2 (ht.2 u hlt)
    exact ⟨by rw [hut], .inl hut⟩
  · have hu : U u := h3 (u, n) (List.mem_append_right _ List.mem_cons_self) (by show 0 < n; omega)
    rcases hU u hu with h | h
    · exact absurd h g2
    · exact ⟨h, .inr hu⟩

theorem rank_reads (pf : List Char → Option Rat) (U : DType → Prop) (r : Rank) (hr : CountInv U r) (t : DType) (s : List Char) (ht : TakenAs pf t s)
    (hU : ∀ u, U u → inferAs pf u s = .error .value ∨ inferAs pf u s = inferAs pf t s) : inferFirst (fun u => inferAs pf u s) (fun _ => true) r = inferAs pf t s := by
  obtain ⟨pre, u, n, post, rfl, g1, g2, _⟩ := rank_first pf U r hr t s ht hU
  obtain ⟨⟨v, hv⟩, _⟩ := ht
  rw [inferFirst_pre (fun u => inferAs pf u s) pre post u n g1 v (by rw [g2, hv]), hv]

/-- one text is counted -/
theorem rank_counts (pf : List Char → Option Rat) (U : DType → Prop) (r : Rank) (hr : CountInv U r) (t : DType) (s : List Char) (ht : TakenAs pf t s) (hUt : U t)
    (hU : ∀ u, U u → inferAs pf u s = .error .value ∨ inferAs pf u s = inferAs pf t s) :
    ∃ u r', updateRank (fun u => inferAs pf u s) r = .ok (u, r') ∧ CountInv U r' ∧ U u ∧ inferAs pf u s = inferAs pf t s ∧ (∃ p ∈ r', p.1 = u ∧ 0 < p.2) ∧
      ∀ p ∈ r, 0 < p.2 → ∃ q ∈ r', q.1 = p.1 ∧ 0 < q.2 := by
  obtain ⟨pre, u, n, post, rfl, g1, g2, g3⟩ := rank_first pf U r hr t s ht hU
  have hu : U u := by rcases g3 with rfl | h; exacts [hUt, h]
  have hv : ∃ v, inferAs pf u s = .ok v := by rw [g2]; exact ht.1
  have hperm : (sortRanks true (pre ++ (u, n + 1) :: post)).Perm (pre ++ (u, n + 1) :: post) := insertSort_perm _ _
  refine ⟨u, sortRanks true (pre ++ (u, n + 1) :: post), ?_, sort_inv U true pre post u n (n + 1) hr (fun _ => hu) (by omega), hu, g2, ?_, ?_⟩
  · unfold updateRank
    rw [countFirst_pre (fun u => inferAs pf u s) pre post u n g1 hv]
    rfl
  · exact ⟨(u, n + 1), hperm.mem_iff.2 (List.mem_append_right _ List.mem_cons_self), rfl, by simp⟩
  · intro p hp hpos
    rcases List.mem_append.1 hp with hp | hp
    · exact ⟨p, hperm.mem_iff.2 (List.mem_append_left _ hp), rfl, hpos⟩
    · rcases List.mem_cons.1 hp with rfl | hp
      · exact ⟨(u, n + 1), hperm.mem_iff.2 (List.mem_append_right _ List.mem_cons_self), rfl, by simp⟩
      · exact ⟨p, hperm.mem_iff.2 (List.mem_append_right _ (List.mem_cons_of_mem _ hp)), rfl, hpos⟩

/-- all texts of a page are counted, each under a type in `U` that reads it with its own value -/
theorem ranks_all (pf : List Char → Option Rat) (U : DType → Prop) (values : List (List Char)) (w : Nat) (r : Rank) (hr : CountInv U r)
    (h : ∀ s ∈ values, ∃ t, TakenAs pf t s ∧ U t ∧ ∀ u, U u → inferAs pf u s = .error .value ∨ inferAs pf u s = inferAs pf t s) :
    ∃ r' w', rankLoop (inferAs pf) r w values = .ok (r', w') ∧ CountInv U r' ∧
      (∀ p ∈ r, 0 < p.2 → ∃ q ∈ r', q.1 = p.1 ∧ 0 < q.2) ∧
      ∀ s ∈ values, ∃ u, U u ∧ (∀ t, TakenAs pf t s → inferAs pf u s = inferAs pf t s) ∧ ∃ p ∈ r', p.1 = u ∧ 0 < p.2 := by
  induction values generalizing r w with
  | nil => exact ⟨r, w, rfl, hr, fun p hp h => ⟨p, hp, rfl, h⟩, by simp⟩
  | cons s l ih =>
    obtain ⟨t, ht, hUt, hU⟩ := h s List.mem_cons_self
    obtain ⟨u, r1, e1, hr1, hu, hval, hcnt, hkeep⟩ := rank_counts pf U r hr t s ht hUt hU
    obtain ⟨r', w', e2, hr', hk, hall⟩ := ih (if u = .string then max s.length w else w) r1 hr1 (fun x hx => h x (List.mem_cons_of_mem _ hx))
    refine ⟨r', w', ?_, hr', ?_, ?_⟩
    · rw [rankLoop, e1]; exact e2
    · intro p hp hpos
      obtain ⟨q, hq, e, hq0⟩ := hkeep p hp hpos
      obtain ⟨q', hq', e', hq0'⟩ := hk q hq hq0
      exact ⟨q', hq', e'.trans e, hq0'⟩
    · intro x hx
      rcases List.mem_cons.1 hx with rfl | hx
      · refine ⟨u, hu, ?_, ?_⟩
        · intro t' ht'
          have : t' = t := by
            rcases Nat.lt_trichotomy (typePlace t') (typePlace t) with hlt | heq | hgt
            · have := ht.2 t' hlt
              obtain ⟨⟨v, hv⟩, _⟩ := ht'
              rw [hv] at this; cases this
            · revert heq
              cases t' <;> cases t <;> first | (intro _; rfl) | (intro h; exact absurd h (by decide))
            · have := ht'.2 t hgt
              obtain ⟨⟨v, hv⟩, _⟩ := ht
              rw [hv] at this; cases this
          rw [this]; exact hval
        · obtain ⟨p, hp, e, h0⟩ := hcnt
          obtain ⟨q, hq, e', h0'⟩ := hk p hp h0
          exact ⟨q, hq, e'.trans e, h0'⟩
      · exact hall x hx

/-! ## page types -/

theorem rank_string_zero (U : DType → Prop) (hs : ¬ U .string) (r : Rank) (hr : CountInv U r) : (r.filter fun p => decide (p.2 = 0)) ≠ [] := by
  obtain ⟨p, hp, e⟩ := List.mem_map.1 (hr.1.mem_iff.2 (show DType.string ∈ DType.all by decide))
  refine List.ne_nil_of_mem (List.mem_filter.2 ⟨hp, ?_⟩)
  have : ¬ 0 < p.2 := fun h => hs (by have := hr.2.2 p hp h; rwa [e] at this)
  simp only [decide_eq_true_eq]
  omega

/-- page types that end as object pages -/
def NonNum (p : PageType) : Prop := p = .object ∨ p = .date ∨ p = .datetime ∨ p = .dateShort

instance (p : PageType) : Decidable (NonNum p) := by unfold NonNum; infer_instance

theorem loop_rest (X Z : Rank) (hX : ∀ p ∈ X, 0 < p.2) (hZ : ∀ p ∈ Z, p.2 = 0) (hZn : Z ≠ []) (p : PageType) (hp : NonNum p)
    (hd : p = .dateShort → ∀ x ∈ X, x.1.isInt = false ∧ x.1.isFloat = false) : ∃ p', NonNum p' ∧ pageTypeLoop p (X ++ Z) = .ok p' := by
  induction X generalizing p with
  | nil => exact ⟨p, hp, zero_next p Z hZ hZn⟩
  | cons x X ih =>
    obtain ⟨t, n⟩ := x
    have hn : 0 < n := hX (t, n) List.mem_cons_self
    have hne : p ≠ .unset := by rcases hp with rfl | rfl | rfl | rfl <;> decide
    rw [List.cons_append, pageTypeLoop, if_neg (by omega), if_neg hne]
    have key : NonNum (overlap p t) ∧ (overlap p t = .dateShort → p = .dateShort) := by
      rcases hp with rfl | rfl | rfl | rfl
      · cases t <;> decide
      · cases t <;> decide
      · cases t <;> decide
      · have : t.isInt = false ∧ t.isFloat = false := hd rfl (t, n) List.mem_cons_self
        refine ⟨?_, fun _ => rfl⟩
        revert this
        cases t <;> decide
    exact ih (fun q hq => hX q (List.mem_cons_of_mem _ hq)) _ key.1 (fun h x hx => hd (key.2 h) x (List.mem_cons_of_mem _ hx))

theorem loop_two (t u : DType) (ht : t ≠ .string) (h1 : ¬ Clash t u) (h2 : ¬ Clash u t) :
    NonNum (overlap (firstPageType t) u) ∧ (overlap (firstPageType t) u = .dateShort → t = .dateShort) := by
  revert ht h1 h2
  cases t <;> cases u <;> decide

/-- the page type: one type of number if no other type was counted, else objects -/
theorem pageType_agree (U : DType → Prop) (hs : ¬ U .string) (hc : ∀ t u, U t → U u → ¬ Clash t u) (r : Rank) (hr : CountInv U r) (hpos : ∃ p ∈ r, 0 < p.2) :
    (∃ r', pageType r = .ok (.object, r') ∧ CountInv U r') ∨
    (∃ p t n r', pageType r = .ok (p, (t, n) :: r') ∧ U t ∧ (∀ q ∈ r, 0 < q.2 → q.1 = t) ∧ (p = .int ∧ t.isInt = true ∨ p = .float ∧ t.isFloat = true)) := by
  obtain ⟨X, e, hX⟩ := sort_split false r
  have hinv := sort_inv' U false r hr
  have hZn := rank_string_zero U hs r hr
  have hZ : ∀ p ∈ r.filter (fun p => decide (p.2 = 0)), p.2 = 0 := fun p hp => by simpa using (List.mem_filter.1 hp).2
  have hXp : ∀ p ∈ X, 0 < p.2 ∧ U p.1 := fun p hp => by
    have := List.mem_filter.1 (hX.mem_iff.1 hp)
    have h0 : 0 < p.2 := by simpa using this.2
    exact ⟨h0, hr.2.2 p this.1 h0⟩
  have hobj : ∀ p, NonNum p → pageTypeLoop .unset (sortRanks false r) = .ok p → ∃ r', pageType r = .ok (.object, r') ∧ CountInv U r' := by
    intro p hp hl
    refine ⟨sortRanks true (sortRanks false r), ?_, sort_inv' U true _ hinv⟩
    unfold pageType
    rw [hl]
    rcases hp with rfl | rfl | rfl | rfl <;> rfl
  cases X with
  | nil =>
    obtain ⟨p, hp, h0⟩ := hpos
    have := hX.mem_iff.2 (List.mem_filter.2 ⟨hp, by simpa using h0⟩)
    cases this
  | cons x X =>
    obtain ⟨t, n⟩ := x
    obtain ⟨hn, hUt⟩ := hXp (t, n) List.mem_cons_self
    have ht : t ≠ .string := fun h => hs (h ▸ hUt)
    have hn' : n ≠ 0 := Nat.pos_iff_ne_zero.1 hn
    cases X with
    | nil =>
      have hl : pageTypeLoop .unset (sortRanks false r) = .ok (firstPageType t) := by
        rw [e, List.cons_append, pageTypeLoop, if_neg hn', if_pos rfl, if_neg ht, List.nil_append, zero_next _ _ hZ hZn]
      have honly : ∀ q ∈ r, 0 < q.2 → q.1 = t := by
        intro q hq h0
        have := hX.mem_iff.2 (List.mem_filter.2 ⟨hq, by simpa using h0⟩)
        rw [List.mem_singleton.1 this]
      by_cases hnum : t.isInt = true ∨ t.isFloat = true
      · right
        refine ⟨firstPageType t, t, n, [] ++ r.filter (fun p => decide (p.2 = 0)), ?_, hUt, honly, ?_⟩
        · unfold pageType
          rw [hl, e]
          revert hnum
          cases t <;> first | (intro _; rfl) | (intro h; exact absurd h (by decide))
        · revert hnum
          cases t <;> decide
      · left
        refine hobj _ ?_ hl
        revert hnum ht
        cases t <;> decide
    | cons y X =>
      obtain ⟨u, m⟩ := y
      obtain ⟨hm, hUu⟩ := hXp (u, m) (List.mem_cons_of_mem _ List.mem_cons_self)
      have hm' : m ≠ 0 := Nat.pos_iff_ne_zero.1 hm
      obtain ⟨g1, g2⟩ := loop_two t u ht (hc t u hUt hUu) (hc u t hUu hUt)
      left
      obtain ⟨p', hp', hl⟩ := loop_rest X _ (fun p hp => (hXp p (List.mem_cons_of_mem _ (List.mem_cons_of_mem _ hp))).1) hZ hZn _ g1 (by
        intro hd x hx
        have hU := (hXp x (List.mem_cons_of_mem _ (List.mem_cons_of_mem _ hx))).2
        have := hc t x.1 hUt hU
        rw [g2 hd] at this
        revert this
        generalize x.1 = v
        cases v <;> decide)
      refine hobj p' hp' ?_
      have hset : firstPageType t ≠ .unset := by cases t <;> decide
      rw [e, List.cons_append, pageTypeLoop, if_neg hn', if_pos rfl, if_neg ht, List.cons_append, pageTypeLoop, if_neg hm', if_neg hset]
      exact hl

/-! ## one page -/

/-- Spec: the value of a text on its own -/
def aloneVal (pf : List Char → Option Rat) (s : List Char) : InfVal := (DType.all.findSome? fun t => (inferAs pf t s).toOption).getD .none

theorem aloneVal_taken (pf : List Char → Option Rat) (t : DType) (s : List Char) (h : TakenAs pf t s) : inferAs pf t s = .ok (aloneVal pf s) := by
  obtain ⟨⟨v, hv⟩, hb⟩ := h
  rw [hv]
  congr 1
  unfold aloneVal
  have hsplit : DType.all = DType.all.take (typePlace t) ++ t :: DType.all.drop (typePlace t + 1) := by cases t <;> rfl
  rw [hsplit, List.findSome?_append]
  have hnone : (DType.all.take (typePlace t)).findSome? (fun t => (inferAs pf t s).toOption) = none := by
    rw [List.findSome?_eq_none_iff]
    intro u hu
    rw [hb u (by revert hu; cases t <;> cases u <;> decide)]
    rfl
  rw [hnone]
  simp [hv, Except.toOption]

theorem kind_string {pf : List Char → Option Rat} {t : DType} {s x : List Char} (h : inferAs pf t s = .ok (.str x)) : t = .string := by
  cases t with
  | string => rfl
  | none =>
    change inferNone s = _ at h
    unfold inferNone at h
    split at h <;> cases h
  | bool =>
    change inferBool s = _ at h
    unfold inferBool at h
    dsimp only at h
    split at h
    · cases h
    · split at h <;> cases h
  | _ =>
    obtain ⟨d, _, hd⟩ := ebind_ok h
    cases hd

theorem kind_int {pf : List Char → Option Rat} {t : DType} {s : List Char} {v : InfVal} (ht : t.isInt = true) (h : inferAs pf t s = .ok v) : ∃ n, v = .int n := by
  cases t with
  | intSimple => obtain ⟨d, _, hd⟩ := ebind_ok h; cases hd; exact ⟨_, rfl⟩
  | intUS => obtain ⟨d, _, hd⟩ := ebind_ok h; cases hd; exact ⟨_, rfl⟩
  | intEU => obtain ⟨d, _, hd⟩ := ebind_ok h; cases hd; exact ⟨_, rfl⟩
  | _ => exact absurd ht (by decide)

theorem kind_float {pf : List Char → Option Rat} {t : DType} {s : List Char} {v : InfVal} (ht : t.isFloat = true) (h : inferAs pf t s = .ok v) : ∃ q, v = .float q := by
  cases t with
  | floatSimple => obtain ⟨d, _, hd⟩ := ebind_ok h; cases hd; exact ⟨_, rfl⟩
  | floatUS => obtain ⟨d, _, hd⟩ := ebind_ok h; cases hd; exact ⟨_, rfl⟩
  | floatEU => obtain ⟨d, _, hd⟩ := ebind_ok h; cases hd; exact ⟨_, rfl⟩
  | _ => exact absurd ht (by decide)

theorem kind_date {pf : List Char → Option Rat} {s : List Char} {v : InfVal} (h : inferAs pf .dateShort s = .ok v) : ∃ y m d, v = .date y m d := by
  obtain ⟨d, _, hd⟩ := ebind_ok h
  cases hd
  exact ⟨_, _, _, rfl⟩

/-- if texts agree, a page of them has the value of each text on its own -/
theorem typedCells_agree (pf : List Char → Option Rat) (T : List Char → Prop) (hA : TextsAgree pf T) (hT : ∀ s, T s → ∃ t, TakenAs pf t s) (cells : List (Option (List Char)))
    (hne : cells ≠ []) (hc : ∀ c ∈ cells, T (c.getD [])) : typedCells (inferAs pf) cells = .ok (cells.map fun c => aloneVal pf (c.getD [])) := by
  by_cases hstr : ∃ s, T s ∧ TakenAs pf .string s
  · obtain ⟨s0, hs0, ht0⟩ := hstr
    have hall : ∀ s, T s → TakenAs pf .string s := by
      intro s hs
      obtain ⟨t, ht⟩ := hT s hs
      rcases (hA s s0 t .string hs hs0 ht ht0).1 with h | h
      · cases h
      · have : t = .string := kind_string (x := s) h.symm
        exact this ▸ ht
    rw [typedCells_uniform pf .string (by decide) cells hne (fun c hcm => by
      have := hall _ (hc c hcm)
      exact .inl ⟨this.1, this.2 .none (by decide), fun u hu => this.2 u (by revert hu; cases u <;> decide)⟩)]
    apply mapM_ok
    intro c hcm
    have := hall _ (hc c hcm)
    rw [readOne_type ⟨this.1, this.2 .none (by decide), fun u hu => this.2 u (by revert hu; cases u <;> decide)⟩]
    exact aloneVal_taken pf .string _ this
  · let U : DType → Prop := fun u => ∃ s, T s ∧ TakenAs pf u s
    have hUs : ¬ U .string := hstr
    have hUc : ∀ t u, U t → U u → ¬ Clash t u := by
      rintro t u ⟨s, hs, ht⟩ ⟨s', hs', ht'⟩
      exact (hA s s' t u hs hs' ht ht').2
    have hUv : ∀ s, T s → ∀ t, TakenAs pf t s → ∀ u, U u → inferAs pf u s = .error .value ∨ inferAs pf u s = inferAs pf t s := by
      rintro s hs t ht u ⟨s', hs', ht'⟩
      exact (hA s s' t u hs hs' ht ht').1
    obtain ⟨r, w, e, hr, -, hall⟩ := ranks_all pf U (cells.map (·.getD [])) 1 newRank (newRank_count U) (by
      intro s hs
      obtain ⟨c, hcm, rfl⟩ := List.mem_map.1 hs
      obtain ⟨t, ht⟩ := hT _ (hc c hcm)
      exact ⟨t, ht, ⟨_, hc c hcm, ht⟩, hUv _ (hc c hcm) t ht⟩)
    unfold typedCells
    rw [e]
    show (pageType r >>= _) = _
    have hpos : ∃ p ∈ r, 0 < p.2 := by
      obtain ⟨c, l, rfl⟩ := List.exists_cons_of_ne_nil hne
      obtain ⟨u, _, _, p, hp, _, h0⟩ := hall (c.getD []) (by simp)
      exact ⟨p, hp, h0⟩
    have hempty : T [] → TakenAs pf .none [] := fun _ => ⟨⟨.none, rfl⟩, fun u hu => by revert hu; cases u <;> exact fun h => absurd h (by decide)⟩
    rcases pageType_agree U hUs hUc r hr hpos with ⟨r', hp, hr'⟩ | ⟨p, t, n, r', hp, hUt, honly, hcase⟩
    · rw [hp]
      apply mapM_ok
      intro c hcm
      cases c with
      | some s =>
        obtain ⟨t, ht⟩ := hT s (hc _ hcm)
        show inferFirst (fun u => inferAs pf u s) (fun _ => true) r' = _
        rw [rank_reads pf U r' hr' t s ht (hUv s (hc _ hcm) t ht)]
        exact aloneVal_taken pf t s ht
      | none =>
        have := aloneVal_taken pf .none [] (hempty (hc _ hcm))
        show Except.ok InfVal.none = _
        rw [Option.getD_none]
        exact this
    · rw [hp]
      have hread : ∀ c ∈ cells, inferAs pf t (c.getD []) = .ok (aloneVal pf (c.getD [])) := by
        intro c hcm
        obtain ⟨u, hu, hval, q, hq, e, h0⟩ := hall (c.getD []) (List.mem_map.2 ⟨c, hcm, rfl⟩)
        obtain ⟨t', ht'⟩ := hT _ (hc c hcm)
        rw [← honly q hq h0, e, hval t' ht']
        exact aloneVal_taken pf t' _ ht'
      apply mapM_ok
      intro c hcm
      have h1 := hread c hcm
      cases c with
      | some s =>
        change inferAs pf t s = _ at h1
        rcases hcase with ⟨rfl, ht⟩ | ⟨rfl, ht⟩
        · show inferFirst (fun u => inferAs pf u s) DType.isInt _ = _
          rw [inferFirst, if_pos ht, h1]
        · show inferFirst (fun u => inferAs pf u s) DType.isFloat _ = _
          rw [inferFirst, if_pos ht, h1]
      | none =>
        have h2 := aloneVal_taken pf .none [] (hempty (hc _ hcm))
        rw [Option.getD_none] at h1
        rw [← h2] at h1
        change inferAs pf t [] = .ok .none at h1
        rcases hcase with ⟨_, ht⟩ | ⟨_, ht⟩
        · obtain ⟨x, hx⟩ := kind_int ht h1; cases hx
        · obtain ⟨x, hx⟩ := kind_float ht h1; cases hx

/-! ## pages of two texts -/

/-- the rank after one text -/
def oneRank (t : DType) (n : Nat) : Rank := (t, n) :: (DType.all.filter (· ≠ t)).map fun u => (u, 0)

theorem oneRank_zero (t : DType) : ∀ p ∈ (DType.all.filter (· ≠ t)).map (fun u => (u, 0)), p.2 = 0 := by
  intro p hp
  obtain ⟨u, _, rfl⟩ := List.mem_map.1 hp
  rfl

theorem update_one (pf : List Char → Option Rat) (t : DType) (s : List Char) (h : TakenAs pf t s) : updateRank (fun u => inferAs pf u s) newRank = .ok (t, oneRank t 1) := by
  have hsplit : newRank = (DType.all.take (typePlace t)).map (fun u => (u, 0)) ++ (t, 0) :: (DType.all.drop (typePlace t + 1)).map fun u => (u, 0) := by cases t <;> rfl
  have hsort : sortRanks true ((DType.all.take (typePlace t)).map (fun u => (u, 0)) ++ (t, 0 + 1) :: (DType.all.drop (typePlace t + 1)).map fun u => (u, 0)) = oneRank t 1 := by
    cases t <;> decide
  unfold updateRank
  rw [hsplit, countFirst_pre (fun u => inferAs pf u s) _ _ t 0 (by
    intro p hp
    obtain ⟨u, hu, rfl⟩ := List.mem_map.1 hp
    exact h.2 u (by revert hu; cases t <;> cases u <;> decide)) h.1]
  show Except.ok (t, sortRanks true _) = _
  rw [hsort]

/-- the type of a page with one counted type -/
def soleType (t : DType) : PageType := if t = .string then .unicode else if t.isInt then .int else if t.isFloat then .float else .object

theorem pageType_sole (t : DType) : pageType (oneRank t 2) = .ok (soleType t, oneRank t 2) := by cases t <;> rfl

theorem write_sole (pf : List Char → Option Rat) (t : DType) (w : Nat) (s : List Char) (v a : InfVal) (hv : inferAs pf t s = .ok v)
    (h : writeValue (inferAs pf) (soleType t) (oneRank t 2) w s = .ok a) : a = v := by
  have hhead : ∀ p : DType → Bool, p t = true → inferFirst (fun u => inferAs pf u s) p (oneRank t 2) = .ok v := by
    intro p hp
    unfold oneRank
    rw [inferFirst, if_pos hp, hv]
  have hnum : ∀ p : DType → Bool, p t = true → inferFirst (fun u => inferAs pf u s) p (oneRank t 2) = .ok a → a = v := by
    intro p hp h
    rw [hhead p hp] at h
    cases h; rfl
  cases t with
  | string =>
    change (if w < s.length then (.error .overflow : Except Err InfVal) else .ok (.str s)) = _ at h
    split at h
    · cases h
    · cases h; cases hv; rfl
  | intSimple => exact hnum _ rfl h
  | intUS => exact hnum _ rfl h
  | intEU => exact hnum _ rfl h
  | floatSimple => exact hnum _ rfl h
  | floatUS => exact hnum _ rfl h
  | floatEU => exact hnum _ rfl h
  | none => exact hnum (fun _ => true) rfl h
  | bool => exact hnum (fun _ => true) rfl h
  | dateShort => exact hnum (fun _ => true) rfl h
  | datetime => exact hnum (fun _ => true) rfl h
  | datetimeUS => exact hnum (fun _ => true) rfl h
  | date => exact hnum (fun _ => true) rfl h
  | dateUS => exact hnum (fun _ => true) rfl h
  | time => exact hnum (fun _ => true) rfl h

theorem typedCells_two (inf : DType → List Char → Except Err InfVal) (s s' : List Char) (vals : List InfVal) (h : typedCells inf [some s, some s'] = .ok vals) :
    ∃ t r t' r' p q w, updateRank (fun u => inf u s) newRank = .ok (t, r) ∧ updateRank (fun u => inf u s') r = .ok (t', r') ∧ pageType r' = .ok (p, q) ∧
      ∃ a b, vals = [a, b] ∧ writeValue inf p q w s = .ok a ∧ writeValue inf p q w s' = .ok b := by
  unfold typedCells at h
  obtain ⟨x, hx, h⟩ := ebind_ok h
  obtain ⟨⟨p, q⟩, hp, h⟩ := ebind_ok h
  change rankLoop inf newRank 1 [s, s'] = _ at hx
  rw [rankLoop] at hx
  obtain ⟨⟨t, r⟩, h1, hx⟩ := ebind_ok hx
  rw [rankLoop] at hx
  obtain ⟨⟨t', r'⟩, h2, hx⟩ := ebind_ok hx
  rw [rankLoop] at hx
  cases hx
  rw [List.mapM_cons] at h
  obtain ⟨a, ha, h⟩ := ebind_ok h
  obtain ⟨l, hl, h⟩ := ebind_ok h
  rw [List.mapM_cons] at hl
  obtain ⟨b, hb, hl⟩ := ebind_ok hl
  obtain ⟨l', hl', hl⟩ := ebind_ok hl
  cases hl'
  cases hl
  cases h
  exact ⟨t, r, t', r', p, q, _, h1, h2, hp, a, b, rfl, ha, hb⟩

theorem inferFirst_some {inf : DType → Except Err InfVal} {p : DType → Bool} {r : Rank} {v : InfVal} (h : inferFirst inf p r = .ok v) : ∃ t, p t = true ∧ inf t = .ok v := by
  induction r with
  | nil => cases h
  | cons x r ih =>
    obtain ⟨t, n⟩ := x
    rw [inferFirst] at h
    by_cases hp : p t = true
    · rw [if_pos hp] at h
      cases hi : inf t with
      | ok w => rw [hi] at h; cases h; exact ⟨t, hp, hi⟩
      | error e =>
        rw [hi] at h
        cases e with
        | value => exact ih h
        | _ => cases h
    · rw [if_neg hp] at h
      exact ih h

/-- the types of two texts that clash give a page of numbers -/
theorem clash_page (t u : DType) (h : Clash t u) : ∃ pre post, oneRank t 1 = (t, 1) :: (pre ++ (u, 0) :: post) ∧ (∀ p ∈ pre, typePlace p.1 < typePlace u) ∧
    (pageType (sortRanks true ((t, 1) :: (pre ++ (u, 0 + 1) :: post)))).map (·.1) = .ok (if u.isFloat then .float else .int) := by
  refine ⟨((DType.all.filter (· ≠ t)).takeWhile (· ≠ u)).map (fun u => (u, 0)), (((DType.all.filter (· ≠ t)).dropWhile (· ≠ u)).tail).map (fun u => (u, 0)), ?_⟩
  revert h
  cases t <;> cases u <;> first | (intro h; exact absurd h (by decide)) | (intro _; exact ⟨rfl, by decide, by decide⟩)

/-- **C130**, exactly: texts are read, in whatever pages they come, as each of them is read on its own, if and only if they agree - none can be read as the type of another one with another value, and
their types are not turned into one another (ints next to floats, eight digit dates next to numbers) -/
theorem C130_exact (pf : List Char → Option Rat) (T : List Char → Prop) (hT : ∀ s, T s → ∃ t, TakenAs pf t s) :
    (∀ cells : List (Option (List Char)), cells ≠ [] → (∀ c ∈ cells, T (c.getD [])) → typedCells (inferAs pf) cells = .ok (cells.map fun c => aloneVal pf (c.getD []))) ↔
      TextsAgree pf T := by
  refine ⟨fun h => ?_, fun hA cells hne hc => typedCells_agree pf T hA hT cells hne hc⟩
  have hfirst : ∀ s s' t t', T s → T s' → TakenAs pf t s → TakenAs pf t' s' → inferAs pf t' s = .error .value ∨ inferAs pf t' s = inferAs pf t s := by
    intro s s' t t' hs hs' ht ht'
    have h2 := h [some s', some s] (by simp) (by
      intro c hc
      rcases List.mem_cons.1 hc with rfl | hc
      · exact hs'
      · rw [List.mem_singleton.1 hc]; exact hs)
    obtain ⟨u, r, u', r', p, q, w, e1, e2, e3, a, b, ev, _, hb⟩ := typedCells_two _ _ _ _ h2
    rw [update_one pf t' s' ht'] at e1
    cases e1
    cases hv : inferAs pf t' s with
    | ok v =>
      right
      have e4 : updateRank (fun u => inferAs pf u s) (oneRank t' 1) = .ok (t', oneRank t' 2) := by
        unfold updateRank oneRank
        rw [countFirst, hv]
        show Except.ok (t', sortRanks true _) = _
        rw [sort_one true _ _ (oneRank_zero t')]
      rw [e4] at e2
      cases e2
      rw [pageType_sole] at e3
      cases e3
      have := write_sole pf t' w s v b hv hb
      simp only [List.map_cons, List.map_nil, Option.getD_some, List.cons.injEq, and_true] at ev
      rw [aloneVal_taken pf t s ht, ev.2, this]
    | error e =>
      left
      have : e = .value := by
        by_contra hne
        unfold updateRank oneRank at e2
        rw [countFirst, hv] at e2
        cases e <;> first | exact hne rfl | cases e2
      rw [this]
  intro s s' t t' hs hs' ht ht'
  refine ⟨hfirst s s' t t' hs hs' ht ht', fun hcl => ?_⟩
  -- the second text is not read as the type of the first
  have hno : inferAs pf t s' = .error .value := by
    rcases hfirst s' s t' t hs' hs ht' ht with h1 | h1
    · exact h1
    · exfalso
      obtain ⟨v, hv⟩ := ht'.1
      rw [hv] at h1
      rcases hcl with ⟨hi, hf⟩ | ⟨rfl, hi | hf⟩
      · obtain ⟨n, rfl⟩ := kind_int hi h1
        obtain ⟨x, hx⟩ := kind_float hf hv
        cases hx
      · obtain ⟨y, m, d, rfl⟩ := kind_date h1
        obtain ⟨x, hx⟩ := kind_int hi hv
        cases hx
      · obtain ⟨y, m, d, rfl⟩ := kind_date h1
        obtain ⟨x, hx⟩ := kind_float hf hv
        cases hx
  have h2 := h [some s, some s'] (by simp) (by
    intro c hc
    rcases List.mem_cons.1 hc with rfl | hc
    · exact hs
    · rw [List.mem_singleton.1 hc]; exact hs')
  obtain ⟨u, r, u', r', p, q, w, e1, e2, e3, a, b, ev, ha, _⟩ := typedCells_two _ _ _ _ h2
  rw [update_one pf t s ht] at e1
  cases e1
  obtain ⟨pre, post, g1, g2, g3⟩ := clash_page t t' hcl
  have e4 : updateRank (fun u => inferAs pf u s') (oneRank t 1) = .ok (t', sortRanks true ((t, 1) :: (pre ++ (t', 0 + 1) :: post))) := by
    unfold updateRank
    rw [g1]
    have := countFirst_pre (fun u => inferAs pf u s') ((t, 1) :: pre) post t' 0 (by
      intro p hp
      rcases List.mem_cons.1 hp with rfl | hp
      · exact hno
      · exact ht'.2 _ (g2 p hp)) ht'.1
    rw [List.cons_append, List.cons_append] at this
    rw [this]
    rfl
  rw [e4] at e2
  cases e2
  rw [e3] at g3
  change Except.ok p = _ at g3
  injection g3 with g3
  simp only [List.map_cons, List.map_nil, Option.getD_some, List.cons.injEq, and_true] at ev
  have hown := aloneVal_taken pf t s ht
  rw [ev.1] at hown
  rcases hcl with ⟨hi, hf⟩ | ⟨rfl, hi | hf⟩
  · rw [if_pos hf] at g3
    subst g3
    obtain ⟨u, hu, hv⟩ := inferFirst_some (show inferFirst (fun u => inferAs pf u s) DType.isFloat q = .ok a from ha)
    obtain ⟨x, rfl⟩ := kind_float hu hv
    obtain ⟨y, hy⟩ := kind_int hi hown
    cases hy
  · rw [if_neg (by revert hi; cases t' <;> decide)] at g3
    subst g3
    obtain ⟨u, hu, hv⟩ := inferFirst_some (show inferFirst (fun u => inferAs pf u s) DType.isInt q = .ok a from ha)
    obtain ⟨x, rfl⟩ := kind_int hu hv
    obtain ⟨y, m, d, hy⟩ := kind_date hown
    cases hy
  · rw [if_pos hf] at g3
    subst g3
    obtain ⟨u, hu, hv⟩ := inferFirst_some (show inferFirst (fun u => inferAs pf u s) DType.isFloat q = .ok a from ha)
    obtain ⟨x, rfl⟩ := kind_float hu hv
    obtain ⟨y, m, d, hy⟩ := kind_date hown
    cases hy

end Tablite
