import Verif.Props.ImportTyped
/-!
# C130: whether an import with guessed types depends on the page size
-/

namespace Tablite

/-! ## ranks with at most two counted types -/

/-- the order of `sortRanks` -/
theorem sortRanks_cmp (b : Bool) : ∃ cmp : DType × Nat → DType × Nat → Bool, (∀ r, sortRanks b r = insertSort cmp r) ∧ (∀ v x, v.2 = 0 → cmp v x = false) ∧
    (∀ v x, 0 < v.2 → x.2 = 0 → cmp v x = true) ∧ (∀ v x, v.1 ≠ .string → x.1 ≠ .string → cmp v x = decide (v.2 > x.2)) := by
  cases b with
  | false =>
    refine ⟨cmpDtypes, fun r => rfl, ?_, ?_, fun _ _ _ _ => rfl⟩
    · intro v x h; unfold cmpDtypes; simp [h]
    · intro v x h h'; unfold cmpDtypes; simp [h', h]
  | true =>
    refine ⟨cmpStringless, fun r => rfl, ?_, ?_, ?_⟩
    · intro v x h; unfold cmpStringless cmpDtypes; simp [h]
    · intro v x h h'; unfold cmpStringless cmpDtypes; simp [h', h]
    · intro v x h h'; unfold cmpStringless cmpDtypes; simp [h, h']

theorem foldl_zeros (cmp : DType × Nat → DType × Nat → Bool) (h0 : ∀ v x, v.2 = 0 → cmp v x = false) (zs acc : Rank) (hz : ∀ p ∈ zs, p.2 = 0) :
    zs.foldl (fun sorted v => insertBack cmp v sorted) acc = zs.reverse ++ acc := by
  induction zs generalizing acc with
  | nil => rfl
  | cons z zs ih =>
    rw [List.foldl_cons, ih _ fun p hp => hz p (List.mem_cons_of_mem _ hp), List.reverse_cons, List.append_assoc]
    congr 1
    have hz0 := hz z List.mem_cons_self
    cases acc with
    | nil => rfl
    | cons x xs => rw [insertBack, if_neg (by rw [h0 _ _ hz0]; simp)]; rfl

theorem insertBack_zeros (cmp : DType × Nat → DType × Nat → Bool) (h1 : ∀ v x, 0 < v.2 → x.2 = 0 → cmp v x = true) (v : DType × Nat) (hv : 0 < v.2) (zs acc : Rank)
    (hz : ∀ p ∈ zs, p.2 = 0) : insertBack cmp v (zs ++ acc) = zs ++ insertBack cmp v acc := by
  induction zs with
  | nil => rfl
  | cons z zs ih =>
    rw [List.cons_append, insertBack, if_pos (h1 _ _ hv (hz z List.mem_cons_self)), ih fun p hp => hz p (List.mem_cons_of_mem _ hp)]
    rfl

theorem sort_two (b : Bool) (x y : DType × Nat) (zs : Rank) (hz : ∀ p ∈ zs, p.2 = 0) (hx : x.1 ≠ .string) (hy : y.1 ≠ .string) :
    sortRanks b (x :: y :: zs) = if y.2 > x.2 then y :: x :: zs else x :: y :: zs := by
  obtain ⟨cmp, h, h0, h1, h2⟩ := sortRanks_cmp b
  rw [h, insertSort, List.foldl_cons, List.foldl_cons, foldl_zeros cmp h0 _ _ hz]
  simp only [insertBack, h2 y x hy hx, decide_eq_true_eq]
  by_cases hxy : y.2 > x.2
  · rw [if_pos hxy, if_pos hxy]; simp
  · rw [if_neg hxy, if_neg hxy]; simp

theorem sort_one (b : Bool) (x : DType × Nat) (zs : Rank) (hz : ∀ p ∈ zs, p.2 = 0) : sortRanks b (x :: zs) = x :: zs := by
  obtain ⟨cmp, h, h0, h1, h2⟩ := sortRanks_cmp b
  rw [h, insertSort, List.foldl_cons, foldl_zeros cmp h0 _ _ hz]
  simp [insertBack]

theorem sort_mid (b : Bool) (x v : DType × Nat) (pre post : Rank) (hp : ∀ p ∈ pre, p.2 = 0) (hq : ∀ p ∈ post, p.2 = 0) (hv : 0 < v.2)
    (hs : x.2 = 0 ∨ (x.1 ≠ .string ∧ v.1 ≠ .string)) :
    sortRanks b (x :: (pre ++ v :: post)) = if v.2 > x.2 then v :: x :: (pre ++ post) else x :: v :: (pre ++ post) := by
  obtain ⟨cmp, h, h0, h1, h2⟩ := sortRanks_cmp b
  rw [h, insertSort, List.foldl_cons, List.foldl_append, foldl_zeros cmp h0 _ _ hp, List.foldl_cons, foldl_zeros cmp h0 _ _ hq,
    insertBack_zeros cmp h1 v hv _ _ (fun p hp' => hp p (List.mem_reverse.1 hp'))]
  have hc : cmp v x = decide (v.2 > x.2) := by
    rcases hs with hs | ⟨hs1, hs2⟩
    · rw [h1 v x hv hs]; simp; omega
    · exact h2 v x hs2 hs1
  simp only [insertBack, hc, decide_eq_true_eq]
  by_cases hxy : v.2 > x.2
  · rw [if_pos hxy, if_pos hxy]; simp
  · rw [if_neg hxy, if_neg hxy]; simp

/-- the types tried before and after a type, apart from `none`, the first -/
def typesBefore (t : DType) : List DType := DType.all.tail.takeWhile (· ≠ t)
def typesAfter (t : DType) : List DType := (DType.all.tail.dropWhile (· ≠ t)).tail

theorem all_split (t : DType) (h : t ≠ .none) : DType.all = .none :: (typesBefore t ++ t :: typesAfter t) := by
  cases t <;> first | exact absurd rfl h | rfl

theorem string_last : typesAfter .string = [] := by decide

/-- all counts are zero -/
def zeroRank (ts : List DType) : Rank := ts.map fun t => (t, 0)

theorem zeroRank_mem (ts : List DType) (p : DType × Nat) (h : p ∈ zeroRank ts) : p.2 = 0 ∧ p.1 ∈ ts := by
  obtain ⟨t, ht, rfl⟩ := List.mem_map.1 h
  exact ⟨rfl, ht⟩

/-- `a` values without content and `b` values of type `t` have been counted -/
def RankState (t : DType) (a b : Nat) (r : Rank) : Prop :=
  (b = 0 ∧ r = (.none, a) :: (zeroRank (typesBefore t) ++ (t, 0) :: zeroRank (typesAfter t))) ∨
  (0 < b ∧ b ≤ a ∧ r = (.none, a) :: (t, b) :: (zeroRank (typesBefore t) ++ zeroRank (typesAfter t))) ∨
  (0 < b ∧ a ≤ b ∧ r = (t, b) :: (.none, a) :: (zeroRank (typesBefore t) ++ zeroRank (typesAfter t)))

theorem newRank_state (t : DType) (h : t ≠ .none) : RankState t 0 0 newRank := by
  refine Or.inl ⟨rfl, ?_⟩
  unfold newRank
  rw [all_split t h]
  simp [zeroRank]

/-- the text is read as `t`, and as no type tried before it -/
def FirstType (inf : DType → List Char → Except Err InfVal) (t : DType) (s : List Char) : Prop :=
  (∃ v, inf t s = .ok v) ∧ inf .none s = .error .value ∧ ∀ u ∈ typesBefore t, inf u s = .error .value

/-- the text stands for no value, and is not read as `t` -/
def NoValue (inf : DType → List Char → Except Err InfVal) (t : DType) (s : List Char) : Prop :=
  t ≠ .string ∧ (∃ v, inf .none s = .ok v) ∧ inf t s = .error .value

theorem countFirst_pre (inf : DType → Except Err InfVal) (pre post : Rank) (t : DType) (n : Nat) (hp : ∀ p ∈ pre, inf p.1 = .error .value) (ht : ∃ v, inf t = .ok v) :
    countFirst inf (pre ++ (t, n) :: post) = .ok (t, pre ++ (t, n + 1) :: post) := by
  induction pre with
  | nil => obtain ⟨v, hv⟩ := ht; rw [List.nil_append, countFirst, hv]; rfl
  | cons a pre ih =>
    obtain ⟨u, m⟩ := a
    rw [List.cons_append, countFirst, hp (u, m) List.mem_cons_self, ih fun p h => hp p (List.mem_cons_of_mem _ h)]
    rfl

theorem zero_both (t : DType) : ∀ p ∈ zeroRank (typesBefore t) ++ zeroRank (typesAfter t), p.2 = 0 := by
  intro p hp
  rcases List.mem_append.1 hp with h | h
  · exact (zeroRank_mem _ _ h).1
  · exact (zeroRank_mem _ _ h).1

/-- a value of type `t` -/
theorem step_type (inf : DType → List Char → Except Err InfVal) (t : DType) (s : List Char) (a b : Nat) (r : Rank) (hr : RankState t a b r)
    (hstr : t = .string → a = 0) (hs : FirstType inf t s) : ∃ r', updateRank (fun u => inf u s) r = .ok (t, r') ∧ RankState t a (b + 1) r' := by
  obtain ⟨hok, hnone, hpre⟩ := hs
  unfold updateRank
  rcases hr with ⟨rfl, rfl⟩ | ⟨hb, hba, rfl⟩ | ⟨hb, hab, rfl⟩
  · have h := countFirst_pre (fun u => inf u s) ((.none, a) :: zeroRank (typesBefore t)) (zeroRank (typesAfter t)) t 0 (by
      intro p hp
      rcases List.mem_cons.1 hp with rfl | hp
      · exact hnone
      · exact hpre _ (zeroRank_mem _ _ hp).2) hok
    rw [List.cons_append] at h
    rw [h]
    refine ⟨_, rfl, ?_⟩
    dsimp only
    rw [List.cons_append, sort_mid true (.none, a) (t, 0 + 1) _ _ (fun p hp => (zeroRank_mem _ _ hp).1) (fun p hp => (zeroRank_mem _ _ hp).1) (by simp) (by
      by_cases ht : t = .string
      · exact Or.inl (hstr ht)
      · exact Or.inr ⟨by simp, ht⟩)]
    by_cases ha : 0 + 1 > a
    · rw [if_pos ha]; exact Or.inr (Or.inr ⟨by omega, by omega, rfl⟩)
    · rw [if_neg ha]; exact Or.inr (Or.inl ⟨by omega, by omega, rfl⟩)
  · have h := countFirst_pre (fun u => inf u s) [(.none, a)] (zeroRank (typesBefore t) ++ zeroRank (typesAfter t)) t b (by
      intro p hp
      rcases List.mem_cons.1 hp with rfl | hp
      · exact hnone
      · cases hp) hok
    rw [List.cons_append, List.nil_append] at h
    rw [h]
    refine ⟨_, rfl, ?_⟩
    dsimp only
    have ht : t ≠ .string := fun e => by have := hstr e; omega
    rw [List.cons_append, List.nil_append, sort_two true (.none, a) (t, b + 1) _ (zero_both t) (by simp) ht]
    by_cases hc : b + 1 > a
    · rw [if_pos hc]; exact Or.inr (Or.inr ⟨by omega, by omega, rfl⟩)
    · rw [if_neg hc]; exact Or.inr (Or.inl ⟨by omega, by omega, rfl⟩)
  · have h := countFirst_pre (fun u => inf u s) [] ((.none, a) :: (zeroRank (typesBefore t) ++ zeroRank (typesAfter t))) t b (by simp) hok
    rw [List.nil_append] at h
    rw [h]
    refine ⟨_, rfl, ?_⟩
    dsimp only
    rw [List.nil_append]
    by_cases ht : t = .string
    · have ha := hstr ht
      rw [sort_one true (t, b + 1) _ (by
        intro p hp
        rcases List.mem_cons.1 hp with rfl | hp
        · exact ha
        · exact zero_both t p hp)]
      exact Or.inr (Or.inr ⟨by omega, by omega, rfl⟩)
    · rw [sort_two true (t, b + 1) (.none, a) _ (zero_both t) ht (by simp), if_neg (by dsimp only; omega)]
      exact Or.inr (Or.inr ⟨by omega, by omega, rfl⟩)

/-- a text without content -/
theorem step_none (inf : DType → List Char → Except Err InfVal) (t : DType) (s : List Char) (a b : Nat) (r : Rank) (hr : RankState t a b r) (hs : NoValue inf t s) :
    ∃ r', updateRank (fun u => inf u s) r = .ok (.none, r') ∧ RankState t (a + 1) b r' := by
  obtain ⟨ht, hok, hno⟩ := hs
  unfold updateRank
  rcases hr with ⟨rfl, rfl⟩ | ⟨hb, hba, rfl⟩ | ⟨hb, hab, rfl⟩
  · have h := countFirst_pre (fun u => inf u s) [] (zeroRank (typesBefore t) ++ (t, 0) :: zeroRank (typesAfter t)) .none a (by simp) hok
    rw [List.nil_append] at h
    rw [h]
    refine ⟨_, rfl, ?_⟩
    dsimp only
    rw [List.nil_append, sort_one true (.none, a + 1) _ (by
      intro p hp
      rcases List.mem_append.1 hp with hp | hp
      · exact (zeroRank_mem _ _ hp).1
      · rcases List.mem_cons.1 hp with rfl | hp
        · rfl
        · exact (zeroRank_mem _ _ hp).1)]
    exact Or.inl ⟨rfl, rfl⟩
  · have h := countFirst_pre (fun u => inf u s) [] ((t, b) :: (zeroRank (typesBefore t) ++ zeroRank (typesAfter t))) .none a (by simp) hok
    rw [List.nil_append] at h
    rw [h]
    refine ⟨_, rfl, ?_⟩
    dsimp only
    rw [List.nil_append, sort_two true (.none, a + 1) (t, b) _ (zero_both t) (by simp) ht, if_neg (by dsimp only; omega)]
    exact Or.inr (Or.inl ⟨by omega, by omega, rfl⟩)
  · have h := countFirst_pre (fun u => inf u s) [(t, b)] (zeroRank (typesBefore t) ++ zeroRank (typesAfter t)) .none a (by
      intro p hp
      rcases List.mem_cons.1 hp with rfl | hp
      · exact hno
      · cases hp) hok
    rw [List.cons_append, List.nil_append] at h
    rw [h]
    refine ⟨_, rfl, ?_⟩
    dsimp only
    rw [List.cons_append, List.nil_append, sort_two true (t, b) (.none, a + 1) _ (zero_both t) ht (by simp)]
    by_cases hc : a + 1 > b
    · rw [if_pos hc]; exact Or.inr (Or.inl ⟨by omega, by omega, rfl⟩)
    · rw [if_neg hc]; exact Or.inr (Or.inr ⟨by omega, by omega, rfl⟩)

/-- the ranking of a column of one type -/
theorem rankLoop_uniform (inf : DType → List Char → Except Err InfVal) (t : DType) (values : List (List Char)) (hu : ∀ s ∈ values, FirstType inf t s ∨ NoValue inf t s)
    (a b w : Nat) (r : Rank) (hr : RankState t a b r) (hstr : t = .string → a = 0) :
    ∃ r' a' b' w', rankLoop inf r w values = .ok (r', w') ∧ RankState t a' b' r' ∧ a' + b' = a + b + values.length ∧ a ≤ a' ∧ w ≤ w' ∧ (t = .string → a' = 0) ∧
      (t = .string → ∀ s ∈ values, s.length ≤ w') ∧ ∀ s ∈ values, FirstType inf t s ∨ 0 < a' := by
  induction values generalizing a b w r with
  | nil => exact ⟨r, a, b, w, rfl, hr, rfl, Nat.le_refl _, Nat.le_refl _, hstr, fun _ s hs => (by cases hs), fun s hs => (by cases hs)⟩
  | cons s l ih =>
    rcases hu s List.mem_cons_self with h | h
    · obtain ⟨r1, h1, h2⟩ := step_type inf t s a b r hr hstr h
      obtain ⟨r', a', b', w', g1, g2, g3, g4, g5, g6, g7, g8⟩ := ih (fun x hx => hu x (List.mem_cons_of_mem _ hx)) a (b + 1)
        (if t = .string then max s.length w else w) r1 h2 hstr
      refine ⟨r', a', b', w', ?_, g2, by rw [List.length_cons]; omega, g4, ?_, g6, ?_, ?_⟩
      · rw [rankLoop, h1]; exact g1
      · refine Nat.le_trans ?_ g5
        by_cases ht : t = .string
        · rw [if_pos ht]; exact Nat.le_max_right _ _
        · rw [if_neg ht]
      · intro ht x hx
        rcases List.mem_cons.1 hx with rfl | hx
        · rw [if_pos ht] at g5
          exact Nat.le_trans (Nat.le_max_left _ _) g5
        · exact g7 ht x hx
      · intro x hx
        rcases List.mem_cons.1 hx with rfl | hx
        · exact Or.inl h
        · exact g8 x hx
    · obtain ⟨r1, h1, h2⟩ := step_none inf t s a b r hr h
      obtain ⟨r', a', b', w', g1, g2, g3, g4, g5, g6, g7, g8⟩ := ih (fun x hx => hu x (List.mem_cons_of_mem _ hx)) (a + 1) b w r1 h2
        (fun e => absurd e h.1)
      refine ⟨r', a', b', w', ?_, g2, by rw [List.length_cons]; omega, by omega, g5, g6, fun ht => absurd ht h.1, ?_⟩
      · rw [rankLoop, h1]
        exact g1
      · intro x hx
        rcases List.mem_cons.1 hx with rfl | hx
        · exact Or.inr (by omega)
        · exact g8 x hx

/-! ## the page of a column of one type -/

theorem zero_next (p : PageType) (zs : Rank) (hz : ∀ q ∈ zs, q.2 = 0) (hne : zs ≠ []) : pageTypeLoop p zs = .ok p := by
  cases zs with
  | nil => exact absurd rfl hne
  | cons q zs => obtain ⟨u, n⟩ := q; rw [pageTypeLoop, if_pos (hz _ List.mem_cons_self)]

theorem both_ne (t : DType) (h : t ≠ .none) : zeroRank (typesBefore t) ++ zeroRank (typesAfter t) ≠ [] := by
  cases t <;> first | exact absurd rfl h | decide

theorem overlap_object (t : DType) : overlap .object t = .object := by cases t <;> rfl

theorem pageType_state (t : DType) (hn : t ≠ .none) (a b : Nat) (r : Rank) (hr : RankState t a b r) (hab : 0 < a + b) (hstr : t = .string → a = 0) :
    (∃ r', pageType r = .ok (.object, r') ∧ RankState t a b r' ∧ t ≠ .string) ∨
    (∃ p r', pageType r = .ok (p, (t, b) :: r') ∧ a = 0 ∧ (p = .unicode ∧ t = .string ∨ p = .int ∧ t.isInt = true ∨ p = .float ∧ t.isFloat = true)) := by
  have hz := zero_both t
  have hne := both_ne t hn
  rcases hr with ⟨rfl, rfl⟩ | ⟨hb, hba, rfl⟩ | ⟨hb, hab', rfl⟩
  · have ht : t ≠ .string := fun e => by have := hstr e; omega
    have hz' : ∀ p ∈ zeroRank (typesBefore t) ++ (t, 0) :: zeroRank (typesAfter t), p.2 = 0 := by
      intro p hp
      rcases List.mem_append.1 hp with hp | hp
      · exact (zeroRank_mem _ _ hp).1
      · rcases List.mem_cons.1 hp with rfl | hp
        · rfl
        · exact (zeroRank_mem _ _ hp).1
    left
    refine ⟨_, ?_, Or.inl ⟨rfl, rfl⟩, ht⟩
    unfold pageType
    rw [sort_one false _ _ hz', pageTypeLoop, if_neg (by omega), if_pos rfl, if_neg (by simp), zero_next _ _ hz' (by simp)]
    show Except.ok (PageType.object, sortRanks true _) = _
    rw [sort_one true _ _ hz']
  · have ht : t ≠ .string := fun e => by have := hstr e; omega
    left
    refine ⟨_, ?_, Or.inr (Or.inl ⟨hb, hba, rfl⟩), ht⟩
    unfold pageType
    rw [sort_two false _ _ _ hz (by simp) ht, if_neg (by dsimp only; omega), pageTypeLoop, if_neg (by omega), if_pos rfl, if_neg (by simp), pageTypeLoop,
      if_neg (by omega), if_neg (by simp [firstPageType])]
    show (pageTypeLoop (overlap .object t) _ >>= _) = _
    rw [overlap_object, zero_next _ _ hz hne]
    show Except.ok (PageType.object, sortRanks true _) = _
    rw [sort_two true _ _ _ hz (by simp) ht, if_neg (by dsimp only; omega)]
  · by_cases ha : a = 0
    · subst ha
      have hz' : ∀ p ∈ ((.none, 0) :: (zeroRank (typesBefore t) ++ zeroRank (typesAfter t)) : Rank), p.2 = 0 := by
        intro p hp
        rcases List.mem_cons.1 hp with rfl | hp
        · rfl
        · exact hz p hp
      by_cases ht : t = .string
      · subst ht
        right
        refine ⟨.unicode, (.none, 0) :: (zeroRank (typesBefore .string) ++ zeroRank (typesAfter .string)), ?_, rfl, Or.inl ⟨rfl, rfl⟩⟩
        unfold pageType
        rw [sort_one false _ _ hz', pageTypeLoop, if_neg (by omega), if_pos rfl, if_pos rfl]
        rfl
      · have hloop : pageTypeLoop .unset ((t, b) :: (.none, 0) :: (zeroRank (typesBefore t) ++ zeroRank (typesAfter t))) = .ok (firstPageType t) := by
          rw [pageTypeLoop, if_neg (by omega), if_pos rfl, if_neg ht, zero_next _ _ hz' (by simp)]
        have hobj : finishPageType ((t, b) :: (.none, 0) :: (zeroRank (typesBefore t) ++ zeroRank (typesAfter t))) (firstPageType t) =
              .ok (.object, sortRanks true ((t, b) :: (.none, 0) :: (zeroRank (typesBefore t) ++ zeroRank (typesAfter t)))) →
            (∃ r', pageType ((t, b) :: (.none, 0) :: (zeroRank (typesBefore t) ++ zeroRank (typesAfter t))) = .ok (.object, r') ∧ RankState t 0 b r' ∧ t ≠ .string) := by
          intro h
          refine ⟨_, ?_, Or.inr (Or.inr ⟨hb, hab', rfl⟩), ht⟩
          unfold pageType
          rw [sort_one false _ _ hz', hloop]
          show finishPageType _ _ = _
          rw [h, sort_one true _ _ hz']
        have hnum : ∀ p, finishPageType ((t, b) :: (.none, 0) :: (zeroRank (typesBefore t) ++ zeroRank (typesAfter t))) (firstPageType t) =
              .ok (p, (t, b) :: (.none, 0) :: (zeroRank (typesBefore t) ++ zeroRank (typesAfter t))) →
            ∃ r', pageType ((t, b) :: (.none, 0) :: (zeroRank (typesBefore t) ++ zeroRank (typesAfter t))) = .ok (p, (t, b) :: r') := by
          intro p h
          refine ⟨(.none, 0) :: (zeroRank (typesBefore t) ++ zeroRank (typesAfter t)), ?_⟩
          unfold pageType
          rw [sort_one false _ _ hz', hloop]
          exact h
        cases t with
        | none => exact absurd rfl hn
        | string => exact absurd rfl ht
        | intSimple => obtain ⟨r', h⟩ := hnum .int rfl; exact Or.inr ⟨_, r', h, rfl, Or.inr (Or.inl ⟨rfl, rfl⟩)⟩
        | intUS => obtain ⟨r', h⟩ := hnum .int rfl; exact Or.inr ⟨_, r', h, rfl, Or.inr (Or.inl ⟨rfl, rfl⟩)⟩
        | intEU => obtain ⟨r', h⟩ := hnum .int rfl; exact Or.inr ⟨_, r', h, rfl, Or.inr (Or.inl ⟨rfl, rfl⟩)⟩
        | floatSimple => obtain ⟨r', h⟩ := hnum .float rfl; exact Or.inr ⟨_, r', h, rfl, Or.inr (Or.inr ⟨rfl, rfl⟩)⟩
        | floatUS => obtain ⟨r', h⟩ := hnum .float rfl; exact Or.inr ⟨_, r', h, rfl, Or.inr (Or.inr ⟨rfl, rfl⟩)⟩
        | floatEU => obtain ⟨r', h⟩ := hnum .float rfl; exact Or.inr ⟨_, r', h, rfl, Or.inr (Or.inr ⟨rfl, rfl⟩)⟩
        | _ => exact Or.inl (hobj rfl)
    · have ht : t ≠ .string := fun e => ha (hstr e)
      left
      refine ⟨_, ?_, Or.inr (Or.inr ⟨hb, hab', rfl⟩), ht⟩
      have hfin : ∀ r : Rank, finishPageType r (overlap (firstPageType t) .none) = .ok (.object, sortRanks true r) := by
        intro r; cases t <;> first | exact absurd rfl hn | exact absurd rfl ht | rfl
      have hset : firstPageType t ≠ .unset := by cases t <;> decide
      unfold pageType
      rw [sort_two false _ _ _ hz ht (by simp), if_neg (by dsimp only; omega), pageTypeLoop, if_neg (by omega), if_pos rfl, if_neg ht, pageTypeLoop,
        if_neg ha, if_neg hset, zero_next _ _ hz hne]
      show finishPageType _ _ = _
      rw [hfin, sort_two true _ _ _ hz ht (by simp), if_neg (by dsimp only; omega)]

/-- a value of a column of type `t` -/
def readOne (inf : DType → List Char → Except Err InfVal) (t : DType) (s : List Char) : Except Err InfVal :=
  match inf t s with
  | .ok v => .ok v
  | .error _ => inf .none s

theorem readOne_type {inf : DType → List Char → Except Err InfVal} {t : DType} {s : List Char} (h : FirstType inf t s) : readOne inf t s = inf t s := by
  obtain ⟨⟨v, hv⟩, _⟩ := h
  unfold readOne; rw [hv]

theorem readOne_none {inf : DType → List Char → Except Err InfVal} {t : DType} {s : List Char} (h : NoValue inf t s) : readOne inf t s = inf .none s := by
  unfold readOne; rw [h.2.2]

theorem inferFirst_pre (inf : DType → Except Err InfVal) (pre post : Rank) (t : DType) (n : Nat) (hp : ∀ p ∈ pre, inf p.1 = .error .value) (v : InfVal) (ht : inf t = .ok v) :
    inferFirst inf (fun _ => true) (pre ++ (t, n) :: post) = .ok v := by
  induction pre with
  | nil => rw [List.nil_append, inferFirst, if_pos rfl, ht]
  | cons a pre ih =>
    obtain ⟨u, m⟩ := a
    rw [List.cons_append, inferFirst, if_pos rfl, hp (u, m) List.mem_cons_self]
    exact ih fun p h => hp p (List.mem_cons_of_mem _ h)

theorem write_object (inf : DType → List Char → Except Err InfVal) (t : DType) (a b w : Nat) (r : Rank) (hr : RankState t a b r) (s : List Char)
    (hs : FirstType inf t s ∨ NoValue inf t s) : writeValue inf .object r w s = readOne inf t s := by
  show inferFirst (fun u => inf u s) (fun _ => true) r = _
  rcases hs with h | h
  · rw [readOne_type h]
    obtain ⟨⟨v, hv⟩, hnone, hpre⟩ := h
    rw [hv]
    rcases hr with ⟨rfl, rfl⟩ | ⟨hb, hba, rfl⟩ | ⟨hb, hab, rfl⟩
    · exact inferFirst_pre (fun u => inf u s) ((.none, a) :: zeroRank (typesBefore t)) _ t 0 (by
        intro p hp
        rcases List.mem_cons.1 hp with rfl | hp
        · exact hnone
        · exact hpre _ (zeroRank_mem _ _ hp).2) v hv
    · exact inferFirst_pre (fun u => inf u s) [(.none, a)] _ t b (by
        intro p hp
        rcases List.mem_cons.1 hp with rfl | hp
        · exact hnone
        · cases hp) v hv
    · exact inferFirst_pre (fun u => inf u s) [] _ t b (by simp) v hv
  · rw [readOne_none h]
    obtain ⟨_, ⟨v, hv⟩, hno⟩ := h
    rw [hv]
    rcases hr with ⟨rfl, rfl⟩ | ⟨hb, hba, rfl⟩ | ⟨hb, hab, rfl⟩
    · exact inferFirst_pre (fun u => inf u s) [] _ .none a (by simp) v hv
    · exact inferFirst_pre (fun u => inf u s) [] _ .none a (by simp) v hv
    · exact inferFirst_pre (fun u => inf u s) [(t, b)] _ .none a (by
        intro p hp
        rcases List.mem_cons.1 hp with rfl | hp
        · exact hno
        · cases hp) v hv

/-- a page of a column of type `t`: every value is read as `t`, or is `None` -/
theorem typedCells_uniform (pf : List Char → Option Rat) (t : DType) (hn : t ≠ .none) (cells : List (Option (List Char))) (hne : cells ≠ [])
    (hu : ∀ c ∈ cells, FirstType (inferAs pf) t (c.getD []) ∨ NoValue (inferAs pf) t (c.getD [])) :
    typedCells (inferAs pf) cells = cells.mapM fun c => readOne (inferAs pf) t (c.getD []) := by
  have hmiss : ¬ FirstType (inferAs pf) t [] := fun h => by
    have := h.2.1
    change inferNone [] = _ at this
    revert this; decide
  obtain ⟨r, a, b, w, h1, h2, h3, _, _, h4, h5, h6⟩ := rankLoop_uniform (inferAs pf) t (cells.map (·.getD [])) (by
    intro s hs
    obtain ⟨c, hc, rfl⟩ := List.mem_map.1 hs
    exact hu c hc) 0 0 1 newRank (newRank_state t hn) (fun _ => rfl)
  unfold typedCells
  rw [h1]
  show (pageType r >>= _) = _
  have hlen : 0 < a + b := by
    have := List.length_pos_of_ne_nil hne
    rw [List.length_map] at h3
    omega
  rcases pageType_state t hn a b r h2 hlen h4 with ⟨r', hp, hr', ht⟩ | ⟨p, r', hp, ha, hcase⟩
  · rw [hp]
    apply mapM_congr'
    intro c hc
    cases c with
    | some s => exact write_object (inferAs pf) t a b w r' hr' s (hu _ hc)
    | none =>
      rcases hu _ hc with h | h
      · exact absurd h hmiss
      · show Except.ok InfVal.none = _
        rw [readOne_none h]; rfl
  · have hall : ∀ c ∈ cells, FirstType (inferAs pf) t (c.getD []) := by
      intro c hc
      rcases h6 _ (List.mem_map.2 ⟨c, hc, rfl⟩) with h | h
      · exact h
      · omega
    rw [hp]
    apply mapM_congr'
    intro c hc
    have hf := hall c hc
    cases c with
    | none => exact absurd hf hmiss
    | some s =>
      rw [readOne_type hf]
      obtain ⟨⟨v, hv⟩, _⟩ := hf
      change inferAs pf t s = .ok v at hv
      show writeValue (inferAs pf) p ((t, b) :: r') w s = inferAs pf t s
      rw [hv]
      rcases hcase with ⟨rfl, ht⟩ | ⟨rfl, ht⟩ | ⟨rfl, ht⟩
      · show (if w < s.length then (.error .overflow : Except Err InfVal) else .ok (.str s)) = _
        rw [if_neg (by have := h5 ht s (List.mem_map.2 ⟨_, hc, rfl⟩); omega)]
        subst ht
        exact hv
      · show inferFirst (fun u => inferAs pf u s) DType.isInt _ = _
        rw [inferFirst, if_pos ht, hv]
      · show inferFirst (fun u => inferAs pf u s) DType.isFloat _ = _
        rw [inferFirst, if_pos ht, hv]

/-! ## the file -/

/-- an import whose pages are all written as `f` of their texts, `f i` for the field `i` of the file -/
theorem importWith_ok {β : Type} (page : List (Option (List Char)) → Except Err (List β)) (f : Nat → List Char → β) (mk : List Char → Nat → List Char)
    (num : Nat → List Char) (d : Dialect) (o : ImportOpts) (ps : Nat) (hps : 0 < ps) (lines : List (List Char)) (recs : List (List (List Char)))
    (hparse : parseLines d {} lines = .ok recs) (hhdr : o.headerRow < recs.length) (hskip : o.skip = none)
    (hcols : ∀ c ∈ o.columns.getD (fieldNames mk num o.headers ((recs.getD o.headerRow []).map stripEscape)),
      c ∈ fieldNames mk num o.headers ((recs.getD o.headerRow []).map stripEscape))
    (hpage : ∀ i, (fieldNames mk num o.headers ((recs.getD o.headerRow []).map stripEscape)).getD i [] ∈
        o.columns.getD (fieldNames mk num o.headers ((recs.getD o.headerRow []).map stripEscape)) → ∀ cells, cells ≠ [] →
      (∀ c ∈ cells, ∃ r ∈ requestedRows o recs, c.getD [] = r.getD i []) → page cells = .ok (cells.map fun c => f i (c.getD []))) :
    let names := fieldNames mk num o.headers ((recs.getD o.headerRow []).map stripEscape)
    let cols := o.columns.getD names
    ∃ table, importWith page mk num d o ps lines = .ok table ∧ table.map (·.1) = uniqueNames mk cols ∧ table.length = cols.length ∧
      ∀ k, k < cols.length → ∀ col, table[k]? = some col →
        col.2.flatten = (requestedRows o recs).map (fun r => f (names.idxOf (cols.getD k [])) (r.getD (names.idxOf (cols.getD k [])) [])) := by
  intro names cols
  have hnames : fieldNames mk num o.headers ((recs.getD o.headerRow []).map stripEscape) = names := rfl
  have hcolsdef : o.columns.getD names = cols := rfl
  clear_value cols names
  rw [hnames, hcolsdef] at hcols hpage
  obtain ⟨offs, ho, hlen, hat⟩ := findNewlines_restart d lines recs hparse
  have hnl : offs.length - 1 = recs.length := by omega
  have hfirst : readColumns d lines (offs.getD o.headerRow 0) = .ok ((recs.getD o.headerRow []).map stripEscape) := by
    unfold readColumns
    rw [hat _ hhdr]
    simp only [bind, Except.bind]
    rw [List.drop_eq_getElem_cons hhdr, List.headD_cons, List.getD, List.getElem?_eq_getElem hhdr, Option.getD_some]
  have hul : ∀ l : List (List Char), (uniqueNames mk l).length = l.length := by
    intro l
    have : ∀ (l acc : List (List Char)), (l.foldl (fun fs n => fs ++ [uniqueName mk n fs]) acc).length = acc.length + l.length := by
      intro l
      induction l with
      | nil => intro acc; rfl
      | cons a t ih => intro acc; rw [List.foldl_cons, ih]; simp; omega
    simpa [uniqueNames] using this l []
  generalize hfields : ((List.range names.length).filter fun i => decide (names.getD i [] ∈ cols)) = fields
  generalize hoff : (if o.headers = true then 1 else 0) + o.headerRow = offsetRow
  generalize hmax : lastRow o.limit recs.length (o.start + offsetRow) = maxLine
  have hmaxle : maxLine ≤ recs.length := by
    rw [← hmax]
    unfold lastRow
    cases o.limit with
    | none => exact Nat.le_refl _
    | some l => exact Nat.min_le_left _ _
  have hfilter : ∀ l : List (List (List Char)), (l.filter fun r => !checkSkip o.skip r) = l := by
    intro l
    rw [hskip]
    simp [checkSkip]
  have hrows : (recs.take maxLine).drop (o.start + offsetRow) = requestedRows o recs := by
    unfold requestedRows
    dsimp only
    rw [hfilter, hoff, ← hmax, Nat.add_comm offsetRow o.start]
    unfold lastRow
    cases o.limit with
    | none => simp
    | some l =>
      dsimp only
      rw [List.drop_take]
      by_cases hle : recs.length ≤ l + (o.start + offsetRow)
      · rw [Nat.min_eq_left hle, List.take_of_length_le (by rw [List.length_drop]), List.take_of_length_le (by rw [List.length_drop]; omega)]
      · rw [Nat.min_eq_right (by omega)]
        congr 1
        omega
  have hplan := plan_rows recs ps maxLine hps hmaxle _ (o.start + offsetRow) (Nat.le_refl _)
  have hget : ∀ r j, j < fields.length → ((optRow fields r).getD j none).getD [] = r.getD (fields.getD j 0) [] := by
    intro r j hj
    have := importRow_get names.length (fun i => decide (names.getD i [] ∈ cols)) r j (by rw [hfields]; exact hj)
    rw [hfields, importRow_opt] at this
    rw [← this]
    simp only [List.getD_eq_getElem?_getD, List.getElem?_map]
    cases (optRow fields r)[j]? <;> rfl
  -- each task
  have htask : ∀ t ∈ planTasks ps maxLine (o.start + offsetRow),
      taskPages page d lines o.skip fields (offs.getD t.1 0) t.2 =
        .ok ((List.range fields.length).map fun j => ((recs.drop t.1).take t.2).map fun r => f (fields.getD j 0) (r.getD (fields.getD j 0) [])) := by
    intro t ht
    obtain ⟨_, h2, h3, _⟩ := plan_bounds ps maxLine _ _ (Nat.le_refl _) t ht
    unfold taskPages
    rw [hat t.1 (by omega)]
    simp only [bind, Except.bind, pageLoop_eq, Nat.sub_zero, hfilter]
    apply mapM_ok
    intro j hj
    have hj' := List.mem_range.1 hj
    have hmem : fields.getD j 0 ∈ fields := by
      rw [List.getD_eq_getElem?_getD, List.getElem?_eq_getElem hj', Option.getD_some]
      exact List.getElem_mem _
    have hin : names.getD (fields.getD j 0) [] ∈ cols := by
      rw [← hfields] at hmem ⊢
      have := (List.mem_filter.1 hmem).2
      simpa using this
    rw [hpage _ hin]
    · simp only [List.map_map]
      congr 1
      apply List.map_congr_left
      intro r _
      simp only [Function.comp_apply]
      rw [hget r j hj']
    · have : ((recs.drop t.1).take t.2).length ≠ 0 := by
        rw [List.length_take, List.length_drop]; omega
      intro e
      rw [List.map_map, List.map_eq_nil_iff] at e
      rw [e] at this
      exact this rfl
    · intro c hc
      rw [List.map_map] at hc
      obtain ⟨r, hr, rfl⟩ := List.mem_map.1 hc
      refine ⟨r, ?_, by simp only [Function.comp_apply]; rw [hget r j hj']⟩
      rw [← hrows, ← hplan]
      exact List.mem_flatMap.2 ⟨t, ht, hr⟩
  let res := (planTasks ps maxLine (o.start + offsetRow)).map fun t =>
    (List.range fields.length).map fun j => ((recs.drop t.1).take t.2).map fun r => f (fields.getD j 0) (r.getD (fields.getD j 0) [])
  have hres : ((planTasks ps maxLine (o.start + offsetRow)).map fun t => (offs.getD t.1 0, t.2)).mapM
      (fun t => taskPages page d lines o.skip fields t.1 t.2) = .ok res := by
    rw [List.mapM_map]
    exact mapM_ok _ _ _ htask
  let dict := (List.range fields.length).map fun j => (names.getD (fields.getD j 0) [], res.map fun pages => pages.getD j [])
  let table := (uniqueNames mk cols).zip (cols.map fun c => (dict.find? fun p => decide (p.1 = c)).elim [] (·.2))
  have hlenz : table.length = cols.length := by
    simp only [table, List.length_zip, hul, List.length_map, Nat.min_self]
  have himp : importWith page mk num d o ps lines = .ok table := by
    unfold importWith
    rw [ho]
    simp only [bind, Except.bind]
    rw [hnl, if_pos ⟨by omega, hhdr⟩, hfirst]
    dsimp only
    rw [hnames, hcolsdef]
    have hall : (cols.all fun c => decide (c ∈ names)) = true := by
      rw [List.all_eq_true]
      intro c hc
      simpa using hcols c hc
    rw [if_pos hall]
    have hres' := hres
    rw [← hfields, ← hmax, ← hoff] at hres'
    rw [hres']
    simp only [table, dict, ← hfields]
  refine ⟨table, himp, ?_, hlenz, ?_⟩
  · simp only [table]
    rw [List.map_fst_zip (by simp [hul])]
  · intro k hk col hcol
    have hck : cols.getD k [] ∈ cols := by
      rw [List.getD, List.getElem?_eq_getElem hk, Option.getD_some]
      exact List.getElem_mem _
    have hcol2 : col.2 = (dict.find? fun p => decide (p.1 = cols.getD k [])).elim [] (·.2) := by
      have h1 : k < table.length := by omega
      rw [List.getElem?_eq_getElem h1] at hcol
      cases hcol
      simp only [table, List.getElem_zip, List.getElem_map]
      rw [List.getD, List.getElem?_eq_getElem hk, Option.getD_some]
    obtain ⟨j, hj, hje, hfind⟩ := find_columns names cols (cols.getD k []) hck (hcols _ hck) (fun j => res.map fun pages => pages.getD j [])
    rw [hfields] at hj hje hfind
    rw [hfind] at hcol2
    have hcol3 : col.2 = (planTasks ps maxLine (o.start + offsetRow)).map fun t => ((recs.drop t.1).take t.2).map fun r =>
        f (fields.getD j 0) (r.getD (fields.getD j 0) []) := by
      rw [hcol2]
      simp only [Option.elim_some, res, List.map_map]
      apply List.map_congr_left
      intro t _
      simp only [Function.comp_apply, List.getD, List.getElem?_map, List.getElem?_range hj, Option.map_some, Option.getD_some]
    rw [hcol3, ← List.flatMap_def, ← hrows, ← hplan, List.map_flatMap, hje]

/-- the reading of a text in a column of type `t` -/
def oneValue (pf : List Char → Option Rat) (t : DType) (s : List Char) : InfVal := ((readOne (inferAs pf) t s).toOption).getD .none

/-- the columns of a table without their pages -/
def flatTable (table : List (List Char × List (List InfVal))) : List (List Char × List InfVal) := table.map fun c => (c.1, c.2.flatten)

/-- **C130** in full: what an import with guessed types yields does not depend on the page size -/
def C130_statement : Prop := ∀ (pf : List Char → Option Rat) (mk : List Char → Nat → List Char) (num : Nat → List Char) (d : Dialect) (o : ImportOpts) (ps ps' : Nat)
  (lines : List (List Char)), 0 < ps → 0 < ps' → (importTyped pf mk num d o ps lines).map flatTable = (importTyped pf mk num d o ps' lines).map flatTable

/-- **C130**, partial: if no rows are skipped for being empty and every wanted column is of one type - its texts are read as this type and as no type tried before it, or,
unless the type is text, stand for no value and are not read as this type - then the import succeeds for every page size, with one and the same table: every
value is the reading of its text as the type of the column, or `None`.  Missing: columns of several types, and texts with empty fields, see
`C130_fails`; skipped rows, see `C130_skip_fails`. -/
theorem C130_partial (pf : List Char → Option Rat) (mk : List Char → Nat → List Char) (num : Nat → List Char) (d : Dialect) (o : ImportOpts) (lines : List (List Char))
    (recs : List (List (List Char))) (hparse : parseLines d {} lines = .ok recs) (hhdr : o.headerRow < recs.length) (hskip : o.skip = none)
    (hcols : ∀ c ∈ o.columns.getD (fieldNames mk num o.headers ((recs.getD o.headerRow []).map stripEscape)),
      c ∈ fieldNames mk num o.headers ((recs.getD o.headerRow []).map stripEscape))
    (ty : Nat → DType) (hty : ∀ i, (fieldNames mk num o.headers ((recs.getD o.headerRow []).map stripEscape)).getD i [] ∈
        o.columns.getD (fieldNames mk num o.headers ((recs.getD o.headerRow []).map stripEscape)) → ty i ≠ .none ∧ ∀ r ∈ requestedRows o recs,
      ((∃ v, inferAs pf (ty i) (r.getD i []) = .ok v) ∧ ∀ u ∈ DType.all.takeWhile (· ≠ ty i), inferAs pf u (r.getD i []) = .error .value) ∨
      (ty i ≠ .string ∧ inferNone (r.getD i []) = .ok .none ∧ inferAs pf (ty i) (r.getD i []) = .error .value)) :
    let names := fieldNames mk num o.headers ((recs.getD o.headerRow []).map stripEscape)
    let cols := o.columns.getD names
    ∃ flat : List (List Char × List InfVal), flat.map (·.1) = uniqueNames mk cols ∧ flat.length = cols.length ∧
      (∀ k, k < cols.length → ∀ col, flat[k]? = some col →
        List.Forall₂ (fun r v => inferAs pf (ty (names.idxOf (cols.getD k []))) (r.getD (names.idxOf (cols.getD k [])) []) = .ok v ∨
          (inferAs pf (ty (names.idxOf (cols.getD k []))) (r.getD (names.idxOf (cols.getD k [])) []) = .error .value ∧ v = .none)) (requestedRows o recs) col.2) ∧
      ∀ ps, 0 < ps → (importTyped pf mk num d o ps lines).map flatTable = .ok flat := by
  intro names cols
  have hone : ∀ i, names.getD i [] ∈ cols → ∀ r ∈ requestedRows o recs, FirstType (inferAs pf) (ty i) (r.getD i []) ∨ NoValue (inferAs pf) (ty i) (r.getD i []) := by
    intro i hi r hr
    obtain ⟨hn, h⟩ := hty i hi
    have htw : DType.all.takeWhile (· ≠ ty i) = .none :: typesBefore (ty i) := by
      revert hn; generalize ty i = t; intro hn
      cases t <;> first | exact absurd rfl hn | rfl
    rcases h r hr with ⟨h1, h2⟩ | ⟨h1, h2, h3⟩
    · rw [htw] at h2
      exact Or.inl ⟨h1, h2 _ List.mem_cons_self, fun u hu => h2 u (List.mem_cons_of_mem _ hu)⟩
    · exact Or.inr ⟨h1, ⟨_, h2⟩, h3⟩
  have hread : ∀ i, names.getD i [] ∈ cols → ∀ r ∈ requestedRows o recs, readOne (inferAs pf) (ty i) (r.getD i []) = .ok (oneValue pf (ty i) (r.getD i [])) := by
    intro i hi r hr
    have : ∃ v, readOne (inferAs pf) (ty i) (r.getD i []) = .ok v := by
      rcases hone i hi r hr with h | h
      · rw [readOne_type h]; exact h.1
      · rw [readOne_none h]; exact h.2.1
    obtain ⟨v, hv⟩ := this
    unfold oneValue
    rw [hv]; rfl
  have hall := fun ps hps => importWith_ok (typedCells (inferAs pf)) (fun i => oneValue pf (ty i)) mk num d o ps hps lines recs hparse hhdr hskip hcols (by
    intro i hi cells hne hc
    rw [typedCells_uniform pf (ty i) (hty i hi).1 cells hne (by
      intro c hcm
      obtain ⟨r, hr, e⟩ := hc c hcm
      rw [e]
      exact hone i hi r hr)]
    apply mapM_ok
    intro c hcm
    obtain ⟨r, hr, e⟩ := hc c hcm
    rw [e]
    exact hread i hi r hr)
  let flat := (uniqueNames mk cols).zip (cols.map fun c => (requestedRows o recs).map fun r => oneValue pf (ty (names.idxOf c)) (r.getD (names.idxOf c) []))
  obtain ⟨table1, _, hn1, hl1, _⟩ := hall 1 (by decide)
  have hul : (uniqueNames mk cols).length = cols.length := by
    change table1.map (·.1) = uniqueNames mk cols at hn1
    rw [← hn1, List.length_map]
    exact hl1
  have hfl : flat.length = cols.length := by simp only [flat, List.length_zip, hul, List.length_map, Nat.min_self]
  have hgetf : ∀ k, k < cols.length → ∀ col, flat[k]? = some col → col.2 = (requestedRows o recs).map fun r =>
      oneValue pf (ty (names.idxOf (cols.getD k []))) (r.getD (names.idxOf (cols.getD k [])) []) := by
    intro k hk col hcol
    rw [List.getElem?_eq_getElem (by rw [hfl]; exact hk)] at hcol
    cases hcol
    simp only [flat, List.getElem_zip, List.getElem_map]
    rw [List.getD, List.getElem?_eq_getElem hk, Option.getD_some]
  refine ⟨flat, ?_, hfl, ?_, ?_⟩
  · simp only [flat]
    rw [List.map_fst_zip (by simp [hul])]
  · intro k hk col hcol
    rw [hgetf k hk col hcol]
    rw [List.forall₂_map_right_iff, List.forall₂_same]
    intro r hr
    have hck : cols.getD k [] ∈ cols := by
      rw [List.getD, List.getElem?_eq_getElem hk, Option.getD_some]
      exact List.getElem_mem _
    have hidx : names.getD (names.idxOf (cols.getD k [])) [] = cols.getD k [] := by
      have hlt : names.idxOf (cols.getD k []) < names.length := List.idxOf_lt_length_of_mem (hcols _ hck)
      rw [List.getD, List.getElem?_eq_getElem hlt]
      simp
    have hin : names.getD (names.idxOf (cols.getD k [])) [] ∈ cols := by rw [hidx]; exact hck
    have h1 := hread _ hin r hr
    rcases hone _ hin r hr with h | h
    · rw [readOne_type h] at h1
      exact Or.inl h1
    · rw [readOne_none h] at h1
      refine Or.inr ⟨h.2.2, ?_⟩
      change inferNone _ = _ at h1
      unfold inferNone at h1
      split at h1
      · injection h1 with h1; exact h1.symm
      · cases h1
  · intro ps hps
    obtain ⟨table, h1, h2, h3, h4⟩ := hall ps hps
    unfold importTyped
    rw [h1]
    show Except.ok (flatTable table) = .ok flat
    congr 1
    apply List.ext_getElem?
    intro k
    have hlt : table.length = cols.length := h3
    by_cases hk : k < cols.length
    · have hkt : k < table.length := by rw [hlt]; exact hk
      have hkf : k < flat.length := by rw [hfl]; exact hk
      have e1 : flat[k]? = some flat[k] := List.getElem?_eq_getElem hkf
      rw [e1]
      unfold flatTable
      rw [List.getElem?_map, List.getElem?_eq_getElem hkt, Option.map_some]
      congr 1
      refine Prod.ext ?_ ?_
      · have g1 : (table.map (·.1))[k]? = (flat.map (·.1))[k]? := by
          have g2 : flat.map (·.1) = uniqueNames mk cols := by
            simp only [flat]
            rw [List.map_fst_zip (by simp [hul])]
          rw [g2]
          exact congrArg (·[k]?) h2
        rw [List.getElem?_map, List.getElem?_map, List.getElem?_eq_getElem hkt, e1] at g1
        simpa using g1
      · show (table[k]).2.flatten = (flat[k]).2
        rw [hgetf k hk flat[k] e1]
        exact h4 k hk table[k] (List.getElem?_eq_getElem hkt)
    · unfold flatTable
      rw [List.getElem?_eq_none (by rw [List.length_map, hlt]; omega), List.getElem?_eq_none (by rw [hfl]; omega)]

/-- how numbered names are written in the examples -/
def mkNum (n : List Char) (i : Nat) : List Char := n ++ '_' :: (toString i).toList
def numText (i : Nat) : List Char := (toString i).toList

/-- texts with an empty field: in a page of its own the empty field is `None`, next to a text it is an empty text -/
theorem C130_effect :
    (importTyped noFloat mkNum numText {} {} 2 ["a,b".toList, "x,1".toList, ",2".toList]).map flatTable =
      .ok [("a".toList, [.str "x".toList, .str []]), ("b".toList, [.int 1, .int 2])] ∧
    (importTyped noFloat mkNum numText {} {} 1 ["a,b".toList, "x,1".toList, ",2".toList]).map flatTable =
      .ok [("a".toList, [.str "x".toList, .none]), ("b".toList, [.int 1, .int 2])] := by
  constructor <;> decide +kernel

theorem C130_fails : ¬ C130_statement := by
  intro h
  have h := h noFloat mkNum numText {} {} 2 1 ["a,b".toList, "x,1".toList, ",2".toList] (by decide) (by decide)
  rw [C130_effect.1, C130_effect.2] at h
  revert h
  decide +kernel

/-- rows skipped for being empty: the import fails if they fill a page -/
theorem C130_skip_fails :
    (importTyped noFloat mkNum numText {} { skip := some true } 1 ["a,b".toList, "1,1".toList, ",".toList]).map flatTable = .error .other ∧
    (importTyped noFloat mkNum numText {} { skip := some true } 2 ["a,b".toList, "1,1".toList, ",".toList]).map flatTable =
      .ok [("a".toList, [.int 1]), ("b".toList, [.int 1])] := by
  constructor <;> decide +kernel

/-- a file of integers, with a missing field, and of texts meets the hypotheses of `C130_partial` -/
example : ∃ flat, ∀ ps, 0 < ps →
    (importTyped noFloat mkNum numText {} {} ps ["a,b".toList, "x,1".toList, "y".toList, "z,-3".toList]).map flatTable = .ok flat := by
  obtain ⟨flat, _, _, _, h⟩ := C130_partial noFloat mkNum numText {} {} ["a,b".toList, "x,1".toList, "y".toList, "z,-3".toList]
    [["a".toList, "b".toList], ["x".toList, "1".toList], ["y".toList], ["z".toList, "-3".toList]] (by decide +kernel) (by decide) rfl (by decide +kernel)
    (fun i => if i = 0 then .string else .intSimple) (by
      intro i hi
      have hlt : i < 2 := by
        by_contra hc
        revert hi
        have : ∃ n, i = n + 2 := ⟨i - 2, by omega⟩
        obtain ⟨n, rfl⟩ := this
        show ([] : List Char) ∈ _ → False
        decide +kernel
      have hreq : requestedRows {} [["a".toList, "b".toList], ["x".toList, "1".toList], ["y".toList], ["z".toList, "-3".toList]] =
        [["x".toList, "1".toList], ["y".toList], ["z".toList, "-3".toList]] := by decide +kernel
      rw [hreq]
      have hcases : i = 0 ∨ i = 1 := by omega
      rcases hcases with rfl | rfl
      · refine ⟨by decide, fun r hr => Or.inl ⟨⟨.str (r.getD 0 []), rfl⟩, ?_⟩⟩
        revert r
        decide +kernel
      · refine ⟨by decide, fun r hr => ?_⟩
        rcases List.mem_cons.1 hr with rfl | hr
        · exact Or.inl ⟨⟨.int 1, by decide +kernel⟩, by decide +kernel⟩
        · rcases List.mem_cons.1 hr with rfl | hr
          · exact Or.inr ⟨by decide, by decide +kernel, by decide +kernel⟩
          · rw [List.mem_singleton.1 hr]
            exact Or.inl ⟨⟨.int (-3), by decide +kernel⟩, by decide +kernel⟩)
  exact ⟨flat, h⟩

end Tablite
