import Verif.Props.Rank
/-!
# C67: pages written with guessed types
-/

namespace Tablite

/-! ## grouped integers are also read as floats -/

theorem floatChar_digit (am : Bool) (q : Rat) (c : Char) (h : c.isDigit = true) (n : Nat) :
    floatChar am { value := q, isFrac := false } c n = .ok { value := q * 10 + digitVal c, isFrac := false } := by
  unfold floatChar
  dsimp only
  rw [if_pos h, if_neg (by decide), if_neg (by decide)]

theorem floatChar_sep (am : Bool) (q : Rat) (n : Nat) (hn : 4 ≤ n) :
    floatChar am { value := q, isFrac := false } (groupSep am) n = .ok { value := q, isFrac := false } := by
  unfold floatChar
  dsimp only
  rw [if_neg (by rw [sep_not_digit]; decide), if_pos (by cases am <;> rfl), if_neg (by simp; omega)]

theorem floatLoop_digits (am : Bool) (ds : List Char) (h : Digits ds) (r : List Char) (x : Int) :
    floatLoop am { value := (x : Rat), isFrac := false } (ds ++ r) = floatLoop am { value := ((accDigits x ds : Int) : Rat), isFrac := false } r := by
  induction ds generalizing x with
  | nil => rfl
  | cons c ds ih =>
    rw [List.cons_append, floatLoop, floatChar_digit am _ c (h c List.mem_cons_self)]
    have := ih (fun c' h' => h c' (List.mem_cons_of_mem _ h')) (x * 10 + digitVal c)
    push_cast at this
    exact this

theorem floatLoop_groups (am : Bool) (gs : List (List Char)) (hg : ∀ g ∈ gs, Digits g ∧ g.length = 3) (x : Int) :
    floatLoop am { value := (x : Rat), isFrac := false } ((gs.map (groupSep am :: ·)).flatten) = .ok { value := ((accDigits x gs.flatten : Int) : Rat), isFrac := false } := by
  induction gs generalizing x with
  | nil => rfl
  | cons g gs ih =>
    obtain ⟨h1, h2⟩ := hg g List.mem_cons_self
    rw [List.map_cons, List.flatten_cons, List.cons_append, floatLoop, floatChar_sep am _ _ (by simp [h2])]
    show floatLoop am _ _ = _
    rw [floatLoop_digits am g h1, ih (fun g' h => hg g' (List.mem_cons_of_mem _ h)), List.flatten_cons, accDigits_append]

/-- **C40** a grouped integer is also read as a float, with the value that was written (as an exact number, also beyond 64 bit) -/
theorem C40_float (pf : List Char → Option Rat) (am : Bool) (s : List Char) (n : Int) (h : GroupedInt (groupSep am) (stripNum s) n) :
    inferFloat pf false am s = .ok (n : Rat) := by
  obtain ⟨sg, f, g, gs, hsg, hg, hg0, hgs, hs, rfl⟩ := h
  obtain ⟨c, t, rfl⟩ := List.exists_cons_of_ne_nil hg0
  have hd : c.isDigit = true := hg c List.mem_cons_self
  have hloop : floatLoop am { value := ((digitVal c : Nat) : Rat), isFrac := false } (t ++ (gs.map (groupSep am :: ·)).flatten) =
      .ok { value := ((decVal ((c :: t) ++ gs.flatten) : Nat) : Rat), isFrac := false } := by
    have := floatLoop_digits am t (fun c' h' => hg c' (List.mem_cons_of_mem _ h')) ((gs.map (groupSep am :: ·)).flatten) (digitVal c : Int)
    rw [floatLoop_groups am gs hgs, ← accDigits_append, accDigits_nat] at this
    have e : ((decVal ((c :: t) ++ gs.flatten) : Nat)) = (t ++ gs.flatten).foldl (fun a c => a * 10 + digitVal c) (digitVal c) := by simp [decVal]
    rw [e]
    push_cast at this
    exact this
  unfold inferFloat
  dsimp only
  rw [hs, if_neg (by simp), if_neg (by decide)]
  unfold floatLocale
  cases hsg with
  | none =>
    rw [List.nil_append, List.cons_append]
    dsimp only
    rw [if_pos hd, hloop]
    dsimp only [bind, Except.bind]
    unfold floatEnd
    rw [if_neg (by simp)]
    simp
  | plus =>
    rw [List.singleton_append, List.cons_append]
    dsimp only
    rw [if_neg (by decide), if_pos (Or.inl rfl), if_pos hd, hloop]
    dsimp only [bind, Except.bind]
    unfold floatEnd
    rw [if_neg (by simp), if_pos rfl]
    simp
  | minus =>
    rw [List.singleton_append, List.cons_append]
    dsimp only
    rw [if_neg (by decide), if_pos (Or.inr rfl), if_pos hd, hloop]
    dsimp only [bind, Except.bind]
    unfold floatEnd
    rw [if_neg (by simp), if_neg (by decide)]
    simp

example : GroupedInt (groupSep true) (stripNum "1,234".toList) 1234 := by
  refine ⟨[], 1, ['1'], ["234".toList], .none, by unfold Digits; decide, by decide, by unfold Digits; decide, by decide, by decide⟩

/-! ## the choice of the page type -/

/-- what the page type says about the types seen -/
def PageInv (p : PageType) (seen : List DType) : Prop :=
  match p with
  | .unset => seen = []
  | .int => ∀ t ∈ seen, t.isInt = true
  | .float => ∀ t ∈ seen, t.isInt = true ∨ t.isFloat = true
  | .dateShort => False
  | .unicode => .string ∈ seen
  | _ => True

theorem firstPageType_inv (t : DType) (h : t ≠ .dateShort) (h' : t ≠ .string) : PageInv (firstPageType t) [t] := by
  cases t <;> simp_all [firstPageType, PageInv, DType.isInt, DType.isFloat]

theorem overlap_inv (p : PageType) (t : DType) (seen : List DType) (hp : PageInv p seen) (hu : p ≠ .unset) (h : t ≠ .dateShort) : PageInv (overlap p t) (seen ++ [t]) := by
  unfold overlap
  by_cases h1 : (p = .float ∧ t.isInt = true) ∨ t = .dateShort
  · rw [if_pos h1]
    rcases h1 with ⟨rfl, h1⟩ | h1
    · intro u hu
      rcases List.mem_append.1 hu with hu | hu
      · exact hp u hu
      · rw [List.mem_singleton.1 hu]; exact Or.inl h1
    · exact absurd h1 h
  · rw [if_neg h1]
    by_cases h2 : p = .int ∧ t.isFloat = true
    · rw [if_pos h2]
      obtain ⟨rfl, h2⟩ := h2
      intro u hu
      rcases List.mem_append.1 hu with hu | hu
      · exact Or.inl (hp u hu)
      · rw [List.mem_singleton.1 hu]; exact Or.inr h2
    · rw [if_neg h2]
      by_cases h3 : p = .dateShort
      · subst h3; exact absurd hp id
      · rw [if_neg h3]; trivial

theorem overlap_unset (p : PageType) (t : DType) (h : p ≠ .unset) : overlap p t ≠ .unset := by
  unfold overlap
  split
  · exact h
  · split
    · decide
    · split
      · split
        · decide
        · split
          · decide
          · exact h
      · decide

theorem firstPageType_unset (t : DType) : firstPageType t ≠ .unset := by cases t <;> decide

/-- types that were counted -/
def counted (r : Rank) : List DType := (r.filter fun p => decide (p.2 > 0)).map Prod.fst

theorem counted_zero (n : Nat) (r : Rank) (t : DType) (h : ((t, n) :: r : Rank).Pairwise fun a b => b.2 ≤ a.2) (hn : n = 0) : counted ((t, n) :: r) = [] := by
  unfold counted
  rw [List.map_eq_nil_iff, List.filter_eq_nil_iff]
  rw [List.pairwise_cons] at h
  intro p hp
  rcases List.mem_cons.1 hp with rfl | hp
  · simp [hn]
  · have := h.1 p hp
    simp only at this
    simp; omega

theorem pageTypeLoop_inv (r : Rank) : ∀ (p : PageType) (seen : List DType), r.Pairwise (fun a b => b.2 ≤ a.2) → (∃ x ∈ r, x.2 = 0) → .dateShort ∉ counted r → PageInv p seen →
    ∃ q, pageTypeLoop p r = .ok q ∧ PageInv q (seen ++ counted r) ∧ (p ≠ .unset → q ≠ .unset) := by
  induction r with
  | nil => rintro p seen _ ⟨x, hx, _⟩; cases hx
  | cons a r ih =>
    obtain ⟨t, n⟩ := a
    rintro p seen hs hz hd hp
    rw [pageTypeLoop]
    by_cases hn : n = 0
    · rw [if_pos hn, counted_zero n r t hs hn]
      exact ⟨p, rfl, by simpa using hp, id⟩
    · rw [if_neg hn]
      have hc : counted ((t, n) :: r) = t :: counted r := by
        unfold counted
        rw [List.filter_cons_of_pos (by simp; omega), List.map_cons]
      rw [hc] at hd ⊢
      have htd : t ≠ .dateShort := fun h => hd (h ▸ List.mem_cons_self)
      have hz' : ∃ x ∈ r, x.2 = 0 := by
        obtain ⟨x, hx, h0⟩ := hz
        rcases List.mem_cons.1 hx with rfl | hx
        · exact absurd h0 hn
        · exact ⟨x, hx, h0⟩
      rw [List.pairwise_cons] at hs
      by_cases hu : p = .unset
      · subst hu
        have hp : seen = [] := hp
        subst hp
        rw [if_pos rfl]
        by_cases hst : t = .string
        · subst hst
          rw [if_pos rfl]
          exact ⟨.unicode, rfl, by show DType.string ∈ _; simp, fun h => absurd rfl h⟩
        · rw [if_neg hst]
          obtain ⟨q, h1, h2, h3⟩ := ih (firstPageType t) [t] hs.2 hz' (fun h => hd (List.mem_cons_of_mem _ h)) (firstPageType_inv t htd hst)
          exact ⟨q, h1, h2, fun h => absurd rfl h⟩
      · rw [if_neg hu]
        obtain ⟨q, h1, h2, h3⟩ := ih (overlap p t) (seen ++ [t]) hs.2 hz' (fun h => hd (List.mem_cons_of_mem _ h)) (overlap_inv p t seen hp hu htd)
        exact ⟨q, h1, by simpa using h2, fun _ => h3 (overlap_unset p t hu)⟩

theorem mem_counted (r : Rank) (t : DType) : t ∈ counted r ↔ ∃ n, (t, n) ∈ r ∧ 0 < n := by
  unfold counted
  rw [List.mem_map]
  constructor
  · rintro ⟨⟨u, n⟩, h, rfl⟩
    rw [List.mem_filter] at h
    exact ⟨n, h.1, by simpa using h.2⟩
  · rintro ⟨n, h, hn⟩
    exact ⟨(t, n), List.mem_filter.2 ⟨h, by simpa using hn⟩, rfl⟩

/-- the type chosen for a page in which some value and not every type was counted, among them no short date -/
theorem pageType_inv (r : Rank) (hz : ∃ x ∈ r, x.2 = 0) (hnz : ∃ x ∈ r, 0 < x.2) (hd : .dateShort ∉ counted r) :
    ∃ q r', pageType r = .ok (q, r') ∧ r'.Perm r ∧ (q = .unicode ∨ q = .int ∨ q = .float ∨ q = .object) ∧
      (q = .unicode → .string ∈ counted r) ∧ (q = .int → ∀ t ∈ counted r, t.isInt = true) ∧ (q = .float → ∀ t ∈ counted r, t.isInt = true ∨ t.isFloat = true) := by
  have hperm : (sortRanks false r).Perm r := insertSort_perm cmpDtypes r
  have hmem : ∀ t, t ∈ counted (sortRanks false r) ↔ t ∈ counted r := by
    intro t
    rw [mem_counted, mem_counted]
    exact exists_congr fun n => and_congr_left fun _ => hperm.mem_iff
  have hsort : (sortRanks false r).Pairwise fun a b => b.2 ≤ a.2 := insertSort_sorted Prod.snd cmpDtypes cmpDtypes_key r
  have hz' : ∃ x ∈ sortRanks false r, x.2 = 0 := by
    obtain ⟨x, h, h0⟩ := hz
    exact ⟨x, hperm.mem_iff.2 h, h0⟩
  obtain ⟨q, h1, h2, _⟩ := pageTypeLoop_inv (sortRanks false r) .unset [] hsort hz' (fun h => hd ((hmem _).1 h)) rfl
  rw [List.nil_append] at h2
  have e : pageType r = finishPageType (sortRanks false r) q := by unfold pageType; rw [h1]; rfl
  have hne : q ≠ .unset := by
    rintro rfl
    have h2 : counted (sortRanks false r) = [] := h2
    obtain ⟨⟨t, n⟩, hx, hn⟩ := hnz
    have : t ∈ counted (sortRanks false r) := (hmem t).2 ((mem_counted r t).2 ⟨n, hx, hn⟩)
    rw [h2] at this; cases this
  have hobj : (sortRanks true (sortRanks false r)).Perm r := (insertSort_perm cmpStringless _).trans hperm
  rw [e]
  cases q with
  | unset => exact absurd rfl hne
  | unicode => exact ⟨_, _, rfl, hperm, Or.inl rfl, fun _ => (hmem _).1 h2, fun h => (by cases h), fun h => (by cases h)⟩
  | int => exact ⟨_, _, rfl, hperm, Or.inr (Or.inl rfl), fun h => (by cases h), fun _ t ht => h2 t ((hmem t).2 ht), fun h => (by cases h)⟩
  | float => exact ⟨_, _, rfl, hperm, Or.inr (Or.inr (Or.inl rfl)), fun h => (by cases h), fun h => (by cases h), fun _ t ht => h2 t ((hmem t).2 ht)⟩
  | dateShort => exact absurd h2 id
  | object => exact ⟨_, _, rfl, hobj, Or.inr (Or.inr (Or.inr rfl)), fun h => (by cases h), fun h => (by cases h), fun h => (by cases h)⟩
  | date => exact ⟨_, _, rfl, hobj, Or.inr (Or.inr (Or.inr rfl)), fun h => (by cases h), fun h => (by cases h), fun h => (by cases h)⟩
  | datetime => exact ⟨_, _, rfl, hobj, Or.inr (Or.inr (Or.inr rfl)), fun h => (by cases h), fun h => (by cases h), fun h => (by cases h)⟩

/-! ## text is counted only if nothing else accepts it, until text was seen -/

/-- as long as no text was counted, text is the last type in the ranking -/
def StringLast (r : Rank) : Prop := (DType.string, 0) ∈ r → ∃ pre, r = pre ++ [(DType.string, 0)]

theorem filter_sorted_last (r : Rank) (hs : r.Pairwise fun a b => rankKey b ≤ rankKey a) (x : DType × Nat) (f : Rank) (h : r.filter (fun a => rankKey a == 0) = f ++ [x]) :
    ∃ pre, r = pre ++ [x] := by
  have hne : r ≠ [] := by rintro rfl; simp at h
  refine ⟨r.dropLast, ?_⟩
  have hlast : r.getLast hne = x := by
    have hx : x ∈ r ∧ rankKey x = 0 := by
      have : x ∈ r.filter (fun a => rankKey a == 0) := by rw [h]; simp
      rw [List.mem_filter] at this
      exact ⟨this.1, by simpa using this.2⟩
    have hl : rankKey (r.getLast hne) = 0 := by
      have e := List.dropLast_append_getLast hne
      rw [← e] at hx hs
      rw [List.pairwise_append] at hs
      rcases List.mem_append.1 hx.1 with h1 | h1
      · have := hs.2.2 x h1 _ (List.mem_singleton.2 rfl)
        omega
      · rw [← List.mem_singleton.1 h1]; exact hx.2
    have e := List.dropLast_append_getLast hne
    have e2 : r.filter (fun a => rankKey a == 0) = r.dropLast.filter (fun a => rankKey a == 0) ++ [r.getLast hne] := by
      conv_lhs => rw [← e]
      rw [List.filter_append, List.filter_cons_of_pos (by simpa using hl)]; rfl
    rw [h] at e2
    exact ((List.append_inj' e2 rfl).2 |> List.singleton_inj.1).symm
  rw [← hlast]
  exact (List.dropLast_append_getLast hne).symm

theorem updateRank_last {inf : DType → Except Err InfVal} {dts : List DType} {r : Rank} (hr : RankInv dts r) (hl : StringLast r) {t : DType} {r' : Rank}
    (h : updateRank inf r = .ok (t, r')) : StringLast r' := by
  obtain ⟨⟨t', r1⟩, h1, h2⟩ := ebind_ok h
  cases h2
  obtain ⟨pre, n, post, h3, h4, h5, h6⟩ := countFirst_spec h1
  intro hm
  have hm1 : (DType.string, 0) ∈ r1 := (insertSort_perm cmpStringless r1).mem_iff.1 hm
  have hmr : (DType.string, 0) ∈ r := by
    rw [h4] at hm1
    rw [h3]
    rcases List.mem_append.1 hm1 with h | h
    · exact List.mem_append_left _ h
    · rcases List.mem_cons.1 h with h | h
      · injection h with _ h; omega
      · exact List.mem_append_right _ (List.mem_cons_of_mem _ h)
  obtain ⟨q, hq⟩ := hl hmr
  have hnd : (r.map Prod.fst).Nodup := (hr.types.nodup_iff).2 (by decide)
  have hpost : ∃ post', post = post' ++ [(DType.string, 0)] := by
    by_cases hp : post = []
    · subst hp
      exfalso
      rw [h3] at hq
      have hq := (List.append_inj' hq rfl).2
      injection hq with hq _
      injection hq with hq1 hq2
      subst hq1 hq2
      rw [h4] at hm1
      rw [h3, List.map_append, List.nodup_append] at hnd
      rcases List.mem_append.1 hm1 with h | h
      · exact hnd.2.2 _ (List.mem_map_of_mem h) _ (by simp) rfl
      · rw [List.mem_singleton] at h
        injection h with _ h; omega
    · refine ⟨post.dropLast, ?_⟩
      have e := List.dropLast_append_getLast hp
      rw [h3, ← e] at hq
      have hq : (pre ++ (t', n) :: post.dropLast) ++ [post.getLast hp] = q ++ [(DType.string, 0)] := by simpa using hq
      have := (List.append_inj' hq rfl).2
      rw [List.singleton_inj] at this
      rw [← this]; exact e.symm
  obtain ⟨post', hpost⟩ := hpost
  have hf : (sortRanks true r1).filter (fun a => rankKey a == 0) = (pre ++ (t', n + 1) :: post').filter (fun a => rankKey a == 0) ++ [(DType.string, 0)] := by
    have : (sortRanks true r1).filter (fun a => rankKey a == 0) = r1.filter (fun a => rankKey a == 0) := insertSort_stable rankKey cmpStringless cmpStringless_key r1 0
    rw [this, h4, hpost]
    have : pre ++ (t', n + 1) :: (post' ++ [(DType.string, 0)]) = (pre ++ (t', n + 1) :: post') ++ [(DType.string, 0)] := by simp
    rw [this, List.filter_append]
    congr 1
  exact filter_sorted_last _ (insertSort_sorted rankKey cmpStringless cmpStringless_key r1) _ _ hf

/-- while every value is accepted by a type other than text, no value is counted as text -/
theorem rankLoop_no_string (inf : DType → List Char → Except Err InfVal) (values : List (List Char)) (ha : ∀ s ∈ values, ∃ t, t ≠ .string ∧ ∃ v, inf t s = .ok v) :
    ∀ (dts : List DType) (r : Rank) (w : Nat) (r' : Rank) (w' : Nat), RankInv dts r → StringLast r → .string ∉ dts → rankLoop inf r w values = .ok (r', w') →
      .string ∉ counted r' := by
  induction values with
  | nil =>
    intro dts r w r' w' hr _ hd h
    rw [rankLoop] at h
    cases h
    intro hc
    obtain ⟨n, hm, hn⟩ := (mem_counted r _).1 hc
    have := hr.counts _ hm
    rw [List.count_eq_zero.2 hd] at this
    dsimp only at this; omega
  | cons s values ih =>
    intro dts r w r' w' hr hl hd h
    rw [rankLoop] at h
    obtain ⟨⟨t, r1⟩, h1, h2⟩ := ebind_ok h
    obtain ⟨hi, _, pre, n, post, h3, h4⟩ := updateRank_inv hr h1
    refine ih (fun s' h => ha s' (List.mem_cons_of_mem _ h)) _ _ _ _ _ hi (updateRank_last hr hl h1) ?_ h2
    intro hc
    rcases List.mem_append.1 hc with hc | hc
    · exact hd hc
    · have ht : t = .string := (List.mem_singleton.1 hc).symm
      subst ht
      have hn : n = 0 := by
        have := hr.counts (DType.string, n) (by rw [h3]; simp)
        rw [List.count_eq_zero.2 hd] at this
        exact this
      subst hn
      obtain ⟨q, hq⟩ := hl (by rw [h3]; simp)
      obtain ⟨u, hu, v, hv⟩ := ha s List.mem_cons_self
      have hmem : u ∈ r.map Prod.fst := hr.types.mem_iff.2 (by cases u <;> decide)
      obtain ⟨⟨u', m⟩, hm, rfl⟩ := List.mem_map.1 hmem
      have hpre : (u', m) ∈ pre := by
        have hnd : (r.map Prod.fst).Nodup := (hr.types.nodup_iff).2 (by decide)
        have hpq : pre = q := by
          rw [hq] at h3
          by_cases hp : post = []
          · subst hp
            exact ((List.append_inj' h3 rfl).1).symm
          · exfalso
            have e := List.dropLast_append_getLast hp
            rw [← e] at h3
            have h3 : q ++ [(DType.string, 0)] = (pre ++ (DType.string, 0) :: post.dropLast) ++ [post.getLast hp] := by simpa using h3
            have hq' := (List.append_inj' h3 rfl).1
            rw [hq, hq', List.map_append, List.nodup_append] at hnd
            exact hnd.2.2 DType.string (by simp) DType.string (by simp) rfl
        rw [hpq]
        rw [hq] at hm
        rcases List.mem_append.1 hm with h | h
        · exact h
        · rw [List.mem_singleton] at h
          injection h with h _
          exact absurd h hu
      have := h4 _ hpre
      dsimp only at this hv
      rw [hv] at this; cases this

theorem newRank_last : StringLast newRank := fun _ => ⟨newRank.dropLast, by decide⟩

/-! ## writing -/

theorem inferFirst_total (inf : DType → Except Err InfVal) (he : ∀ t e, inf t = .error e → e = .value) (p : DType → Bool) (r : Rank) (t : DType) (ht : t ∈ r.map Prod.fst)
    (hp : p t = true) (ha : ∃ v, inf t = .ok v) : ∃ v u, inferFirst inf p r = .ok v ∧ p u = true ∧ inf u = .ok v := by
  induction r with
  | nil => cases ht
  | cons a r ih =>
    obtain ⟨u, n⟩ := a
    rw [inferFirst]
    have tail : (u ≠ t) → t ∈ r.map Prod.fst := by
      intro hne
      rcases List.mem_cons.1 ht with h | h
      · exact absurd (h : t = u).symm hne
      · exact h
    by_cases hpu : p u = true
    · rw [if_pos hpu]
      cases hu : inf u with
      | ok v => exact ⟨v, u, rfl, hpu, hu⟩
      | error e =>
        have := he u e hu
        subst this
        exact ih (tail (by rintro rfl; obtain ⟨v, ha⟩ := ha; rw [ha] at hu; cases hu))
    · rw [if_neg hpu]
      exact ih (tail (by rintro rfl; exact hpu hp))

theorem stringWidth_ge (w : Nat) (ts : List DType) (values : List (List Char)) : w ≤ stringWidth w ts values := by
  induction ts generalizing w values with
  | nil => cases values <;> exact Nat.le_refl _
  | cons t ts ih =>
    cases values with
    | nil => exact Nat.le_refl _
    | cons s ss =>
      rw [stringWidth]
      refine Nat.le_trans ?_ (ih _ ss)
      split <;> omega

theorem stringWidth_mem (R : DType → List Char → Prop) (w : Nat) (ts : List DType) (values : List (List Char)) (h : List.Forall₂ R ts values) (s : List Char) (hs : s ∈ values)
    (hR : ∀ t, R t s → t = .string) : s.length ≤ stringWidth w ts values := by
  induction h generalizing w with
  | nil => cases hs
  | cons hab _ ih =>
    rw [stringWidth]
    rcases List.mem_cons.1 hs with rfl | hs
    · rw [if_pos (hR _ hab)]
      exact Nat.le_trans (Nat.le_max_left _ _) (stringWidth_ge _ _ _)
    · exact ih _ hs

/-- **C67** in full: whatever the texts of a page are, all of them are imported, each as its reading under a type that accepts it -/
def C67_statement : Prop := ∀ (pf : List Char → Option Rat) (values : List (List Char)), values ≠ [] →
  ∃ vs, typedPage (inferAs pf) values = .ok vs ∧ List.Forall₂ (fun s v => ∃ t, inferAs pf t s = .ok v) values vs

theorem mapM_forall₂ {α β : Type} (f : α → Except Err β) (R : α → β → Prop) (l : List α) (h : ∀ a ∈ l, ∃ b, f a = .ok b ∧ R a b) :
    ∃ bs, l.mapM f = .ok bs ∧ List.Forall₂ R l bs := by
  induction l with
  | nil => exact ⟨[], rfl, .nil⟩
  | cons a l ih =>
    obtain ⟨b, h1, h2⟩ := h a List.mem_cons_self
    obtain ⟨bs, h3, h4⟩ := ih fun a' h' => h a' (List.mem_cons_of_mem _ h')
    refine ⟨b :: bs, ?_, .cons h2 h4⟩
    rw [List.mapM_cons, h1, h3]; rfl

/-- **C67**, partial: all texts are imported, each as its reading under a type that accepts it, provided that no reader raises anything but a ValueError, no
text is taken for a short date (YYYYMMDD), texts that are integers are also floats, and either every text is accepted by some type other than text or the
longest text is accepted by no other type.  Missing: see the witnesses below. -/
theorem C67_partial (inf : DType → List Char → Except Err InfVal) (values : List (List Char)) (hne : values ≠ [])
    (he : ∀ s ∈ values, ∀ t e, inf t s = .error e → e = .value) (hstr : ∀ s ∈ values, inf .string s = .ok (.str s))
    (hds : ∀ s ∈ values, ∀ v, inf .dateShort s ≠ .ok v)
    (hif : ∀ s ∈ values, ∀ t, t.isInt = true → ∀ v, inf t s = .ok v → ∃ u, u.isFloat = true ∧ ∃ v, inf u s = .ok v)
    (hw : (∀ s ∈ values, ∃ t, t ≠ .string ∧ ∃ v, inf t s = .ok v) ∨
      ∀ s ∈ values, ∃ s' ∈ values, s.length ≤ s'.length ∧ ∀ t, t ≠ .string → ∀ v, inf t s' ≠ .ok v) :
    ∃ vs, typedPage inf values = .ok vs ∧ List.Forall₂ (fun s v => ∃ t, inf t s = .ok v) values vs := by
  obtain ⟨⟨r, w⟩, hr⟩ := C41_total inf values he (fun s hs => ⟨_, hstr s hs⟩) 1
  obtain ⟨ts, hts, hinv, hwidth⟩ := rankLoop_inv inf values [] newRank 1 r w newRank_inv hr
  rw [List.nil_append] at hinv
  have hcm : ∀ t, t ∈ counted r ↔ t ∈ ts := by
    intro t
    rw [mem_counted]
    constructor
    · rintro ⟨n, hm, hn⟩
      have := hinv.counts _ hm
      exact List.count_pos_iff.1 (by rw [← this]; exact hn)
    · intro ht
      have hm' : t ∈ r.map Prod.fst := hinv.types.mem_iff.2 (by cases t <;> decide)
      obtain ⟨⟨u, n⟩, hm, rfl⟩ := List.mem_map.1 hm'
      exact ⟨n, hm, by rw [show n = ts.count u from hinv.counts _ hm]; exact List.count_pos_iff.2 ht⟩
  have hacc : ∀ t ∈ ts, ∃ s ∈ values, ∃ v, inf t s = .ok v := by
    have : ∀ {ts : List DType} {vals : List (List Char)}, List.Forall₂ (fun t s => ∃ v, inf t s = .ok v) ts vals → ∀ t ∈ ts, ∃ s ∈ vals, ∃ v, inf t s = .ok v := by
      intro ts vals h
      induction h with
      | nil => intro t ht; cases ht
      | cons hab _ ih =>
        intro t ht
        rcases List.mem_cons.1 ht with rfl | ht
        · exact ⟨_, List.mem_cons_self, hab⟩
        · obtain ⟨s, hs, h⟩ := ih t ht
          exact ⟨s, List.mem_cons_of_mem _ hs, h⟩
    exact this hts
  have hacc' : ∀ s ∈ values, ∃ t ∈ ts, ∃ v, inf t s = .ok v := by
    have : ∀ {ts : List DType} {vals : List (List Char)}, List.Forall₂ (fun t s => ∃ v, inf t s = .ok v) ts vals → ∀ s ∈ vals, ∃ t ∈ ts, ∃ v, inf t s = .ok v := by
      intro ts vals h
      induction h with
      | nil => intro t ht; cases ht
      | cons hab _ ih =>
        intro t ht
        rcases List.mem_cons.1 ht with rfl | ht
        · exact ⟨_, List.mem_cons_self, hab⟩
        · obtain ⟨s, hs, h⟩ := ih t ht
          exact ⟨s, List.mem_cons_of_mem _ hs, h⟩
    exact this hts
  have hd0 : .dateShort ∉ counted r := by
    intro h
    obtain ⟨s, hs, v, hv⟩ := hacc _ ((hcm _).1 h)
    exact hds s hs v hv
  have hz : ∃ x ∈ r, x.2 = 0 := by
    have hm : DType.dateShort ∈ r.map Prod.fst := hinv.types.mem_iff.2 (by decide)
    obtain ⟨⟨u, n⟩, hm, hu⟩ := List.mem_map.1 hm
    refine ⟨_, hm, ?_⟩
    by_contra hn
    exact hd0 ((mem_counted r _).2 ⟨n, by rw [← hu]; exact hm, Nat.pos_of_ne_zero hn⟩)
  have hnz : ∃ x ∈ r, 0 < x.2 := by
    obtain ⟨s, l, rfl⟩ := List.exists_cons_of_ne_nil hne
    obtain ⟨t, ht, _⟩ := hacc' s List.mem_cons_self
    obtain ⟨n, hm, hn⟩ := (mem_counted r t).1 ((hcm t).2 ht)
    exact ⟨_, hm, hn⟩
  obtain ⟨q, r', hpt, hperm, hq, hu, hi, hf⟩ := pageType_inv r hz hnz hd0
  have hall : ∀ t : DType, t ∈ r'.map Prod.fst := fun t => ((hperm.map Prod.fst).mem_iff).2 (hinv.types.mem_iff.2 (by cases t <;> decide))
  have hwrite : ∀ s ∈ values, ∃ v, writeValue inf q r' w s = .ok v ∧ ∃ t, inf t s = .ok v := by
    intro s hs
    obtain ⟨t, ht, hok⟩ := hacc' s hs
    rcases hq with rfl | rfl | rfl | rfl
    · refine ⟨.str s, ?_, .string, hstr s hs⟩
      show (if w < s.length then (.error .overflow : Except Err InfVal) else .ok (.str s)) = _
      rw [if_neg]
      rcases hw with hw | hw
      · exact absurd (hu rfl) (rankLoop_no_string inf values hw [] newRank 1 r w newRank_inv newRank_last (by simp) hr)
      · obtain ⟨s', hs', hle, hno⟩ := hw s hs
        have : s'.length ≤ stringWidth 1 ts values := stringWidth_mem _ 1 ts values hts s' hs' (by
          rintro t ⟨v, hv⟩
          by_contra hne
          exact hno t hne v hv)
        omega
    · obtain ⟨v, u, h1, _, h3⟩ := inferFirst_total (fun t => inf t s) (he s hs) DType.isInt r' t (hall t) (hi rfl t ((hcm t).2 ht)) hok
      exact ⟨v, h1, u, h3⟩
    · rcases hf rfl t ((hcm t).2 ht) with h | h
      · obtain ⟨v, hv⟩ := hok
        obtain ⟨u, hu, hok⟩ := hif s hs t h v hv
        obtain ⟨v, u, h1, _, h3⟩ := inferFirst_total (fun t => inf t s) (he s hs) DType.isFloat r' u (hall u) hu hok
        exact ⟨v, h1, u, h3⟩
      · obtain ⟨v, u, h1, _, h3⟩ := inferFirst_total (fun t => inf t s) (he s hs) DType.isFloat r' t (hall t) h hok
        exact ⟨v, h1, u, h3⟩
    · obtain ⟨v, u, h1, _, h3⟩ := inferFirst_total (fun t => inf t s) (he s hs) (fun _ => true) r' t (hall t) rfl hok
      exact ⟨v, h1, u, h3⟩
  obtain ⟨vs, h1, h2⟩ := mapM_forall₂ _ _ values hwrite
  refine ⟨vs, ?_, h2⟩
  unfold typedPage
  rw [hr]
  show (pageType r >>= _) = _
  rw [hpt]
  exact h1

/-- the readers of the library: integers are also read as floats if Nim's `parseFloat` reads what its `parseInt` reads -/
theorem inferAs_int_float (pf : List Char → Option Rat) (hpf : ∀ s n, nimParseInt s = .ok n → (pf s).isSome) (s : List Char) (t : DType) (ht : t.isInt = true) (v : InfVal)
    (h : inferAs pf t s = .ok v) : ∃ u, u.isFloat = true ∧ ∃ v, inferAs pf u s = .ok v := by
  have loc : ∀ am, (∃ n, inferInt false am s = .ok n) → ∃ q, inferFloat pf false am s = .ok q := by
    intro am h
    obtain ⟨n, hn⟩ := (C40_accepts am s).1 h
    exact ⟨_, C40_float pf am s n hn⟩
  cases t with
  | intSimple =>
    obtain ⟨n, hn, _⟩ := ebind_ok h
    refine ⟨.floatSimple, rfl, ?_⟩
    unfold inferInt at hn
    dsimp only at hn
    by_cases h0 : stripNum s = []
    · rw [if_pos h0] at hn; cases hn
    · rw [if_neg h0, if_pos rfl] at hn
      have := hpf _ _ hn
      obtain ⟨q, hq⟩ := Option.isSome_iff_exists.1 this
      refine ⟨.float q, ?_⟩
      show (do Except.ok (InfVal.float (← inferFloat pf true false s))) = _
      unfold inferFloat
      dsimp only
      rw [if_neg h0, if_pos rfl, hq]; rfl
  | intUS =>
    obtain ⟨n, hn, _⟩ := ebind_ok h
    obtain ⟨q, hq⟩ := loc true ⟨n, hn⟩
    refine ⟨.floatUS, rfl, .float q, ?_⟩
    show (do Except.ok (InfVal.float (← inferFloat pf false true s))) = _
    rw [hq]; rfl
  | intEU =>
    obtain ⟨n, hn, _⟩ := ebind_ok h
    obtain ⟨q, hq⟩ := loc false ⟨n, hn⟩
    refine ⟨.floatEU, rfl, .float q, ?_⟩
    show (do Except.ok (InfVal.float (← inferFloat pf false false s))) = _
    rw [hq]; rfl
  | _ => cases ht

/-! ## witnesses -/

/-- the width of a text page is that of the values counted as text: a longer value of another type does not fit, and its padding never ends -/
theorem C67_width_fails : typedPage (inferAs noFloat) ["123456789".toList, "a".toList, "b".toList] = .error .overflow := by decide +kernel

/-- short dates, missing values and one integer: the page is taken for integers and the missing values raise -/
theorem C67_dateshort_fails : typedPage (inferAs noFloat) ["20240131".toList, "20240131".toList, "20240131".toList, [], [], "5".toList] = .error .other := by
  decide +kernel

/-- text that looks like a time with an incomplete time zone ends the import -/
theorem C67_time_fails : typedPage (inferAs noFloat) ["08:00-12".toList] = .error .other := by decide +kernel

theorem C67_fails : ¬ C67_statement := by
  intro h
  obtain ⟨vs, h, _⟩ := h noFloat ["08:00-12".toList] (by simp)
  rw [C67_time_fails] at h; cases h

/-- the types found depend on the order of the rows: behind a text, numbers are texts -/
theorem C67_order_fails :
    typedPage (inferAs noFloat) ["1".toList, "2".toList, "a".toList] = .ok [.int 1, .int 2, .str "a".toList] ∧
    typedPage (inferAs noFloat) ["a".toList, "1".toList, "2".toList] = .ok [.str "a".toList, .str "1".toList, .str "2".toList] := by
  constructor <;> decide +kernel

/-- a reader of floats for the example: integers only -/
def intFloat : List Char → Option Rat := fun s => (nimParseInt s).toOption.map fun n : Int => (n : Rat)

/-- the reader raises nothing but a ValueError on this text -/
def onlyValueError (s : List Char) : Bool := DType.all.all fun t => match inferAs intFloat t s with
  | .ok _ => true
  | .error e => e == .value

/-- a page that meets the hypotheses of `C67_partial` -/
example : ∃ vs, typedPage (inferAs intFloat) ["1".toList, "1,000".toList, "".toList] = .ok vs ∧
    List.Forall₂ (fun s v => ∃ t, inferAs intFloat t s = .ok v) ["1".toList, "1,000".toList, "".toList] vs := by
  refine C67_partial (inferAs intFloat) ["1".toList, "1,000".toList, "".toList] (by simp) ?_ (fun s _ => rfl) ?_ ?_ (Or.inl ?_)
  · intro s hs t e h
    have h1 : ∀ s ∈ ["1".toList, "1,000".toList, "".toList], onlyValueError s = true := by decide +kernel
    have h2 := List.all_eq_true.1 (h1 s hs) t (by cases t <;> decide)
    rw [h] at h2
    simpa using h2
  · intro s hs v h
    have h1 : ∀ s ∈ ["1".toList, "1,000".toList, "".toList], inferAs intFloat .dateShort s = .error .value := by decide +kernel
    rw [h1 s hs] at h; cases h
  · intro s _ t ht v h
    refine inferAs_int_float intFloat ?_ s t ht v h
    intro s n h
    rw [intFloat, h]; rfl
  · intro s hs
    simp only [List.mem_cons, List.not_mem_nil, or_false] at hs
    rcases hs with rfl | rfl | rfl
    · exact ⟨.intSimple, by decide, .int 1, by decide +kernel⟩
    · exact ⟨.intUS, by decide, .int 1000, by decide +kernel⟩
    · exact ⟨.none, by decide, .none, by decide +kernel⟩

end Tablite
