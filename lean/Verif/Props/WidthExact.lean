import Verif.Props.TypedPage
/-!
# C67: exactly which pages of text end the import
-/
namespace Tablite

theorem mapM_each {β γ : Type} (f : β → Except Err γ) (l : List β) : ∀ (r : List γ), l.mapM f = .ok r → ∀ x ∈ l, ∃ y, f x = .ok y := by
  induction l with
  | nil => intro r _ x hx; cases hx
  | cons a l ih =>
    intro r h x hx
    rw [List.mapM_cons] at h
    obtain ⟨y, h1, h2⟩ := ebind_ok h
    obtain ⟨ys, h3, -⟩ := ebind_ok h2
    rcases List.mem_cons.1 hx with rfl | hx
    · exact ⟨y, h1⟩
    · exact ih ys h3 x hx

theorem pageTypeLoop_not_unicode (r : Rank) : ∀ p, p ≠ .unset → p ≠ .unicode → ∀ q, pageTypeLoop p r = .ok q → q ≠ .unicode := by
  induction r with
  | nil => intro p _ _ q h; cases h
  | cons a r ih =>
    obtain ⟨t, n⟩ := a
    intro p h1 h2 q h
    rw [pageTypeLoop] at h
    split at h
    · cases h; exact h2
    · refine ih _ (overlap_unset p t h1) ?_ q h
      unfold overlap
      split
      · exact h2
      · split
        · decide
        · split
          · split
            · decide
            · split
              · decide
              · exact h2
          · decide

/-- the page is a page of text if and only if the type counted most often, the first of several, is text -/
theorem unicode_head (r : Rank) (q : PageType) (r' : Rank) (h : pageType r = .ok (q, r')) : q = .unicode ↔ ∃ n rest, sortRanks false r = (.string, n) :: rest ∧ 0 < n := by
  obtain ⟨p, h1, h2⟩ := ebind_ok h
  have hq : q = .unicode ↔ p = .unicode := by
    cases p <;> cases h2 <;> simp
  rw [hq]
  cases hs : sortRanks false r with
  | nil => rw [hs] at h1; cases h1
  | cons a rest =>
    obtain ⟨t, n⟩ := a
    rw [hs, pageTypeLoop] at h1
    by_cases hn : n = 0
    · rw [if_pos hn] at h1
      cases h1
      refine iff_of_false (by decide) ?_
      rintro ⟨m, rest', e, hm⟩
      cases e
      omega
    · rw [if_neg hn, if_pos rfl] at h1
      by_cases ht : t = .string
      · subst ht
        rw [if_pos rfl] at h1
        cases h1
        exact iff_of_true rfl ⟨n, rest, rfl, by omega⟩
      · rw [if_neg ht] at h1
        refine iff_of_false (pageTypeLoop_not_unicode rest _ (firstPageType_unset t) ?_ p h1) ?_
        · cases t <;> first | exact absurd rfl ht | decide
        · rintro ⟨m, rest', e, -⟩
          cases e
          exact ht rfl

/-- text comes first if and only if it was counted more often than every other type -/
theorem head_outnumbers (dts : List DType) (r : Rank) (hr : RankInv dts r) :
    (∃ n rest, sortRanks false r = (.string, n) :: rest ∧ 0 < n) ↔ ∀ t, t ≠ .string → dts.count t < dts.count .string := by
  have hperm : (sortRanks false r).Perm r := insertSort_perm cmpDtypes r
  have hsort : (sortRanks false r).Pairwise fun a b => b.2 ≤ a.2 := insertSort_sorted Prod.snd cmpDtypes cmpDtypes_key r
  have hall : ∀ t : DType, (t, dts.count t) ∈ r := by
    intro t
    obtain ⟨⟨u, n⟩, hm, hu⟩ := List.mem_map.1 (hr.types.mem_iff.2 (by cases t <;> decide) : t ∈ r.map Prod.fst)
    have := hr.counts _ hm
    dsimp only at this hu
    subst hu
    rw [← this]
    exact hm
  constructor
  · rintro ⟨n, rest, e, hn⟩ t ht
    have hc : n = dts.count .string := hr.counts (.string, n) (hperm.mem_iff.1 (by rw [e]; simp))
    rw [← hc]
    have hm : (t, dts.count t) ∈ sortRanks false r := hperm.mem_iff.2 (hall t)
    rw [e] at hm hsort
    rcases List.mem_cons.1 hm with h | h
    · exact absurd (Prod.ext_iff.1 h).1 ht
    · have hle : dts.count t ≤ n := (List.pairwise_cons.1 hsort).1 _ h
      rcases Nat.lt_or_ge (dts.count t) n with h' | h'
      · exact h'
      · exfalso
        have hst : (sortRanks false r).filter (fun a => a.2 == n) = r.filter (fun a => a.2 == n) := insertSort_stable Prod.snd cmpDtypes cmpDtypes_key r n
        rw [e, List.filter_cons_of_pos (by simp)] at hst
        have ho := hr.order.sublist (List.filter_sublist (p := fun a => a.2 == n))
        rw [← hst] at ho
        have hm' : (t, dts.count t) ∈ rest.filter (fun a => a.2 == n) := List.mem_filter.2 ⟨h, by simp; omega⟩
        have := ((List.pairwise_cons.1 ho).1 _ hm').2.1 rfl ht
        dsimp only at this
        omega
  · intro h
    cases e : sortRanks false r with
    | nil =>
      have := hperm.mem_iff.2 (hall .string)
      rw [e] at this
      cases this
    | cons a rest =>
      obtain ⟨t, n⟩ := a
      have hc : n = dts.count t := hr.counts (t, n) (hperm.mem_iff.1 (by rw [e]; simp))
      by_cases ht : t = .string
      · subst ht
        refine ⟨n, rest, rfl, ?_⟩
        have := h .dateShort (by decide)
        omega
      · exfalso
        have hm : (DType.string, dts.count .string) ∈ sortRanks false r := hperm.mem_iff.2 (hall .string)
        rw [e] at hm hsort
        rcases List.mem_cons.1 hm with h' | h'
        · exact ht (Prod.ext_iff.1 h').1.symm
        · have := (List.pairwise_cons.1 hsort).1 _ h'
          have := h t ht
          dsimp only at *
          omega

/-- **C67** (width), exactly: provided that no reader raises anything but a ValueError, no text is taken for a short date and texts that are integers are also floats, a page cannot be imported if and
only if more of its values were counted as text than as any other type and one of its values is longer than one character and than all those counted as text.  `ts` are the types under which the values were counted. -/
theorem C67_width_exact (inf : DType → List Char → Except Err InfVal) (values : List (List Char)) (hne : values ≠ [])
    (he : ∀ s ∈ values, ∀ t e, inf t s = .error e → e = .value) (hstr : ∀ s ∈ values, inf .string s = .ok (.str s))
    (hds : ∀ s ∈ values, ∀ v, inf .dateShort s ≠ .ok v)
    (hif : ∀ s ∈ values, ∀ t, t.isInt = true → ∀ v, inf t s = .ok v → ∃ u, u.isFloat = true ∧ ∃ v, inf u s = .ok v) :
    ∃ (ts : List DType) (r : Rank) (w : Nat), rankLoop inf newRank 1 values = .ok (r, w) ∧ (∀ p ∈ r, p.2 = ts.count p.1) ∧ w = stringWidth 1 ts values ∧
      List.Forall₂ (fun t s => ∃ v, inf t s = .ok v) ts values ∧
      ((∃ vs, typedPage inf values = .ok vs) ↔ ¬ ((∀ t, t ≠ .string → ts.count t < ts.count .string) ∧
        ∃ s ∈ values, 1 < s.length ∧ ∀ t s', (t, s') ∈ ts.zip values → t = .string → s'.length < s.length)) := by
  obtain ⟨⟨r, w⟩, hr⟩ := C41_total inf values he (fun s hs => ⟨_, hstr s hs⟩) 1
  obtain ⟨ts, hts, hinv, hwidth⟩ := rankLoop_inv inf values [] newRank 1 r w newRank_inv hr
  rw [List.nil_append] at hinv
  refine ⟨ts, r, w, hr, hinv.counts, hwidth, hts, ?_⟩
  have hcm : ∀ t, t ∈ counted r ↔ t ∈ ts := by
    intro t
    rw [mem_counted]
    constructor
    · rintro ⟨n, hm, hn⟩
      have := hinv.counts _ hm
      exact List.count_pos_iff.1 (by rw [← this]; exact hn)
    · intro ht
      have hm' : t ∈ r.map Prod.fst := hinv.types.mem_iff.2 (by cases t <;> decide)
      obtain ⟨⟨u, n⟩, hm, rfl⟩ := List.mem_map.1 hm'
      exact ⟨n, hm, by rw [show n = ts.count u from hinv.counts _ hm]; exact List.count_pos_iff.2 ht⟩
  have hacc : ∀ t ∈ ts, ∃ s ∈ values, ∃ v, inf t s = .ok v := by
    clear hwidth hinv hcm hr hne he hstr hds hif
    induction hts with
    | nil => intro t ht; cases ht
    | cons hab _ ih =>
      intro t ht
      rcases List.mem_cons.1 ht with rfl | ht
      · exact ⟨_, List.mem_cons_self, hab⟩
      · obtain ⟨s, hs, h⟩ := ih t ht
        exact ⟨s, List.mem_cons_of_mem _ hs, h⟩
  have hacc' : ∀ s ∈ values, ∃ t ∈ ts, ∃ v, inf t s = .ok v := by
    clear hwidth hinv hcm hr hne he hstr hds hif hacc
    induction hts with
    | nil => intro t ht; cases ht
    | cons hab _ ih =>
      intro t ht
      rcases List.mem_cons.1 ht with rfl | ht
      · exact ⟨_, List.mem_cons_self, hab⟩
      · obtain ⟨s, hs, h⟩ := ih t ht
        exact ⟨s, List.mem_cons_of_mem _ hs, h⟩
  have hd0 : .dateShort ∉ counted r := by
    intro h
    obtain ⟨s, hs, v, hv⟩ := hacc _ ((hcm _).1 h)
    exact hds s hs v hv
  have hz : ∃ x ∈ r, x.2 = 0 := by
    have hm : DType.dateShort ∈ r.map Prod.fst := hinv.types.mem_iff.2 (by decide)
    obtain ⟨⟨u, n⟩, hm, hu⟩ := List.mem_map.1 hm
    refine ⟨_, hm, ?_⟩
    by_contra hn
    exact hd0 ((mem_counted r _).2 ⟨n, by rw [← hu]; exact hm, Nat.pos_of_ne_zero hn⟩)
  have hnz : ∃ x ∈ r, 0 < x.2 := by
    obtain ⟨s, l, rfl⟩ := List.exists_cons_of_ne_nil hne
    obtain ⟨t, ht, _⟩ := hacc' s List.mem_cons_self
    obtain ⟨n, hm, hn⟩ := (mem_counted r t).1 ((hcm t).2 ht)
    exact ⟨_, hm, hn⟩
  obtain ⟨q, r', hpt, hperm, hq, hu, hi, hf⟩ := pageType_inv r hz hnz hd0
  have hall : ∀ t : DType, t ∈ r'.map Prod.fst := fun t => ((hperm.map Prod.fst).mem_iff).2 (hinv.types.mem_iff.2 (by cases t <;> decide))
  have hwd : ∀ s : List Char, w < s.length ↔ 1 < s.length ∧ ∀ t s', (t, s') ∈ ts.zip values → t = .string → s'.length < s.length := by
    intro s
    rw [hwidth]
    clear hwidth hinv hcm hr hne he hstr hds hif hacc hacc' hd0 hz hnz hperm hu hi hf hall hpt
    generalize (1 : Nat) = w0
    induction hts generalizing w0 with
    | nil => simp [stringWidth]
    | @cons t s0 ts values _ _ ih =>
      rw [stringWidth, ih, List.zip_cons_cons]
      constructor
      · rintro ⟨h1, h2⟩
        refine ⟨by split at h1 <;> omega, ?_⟩
        intro t' s' hm ht
        rcases List.mem_cons.1 hm with h | h
        · cases h
          rw [if_pos ht] at h1
          omega
        · exact h2 t' s' h ht
      · rintro ⟨h1, h2⟩
        refine ⟨?_, fun t' s' hm => h2 t' s' (List.mem_cons_of_mem _ hm)⟩
        split
        · rename_i ht
          have := h2 t s0 (by simp) ht
          omega
        · exact h1
  have hrun : typedPage inf values = values.mapM (writeValue inf q r' w) := by
    unfold typedPage
    rw [hr]
    show (pageType r >>= _) = _
    rw [hpt]
    rfl
  rw [hrun, ← head_outnumbers ts r hinv, ← unicode_head r q r' hpt]
  by_cases hqu : q = .unicode
  · subst hqu
    have e : ∀ s, writeValue inf .unicode r' w s = if w < s.length then (.error .overflow : Except Err InfVal) else .ok (.str s) := fun _ => rfl
    constructor
    · rintro ⟨vs, hv⟩ ⟨-, s, hs, hl⟩
      have hl' := (hwd s).2 hl
      obtain ⟨v, hv⟩ := mapM_each _ _ _ hv s hs
      rw [e, if_pos hl'] at hv
      cases hv
    · intro h
      obtain ⟨vs, h1, -⟩ := mapM_forall₂ (writeValue inf .unicode r' w) (fun _ _ => True) values (by
        intro s hs
        refine ⟨.str s, ?_, trivial⟩
        rw [e, if_neg]
        intro hl
        exact h ⟨rfl, s, hs, (hwd s).1 hl⟩)
      exact ⟨vs, h1⟩
  · refine iff_of_true ?_ (fun h => hqu h.1)
    obtain ⟨vs, h1, -⟩ := mapM_forall₂ (writeValue inf q r' w) (fun _ _ => True) values (by
      intro s hs
      obtain ⟨t, ht, hok⟩ := hacc' s hs
      rcases hq with rfl | rfl | rfl | rfl
      · exact absurd rfl hqu
      · obtain ⟨v, u, h1, _, h3⟩ := inferFirst_total (fun t => inf t s) (he s hs) DType.isInt r' t (hall t) (hi rfl t ((hcm t).2 ht)) hok
        exact ⟨v, h1, trivial⟩
      · rcases hf rfl t ((hcm t).2 ht) with h | h
        · obtain ⟨v, hv⟩ := hok
          obtain ⟨u, hu, hok⟩ := hif s hs t h v hv
          obtain ⟨v, u, h1, _, h3⟩ := inferFirst_total (fun t => inf t s) (he s hs) DType.isFloat r' u (hall u) hu hok
          exact ⟨v, h1, trivial⟩
        · obtain ⟨v, u, h1, _, h3⟩ := inferFirst_total (fun t => inf t s) (he s hs) DType.isFloat r' t (hall t) h hok
          exact ⟨v, h1, trivial⟩
      · obtain ⟨v, u, h1, _, h3⟩ := inferFirst_total (fun t => inf t s) (he s hs) (fun _ => true) r' t (hall t) rfl hok
        exact ⟨v, h1, trivial⟩)
    exact ⟨vs, h1⟩

/-- a page that cannot be imported and one that can -/
example : typedPage (inferAs noFloat) ["123456789".toList, "a".toList, "b".toList] = .error .overflow ∧
    (typedPage (inferAs noFloat) ["123456789".toList, "1".toList, "b".toList]).toOption.isSome = true := by decide +kernel

end Tablite
