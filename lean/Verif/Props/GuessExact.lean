import Verif.Props.IntDates

/-! # Which columns of dates become dates (C87)

Once one type has read a value, no other type is tried before it unless it has read more values; so only the first value decides. -/

namespace Tablite

theorem pad2_digNum {t : PyText} (h : AllDig t) (l : t.length = 2) : pad2 (digNum t) = t := by
  match t, l, h with
  | [a, b], _, h =>
    have ha := h.2 a (by simp)
    have hb := h.2 b (by simp)
    simp only [pad2, digNum, List.foldl_cons, List.foldl_nil, List.cons.injEq, and_true]
    omega

theorem pad4_digNum {t : PyText} (h : AllDig t) (l : t.length = 4) : pad4 (digNum t) = t := by
  match t, l, h with
  | [a, b, c, d], _, h =>
    have ha := h.2 a (by simp)
    have hb := h.2 b (by simp)
    have hc := h.2 c (by simp)
    have hd := h.2 d (by simp)
    simp only [pad4, pad2, digNum, List.foldl_cons, List.foldl_nil, List.cons_append, List.nil_append, List.cons.injEq, and_true]
    omega

/-- the only spelling of a date in the ISO form is the ISO text of the date -/
theorem spelling_iso {t : PyText} {x : PyDate} (h : DateSpelling t x) (hi : IsoForm t) : t = isoDate x := by
  obtain ⟨y', m', d', ly', lm', ld', e⟩ := hi
  cases h with
  | yearFirst s y m d hs hy hm hd ly lm ld =>
    obtain ⟨e1, e2⟩ := List.append_inj e (by omega)
    have hl := congrArg List.length e2
    simp only [List.length_cons, List.length_append] at hl
    rw [List.cons.injEq] at e2
    obtain ⟨rfl, e2⟩ := e2
    have lm2 : m.length = 2 := by omega
    have ld2 : d.length = 2 := by omega
    show _ = pad4 (digNum y) ++ 45 :: (pad2 (digNum m) ++ 45 :: pad2 (digNum d))
    rw [pad4_digNum hy ly, pad2_digNum hm lm2, pad2_digNum hd ld2]
  | dayFirst s y m d hs hy hm hd ly lm ld =>
    exfalso
    have hl := congrArg List.length e
    simp only [List.length_cons, List.length_append] at hl
    have lm2 : m.length = 2 := by omega
    have ld2 : d.length = 2 := by omega
    match m, lm2, d, ld2, y', ly', hm with
    | [m1, m2], _, [d1, d2], _, [a1, a2, a3, a4], _, hm =>
      simp only [List.cons_append, List.nil_append, List.cons.injEq] at e
      have := hm.2 m2 (by simp)
      omega
  | compact y m d hy hm hd ly lm ld =>
    exfalso
    have hl := congrArg List.length e
    simp only [List.length_cons, List.length_append] at hl
    omega

/-- C87, exactly: a column of texts that spell dates becomes the column of these dates exactly if the first text does not have the form
`YYYY-MM-DD`; the form of the other texts does not matter. -/
theorem C87_column_exact {O : Type} (fl : Rat → Rat) (R : GuessRt O) (texts : List (PyText × PyDate))
    (h : ∀ x ∈ texts, DateSpelling x.1 x.2 ∧ dateOk x.2 = true) :
    pyGuess (withDates fl R) (texts.map fun x => .str x.1) = .ok (texts.map fun x => .date x.2) ↔ ∀ x ∈ texts.head?, ¬ IsoForm x.1 := by
  constructor
  · intro hg x hx hi
    match texts, hx with
    | y :: rest, hx =>
      simp only [List.head?_cons, Option.mem_def, Option.some.injEq] at hx
      subst hx
      obtain ⟨h1, h2⟩ := h y (by simp)
      obtain ⟨c, r, e, hc⟩ := spelling_head h1
      have hd : pyInfer (withDates fl R) (.str y.1) .datetime = .ok (.datetime y.2 ⟨0, 0, 0, 0, none⟩) := by
        rw [infer_text _ (digit_not_none e hc) (by decide)]
        show (pyDatetimeText fl y.1).bind _ = _
        have hr := readDate_iso y.2 h2 []
        rw [List.append_nil] at hr
        rw [spelling_iso h1 hi]
        unfold pyDatetimeText isoDatetimeText
        rw [hr]
        rfl
      obtain ⟨rs, hrun, hall⟩ := (C86_guess _ _ _).1 hg
      rw [List.map_cons] at hrun
      have rej : ¬ Rejects (pyInfer (withDates fl R) (.str y.1) .datetime) := by
        rw [hd]
        rintro (h | h) <;> cases h
      cases hrun with
      | miss _ _ _ rs hm _ => exact rej (hm _ (types_all _))
      | hit _ _ _ t r rs ht hr hm _ =>
        have et : t = .datetime := by
          refine Classical.byContradiction fun hne => rej (hm .datetime (types_all _) (.inr ⟨rfl, ?_⟩))
          revert hne
          cases t <;> decide
        subst et
        rw [hd, Except.ok.injEq] at hr
        subst hr
        simp only [List.map_cons, Option.getD_some, List.cons.injEq] at hall
        cases hall.1
  · intro hf
    have hi : ∀ x ∈ texts, pyInfer (withDates fl R) (.str x.1) .date = .ok (.date x.2) := by
      intro x hx
      obtain ⟨h1, h2⟩ := h x hx
      obtain ⟨c, r, e, hc⟩ := spelling_head h1
      rw [infer_text _ (digit_not_none e hc) (by decide)]
      show (pyDateText x.1).bind _ = _
      rw [(C87_date x.1 x.2).2 ⟨h1, h2⟩]
      rfl
    rw [C86_first (withDates fl R) _ .date (fun v => (pyInfer (withDates fl R) v .date).toOption.getD .none)]
    · rw [List.map_map]
      congr 1
      refine List.map_congr_left fun x hx => ?_
      simp only [Function.comp, hi x hx]
      rfl
    · intro v hv
      obtain ⟨x, hx, rfl⟩ := List.mem_map.1 hv
      rw [hi x hx]
      rfl
    · intro v hv u hu
      match texts, hv with
      | x :: rest, hv =>
        simp only [List.map_cons, List.head?_cons, Option.mem_def, Option.some.injEq] at hv
        subst hv
        obtain ⟨h1, h2⟩ := h x (by simp)
        obtain ⟨c, r, e, hc⟩ := spelling_head h1
        cases u <;> first
          | (exfalso; revert hu; decide)
          | skip
        rw [infer_text _ (digit_not_none e hc) (by decide)]
        left
        show (pyDatetimeText fl x.1).bind _ = _
        rw [spelling_no_datetime fl x.1 x.2 h1 (hf x rfl)]
        rfl

/-- two dates of one month, the first spelled with slashes, the second in the ISO form -/
def mixedDates : List (PyText × PyDate) := [(txt "7/12/2021", ⟨2021, 12, 7⟩), (txt "2021-12-08", ⟨2021, 12, 8⟩)]

theorem mixedDates_spell : ∀ x ∈ mixedDates, DateSpelling x.1 x.2 ∧ dateOk x.2 = true := by
  intro x hx
  simp only [mixedDates, List.mem_cons, List.not_mem_nil, or_false] at hx
  rcases hx with rfl | rfl
  · exact ⟨.dayFirst 47 (txt "2021") (txt "12") (txt "7") (by decide) ⟨by decide, by decide +kernel⟩ ⟨by decide, by decide +kernel⟩
      ⟨by decide, by decide +kernel⟩ rfl (by decide) (by decide), by decide +kernel⟩
  · exact ⟨.yearFirst 45 (txt "2021") (txt "12") (txt "08") (by decide) ⟨by decide, by decide +kernel⟩ ⟨by decide, by decide +kernel⟩
      ⟨by decide, by decide +kernel⟩ rfl (by decide) (by decide), by decide +kernel⟩

/-- C87, the order matters: the same two texts become dates in one order and not in the other -/
theorem C87_order (fl : Rat → Rat) {O : Type} (R : GuessRt O) :
    pyGuess (withDates fl R) (mixedDates.map fun x => .str x.1) = .ok (mixedDates.map fun x => .date x.2) ∧
    pyGuess (withDates fl R) (mixedDates.reverse.map fun x => .str x.1) ≠ .ok (mixedDates.reverse.map fun x => .date x.2) := by
  constructor
  · refine (C87_column_exact fl R mixedDates mixedDates_spell).2 fun x hx => ?_
    cases hx
    rintro ⟨y, m, d, ly, lm, ld, e⟩
    have := congrArg List.length e
    simp [ly, lm, ld] at this
    revert this
    decide +kernel
  · intro h
    refine (C87_column_exact fl R mixedDates.reverse fun x hx => mixedDates_spell x (List.mem_reverse.1 hx)).1 h _ rfl ?_
    exact ⟨txt "2021", txt "12", txt "08", by decide, by decide, by decide, by decide +kernel⟩

end Tablite
