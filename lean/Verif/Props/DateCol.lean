import Verif.Props.DateText

/-! C87, C88: compact datetimes, and what `guess` makes of columns of text that spell dates, datetimes and integers. -/
namespace Tablite

/-! ## compact forms -/

/-- time of day without colons: hours, minutes and seconds, or fewer -/
def compactClock (h : Nat) : Option (Nat × Option Nat) → PyText
  | none => pad2 h
  | some (m, none) => pad2 h ++ pad2 m
  | some (m, some s) => pad2 h ++ (pad2 m ++ pad2 s)

/-- what it means -/
def compactTime (h : Nat) : Option (Nat × Option Nat) → PyTime
  | none => ⟨h, 0, 0, 0, none⟩
  | some (m, none) => ⟨h, m, 0, 0, none⟩
  | some (m, some s) => ⟨h, m, s, 0, none⟩

/-- a date of eight digits and the time, with or without `T` between them -/
def compactText (tee : Bool) (d : PyDate) (h : Nat) (ms : Option (Nat × Option Nat)) : PyText :=
  pad4 d.y ++ (pad2 d.m ++ (pad2 d.d ++ (if tee then 84 :: compactClock h ms else compactClock h ms)))

theorem stripColons_id {t : PyText} {c : Nat} (hc : c ≠ 58) : stripColons (t ++ [c]) = t ++ [c] := by
  unfold stripColons
  rw [List.reverse_append]
  simp [hc]

theorem stripColons_one {t : PyText} {c : Nat} (hc : c ≠ 58) : stripColons (t ++ [c, 58]) = t ++ [c] := by
  unfold stripColons
  rw [List.reverse_append]
  simp [hc]

theorem stripColons_two {t : PyText} {c : Nat} (hc : c ≠ 58) : stripColons (t ++ [c, 58, 58]) = t ++ [c] := by
  unfold stripColons
  rw [List.reverse_append]
  simp [hc]

/-- the time with colons -/
def colonClock (h : Nat) : Option (Nat × Option Nat) → PyText
  | none => pad2 h
  | some (m, s) => clockText h m s

theorem timeOk_bounds {t : PyTime} (h : timeOk t = true) : t.h < 24 ∧ t.m < 60 ∧ t.s < 60 := by
  unfold timeOk at h
  simp only [Bool.and_eq_true, decide_eq_true_eq] at h
  exact ⟨h.1.1.1.1, h.1.1.1.2, h.1.1.2⟩

theorem isoTimeText_ok (h : Nat) (ms : Option (Nat × Option Nat)) (ht : timeOk (compactTime h ms) = true) : isoTimeText (colonClock h ms) = .ok (compactTime h ms) := by
  match ms with
  | none =>
    have hh : h < 24 := (timeOk_bounds ht).1
    have hall : ∀ x ∈ pad2 h, noSign x = true := by
      intro x hx
      have := (pad_allDig2 h (by omega)).2 x hx
      unfold noSign
      simp only [Bool.and_eq_true, bne_iff_ne, ne_eq]
      omega
    unfold isoTimeText colonClock
    rw [takeWhile_all hall, dropWhile_all hall]
    have e2 := read2_pad2 h (by omega) []
    rw [List.append_nil] at e2
    rw [e2]
    dsimp only [Except.bind, isoAfterH, readOff]
    exact if_pos ht
  | some (m, none) =>
    have := isoDatetimeText_clock ⟨2000, 1, 1⟩ (by decide) 84 h m none
    have hb : h < 24 ∧ m < 60 := ⟨(timeOk_bounds ht).1, (timeOk_bounds ht).2.1⟩
    have := this hb.1 hb.2 (by simp)
    unfold isoDatetimeText at this
    rw [readDate_iso _ (by decide)] at this
    dsimp only [Except.bind] at this
    unfold colonClock
    cases hi : isoTimeText (clockText h m none) with
    | error e => rw [hi] at this; cases this
    | ok y => rw [hi] at this; cases this; rfl
  | some (m, some s) =>
    have := isoDatetimeText_clock ⟨2000, 1, 1⟩ (by decide) 84 h m (some s)
    have hb : h < 24 ∧ m < 60 ∧ s < 60 := timeOk_bounds ht
    have := this hb.1 hb.2.1 (by rintro x ⟨⟩; exact hb.2.2)
    unfold isoDatetimeText at this
    rw [readDate_iso _ (by decide)] at this
    dsimp only [Except.bind] at this
    unfold colonClock
    cases hi : isoTimeText (clockText h m (some s)) with
    | error e => rw [hi] at this; cases this
    | ok y => rw [hi] at this; cases this; rfl

theorem notIso_of_fifth {t : PyText} {c : Nat} (h : t[4]? = some c) (hc : c ≠ 45) (x : PyDate × PyTime) : isoDatetimeText t ≠ .ok x := by
  intro hx
  unfold isoDatetimeText at hx
  cases hr : readDate t with
  | error e => rw [hr] at hx; cases hx
  | ok r =>
    obtain ⟨y, m, d, e, ly, _⟩ := readDate_ok hr
    rw [e, List.getElem?_append_right (by omega), ly] at h
    simp at h
    exact hc h.symm

/-- reading a compact form by the table -/
theorem compact_read (fl : Rat → Rat) (t v : PyText) (f : DtFmt) (hiso : ∀ x, isoDatetimeText t ≠ .ok x) (h1 : 46 ∉ t) (h2 : 44 ∉ t)
    (hp : dGet (digitPattern t) datetimeFormats = some f) (hy : f.ymd = none) (hT : f.T = none) (hd : f.dayFirst = false) (hv : uncompact f t = v)
    (h3 : 46 ∉ v) (h4 : 44 ∉ v) : pyDatetimeText fl t = isoDatetimeText v := by
  unfold pyDatetimeText
  cases hi : isoDatetimeText t with
  | ok x => exact absurd hi (hiso x)
  | error e =>
    dsimp only
    have hpp : patternPart t = t := by
      have he : patternEnd t = t.length := by
        unfold patternEnd
        rw [if_neg (by simpa using h1), if_neg (by simpa using h2)]
      unfold patternPart
      rw [he, if_neg (by omega)]
      simp
    rw [hpp, hp]
    dsimp only
    unfold patternToDatetime yearFirst fixT fixYmd
    rw [hd, hv, hy, hT]
    simp only [Bool.false_eq_true, if_false]
    rw [swapChar_notMem h4]
    unfold fixFraction
    rw [if_neg (fun h => h3 (by simpa using h.1))]
    rfl

theorem isoDatetimeText_colon (d : PyDate) (hd : dateOk d = true) (h : Nat) (ms : Option (Nat × Option Nat)) (ht : timeOk (compactTime h ms) = true) :
    isoDatetimeText (isoDate d ++ 84 :: colonClock h ms) = .ok (d, compactTime h ms) := by
  unfold isoDatetimeText
  rw [readDate_iso d hd]
  dsimp only [Except.bind]
  rw [isoTimeText_ok h ms ht]

/-- C88: compact datetimes, with `T` between date and time or without, down to hours, minutes or seconds -/
theorem C88_compact (fl : Rat → Rat) (tee : Bool) (d : PyDate) (hd : dateOk d = true) (h : Nat) (ms : Option (Nat × Option Nat))
    (ht : timeOk (compactTime h ms) = true) : pyDatetimeText fl (compactText tee d h ms) = .ok (d, compactTime h ms) := by
  have iso := isoDatetimeText_colon d hd h ms ht
  obtain ⟨by_, bm, bd⟩ := dateOk_bounds hd
  obtain ⟨y1, y2, y3, y4, ey, gy1, gy2, gy3, gy4⟩ := pad4_dig d.y by_
  obtain ⟨m1, m2, em, gm1, gm2⟩ := pad2_dig d.m bm
  obtain ⟨d1, d2, ed, gd1, gd2⟩ := pad2_dig d.d bd
  have ne : ∀ {c k : Nat}, isDig c = true → isDig k = false → k ≠ c := fun h1 h2 e => by rw [e, h1] at h2; cases h2
  have dg : ∀ k, isDig k = false → k ≠ y1 ∧ k ≠ y2 ∧ k ≠ y3 ∧ k ≠ y4 ∧ k ≠ m1 ∧ k ≠ m2 ∧ k ≠ d1 ∧ k ≠ d2 :=
    fun k hk => ⟨ne gy1 hk, ne gy2 hk, ne gy3 hk, ne gy4 hk, ne gm1 hk, ne gm2 hk, ne gd1 hk, ne gd2 hk⟩
  have d46 := dg 46 (by decide)
  have d44 := dg 44 (by decide)
  have n45 : m1 ≠ 45 := (dg 45 (by decide)).2.2.2.2.1.symm
  have e0 : isoDate d = [y1, y2, y3, y4, 45, m1, m2, 45, d1, d2] := by unfold isoDate; rw [ey, em, ed]; rfl
  rw [← iso, e0]
  unfold compactText
  rw [ey, em, ed]
  have hh : h < 24 := by
    match ms with
    | none => exact (timeOk_bounds ht).1
    | some (m, none) => exact (timeOk_bounds ht).1
    | some (m, some s) => exact (timeOk_bounds ht).1
  obtain ⟨h1, h2, eh, gh1, gh2⟩ := pad2_dig h (by omega)
  have a46 := ne gh1 (show isDig 46 = false by decide)
  have b46 := ne gh2 (show isDig 46 = false by decide)
  have a44 := ne gh1 (show isDig 44 = false by decide)
  have b44 := ne gh2 (show isDig 44 = false by decide)
  have b58 := (ne gh2 (show isDig 58 = false by decide)).symm
  match ms with
  | none =>
    unfold compactClock colonClock
    rw [eh]
    cases tee
    · refine compact_read fl _ _ { compact := 2 } (notIso_of_fifth (c := m1) rfl n45) (by simp [d46, a46, b46]) (by simp [d44, a44, b44])
        ?_ rfl rfl rfl ?_ (by simp [d46, a46, b46]) (by simp [d44, a44, b44])
      · have : digitPattern ([y1, y2, y3, y4] ++ ([m1, m2] ++ ([d1, d2] ++ if false = true then 84 :: [h1, h2] else [h1, h2]))) = txt "NNNNNNNNNN" := by
          simp [digitPattern, gy1, gy2, gy3, gy4, gm1, gm2, gd1, gd2, gh1, gh2]
          decide +kernel
        rw [this]; decide +kernel
      · show stripColons ([y1, y2, y3, y4, 45, m1, m2, 45, d1, d2, 84, h1] ++ [h2, 58]) = _
        rw [stripColons_one b58]
        rfl
    · refine compact_read fl _ _ { compact := 1 } (notIso_of_fifth (c := m1) rfl n45) (by simp [d46, a46, b46]) (by simp [d44, a44, b44])
        ?_ rfl rfl rfl ?_ (by simp [d46, a46, b46]) (by simp [d44, a44, b44])
      · have : digitPattern ([y1, y2, y3, y4] ++ ([m1, m2] ++ ([d1, d2] ++ if true = true then 84 :: [h1, h2] else [h1, h2]))) = txt "NNNNNNNNTNN" := by
          simp [digitPattern, gy1, gy2, gy3, gy4, gm1, gm2, gd1, gd2, gh1, gh2]
          decide +kernel
        rw [this]; decide +kernel
      · show stripColons ([y1, y2, y3, y4, 45, m1, m2, 45, d1, d2, 84, h1] ++ [h2, 58]) = _
        rw [stripColons_one b58]
        rfl
  | some (m, none) =>
    have hm : m < 60 := (timeOk_bounds ht).2.1
    obtain ⟨i1, i2, ei, gi1, gi2⟩ := pad2_dig m (by omega)
    have c46 := ne gi1 (show isDig 46 = false by decide)
    have e46 := ne gi2 (show isDig 46 = false by decide)
    have c44 := ne gi1 (show isDig 44 = false by decide)
    have e44 := ne gi2 (show isDig 44 = false by decide)
    have i58 := (ne gi2 (show isDig 58 = false by decide)).symm
    dsimp only [compactClock, colonClock, clockText]
    rw [eh, ei]
    cases tee
    · refine compact_read fl _ _ { compact := 2 } (notIso_of_fifth (c := m1) rfl n45) (by simp [d46, a46, b46, c46, e46]) (by simp [d44, a44, b44, c44, e44])
        ?_ rfl rfl rfl ?_ (by simp [d46, a46, b46, c46, e46]) (by simp [d44, a44, b44, c44, e44])
      · have : digitPattern ([y1, y2, y3, y4] ++ ([m1, m2] ++ ([d1, d2] ++ if false = true then 84 :: ([h1, h2] ++ [i1, i2]) else ([h1, h2] ++ [i1, i2])))) = txt "NNNNNNNNNNNN" := by
          simp [digitPattern, gy1, gy2, gy3, gy4, gm1, gm2, gd1, gd2, gh1, gh2, gi1, gi2]
          decide +kernel
        rw [this]; decide +kernel
      · show stripColons ([y1, y2, y3, y4, 45, m1, m2, 45, d1, d2, 84, h1, h2, 58, i1] ++ [i2, 58]) = _
        rw [stripColons_one i58]
        rfl
    · refine compact_read fl _ _ { compact := 1 } (notIso_of_fifth (c := m1) rfl n45) (by simp [d46, a46, b46, c46, e46]) (by simp [d44, a44, b44, c44, e44])
        ?_ rfl rfl rfl ?_ (by simp [d46, a46, b46, c46, e46]) (by simp [d44, a44, b44, c44, e44])
      · have : digitPattern ([y1, y2, y3, y4] ++ ([m1, m2] ++ ([d1, d2] ++ if true = true then 84 :: ([h1, h2] ++ [i1, i2]) else ([h1, h2] ++ [i1, i2])))) = txt "NNNNNNNNTNNNN" := by
          simp [digitPattern, gy1, gy2, gy3, gy4, gm1, gm2, gd1, gd2, gh1, gh2, gi1, gi2]
          decide +kernel
        rw [this]; decide +kernel
      · show stripColons ([y1, y2, y3, y4, 45, m1, m2, 45, d1, d2, 84, h1, h2, 58, i1] ++ [i2, 58]) = _
        rw [stripColons_one i58]
        rfl
  | some (m, some s) =>
    have hm : m < 60 := (timeOk_bounds ht).2.1
    have hs : s < 60 := (timeOk_bounds ht).2.2
    obtain ⟨i1, i2, ei, gi1, gi2⟩ := pad2_dig m (by omega)
    obtain ⟨s1, s2, es, gs1, gs2⟩ := pad2_dig s (by omega)
    have c46 := ne gi1 (show isDig 46 = false by decide)
    have e46 := ne gi2 (show isDig 46 = false by decide)
    have c44 := ne gi1 (show isDig 44 = false by decide)
    have e44 := ne gi2 (show isDig 44 = false by decide)
    have f46 := ne gs1 (show isDig 46 = false by decide)
    have g46 := ne gs2 (show isDig 46 = false by decide)
    have f44 := ne gs1 (show isDig 44 = false by decide)
    have g44 := ne gs2 (show isDig 44 = false by decide)
    have s58 := (ne gs2 (show isDig 58 = false by decide)).symm
    dsimp only [compactClock, colonClock, clockText]
    rw [eh, ei, es]
    cases tee
    · refine compact_read fl _ _ { compact := 2 } (notIso_of_fifth (c := m1) rfl n45) (by simp [d46, a46, b46, c46, e46, f46, g46]) (by simp [d44, a44, b44, c44, e44, f44, g44])
        ?_ rfl rfl rfl ?_ (by simp [d46, a46, b46, c46, e46, f46, g46]) (by simp [d44, a44, b44, c44, e44, f44, g44])
      · have : digitPattern ([y1, y2, y3, y4] ++ ([m1, m2] ++ ([d1, d2] ++ if false = true then 84 :: ([h1, h2] ++ ([i1, i2] ++ [s1, s2])) else ([h1, h2] ++ ([i1, i2] ++ [s1, s2]))))) = txt "NNNNNNNNNNNNNN" := by
          simp [digitPattern, gy1, gy2, gy3, gy4, gm1, gm2, gd1, gd2, gh1, gh2, gi1, gi2, gs1, gs2]
          decide +kernel
        rw [this]; decide +kernel
      · show stripColons ([y1, y2, y3, y4, 45, m1, m2, 45, d1, d2, 84, h1, h2, 58, i1, i2, 58, s1] ++ [s2]) = _
        rw [stripColons_id s58]
        rfl
    · refine compact_read fl _ _ { compact := 1 } (notIso_of_fifth (c := m1) rfl n45) (by simp [d46, a46, b46, c46, e46, f46, g46]) (by simp [d44, a44, b44, c44, e44, f44, g44])
        ?_ rfl rfl rfl ?_ (by simp [d46, a46, b46, c46, e46, f46, g46]) (by simp [d44, a44, b44, c44, e44, f44, g44])
      · have : digitPattern ([y1, y2, y3, y4] ++ ([m1, m2] ++ ([d1, d2] ++ if true = true then 84 :: ([h1, h2] ++ ([i1, i2] ++ [s1, s2])) else ([h1, h2] ++ ([i1, i2] ++ [s1, s2]))))) = txt "NNNNNNNNTNNNNNN" := by
          simp [digitPattern, gy1, gy2, gy3, gy4, gm1, gm2, gd1, gd2, gh1, gh2, gi1, gi2, gs1, gs2]
          decide +kernel
        rw [this]; decide +kernel
      · show stripColons ([y1, y2, y3, y4, 45, m1, m2, 45, d1, d2, 84, h1, h2, 58, i1, i2, 58, s1] ++ [s2]) = _
        rw [stripColons_id s58]
        rfl

example : compactText true ⟨2021, 12, 7⟩ 9 (some (5, some 30)) = txt "20211207T090530" ∧ compactText false ⟨2021, 12, 7⟩ 9 none = txt "2021120709" := by decide +kernel

/-- C88: the compact date with `T` and a time with colons -/
theorem C88_compact_colons (fl : Rat → Rat) (d : PyDate) (hd : dateOk d = true) (h m s : Nat) (hh : h < 24) (hm : m < 60) (hs : s < 60) :
    pyDatetimeText fl (pad4 d.y ++ (pad2 d.m ++ (pad2 d.d ++ 84 :: clockText h m (some s)))) = .ok (d, ⟨h, m, s, 0, none⟩) := by
  have iso := isoDatetimeText_clock d hd 84 h m (some s) hh hm (by rintro x ⟨⟩; exact hs)
  obtain ⟨by_, bm, bd⟩ := dateOk_bounds hd
  obtain ⟨y1, y2, y3, y4, ey, gy1, gy2, gy3, gy4⟩ := pad4_dig d.y by_
  obtain ⟨m1, m2, em, gm1, gm2⟩ := pad2_dig d.m bm
  obtain ⟨d1, d2, ed, gd1, gd2⟩ := pad2_dig d.d bd
  obtain ⟨h1, h2, eh, gh1, gh2⟩ := pad2_dig h (by omega)
  obtain ⟨i1, i2, ei, gi1, gi2⟩ := pad2_dig m (by omega)
  obtain ⟨s1, s2, es, gs1, gs2⟩ := pad2_dig s (by omega)
  have ne : ∀ {c k : Nat}, isDig c = true → isDig k = false → k ≠ c := fun h1 h2 e => by rw [e, h1] at h2; cases h2
  have dg : ∀ k, isDig k = false → k ≠ y1 ∧ k ≠ y2 ∧ k ≠ y3 ∧ k ≠ y4 ∧ k ≠ m1 ∧ k ≠ m2 ∧ k ≠ d1 ∧ k ≠ d2 ∧ k ≠ h1 ∧ k ≠ h2 ∧ k ≠ i1 ∧ k ≠ i2 ∧ k ≠ s1 ∧ k ≠ s2 :=
    fun k hk => ⟨ne gy1 hk, ne gy2 hk, ne gy3 hk, ne gy4 hk, ne gm1 hk, ne gm2 hk, ne gd1 hk, ne gd2 hk, ne gh1 hk, ne gh2 hk, ne gi1 hk, ne gi2 hk, ne gs1 hk, ne gs2 hk⟩
  have d46 := dg 46 (by decide)
  have d44 := dg 44 (by decide)
  have n45 : m1 ≠ 45 := (dg 45 (by decide)).2.2.2.2.1.symm
  have e0 : isoDate d = [y1, y2, y3, y4, 45, m1, m2, 45, d1, d2] := by unfold isoDate; rw [ey, em, ed]; rfl
  have e1 : clockText h m (some s) = [h1, h2, 58, i1, i2, 58, s1, s2] := by rw [clockText, eh, ei, es]; rfl
  refine Eq.trans ?_ iso
  rw [e0, e1, ey, em, ed]
  refine compact_read fl _ _ { compact := 3 } (notIso_of_fifth (c := m1) rfl n45) (by simp [d46]) (by simp [d44]) ?_ rfl rfl rfl ?_ (by simp [d46]) (by simp [d44])
  · have : digitPattern ([y1, y2, y3, y4] ++ ([m1, m2] ++ ([d1, d2] ++ 84 :: [h1, h2, 58, i1, i2, 58, s1, s2]))) = txt "NNNNNNNNTNN:NN:NN" := by
      simp [digitPattern, gy1, gy2, gy3, gy4, gm1, gm2, gd1, gd2, gh1, gh2, gi1, gi2, gs1, gs2]
      decide +kernel
    rw [this]; decide +kernel
  · show stripColons ([y1, y2, y3, y4, 45, m1, m2, 45, d1, d2, 84, h1, h2, 58, i1, i2, 58, s1] ++ [s2]) = _
    rw [stripColons_id (ne gs2 (show isDig 58 = false by decide)).symm]
    rfl

/-! ## columns -/

/-- the readers of dates and datetimes in place -/
def withDates {O : Type} (fl : Rat → Rat) (R : GuessRt O) : GuessRt O :=
  { R with dateText := pyDateText, datetimeText := pyDatetimeText fl, timeText := isoTimeText }

theorem digit_not_none {t : PyText} {c : Nat} {r : PyText} (e : t = c :: r) (hc : isDig c = true) : noneTexts.contains t = false := by
  by_contra h
  rw [Bool.not_eq_false] at h
  have hm : t ∈ noneTexts := by simpa using h
  have key : ∀ n ∈ noneTexts, ∀ x, n.head? = some x → isDig x = false := by decide +kernel
  have := key t hm c (by rw [e]; rfl)
  rw [hc] at this
  cases this

theorem infer_text {O : Type} (R : GuessRt O) {t : PyText} (h : noneTexts.contains t = false) {u : GT} (hu : u ≠ .str) :
    pyInfer R (.str t) u = pyMatched R (.str t) u := by
  unfold pyInfer
  rw [if_neg (fun e => hu e.2)]
  simp only [pyInNones, h, Except.bind, Bool.false_eq_true, if_false]

/-- C88: a column of texts that each spell a datetime, with or without fraction, in any of the styles that are read, becomes a column of these datetimes -/
theorem C88_datetime_column {O : Type} (fl : Rat → Rat) (R : GuessRt O) (texts : List (PyText × (PyDate × PyTime)))
    (h : ∀ x ∈ texts, pyDatetimeText fl x.1 = .ok x.2 ∧ noneTexts.contains x.1 = false) :
    pyGuess (withDates fl R) (texts.map fun x => .str x.1) = .ok (texts.map fun x => .datetime x.2.1 x.2.2) := by
  have hi : ∀ x ∈ texts, pyInfer (withDates fl R) (.str x.1) .datetime = .ok (.datetime x.2.1 x.2.2) := by
    intro x hx
    obtain ⟨h1, h2⟩ := h x hx
    rw [infer_text _ h2 (by decide)]
    show (pyDatetimeText fl x.1).bind _ = _
    rw [h1]
    rfl
  rw [C86_homogeneous (withDates fl R) _ .datetime (fun v => (pyInfer (withDates fl R) v .datetime).toOption.getD .none)]
  · rw [List.map_map]
    congr 1
    refine List.map_congr_left fun x hx => ?_
    simp only [Function.comp, hi x hx]
    rfl
  · intro v hv
    obtain ⟨x, hx, rfl⟩ := List.mem_map.1 hv
    rw [hi x hx]
    rfl
  · intro v hv u hu
    exfalso
    revert hu
    cases u <;> decide

/-- C87: dates in ISO form become datetimes at midnight, not dates -/
theorem C87_iso_column {O : Type} (fl : Rat → Rat) (R : GuessRt O) (dates : List PyDate) (h : ∀ d ∈ dates, dateOk d = true) :
    pyGuess (withDates fl R) (dates.map fun d => .str (isoDate d)) = .ok (dates.map fun d => .datetime d ⟨0, 0, 0, 0, none⟩) := by
  have := C88_datetime_column fl R (dates.map fun d => (isoDate d, d, (⟨0, 0, 0, 0, none⟩ : PyTime))) ?_
  · rw [List.map_map, List.map_map] at this
    exact this
  · intro x hx
    obtain ⟨d, hd, rfl⟩ := List.mem_map.1 hx
    obtain ⟨by_, _, _⟩ := dateOk_bounds (h d hd)
    obtain ⟨a, b, c, e, ey, ga, _⟩ := pad4_dig d.y by_
    refine ⟨?_, ?_⟩
    · unfold pyDatetimeText isoDatetimeText
      have := readDate_iso d (h d hd) []
      rw [List.append_nil] at this
      dsimp only
      rw [this]
      rfl
    · have e0 : isoDate d = a :: ([b, c, e] ++ 45 :: (pad2 d.m ++ 45 :: pad2 d.d)) := by unfold isoDate; rw [ey]; rfl
      exact digit_not_none e0 ga

/-- entries of the table of datetimes: how long the patterns are and how they begin -/
theorem datetimeFormats_forms : ∀ p ∈ datetimeFormats, p.1.head? = some 78 ∧ (p.1.length ≤ 10 → p.1 = List.replicate 10 78) ∧
    (p.1 = List.replicate p.1.length 78 → p.1.length ∈ [10, 12, 14]) := by decide +kernel

theorem dateFormats_head : ∀ p ∈ dateFormats, p.1.head? = some 78 ∧ (p.1 = List.replicate p.1.length 78 → p.1.length = 8) := by decide +kernel

theorem patternPart_prefix (t : PyText) : ∃ r, t = patternPart t ++ r := by
  unfold patternPart
  split
  · exact ⟨_, (List.take_append_drop _ _).symm⟩
  · exact ⟨_, (List.take_append_drop _ _).symm⟩

/-- texts that are read neither by `fromisoformat` nor have a pattern in the table -/
theorem datetime_rejects (fl : Rat → Rat) (t : PyText) (h1 : ∀ x, isoDatetimeText t ≠ .ok x) (h2 : dGet (digitPattern (patternPart t)) datetimeFormats = none) :
    pyDatetimeText fl t = .error .value := by
  unfold pyDatetimeText
  cases hi : isoDatetimeText t with
  | ok x => exact absurd hi (h1 x)
  | error e => dsimp only; rw [h2]

/-- the form `YYYY-MM-DD` -/
def IsoForm (t : PyText) : Prop := ∃ y m d, y.length = 4 ∧ m.length = 2 ∧ d.length = 2 ∧ t = y ++ 45 :: (m ++ 45 :: d)

/-- the spellings of dates that are not the ISO form: no datetimes -/
theorem spelling_no_datetime (fl : Rat → Rat) (t : PyText) (x : PyDate) (h : DateSpelling t x) (hn : ¬ IsoForm t) :
    pyDatetimeText fl t = .error .value := by
  have hlen : t.length ≤ 10 ∧ (t.length = 10 → ∃ c ∈ t, isDig c = false ∧ c ≠ 78) := by
    have hsep : ∀ s ∈ dateSeps, isDig s = false ∧ s ≠ 78 := by decide
    cases h with
    | yearFirst s y m d hs hy hm hd ly lm ld => exact ⟨by simp; omega, fun _ => ⟨s, by simp, hsep s hs⟩⟩
    | dayFirst s y m d hs hy hm hd ly lm ld => exact ⟨by simp; omega, fun _ => ⟨s, by simp, hsep s hs⟩⟩
    | compact y m d hy hm hd ly lm ld => exact ⟨by simp; omega, fun e => by simp at e; omega⟩
  refine datetime_rejects fl t ?_ ?_
  · intro y hy
    unfold isoDatetimeText at hy
    cases hr : readDate t with
    | error e => rw [hr] at hy; cases hy
    | ok r =>
      obtain ⟨a, b, c, e, la, lb, lc, _⟩ := readDate_ok hr
      have hl := hlen.1
      rw [e] at hl
      simp only [List.length_append, List.length_cons] at hl
      have hr0 : r.2 = [] := List.length_eq_zero_iff.1 (by omega)
      rw [hr0, List.append_nil] at e
      exact hn ⟨a, b, c, la, lb, lc, e⟩
  · cases hg : dGet (digitPattern (patternPart t)) datetimeFormats with
    | none => rfl
    | some f =>
      exfalso
      obtain ⟨_, h2, _⟩ := datetimeFormats_forms _ (dGet_mem _ _ _ hg)
      obtain ⟨r, hr⟩ := patternPart_prefix t
      have l1 : (digitPattern (patternPart t)).length = (patternPart t).length := by unfold digitPattern; rw [List.length_map]
      have l2 : t.length = (patternPart t).length + r.length := by conv_lhs => rw [hr]; rw [List.length_append]
      have e := h2 (by rw [l1]; omega)
      dsimp only at e
      have l3 : (patternPart t).length = 10 := by rw [← l1, e]; rfl
      have hr0 : r = [] := List.length_eq_zero_iff.1 (by omega)
      rw [hr0, List.append_nil] at hr
      rw [← hr] at e l3
      obtain ⟨c, hc, h3, h4⟩ := hlen.2 l3
      have hm : (if isDig c then 78 else c) ∈ digitPattern t := List.mem_map.2 ⟨c, hc, rfl⟩
      rw [e, h3] at hm
      exact h4 (List.eq_of_mem_replicate hm)

theorem spelling_head {t : PyText} {x : PyDate} (h : DateSpelling t x) : ∃ c r, t = c :: r ∧ isDig c = true := by
  have key : ∀ a : PyText, AllDig a → ∀ r, ∃ c r', a ++ r = c :: r' ∧ isDig c = true := by
    intro a ha r
    match a, ha with
    | [], ha => exact absurd rfl ha.1
    | c :: a, ha => exact ⟨c, a ++ r, rfl, by have := ha.2 c (by simp); simp [isDig]; omega⟩
  cases h with
  | yearFirst s y m d hs hy hm hd ly lm ld => exact key y hy _
  | dayFirst s y m d hs hy hm hd ly lm ld => exact key d hd _
  | compact y m d hy hm hd ly lm ld => exact key y hy _

/-- C87: a column of texts that each spell a date, in any of the accepted ways but the ISO form, becomes a column of these dates -/
theorem C87_column {O : Type} (fl : Rat → Rat) (R : GuessRt O) (texts : List (PyText × PyDate))
    (h : ∀ x ∈ texts, DateSpelling x.1 x.2 ∧ dateOk x.2 = true ∧ ¬ IsoForm x.1) :
    pyGuess (withDates fl R) (texts.map fun x => .str x.1) = .ok (texts.map fun x => .date x.2) := by
  have hi : ∀ x ∈ texts, pyInfer (withDates fl R) (.str x.1) .date = .ok (.date x.2) := by
    intro x hx
    obtain ⟨h1, h2, _⟩ := h x hx
    obtain ⟨c, r, e, hc⟩ := spelling_head h1
    rw [infer_text _ (digit_not_none e hc) (by decide)]
    show (pyDateText x.1).bind _ = _
    rw [(C87_date x.1 x.2).2 ⟨h1, h2⟩]
    rfl
  rw [C86_homogeneous (withDates fl R) _ .date (fun v => (pyInfer (withDates fl R) v .date).toOption.getD .none)]
  · rw [List.map_map]
    congr 1
    refine List.map_congr_left fun x hx => ?_
    simp only [Function.comp, hi x hx]
    rfl
  · intro v hv
    obtain ⟨x, hx, rfl⟩ := List.mem_map.1 hv
    rw [hi x hx]
    rfl
  · intro v hv u hu
    obtain ⟨x, hx, rfl⟩ := List.mem_map.1 hv
    obtain ⟨h1, h2, h3⟩ := h x hx
    obtain ⟨c, r, e, hc⟩ := spelling_head h1
    cases u <;> first
      | (exfalso; revert hu; decide)
      | skip
    rw [infer_text _ (digit_not_none e hc) (by decide)]
    left
    show (pyDatetimeText fl x.1).bind _ = _
    rw [spelling_no_datetime fl x.1 x.2 h1 h3]
    rfl

example : DateSpelling (txt "7/12/2021") ⟨2021, 12, 7⟩ ∧ dateOk ⟨2021, 12, 7⟩ = true ∧ ¬ IsoForm (txt "7/12/2021") :=
  ⟨.dayFirst 47 (txt "2021") (txt "12") (txt "7") (by decide) ⟨by decide, by decide +kernel⟩ ⟨by decide, by decide +kernel⟩ ⟨by decide, by decide +kernel⟩ rfl
    (by decide) (by decide), by decide +kernel, by
      rintro ⟨y, m, d, ly, lm, ld, e⟩
      have := congrArg List.length e
      simp [ly, lm, ld] at this
      revert this
      decide +kernel⟩

/-- what a user expects: a column of texts that spell dates becomes a column of dates -/
def C87_column_statement (fl : Rat → Rat) : Prop :=
  ∀ (R : GuessRt Unit) (texts : List (PyText × PyDate)), (∀ x ∈ texts, DateSpelling x.1 x.2 ∧ dateOk x.2 = true) →
    pyGuess (withDates fl R) (texts.map fun x => .str x.1) = .ok (texts.map fun x => .date x.2)

/-- the ISO form is read as a datetime -/
theorem C87_column_fails (fl : Rat → Rat) : ¬ C87_column_statement fl := by
  intro h
  have h1 := h fewRt [(isoDate ⟨2021, 12, 7⟩, ⟨2021, 12, 7⟩)] ?_
  · have h2 := C87_iso_column fl fewRt [⟨2021, 12, 7⟩] (by decide)
    rw [List.map_cons, List.map_nil] at h1
    rw [List.map_cons, List.map_nil, h1] at h2
    cases h2
  · intro x hx
    simp only [List.mem_cons, List.not_mem_nil, or_false] at hx
    subst hx
    exact ⟨.yearFirst 45 (txt "2021") (txt "12") (txt "07") (by decide) ⟨by decide, by decide +kernel⟩ ⟨by decide, by decide +kernel⟩ ⟨by decide, by decide +kernel⟩ rfl
      (by decide) (by decide), by decide⟩

/-! ## integers -/

theorem digitPattern_intText (z : Int) : digitPattern (intText z) = (if z < 0 then [45] else []) ++ List.replicate (natText z.natAbs).length 78 := by
  have h := natText_digits z.natAbs
  have hd : AllDig (natText z.natAbs) := ⟨natText_ne_nil _, h⟩
  unfold intText
  split
  · rw [digitPattern_cons, digitPattern_dig hd]
    rfl
  · rw [digitPattern_dig hd]
    rfl

theorem intText_digits (z : Int) : ∀ c ∈ intText z, (48 ≤ c ∧ c < 58) ∨ c = 45 := by
  intro c hc
  unfold intText at hc
  split at hc
  · rcases List.mem_cons.1 hc with e | e
    · exact .inr e
    · exact .inl (natText_digits _ c e)
  · exact .inl (natText_digits _ c hc)

/-- integers with another number of digits than 8, 10, 12 and 14 spell no date -/
theorem int_no_date (fl : Rat → Rat) (z : Int) (h : z < 0 ∨ (natText z.natAbs).length ∉ [8, 10, 12, 14]) :
    pyDateText (intText z) = .error .value ∧ pyDatetimeText fl (intText z) = .error .value := by
  have hp := digitPattern_intText z
  have noIso : ∀ r, readDate (intText z) ≠ .ok r := by
    intro r hr
    obtain ⟨y, m, d, e, ly, lm, ld, gy, gm, gd, _⟩ := readDate_ok hr
    have hne : y ≠ [] := gy.1
    have htail : ∀ c ∈ (intText z).tail, 48 ≤ c ∧ c < 58 := by
      intro c hc
      unfold intText at hc
      split at hc
      · exact natText_digits _ c hc
      · exact natText_digits _ c (List.mem_of_mem_tail hc)
    have := htail 45 (by
      rw [e]
      match y, hne with
      | a :: y, _ => simp)
    omega
  have hpp : patternPart (intText z) = intText z := by
    have h1 : 46 ∉ intText z := fun hm => by have := intText_digits z _ hm; omega
    have h2 : 44 ∉ intText z := fun hm => by have := intText_digits z _ hm; omega
    have he : patternEnd (intText z) = (intText z).length := by
      unfold patternEnd
      rw [if_neg (by simpa using h1), if_neg (by simpa using h2)]
    unfold patternPart
    rw [he, if_neg (by omega)]
    simp
  constructor
  · unfold pyDateText fromIsoDate
    cases hr : readDate (intText z) with
    | ok r => exact absurd hr (noIso r)
    | error e =>
      dsimp only [Except.bind]
      cases hg : dGet (digitPattern (intText z)) dateFormats with
      | none => rfl
      | some f =>
        exfalso
        obtain ⟨h1, h2⟩ := dateFormats_head _ (dGet_mem _ _ _ hg)
        dsimp only at h1 h2
        rw [hp] at h1 h2
        by_cases hz : z < 0
        · rw [if_pos hz] at h1
          cases h1
        · rw [if_neg hz, List.nil_append, List.length_replicate] at h2
          have := h2 rfl
          rcases h with h | h
          · exact hz h
          · exact h (by rw [this]; decide)
  · refine datetime_rejects fl _ ?_ ?_
    · intro x hx
      unfold isoDatetimeText at hx
      cases hr : readDate (intText z) with
      | ok r => exact noIso r hr
      | error e => rw [hr] at hx; cases hx
    · rw [hpp]
      cases hg : dGet (digitPattern (intText z)) datetimeFormats with
      | none => rfl
      | some f =>
        exfalso
        obtain ⟨h1, _, h2⟩ := datetimeFormats_forms _ (dGet_mem _ _ _ hg)
        dsimp only at h1 h2
        rw [hp] at h1 h2
        by_cases hz : z < 0
        · rw [if_pos hz] at h1
          cases h1
        · rw [if_neg hz, List.nil_append, List.length_replicate] at h2
          have := h2 rfl
          rcases h with h | h
          · exact hz h
          · exact h (by simp only [List.mem_cons, List.not_mem_nil, or_false] at this ⊢; omega)

theorem plainText_intText (z : Int) : plainText (intText z) = intText z := by
  unfold plainText
  rw [List.filter_eq_self]
  intro c hc
  have := intText_digits z c hc
  simp only [List.mem_cons, List.not_mem_nil, or_false, decide_eq_true_eq]
  omega

/-- what a user expects: a column of texts of integers becomes a column of these integers -/
def C88_int_statement (fl : Rat → Rat) : Prop := ∀ (R : GuessRt Unit) (zs : List Int),
  pyGuess (withDates fl R) (zs.map fun z => .str (intText z)) = .ok (zs.map fun z => .int z)

/-- C88: integers with another number of digits than 8, 10, 12 and 14, and all negative ones, become integers. Missing: the others, see `C88_int_fails`. -/
theorem C88_int_partial {O : Type} (fl : Rat → Rat) (R : GuessRt O) (zs : List Int) (h : ∀ z ∈ zs, z < 0 ∨ (natText z.natAbs).length ∉ [8, 10, 12, 14]) :
    pyGuess (withDates fl R) (zs.map fun z => .str (intText z)) = .ok (zs.map fun z => .int z) := by
  have := C86_int_column (withDates fl R) (zs.map fun z => (intText z, z)) ?_ ?_
  · rw [List.map_map, List.map_map] at this
    exact this
  · intro x hx
    obtain ⟨z, hz, rfl⟩ := List.mem_map.1 hx
    exact plainText_intText z
  · intro x hx
    obtain ⟨z, hz, rfl⟩ := List.mem_map.1 hx
    obtain ⟨h1, h2⟩ := int_no_date fl z (h z hz)
    exact ⟨.inl h1, .inl h2⟩

example : ∀ z ∈ [(7 : Int), 123456789, -20211207], z < 0 ∨ (natText z.natAbs).length ∉ [8, 10, 12, 14] := by decide +kernel

/-- a number of ten digits is read as a datetime, one of eight digits as a date -/
theorem C88_int_fails (fl : Rat → Rat) : ¬ C88_int_statement fl := by
  intro h
  have h1 := h fewRt [2021120709]
  have h2 := C88_datetime_column fl fewRt [(intText 2021120709, ⟨2021, 12, 7⟩, ⟨9, 0, 0, 0, none⟩)] ?_
  · rw [List.map_cons, List.map_nil] at h1
    rw [List.map_cons, List.map_nil, h1] at h2
    cases h2
  · intro x hx
    simp only [List.mem_cons, List.not_mem_nil, or_false] at hx
    subst hx
    have e : intText 2021120709 = compactText false ⟨2021, 12, 7⟩ 9 none := by decide +kernel
    refine ⟨?_, by decide +kernel⟩
    rw [e]
    exact C88_compact fl false ⟨2021, 12, 7⟩ (by decide) 9 none (by decide)

end Tablite
