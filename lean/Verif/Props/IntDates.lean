import Verif.Props.DateCol

/-!
# C86, C88: the first value of a column decides; exactly which columns of integer texts are guessed as integers
-/

namespace Tablite

/-- **C86** A column all of whose values one type accepts is read as that type if the types before it in the original order reject its first value: the first value
decides.  What the other values look like does not matter. -/
theorem C86_first {O : Type} (R : GuessRt O) (values : List (PV O)) (t : GT) (f : PV O → PV O) (h1 : ∀ v ∈ values, pyInfer R v t = .ok (f v))
    (h2 : ∀ v, values.head? = some v → ∀ u, GT.types.idxOf u < GT.types.idxOf t → Rejects (pyInfer R v u)) : pyGuess R values = .ok (values.map f) := by
  refine (C86_guess R values _).2 ⟨values.map fun v => some (f v), ?_, by simp⟩
  have : ∀ (vs : List (PV O)) (n : Nat), (∀ v ∈ vs, v ∈ values) →
      GuessRun GT.types (pyInfer R) (List.replicate (n + 1) t) vs (vs.map fun v => some (f v)) := by
    intro vs
    induction vs with
    | nil => intro n _; exact .nil _
    | cons v vs ih =>
      intro n hm
      refine .hit _ v _ t (f v) _ (types_all t) (h1 v (hm v (by simp))) ?_ (ih (n + 1) fun x hx => hm x (List.mem_cons_of_mem _ hx))
      intro u _ hu
      exfalso
      unfold Ahead at hu
      rw [List.count_replicate_self, List.count_replicate] at hu
      by_cases e : u = t
      · subst e; simp at hu
      · have e' : (t == u) = false := by simpa using fun h => e (Eq.symm h)
        rw [e', if_neg (by decide)] at hu
        omega
  cases values with
  | nil => exact .nil _
  | cons v vs =>
    refine .hit _ v _ t (f v) _ (types_all t) (h1 v (by simp)) ?_ (this vs 0 fun x hx => List.mem_cons_of_mem _ hx)
    intro u _ hu
    refine h2 v rfl u ?_
    unfold Ahead at hu
    simp only [List.count_nil, List.idxOf_nil] at hu
    omega

/-- **C86** and only then, if no type before it reads the first value as the same -/
theorem C86_first_exact {O : Type} (R : GuessRt O) (values : List (PV O)) (t : GT) (f : PV O → PV O) (h1 : ∀ v ∈ values, pyInfer R v t = .ok (f v))
    (hd : ∀ v, values.head? = some v → ∀ u, GT.types.idxOf u < GT.types.idxOf t → pyInfer R v u ≠ .ok (f v)) :
    pyGuess R values = .ok (values.map f) ↔
      ∀ v, values.head? = some v → ∀ u, GT.types.idxOf u < GT.types.idxOf t → Rejects (pyInfer R v u) := by
  refine ⟨fun h v hv u hu => ?_, C86_first R values t f h1⟩
  obtain ⟨rs, hrun, hout⟩ := (C86_guess R values _).1 h
  cases hrun with
  | nil => exact absurd hv (by simp)
  | hit _ v' vs t' r rs' ht' hr hrej _ =>
    rw [List.head?_cons, Option.some.injEq] at hv
    subst hv
    rw [List.map_cons, List.map_cons, List.cons.injEq] at hout
    have er : f v' = r := hout.1
    have hle : GT.types.idxOf t ≤ GT.types.idxOf t' := by
      by_contra hlt
      exact hd v' rfl t' (by omega) (by rw [hr, er])
    refine hrej u (types_all u) (.inr ⟨rfl, .inr ⟨rfl, by omega⟩⟩)
  | miss _ v' vs rs' hrej _ =>
    have := hrej t (types_all t)
    rw [h1 v' (by simp)] at this
    rcases this with h | h <;> exact absurd h (by simp)

/-! ## integers that spell dates -/

/-- spec: a text of eight digits, year, month and day of a day of the calendar -/
def SpellsDay (t : PyText) : Prop := ∃ d : PyDate, dateOk d = true ∧ t = pad4 d.y ++ (pad2 d.m ++ pad2 d.d)

/-- spec: such a text followed by two, four or six digits for the time of the day -/
def SpellsMoment (t : PyText) : Prop := ∃ (d : PyDate) (h : Nat) (ms : Option (Nat × Option Nat)), dateOk d = true ∧ timeOk (compactTime h ms) = true ∧ t = compactText false d h ms

theorem compact_iso (fl : Rat → Rat) (d : PyDate) (by_ : d.y < 10000) (bm : d.m < 100) (bd : d.d < 100) (h : Nat) (hh : h < 100) (ms : Option (Nat × Option Nat))
    (hms : match ms with | none => True | some (m, none) => m < 100 ∧ True | some (m, some s) => m < 100 ∧ s < 100) :
    pyDatetimeText fl (compactText false d h ms) = isoDatetimeText (isoDate d ++ 84 :: colonClock h ms) := by
  obtain ⟨y1, y2, y3, y4, ey, gy1, gy2, gy3, gy4⟩ := pad4_dig d.y by_
  obtain ⟨m1, m2, em, gm1, gm2⟩ := pad2_dig d.m bm
  obtain ⟨d1, d2, ed, gd1, gd2⟩ := pad2_dig d.d bd
  have ne : ∀ {c k : Nat}, isDig c = true → isDig k = false → k ≠ c := fun h1 h2 e => by rw [e, h1] at h2; cases h2
  have dg : ∀ k, isDig k = false → k ≠ y1 ∧ k ≠ y2 ∧ k ≠ y3 ∧ k ≠ y4 ∧ k ≠ m1 ∧ k ≠ m2 ∧ k ≠ d1 ∧ k ≠ d2 :=
    fun k hk => ⟨ne gy1 hk, ne gy2 hk, ne gy3 hk, ne gy4 hk, ne gm1 hk, ne gm2 hk, ne gd1 hk, ne gd2 hk⟩
  have d46 := dg 46 (by decide)
  have d44 := dg 44 (by decide)
  have n45 : m1 ≠ 45 := (dg 45 (by decide)).2.2.2.2.1.symm
  have e0 : isoDate d = [y1, y2, y3, y4, 45, m1, m2, 45, d1, d2] := by unfold isoDate; rw [ey, em, ed]; rfl
  rw [e0]
  unfold compactText
  rw [ey, em, ed]
  obtain ⟨h1, h2, eh, gh1, gh2⟩ := pad2_dig h (by omega)
  have a46 := ne gh1 (show isDig 46 = false by decide)
  have b46 := ne gh2 (show isDig 46 = false by decide)
  have a44 := ne gh1 (show isDig 44 = false by decide)
  have b44 := ne gh2 (show isDig 44 = false by decide)
  have b58 := (ne gh2 (show isDig 58 = false by decide)).symm
  match ms with
  | none =>
    unfold compactClock colonClock
    rw [eh]
    · refine compact_read fl _ _ { compact := 2 } (notIso_of_fifth (c := m1) rfl n45) (by simp [d46, a46, b46]) (by simp [d44, a44, b44])
        ?_ rfl rfl rfl ?_ (by simp [d46, a46, b46]) (by simp [d44, a44, b44])
      · have : digitPattern ([y1, y2, y3, y4] ++ ([m1, m2] ++ ([d1, d2] ++ if false = true then 84 :: [h1, h2] else [h1, h2]))) = txt "NNNNNNNNNN" := by
          simp [digitPattern, gy1, gy2, gy3, gy4, gm1, gm2, gd1, gd2, gh1, gh2]
          decide +kernel
        rw [this]; decide +kernel
      · show stripColons ([y1, y2, y3, y4, 45, m1, m2, 45, d1, d2, 84, h1] ++ [h2, 58]) = _
        rw [stripColons_one b58]
        rfl
  | some (m, none) =>
    have hm : m < 100 := hms.1
    obtain ⟨i1, i2, ei, gi1, gi2⟩ := pad2_dig m (by omega)
    have c46 := ne gi1 (show isDig 46 = false by decide)
    have e46 := ne gi2 (show isDig 46 = false by decide)
    have c44 := ne gi1 (show isDig 44 = false by decide)
    have e44 := ne gi2 (show isDig 44 = false by decide)
    have i58 := (ne gi2 (show isDig 58 = false by decide)).symm
    dsimp only [compactClock, colonClock, clockText]
    rw [eh, ei]
    · refine compact_read fl _ _ { compact := 2 } (notIso_of_fifth (c := m1) rfl n45) (by simp [d46, a46, b46, c46, e46]) (by simp [d44, a44, b44, c44, e44])
        ?_ rfl rfl rfl ?_ (by simp [d46, a46, b46, c46, e46]) (by simp [d44, a44, b44, c44, e44])
      · have : digitPattern ([y1, y2, y3, y4] ++ ([m1, m2] ++ ([d1, d2] ++ if false = true then 84 :: ([h1, h2] ++ [i1, i2]) else ([h1, h2] ++ [i1, i2])))) = txt "NNNNNNNNNNNN" := by
          simp [digitPattern, gy1, gy2, gy3, gy4, gm1, gm2, gd1, gd2, gh1, gh2, gi1, gi2]
          decide +kernel
        rw [this]; decide +kernel
      · show stripColons ([y1, y2, y3, y4, 45, m1, m2, 45, d1, d2, 84, h1, h2, 58, i1] ++ [i2, 58]) = _
        rw [stripColons_one i58]
        rfl
  | some (m, some s) =>
    have hm : m < 100 := hms.1
    have hs : s < 100 := hms.2
    obtain ⟨i1, i2, ei, gi1, gi2⟩ := pad2_dig m (by omega)
    obtain ⟨s1, s2, es, gs1, gs2⟩ := pad2_dig s (by omega)
    have c46 := ne gi1 (show isDig 46 = false by decide)
    have e46 := ne gi2 (show isDig 46 = false by decide)
    have c44 := ne gi1 (show isDig 44 = false by decide)
    have e44 := ne gi2 (show isDig 44 = false by decide)
    have f46 := ne gs1 (show isDig 46 = false by decide)
    have g46 := ne gs2 (show isDig 46 = false by decide)
    have f44 := ne gs1 (show isDig 44 = false by decide)
    have g44 := ne gs2 (show isDig 44 = false by decide)
    have s58 := (ne gs2 (show isDig 58 = false by decide)).symm
    dsimp only [compactClock, colonClock, clockText]
    rw [eh, ei, es]
    · refine compact_read fl _ _ { compact := 2 } (notIso_of_fifth (c := m1) rfl n45) (by simp [d46, a46, b46, c46, e46, f46, g46]) (by simp [d44, a44, b44, c44, e44, f44, g44])
        ?_ rfl rfl rfl ?_ (by simp [d46, a46, b46, c46, e46, f46, g46]) (by simp [d44, a44, b44, c44, e44, f44, g44])
      · have : digitPattern ([y1, y2, y3, y4] ++ ([m1, m2] ++ ([d1, d2] ++ if false = true then 84 :: ([h1, h2] ++ ([i1, i2] ++ [s1, s2])) else ([h1, h2] ++ ([i1, i2] ++ [s1, s2]))))) = txt "NNNNNNNNNNNNNN" := by
          simp [digitPattern, gy1, gy2, gy3, gy4, gm1, gm2, gd1, gd2, gh1, gh2, gi1, gi2, gs1, gs2]
          decide +kernel
        rw [this]; decide +kernel
      · show stripColons ([y1, y2, y3, y4, 45, m1, m2, 45, d1, d2, 84, h1, h2, 58, i1, i2, 58, s1] ++ [s2]) = _
        rw [stripColons_id s58]
        rfl

theorem readDate_pad (d : PyDate) (by_ : d.y < 10000) (bm : d.m < 100) (bd : d.d < 100) (r : PyText) :
    readDate (isoDate d ++ r) = if dateOk d = true then .ok (d, r) else .error .value := by
  rw [readDate, isoDate]
  simp only [List.append_assoc, List.cons_append]
  rw [read4_pad4 _ by_]
  dsimp only [Except.bind]
  rw [expect_cons]
  dsimp only
  rw [read2_pad2 _ bm]
  dsimp only
  rw [expect_cons]
  dsimp only
  rw [read2_pad2 _ bd]

theorem pad2_noSign (n : Nat) (hn : n < 100) : ∀ y ∈ pad2 n, noSign y = true := by
  intro y hy
  obtain ⟨a, b, e, ha, hb⟩ := pad2_dig n hn
  rw [e] at hy
  simp only [List.mem_cons, List.not_mem_nil, or_false] at hy
  have := dig_cases ha
  have := dig_cases hb
  unfold noSign
  simp only [Bool.and_eq_true, bne_iff_ne, ne_eq]
  rcases hy with rfl | rfl <;> omega

theorem isoTimeText_pad (h : Nat) (hh : h < 100) (ms : Option (Nat × Option Nat))
    (hms : match ms with | none => True | some (m, none) => m < 100 ∧ True | some (m, some s) => m < 100 ∧ s < 100) :
    isoTimeText (colonClock h ms) = if timeOk (compactTime h ms) = true then .ok (compactTime h ms) else .error .value := by
  have hall : ∀ x ∈ colonClock h ms, noSign x = true := by
    intro x hx
    match ms with
    | none => exact pad2_noSign h hh x hx
    | some (m, none) =>
      simp only [colonClock, clockText, List.mem_append, List.mem_cons] at hx
      rcases hx with hx | rfl | hx
      · exact pad2_noSign h hh x hx
      · rfl
      · exact pad2_noSign m hms.1 x hx
    | some (m, some s) =>
      simp only [colonClock, clockText, List.mem_append, List.mem_cons] at hx
      rcases hx with hx | rfl | hx | rfl | hx
      · exact pad2_noSign h hh x hx
      · rfl
      · exact pad2_noSign m hms.1 x hx
      · rfl
      · exact pad2_noSign s hms.2 x hx
  unfold isoTimeText
  rw [takeWhile_all hall, dropWhile_all hall]
  match ms with
  | none =>
    unfold colonClock
    have e2 := read2_pad2 h hh []
    rw [List.append_nil] at e2
    rw [e2]
    rfl
  | some (m, none) =>
    dsimp only [colonClock, clockText]
    rw [read2_pad2 h hh]
    dsimp only [Except.bind]
    have e2 := read2_pad2 m hms.1 []
    rw [List.append_nil] at e2
    rw [isoAfterH, e2]
    rfl
  | some (m, some s) =>
    dsimp only [colonClock, clockText]
    rw [read2_pad2 h hh]
    dsimp only [Except.bind]
    rw [isoAfterH, read2_pad2 m hms.1]
    dsimp only [Except.bind]
    have e2 := read2_pad2 s hms.2 []
    rw [List.append_nil] at e2
    rw [isoAfterM, e2]
    rfl

/-- a compact text of digits is read if its date and its time exist, and rejected otherwise -/
theorem compact_digits (fl : Rat → Rat) (d : PyDate) (by_ : d.y < 10000) (bm : d.m < 100) (bd : d.d < 100) (h : Nat) (hh : h < 100) (ms : Option (Nat × Option Nat))
    (hms : match ms with | none => True | some (m, none) => m < 100 ∧ True | some (m, some s) => m < 100 ∧ s < 100) :
    ((∃ x, pyDatetimeText fl (compactText false d h ms) = .ok x) ∧ SpellsMoment (compactText false d h ms)) ∨ pyDatetimeText fl (compactText false d h ms) = .error .value := by
  rw [compact_iso fl d by_ bm bd h hh ms hms]
  unfold isoDatetimeText
  rw [readDate_pad d by_ bm bd]
  by_cases hd : dateOk d = true
  · rw [if_pos hd]
    dsimp only [Except.bind]
    rw [isoTimeText_pad h hh ms hms]
    by_cases ht : timeOk (compactTime h ms) = true
    · rw [if_pos ht]
      exact .inl ⟨⟨_, rfl⟩, d, h, ms, hd, ht, rfl⟩
    · rw [if_neg ht]
      exact .inr rfl
  · rw [if_neg hd]
    exact .inr rfl

theorem pad2_of_dig {a b : Nat} (ha : 48 ≤ a ∧ a < 58) (hb : 48 ≤ b ∧ b < 58) : ∃ n, n < 100 ∧ pad2 n = [a, b] := by
  refine ⟨(a - 48) * 10 + (b - 48), by omega, ?_⟩
  unfold pad2
  congr 1
  · omega
  · congr 1
    omega

theorem pad4_of_dig {a b c d : Nat} (ha : 48 ≤ a ∧ a < 58) (hb : 48 ≤ b ∧ b < 58) (hc : 48 ≤ c ∧ c < 58) (hd : 48 ≤ d ∧ d < 58) : ∃ n, n < 10000 ∧ pad4 n = [a, b, c, d] := by
  obtain ⟨x, hx, ex⟩ := pad2_of_dig ha hb
  obtain ⟨y, hy, ey⟩ := pad2_of_dig hc hd
  refine ⟨x * 100 + y, by omega, ?_⟩
  unfold pad4
  rw [show (x * 100 + y) / 100 = x by omega, show (x * 100 + y) % 100 = y by omega, ex, ey]
  rfl

/-- texts of ten, twelve and fourteen digits are compact texts -/
theorem digits_compact (t : PyText) (ht : ∀ c ∈ t, 48 ≤ c ∧ c < 58) (hl : t.length = 10 ∨ t.length = 12 ∨ t.length = 14) :
    ∃ (d : PyDate) (h : Nat) (ms : Option (Nat × Option Nat)), d.y < 10000 ∧ d.m < 100 ∧ d.d < 100 ∧ h < 100 ∧
      (match ms with | none => True | some (m, none) => m < 100 ∧ True | some (m, some s) => m < 100 ∧ s < 100) ∧ t = compactText false d h ms := by
  match t, hl with
  | [y1, y2, y3, y4, m1, m2, d1, d2, h1, h2], _ =>
    simp only [List.mem_cons, List.not_mem_nil, or_false, forall_eq_or_imp, forall_eq] at ht
    obtain ⟨y, by_, ey⟩ := pad4_of_dig ht.1 ht.2.1 ht.2.2.1 ht.2.2.2.1
    obtain ⟨m, bm, em⟩ := pad2_of_dig ht.2.2.2.2.1 ht.2.2.2.2.2.1
    obtain ⟨d, bd, ed⟩ := pad2_of_dig ht.2.2.2.2.2.2.1 ht.2.2.2.2.2.2.2.1
    obtain ⟨h, bh, eh⟩ := pad2_of_dig ht.2.2.2.2.2.2.2.2.1 ht.2.2.2.2.2.2.2.2.2
    refine ⟨⟨y, m, d⟩, h, none, by_, bm, bd, bh, trivial, ?_⟩
    dsimp only [compactText, compactClock]
    rw [ey, em, ed, eh]
    rfl
  | [y1, y2, y3, y4, m1, m2, d1, d2, h1, h2, i1, i2], _ =>
    simp only [List.mem_cons, List.not_mem_nil, or_false, forall_eq_or_imp, forall_eq] at ht
    obtain ⟨y, by_, ey⟩ := pad4_of_dig ht.1 ht.2.1 ht.2.2.1 ht.2.2.2.1
    obtain ⟨m, bm, em⟩ := pad2_of_dig ht.2.2.2.2.1 ht.2.2.2.2.2.1
    obtain ⟨d, bd, ed⟩ := pad2_of_dig ht.2.2.2.2.2.2.1 ht.2.2.2.2.2.2.2.1
    obtain ⟨h, bh, eh⟩ := pad2_of_dig ht.2.2.2.2.2.2.2.2.1 ht.2.2.2.2.2.2.2.2.2.1
    obtain ⟨i, bi, ei⟩ := pad2_of_dig ht.2.2.2.2.2.2.2.2.2.2.1 ht.2.2.2.2.2.2.2.2.2.2.2
    refine ⟨⟨y, m, d⟩, h, some (i, none), by_, bm, bd, bh, ⟨bi, trivial⟩, ?_⟩
    dsimp only [compactText, compactClock]
    rw [ey, em, ed, eh, ei]
    rfl
  | [y1, y2, y3, y4, m1, m2, d1, d2, h1, h2, i1, i2, s1, s2], _ =>
    simp only [List.mem_cons, List.not_mem_nil, or_false, forall_eq_or_imp, forall_eq] at ht
    obtain ⟨y, by_, ey⟩ := pad4_of_dig ht.1 ht.2.1 ht.2.2.1 ht.2.2.2.1
    obtain ⟨m, bm, em⟩ := pad2_of_dig ht.2.2.2.2.1 ht.2.2.2.2.2.1
    obtain ⟨d, bd, ed⟩ := pad2_of_dig ht.2.2.2.2.2.2.1 ht.2.2.2.2.2.2.2.1
    obtain ⟨h, bh, eh⟩ := pad2_of_dig ht.2.2.2.2.2.2.2.2.1 ht.2.2.2.2.2.2.2.2.2.1
    obtain ⟨i, bi, ei⟩ := pad2_of_dig ht.2.2.2.2.2.2.2.2.2.2.1 ht.2.2.2.2.2.2.2.2.2.2.2.1
    obtain ⟨s, bs, es⟩ := pad2_of_dig ht.2.2.2.2.2.2.2.2.2.2.2.2.1 ht.2.2.2.2.2.2.2.2.2.2.2.2.2
    refine ⟨⟨y, m, d⟩, h, some (i, some s), by_, bm, bd, bh, ⟨bi, bs⟩, ?_⟩
    dsimp only [compactText, compactClock]
    rw [ey, em, ed, eh, ei, es]
    rfl

theorem compactText_length (d : PyDate) (h : Nat) (ms : Option (Nat × Option Nat)) : (compactText false d h ms).length = 10 ∨ (compactText false d h ms).length = 12 ∨ (compactText false d h ms).length = 14 := by
  match ms with
  | none => exact .inl rfl
  | some (m, none) => exact .inr (.inl rfl)
  | some (m, some s) => exact .inr (.inr rfl)

/-- the text of an integer is read as a datetime exactly if it spells one -/
theorem int_datetime (fl : Rat → Rat) (z : Int) :
    (SpellsMoment (intText z) ∧ ∃ x, pyDatetimeText fl (intText z) = .ok x) ∨ (¬ SpellsMoment (intText z) ∧ pyDatetimeText fl (intText z) = .error .value) := by
  have hyes : SpellsMoment (intText z) → ∃ x, pyDatetimeText fl (intText z) = .ok x := by
    rintro ⟨d, h, ms, hd, ht, e⟩
    rw [e]
    exact ⟨_, C88_compact fl false d hd h ms ht⟩
  by_cases hsp : SpellsMoment (intText z)
  · exact .inl ⟨hsp, hyes hsp⟩
  · refine .inr ⟨hsp, ?_⟩
    by_cases hz : z < 0 ∨ (natText z.natAbs).length ∉ [8, 10, 12, 14]
    · exact (int_no_date fl z hz).2
    · rw [not_or, not_not] at hz
      have e : intText z = natText z.natAbs := by
        unfold intText
        rw [if_neg hz.1]
      have hdig : ∀ c ∈ intText z, 48 ≤ c ∧ c < 58 := by
        rw [e]
        exact natText_digits _
      have hlen := hz.2
      rw [← e] at hlen
      simp only [List.mem_cons, List.not_mem_nil, or_false] at hlen
      rcases hlen with h8 | hlen
      · have hp : digitPattern (intText z) = List.replicate 8 78 := by
          rw [digitPattern_intText, if_neg hz.1, ← e, h8]
          rfl
        have h1 : 46 ∉ intText z := fun hm => by have := hdig _ hm; omega
        have h2 : 44 ∉ intText z := fun hm => by have := hdig _ hm; omega
        have hpp : patternPart (intText z) = intText z := by
          have he : patternEnd (intText z) = (intText z).length := by
            unfold patternEnd
            rw [if_neg (by simpa using h1), if_neg (by simpa using h2)]
          unfold patternPart
          rw [he, if_neg (by omega)]
          simp
        refine datetime_rejects fl _ ?_ ?_
        · intro x hx
          unfold isoDatetimeText at hx
          cases hr : readDate (intText z) with
          | ok r =>
            obtain ⟨y, m, d, e', -⟩ := readDate_ok hr
            have := hdig 45 (by rw [e']; simp)
            omega
          | error e' => rw [hr] at hx; cases hx
        · rw [hpp, hp]
          decide +kernel
      · obtain ⟨d, h, ms, by_, bm, bd, bh, hms, e'⟩ := digits_compact (intText z) hdig hlen
        rw [e'] at hsp ⊢
        rcases compact_digits fl d by_ bm bd h bh ms hms with hh | hh
        · exact absurd hh.2 hsp
        · exact hh

/-- the text of an integer is read as a date exactly if it spells one -/
theorem int_date (z : Int) :
    (SpellsDay (intText z) ∧ ∃ x, pyDateText (intText z) = .ok x) ∨ (¬ SpellsDay (intText z) ∧ pyDateText (intText z) = .error .value) := by
  have htail : ∀ c ∈ (intText z).tail, 48 ≤ c ∧ c < 58 := by
    intro c hc
    unfold intText at hc
    split at hc
    · exact natText_digits _ c hc
    · exact natText_digits _ c (List.mem_of_mem_tail hc)
  have hsep : ∀ (s : Nat) (a b : PyText), s ∈ dateSeps → a ≠ [] → intText z ≠ a ++ s :: b := by
    intro s a b hs ha e
    have := htail s (by
      rw [e]
      match a, ha with
      | x :: a, _ => simp)
    simp only [dateSeps, List.mem_cons, List.not_mem_nil, or_false] at hs
    omega
  cases hp : pyDateText (intText z) with
  | ok x =>
    refine .inl ⟨?_, x, rfl⟩
    obtain ⟨h1, h2⟩ := (C87_date _ _).1 hp
    generalize ht : intText z = t at h1 hsep
    cases h1 with
    | yearFirst s y m d hs hy hm hd ly lm ld => exact absurd rfl (hsep s y _ hs hy.1)
    | dayFirst s y m d hs hy hm hd ly lm ld => exact absurd rfl (hsep s d _ hs hd.1)
    | compact y m d hy hm hd ly lm ld =>
      refine ⟨_, h2, ?_⟩
      match y, m, d, ly, lm, ld with
      | [y1, y2, y3, y4], [m1, m2], [d1, d2], _, _, _ =>
        have gy := hy.2
        have gm := hm.2
        have gd := hd.2
        simp only [List.mem_cons, List.not_mem_nil, or_false, forall_eq_or_imp, forall_eq] at gy gm gd
        simp only [digNum, List.foldl_cons, List.foldl_nil, pad4, pad2, List.cons_append, List.nil_append, List.cons.injEq, and_true]
        omega
  | error e =>
    have := C87_raises _ _ hp
    subst this
    refine .inr ⟨?_, rfl⟩
    rintro ⟨d, hd, e⟩
    obtain ⟨by_, bm, bd⟩ := dateOk_bounds hd
    have key : DateSpelling (intText z) ⟨digNum (pad4 d.y), digNum (pad2 d.m), digNum (pad2 d.d)⟩ := by
      rw [e]
      exact .compact _ _ _ (pad_allDig4 _ by_) (pad_allDig2 _ bm) (pad_allDig2 _ bd) rfl rfl rfl
    have en : (⟨digNum (pad4 d.y), digNum (pad2 d.m), digNum (pad2 d.d)⟩ : PyDate) = d := by
      obtain ⟨y, m, d⟩ := d
      simp only [digNum, pad4, pad2, List.cons_append, List.nil_append, List.foldl_cons, List.foldl_nil, PyDate.mk.injEq]
      dsimp only at by_ bm bd
      omega
    rw [en] at key
    rw [(C87_date _ _).2 ⟨key, hd⟩] at hp
    exact absurd hp (by simp)

/-- **C88 (integers, exactly)** A column of texts of integers is guessed as these integers exactly if the first of them spells neither a day (eight digits) nor a moment (ten,
twelve or fourteen digits).  The others may: once an integer has been read, integers are tried first. -/
theorem C88_int_exact {O : Type} (fl : Rat → Rat) (R : GuessRt O) (zs : List Int) :
    pyGuess (withDates fl R) (zs.map fun z => .str (intText z)) = .ok (zs.map fun z => .int z) ↔
      ∀ z, zs.head? = some z → ¬ SpellsDay (intText z) ∧ ¬ SpellsMoment (intText z) := by
  have hnone : ∀ z, noneTexts.contains (intText z) = false := fun z => plain_not_none _ z (plainText_intText z)
  have hinf : ∀ z (u : GT), u ≠ .str → pyInfer (withDates fl R) (.str (intText z)) u = pyMatched (withDates fl R) (.str (intText z)) u :=
    fun z u hu => infer_text (withDates fl R) (hnone z) hu
  have hi : ∀ z, pyInfer (withDates fl R) (.str (intText z)) .int = .ok (.int z) := by
    intro z
    rw [hinf z .int (by decide)]
    simp only [pyMatched, pyInferInt, C86_int_text _ _ (plainText_intText z)]
    rfl
  have htime : ∀ z, pyMatched (withDates fl R) (.str (intText z)) .time = .error .value := by
    intro z
    have : 58 ∉ intText z := fun hm => by have := intText_digits z _ hm; omega
    simp [pyMatched, pyInferTime, this]
  have hdate : ∀ z, pyMatched (withDates fl R) (.str (intText z)) .date = (pyDateText (intText z)).bind fun x => .ok (.date x) := by
    intro z
    rfl
  have hdt : ∀ z, pyMatched (withDates fl R) (.str (intText z)) .datetime = (pyDatetimeText fl (intText z)).bind fun x => .ok (.datetime x.1 x.2) := by
    intro z
    rfl
  have key := C86_first_exact (withDates fl R) (zs.map fun z => .str (intText z)) .int (fun v => (pyInfer (withDates fl R) v .int).toOption.getD .none) ?_ ?_
  · rw [List.map_map] at key
    have e : zs.map ((fun v => (pyInfer (withDates fl R) v .int).toOption.getD .none) ∘ fun z => PV.str (intText z)) = zs.map fun z => .int z := by
      refine List.map_congr_left fun z _ => ?_
      simp only [Function.comp, hi z]
      rfl
    rw [e] at key
    rw [key]
    rw [List.head?_map]
    constructor
    · intro h z hz
      rw [hz] at h
      have h' := h _ rfl
      refine ⟨fun hs => ?_, fun hs => ?_⟩
      · have := h' .date (by decide)
        rw [hinf z _ (by decide), hdate] at this
        rcases int_date z with ⟨-, x, hx⟩ | ⟨hn, -⟩
        · rw [hx] at this
          rcases this with h | h <;> exact absurd h (by simp [Except.bind])
        · exact hn hs
      · have := h' .datetime (by decide)
        rw [hinf z _ (by decide), hdt] at this
        rcases int_datetime fl z with ⟨-, x, hx⟩ | ⟨hn, -⟩
        · rw [hx] at this
          rcases this with h | h <;> exact absurd h (by simp [Except.bind])
        · exact hn hs
    · intro h v hv u hu
      obtain ⟨z, hz, rfl⟩ := Option.map_eq_some_iff.1 hv
      obtain ⟨n1, n2⟩ := h z hz
      rw [hinf z u (by rintro rfl; revert hu; decide)]
      left
      cases u with
      | date =>
        rw [hdate]
        rcases int_date z with ⟨hs, -⟩ | ⟨-, hx⟩
        · exact absurd hs n1
        · rw [hx]; rfl
      | datetime =>
        rw [hdt]
        rcases int_datetime fl z with ⟨hs, -⟩ | ⟨-, hx⟩
        · exact absurd hs n2
        · rw [hx]; rfl
      | time => exact htime z
      | int => exact absurd hu (by decide)
      | bool => exact absurd hu (by decide)
      | float => exact absurd hu (by decide)
      | str => exact absurd hu (by decide)
  · intro v hv
    obtain ⟨z, -, rfl⟩ := List.mem_map.1 hv
    rw [hi z]
    rfl
  · intro v hv u hu
    rw [List.head?_map] at hv
    obtain ⟨z, hz, rfl⟩ := Option.map_eq_some_iff.1 hv
    rw [hi z]
    show pyInfer _ _ u ≠ .ok (.int z)
    rw [hinf z u (by rintro rfl; revert hu; decide)]
    cases u with
    | date =>
      rw [hdate]
      cases pyDateText (intText z) <;> simp [Except.bind]
    | datetime =>
      rw [hdt]
      cases pyDatetimeText fl (intText z) <;> simp [Except.bind]
    | time => rw [htime z]; simp
    | int => exact absurd hu (by decide)
    | bool => exact absurd hu (by decide)
    | float => exact absurd hu (by decide)
    | str => exact absurd hu (by decide)

/-- 7 first, then 7 December 2021 and nine o'clock on that day: all are integers; the day first: it is a date -/
example {O : Type} (fl : Rat → Rat) (R : GuessRt O) :
    pyGuess (withDates fl R) ([7, 20211207, 2021120709].map fun z => .str (intText z)) = .ok ([7, 20211207, 2021120709].map fun z => .int z) ∧
    pyGuess (withDates fl R) ([20211207, 7].map fun z => .str (intText z)) ≠ .ok ([20211207, 7].map fun z => .int z) := by
  constructor
  · rw [C88_int_exact]
    intro z hz
    cases hz
    refine ⟨?_, ?_⟩
    · rintro ⟨d, -, e⟩
      have h1 : (intText 7).length = 8 := congrArg List.length e
      exact absurd h1 (by decide +kernel)
    · rintro ⟨d, h, ms, -, -, e⟩
      have h1 := congrArg List.length e
      have h2 := compactText_length d h ms
      rw [← h1] at h2
      exact absurd h2 (by decide +kernel)
  · intro h
    rw [C88_int_exact] at h
    exact (h _ rfl).1 ⟨⟨2021, 12, 7⟩, by decide, by decide +kernel⟩

end Tablite
