import Verif.Model.DateText
import Verif.Props.Guess
import Verif.Lemmas.Table
import Verif.Props.Dates

/-! C87: dates from text in Python. C88: datetimes from text in Python. -/
namespace Tablite

/-! ## specification -/

/-- digits only, at least one -/
def AllDig (t : PyText) : Prop := t ≠ [] ∧ ∀ c ∈ t, 48 ≤ c ∧ c < 58

/-- the number the digits spell -/
def digNum (t : PyText) : Nat := t.foldl (fun a c => a * 10 + (c - 48)) 0

/-- the separators between day, month and year: `-`, `.`, `/` and space -/
def dateSeps : List Nat := [45, 46, 47, 32]

/-- the ways to spell a date: four digits of the year, one or two of month and day, in either order with a separator, or eight digits without -/
inductive DateSpelling : PyText → PyDate → Prop
  | yearFirst (s : Nat) (y m d : PyText) (hs : s ∈ dateSeps) (hy : AllDig y) (hm : AllDig m) (hd : AllDig d) (ly : y.length = 4)
      (lm : m.length ≤ 2) (ld : d.length ≤ 2) : DateSpelling (y ++ s :: (m ++ s :: d)) ⟨digNum y, digNum m, digNum d⟩
  | dayFirst (s : Nat) (y m d : PyText) (hs : s ∈ dateSeps) (hy : AllDig y) (hm : AllDig m) (hd : AllDig d) (ly : y.length = 4)
      (lm : m.length ≤ 2) (ld : d.length ≤ 2) : DateSpelling (d ++ s :: (m ++ s :: y)) ⟨digNum y, digNum m, digNum d⟩
  | compact (y m d : PyText) (hy : AllDig y) (hm : AllDig m) (hd : AllDig d) (ly : y.length = 4) (lm : m.length = 2) (ld : d.length = 2) :
      DateSpelling (y ++ (m ++ d)) ⟨digNum y, digNum m, digNum d⟩

/-! ## helpers -/

theorem parseNatText_iff (t : PyText) (n : Nat) : parseNatText t = .ok n ↔ AllDig t ∧ n = digNum t := by
  unfold parseNatText AllDig digNum
  have hall : t.all isDig = true ↔ ∀ c ∈ t, 48 ≤ c ∧ c < 58 := by
    rw [List.all_eq_true]
    exact forall₂_congr fun c _ => by simp [isDig]
  by_cases h : t ≠ [] ∧ t.all isDig
  · rw [if_pos h]
    constructor
    · intro e; cases e; exact ⟨⟨h.1, hall.1 h.2⟩, rfl⟩
    · rintro ⟨_, rfl⟩; rfl
  · rw [if_neg h]
    constructor
    · intro e; cases e
    · rintro ⟨⟨h1, h2⟩, _⟩; exact absurd ⟨h1, hall.2 h2⟩ h

theorem read2_ok {t r : PyText} {n : Nat} (h : read2 t = .ok (n, r)) : ∃ a, t = a ++ r ∧ a.length = 2 ∧ AllDig a ∧ n = digNum a := by
  unfold read2 at h
  split at h
  · next a b r' =>
    split at h
    · next hd =>
      cases h
      simp only [isDig, Bool.and_eq_true, decide_eq_true_eq] at hd
      refine ⟨[a, b], rfl, rfl, ⟨by simp, ?_⟩, ?_⟩
      · intro c hc
        simp only [List.mem_cons, List.not_mem_nil, or_false] at hc
        rcases hc with rfl | rfl
        · exact hd.1
        · exact hd.2
      · simp [digNum]
    · cases h
  · cases h

theorem digNum_append (a b : PyText) : digNum (a ++ b) = digNum a * 10 ^ b.length + digNum b := by
  have key : ∀ (b : PyText) (x : Nat), b.foldl (fun a c => a * 10 + (c - 48)) x = x * 10 ^ b.length + b.foldl (fun a c => a * 10 + (c - 48)) 0 := by
    intro b
    induction b with
    | nil => intro x; simp
    | cons c b ih =>
      intro x
      rw [List.foldl_cons, List.foldl_cons, ih, ih (0 * 10 + (c - 48)), List.length_cons, Nat.pow_succ]
      ring
  unfold digNum
  rw [List.foldl_append, key]

theorem read4_ok {t r : PyText} {n : Nat} (h : read4 t = .ok (n, r)) : ∃ a, t = a ++ r ∧ a.length = 4 ∧ AllDig a ∧ n = digNum a := by
  unfold read4 at h
  cases h1 : read2 t with
  | error e => rw [h1] at h; cases h
  | ok x =>
    rw [h1] at h
    dsimp only [Except.bind] at h
    cases h2 : read2 x.2 with
    | error e => rw [h2] at h; cases h
    | ok y =>
      rw [h2] at h
      cases h
      obtain ⟨a, e1, l1, d1, n1⟩ := read2_ok h1
      obtain ⟨b, e2, l2, d2, n2⟩ := read2_ok h2
      refine ⟨a ++ b, by rw [e1, e2, List.append_assoc], by simp [l1, l2], ⟨by simp [d1.1], ?_⟩, ?_⟩
      · intro c hc
        rcases List.mem_append.1 hc with hc | hc
        · exact d1.2 c hc
        · exact d2.2 c hc
      · rw [digNum_append, l2, n1, n2]; norm_num

theorem expect_ok {c : Nat} {t r : PyText} (h : expect c t = .ok r) : t = c :: r := by
  unfold expect at h
  split at h
  · split at h
    · next e => cases h; rw [e]
    · cases h
  · cases h

theorem readDate_ok {t r : PyText} {x : PyDate} (h : readDate t = .ok (x, r)) :
    ∃ y m d, t = y ++ 45 :: (m ++ 45 :: (d ++ r)) ∧ y.length = 4 ∧ m.length = 2 ∧ d.length = 2 ∧ AllDig y ∧ AllDig m ∧ AllDig d ∧
      x = ⟨digNum y, digNum m, digNum d⟩ ∧ dateOk x = true := by
  unfold readDate at h
  cases h1 : read4 t with
  | error e => rw [h1] at h; cases h
  | ok y =>
    rw [h1] at h; dsimp only [Except.bind] at h
    cases h2 : expect 45 y.2 with
    | error e => rw [h2] at h; cases h
    | ok r1 =>
      rw [h2] at h; dsimp only at h
      cases h3 : read2 r1 with
      | error e => rw [h3] at h; cases h
      | ok m =>
        rw [h3] at h; dsimp only at h
        cases h4 : expect 45 m.2 with
        | error e => rw [h4] at h; cases h
        | ok r2 =>
          rw [h4] at h; dsimp only at h
          cases h5 : read2 r2 with
          | error e => rw [h5] at h; cases h
          | ok d =>
            rw [h5] at h; dsimp only at h
            split at h
            · next hok =>
              cases h
              obtain ⟨a, e1, l1, d1, n1⟩ := read4_ok h1
              obtain ⟨b, e2, l2, d2, n2⟩ := read2_ok h3
              obtain ⟨c, e3, l3, d3, n3⟩ := read2_ok h5
              have e4 := expect_ok h2
              have e5 := expect_ok h4
              refine ⟨a, b, c, ?_, l1, l2, l3, d1, d2, d3, by rw [n1, n2, n3], hok⟩
              rw [e1, e4, e2, e5, e3]
            · cases h

theorem digitPattern_dig {t : PyText} (h : AllDig t) : digitPattern t = List.replicate t.length 78 := by
  unfold digitPattern
  rw [List.eq_replicate_iff]
  refine ⟨by simp, ?_⟩
  intro b hb
  obtain ⟨c, hc, rfl⟩ := List.mem_map.1 hb
  rw [if_pos (by have := h.2 c hc; simpa [isDig] using this)]

theorem digitPattern_append (a b : PyText) : digitPattern (a ++ b) = digitPattern a ++ digitPattern b := List.map_append

theorem digitPattern_cons (c : Nat) (b : PyText) : digitPattern (c :: b) = (if isDig c then 78 else c) :: digitPattern b := rfl

theorem sep_notDig {s : Nat} (hs : s ∈ dateSeps) : isDig s = false ∧ s ≠ 78 := by
  simp only [dateSeps, List.mem_cons, List.not_mem_nil, or_false] at hs
  rcases hs with rfl | rfl | rfl | rfl <;> decide

theorem dig_ne_sep {s : Nat} (hs : isDig s = false) {t : PyText} (h : AllDig t) : s ∉ t := by
  intro hm
  have := h.2 s hm
  simp [isDig] at hs
  omega

theorem pySplit_none (s : Nat) (t : PyText) (h : s ∉ t) : pySplit s t = [t] := by
  induction t with
  | nil => rfl
  | cons x t ih =>
    rw [pySplit, if_neg (fun e => h (by rw [e]; simp)), ih fun hm => h (List.mem_cons_of_mem _ hm)]

theorem pySplit_append (s : Nat) (a r : PyText) (h : s ∉ a) : pySplit s (a ++ s :: r) = a :: pySplit s r := by
  induction a with
  | nil => rw [List.nil_append, pySplit, if_pos rfl]
  | cons x t ih =>
    rw [List.cons_append, pySplit, if_neg (fun e => h (by rw [e]; simp)), ih fun hm => h (List.mem_cons_of_mem _ hm)]

theorem pySplit3 (s : Nat) (a b c : PyText) (ha : s ∉ a) (hb : s ∉ b) (hc : s ∉ c) : pySplit s (a ++ s :: (b ++ s :: c)) = [a, b, c] := by
  rw [pySplit_append s a _ ha, pySplit_append s b _ hb, pySplit_none s c hc]

theorem mapM3 (a b c : PyText) : [a, b, c].mapM parseNatText =
    (parseNatText a).bind fun x => (parseNatText b).bind fun y => (parseNatText c).bind fun z => .ok [x, y, z] := by
  simp only [List.mapM_cons, List.mapM_nil]
  cases parseNatText a <;> [rfl; skip]
  cases parseNatText b <;> [rfl; skip]
  cases parseNatText c <;> rfl

theorem mkDate_iff (y m d : Nat) (x : PyDate) : mkDate [y, m, d] = .ok x ↔ x = ⟨y, m, d⟩ ∧ dateOk x = true := by
  rw [mkDate]
  split
  · next h => constructor
              · intro e; cases e; exact ⟨rfl, h⟩
              · rintro ⟨rfl, _⟩; rfl
  · next h => constructor
              · intro e; cases e
              · rintro ⟨rfl, h'⟩; exact absurd h' h

theorem read3_iff (a b c : PyText) (f : List Nat → Except Err PyDate) (x : PyDate) :
    ([a, b, c].mapM parseNatText).bind f = .ok x ↔ AllDig a ∧ AllDig b ∧ AllDig c ∧ f [digNum a, digNum b, digNum c] = .ok x := by
  rw [mapM3]
  constructor
  · intro h
    cases h1 : parseNatText a with
    | error e => rw [h1] at h; cases h
    | ok i =>
      cases h2 : parseNatText b with
      | error e => rw [h1, h2] at h; cases h
      | ok j =>
        cases h3 : parseNatText c with
        | error e => rw [h1, h2, h3] at h; cases h
        | ok k =>
          rw [h1, h2, h3] at h
          obtain ⟨p1, rfl⟩ := (parseNatText_iff a i).1 h1
          obtain ⟨p2, rfl⟩ := (parseNatText_iff b j).1 h2
          obtain ⟨p3, rfl⟩ := (parseNatText_iff c k).1 h3
          exact ⟨p1, p2, p3, h⟩
  · rintro ⟨h1, h2, h3, h⟩
    rw [(parseNatText_iff a _).2 ⟨h1, rfl⟩, (parseNatText_iff b _).2 ⟨h2, rfl⟩, (parseNatText_iff c _).2 ⟨h3, rfl⟩]
    exact h

/-- the entries of the table, by form -/
theorem dateFormats_forms : ∀ x ∈ dateFormats,
    (∃ s ∈ dateSeps, ∃ i ∈ [1, 2], ∃ j ∈ [1, 2], x = (List.replicate 4 78 ++ s :: (List.replicate i 78 ++ s :: List.replicate j 78), DateFmt.sep s false)) ∨
    (∃ s ∈ dateSeps, ∃ i ∈ [1, 2], ∃ j ∈ [1, 2], x = (List.replicate j 78 ++ s :: (List.replicate i 78 ++ s :: List.replicate 4 78), DateFmt.sep s true)) ∨
    x = (List.replicate 8 78, DateFmt.compact) := by decide +kernel

theorem dateFormats_year : ∀ s ∈ dateSeps, ∀ i ∈ [1, 2], ∀ j ∈ [1, 2],
    dGet (List.replicate 4 78 ++ s :: (List.replicate i 78 ++ s :: List.replicate j 78)) dateFormats = some (.sep s false) := by decide +kernel

theorem dateFormats_day : ∀ s ∈ dateSeps, ∀ i ∈ [1, 2], ∀ j ∈ [1, 2],
    dGet (List.replicate j 78 ++ s :: (List.replicate i 78 ++ s :: List.replicate 4 78)) dateFormats = some (.sep s true) := by decide +kernel

theorem dateFormats_compact : dGet (List.replicate 8 78) dateFormats = some .compact := by decide +kernel

/-- the table alone -/
def tableDate (t : PyText) : Except Err PyDate :=
  match dGet (digitPattern t) dateFormats with
  | some f => readDateFmt t f
  | none => .error .value

theorem len12 {t : PyText} (h : AllDig t) (h2 : t.length ≤ 2) : t.length ∈ [1, 2] := by
  have : t.length ≠ 0 := fun e => h.1 (List.length_eq_zero_iff.1 e)
  simp only [List.mem_cons, List.not_mem_nil, or_false]
  omega

theorem tableDate_spelling {t : PyText} {x : PyDate} (h : DateSpelling t x) (hx : dateOk x = true) : tableDate t = .ok x := by
  unfold tableDate
  cases h with
  | yearFirst s y m d hs hy hm hd ly lm ld =>
    have hn := sep_notDig hs
    rw [digitPattern_append, digitPattern_cons, digitPattern_append, digitPattern_cons, hn.1, digitPattern_dig hy, digitPattern_dig hm, digitPattern_dig hd, ly,
      if_neg (by decide), dateFormats_year s hs _ (len12 hm lm) _ (len12 hd ld)]
    dsimp only
    rw [readDateFmt, pySplit3 s _ _ _ (dig_ne_sep hn.1 hy) (dig_ne_sep hn.1 hm) (dig_ne_sep hn.1 hd)]
    exact (read3_iff _ _ _ _ _).2 ⟨hy, hm, hd, (mkDate_iff _ _ _ _).2 ⟨rfl, hx⟩⟩
  | dayFirst s y m d hs hy hm hd ly lm ld =>
    have hn := sep_notDig hs
    rw [digitPattern_append, digitPattern_cons, digitPattern_append, digitPattern_cons, hn.1, digitPattern_dig hy, digitPattern_dig hm, digitPattern_dig hd, ly,
      if_neg (by decide), dateFormats_day s hs _ (len12 hm lm) _ (len12 hd ld)]
    dsimp only
    rw [readDateFmt, pySplit3 s _ _ _ (dig_ne_sep hn.1 hd) (dig_ne_sep hn.1 hm) (dig_ne_sep hn.1 hy)]
    exact (read3_iff _ _ _ _ _).2 ⟨hd, hm, hy, (mkDate_iff _ _ _ _).2 ⟨rfl, hx⟩⟩
  | compact y m d hy hm hd ly lm ld =>
    rw [digitPattern_append, digitPattern_append, digitPattern_dig hy, digitPattern_dig hm, digitPattern_dig hd, ly, lm, ld,
      show List.replicate 4 78 ++ (List.replicate 2 78 ++ List.replicate 2 78) = List.replicate 8 78 from rfl, dateFormats_compact]
    dsimp only
    rw [readDateFmt, List.take_left' ly, List.drop_left' ly, List.take_left' lm, ← List.append_assoc, List.drop_left' (by simp [ly, lm])]
    exact (read3_iff _ _ _ _ _).2 ⟨hy, hm, hd, (mkDate_iff _ _ _ _).2 ⟨rfl, hx⟩⟩

theorem pattern_sep {s : Nat} (hs : s ∈ dateSeps) {a b c : Nat} {t : PyText}
    (h : digitPattern t = List.replicate a 78 ++ s :: (List.replicate b 78 ++ s :: List.replicate c 78)) :
    ∃ x y z, t = x ++ s :: (y ++ s :: z) ∧ x.length = a ∧ y.length = b ∧ z.length = c ∧ s ∉ x ∧ s ∉ y ∧ s ∉ z := by
  have hn := sep_notDig hs
  have hc : ∀ u, (if isDig u then 78 else u) = s → u = s := by
    intro u hu
    split at hu
    · exact absurd hu.symm hn.2
    · exact hu
  have nm : ∀ (x : PyText) (k : Nat), digitPattern x = List.replicate k 78 → x.length = k ∧ s ∉ x := by
    intro x k hx
    refine ⟨by have := congrArg List.length hx; simpa [digitPattern] using this, ?_⟩
    intro hm
    have h1 : (if isDig s then 78 else s) ∈ digitPattern x := List.mem_map.2 ⟨s, hm, rfl⟩
    rw [hx, hn.1] at h1
    exact hn.2 (List.eq_of_mem_replicate h1)
  unfold digitPattern at h nm
  rw [List.map_eq_append_iff] at h
  obtain ⟨x, r, rfl, hx, hr⟩ := h
  rw [List.map_eq_cons_iff] at hr
  obtain ⟨u, r', rfl, hu, hr⟩ := hr
  rw [List.map_eq_append_iff] at hr
  obtain ⟨y, r'', rfl, hy, hr⟩ := hr
  rw [List.map_eq_cons_iff] at hr
  obtain ⟨v, z, rfl, hv, hz⟩ := hr
  rw [hc u hu, hc v hv]
  exact ⟨x, y, z, rfl, (nm x a hx).1, (nm y b hy).1, (nm z c hz).1, (nm x a hx).2, (nm y b hy).2, (nm z c hz).2⟩

theorem tableDate_ok {t : PyText} {x : PyDate} (h : tableDate t = .ok x) : DateSpelling t x ∧ dateOk x = true := by
  unfold tableDate at h
  cases hg : dGet (digitPattern t) dateFormats with
  | none => rw [hg] at h; cases h
  | some f =>
    rw [hg] at h
    dsimp only at h
    rcases dateFormats_forms _ (dGet_mem _ _ _ hg) with ⟨s, hs, i, hi, j, hj, e⟩ | ⟨s, hs, i, hi, j, hj, e⟩ | e
    · rw [Prod.mk.injEq] at e
      obtain ⟨a, b, c, rfl, la, lb, lc, na, nb, nc⟩ := pattern_sep hs e.1
      rw [e.2, readDateFmt, pySplit3 s a b c na nb nc] at h
      obtain ⟨ha, hb, hc, h⟩ := (read3_iff _ _ _ _ _).1 h
      obtain ⟨rfl, hx⟩ := (mkDate_iff _ _ _ _).1 h
      have : i ≤ 2 ∧ j ≤ 2 := by
        simp only [List.mem_cons, List.not_mem_nil, or_false] at hi hj
        omega
      exact ⟨.yearFirst s a b c hs ha hb hc la (by omega) (by omega), hx⟩
    · rw [Prod.mk.injEq] at e
      obtain ⟨a, b, c, rfl, la, lb, lc, na, nb, nc⟩ := pattern_sep hs e.1
      rw [e.2, readDateFmt, pySplit3 s a b c na nb nc] at h
      obtain ⟨ha, hb, hc, h⟩ := (read3_iff _ _ _ _ _).1 h
      obtain ⟨rfl, hx⟩ := (mkDate_iff _ _ _ _).1 h
      have : i ≤ 2 ∧ j ≤ 2 := by
        simp only [List.mem_cons, List.not_mem_nil, or_false] at hi hj
        omega
      exact ⟨.dayFirst s c b a hs hc hb ha lc (by omega) (by omega), hx⟩
    · rw [Prod.mk.injEq] at e
      rw [e.2, readDateFmt] at h
      obtain ⟨ha, hb, hc, h⟩ := (read3_iff _ _ _ _ _).1 h
      obtain ⟨rfl, hx⟩ := (mkDate_iff _ _ _ _).1 h
      have hl : t.length = 8 := by have := congrArg List.length e.1; simpa [digitPattern] using this
      have hsplit : t = t.take 4 ++ ((t.drop 4).take 2 ++ t.drop 6) := by
        conv_lhs => rw [← List.take_append_drop 4 t, ← List.take_append_drop 2 (t.drop 4), List.drop_drop]
      have := DateSpelling.compact _ _ _ ha hb hc (by rw [List.length_take]; omega) (by rw [List.length_take, List.length_drop]; omega) (by rw [List.length_drop]; omega)
      rw [← hsplit] at this
      exact ⟨this, hx⟩

theorem isoDate_table {t : PyText} {x : PyDate} (h : fromIsoDate t = .ok x) : tableDate t = .ok x := by
  unfold fromIsoDate at h
  cases hr : readDate t with
  | error e => rw [hr] at h; cases h
  | ok r =>
    rw [hr] at h
    dsimp only [Except.bind] at h
    split at h
    · next he =>
      cases h
      obtain ⟨y, m, d, e, ly, lm, ld, hy, hm, hd, ex, hx⟩ := readDate_ok hr
      rw [he, List.append_nil] at e
      refine tableDate_spelling ?_ hx
      rw [e, ex]
      exact .yearFirst 45 y m d (by decide) hy hm hd ly (by omega) (by omega)
    · cases h

/-- C87: `_infer_date` reads a text as a date exactly if it spells that date in one of the forms above and the date exists. -/
theorem C87_date (t : PyText) (x : PyDate) : pyDateText t = .ok x ↔ DateSpelling t x ∧ dateOk x = true := by
  have : pyDateText t = tableDate t := by
    unfold pyDateText
    cases h : fromIsoDate t with
    | ok d => exact (isoDate_table h).symm
    | error e => rfl
  rw [this]
  exact ⟨tableDate_ok, fun h => tableDate_spelling h.1 h.2⟩

/-- Spec: the lengths of the months of a year, January first; the year is leap or not -/
def monthLengths (leap : Bool) : List Nat := [31, if leap then 29 else 28, 31, 30, 31, 30, 31, 31, 30, 31, 30, 31]

/-- Spec: the days of the Gregorian calendar in the years 1 to 9999 -/
def CalendarDay (x : PyDate) : Prop :=
  (1 ≤ x.y ∧ x.y ≤ 9999) ∧ ∃ i n, (monthLengths (decide (4 ∣ x.y ∧ (100 ∣ x.y → 400 ∣ x.y))))[i]? = some n ∧ x.m = i + 1 ∧ 1 ≤ x.d ∧ x.d ≤ n

/-- the range checks of `datetime.date` describe the calendar -/
theorem dateOk_iff (x : PyDate) : dateOk x = true ↔ CalendarDay x := by
  obtain ⟨y, m, d⟩ := x
  have hleap : isLeapYear y = decide (4 ∣ y ∧ (100 ∣ y → 400 ∣ y)) := by
    rw [Bool.eq_iff_iff]
    simp only [isLeapYear, decide_eq_true_eq, Bool.and_eq_true, Bool.or_eq_true, bne_iff_ne, beq_iff_eq, ne_eq]
    rw [Int.tmod_eq_emod_of_nonneg (by omega), Int.tmod_eq_emod_of_nonneg (by omega), Int.tmod_eq_emod_of_nonneg (by omega)]
    omega
  simp only [dateOk, CalendarDay, Bool.and_eq_true, decide_eq_true_eq, monthDays]
  rw [hleap]
  generalize decide (4 ∣ y ∧ (100 ∣ y → 400 ∣ y)) = b
  constructor
  · rintro ⟨⟨⟨⟨⟨h1, h2⟩, h3⟩, h4⟩, h5⟩, h6⟩
    refine ⟨⟨h1, h2⟩, m - 1, _, ?_, by omega, h5, h6⟩
    have : m = 1 ∨ m = 2 ∨ m = 3 ∨ m = 4 ∨ m = 5 ∨ m = 6 ∨ m = 7 ∨ m = 8 ∨ m = 9 ∨ m = 10 ∨ m = 11 ∨ m = 12 := by omega
    rcases this with h | h | h | h | h | h | h | h | h | h | h | h <;> subst h <;> rfl
  · rintro ⟨⟨h1, h2⟩, i, n, h3, rfl, h5, h6⟩
    have hi : i < 12 := by
      obtain ⟨h, _⟩ := List.getElem?_eq_some_iff.1 h3
      exact h
    have : i = 0 ∨ i = 1 ∨ i = 2 ∨ i = 3 ∨ i = 4 ∨ i = 5 ∨ i = 6 ∨ i = 7 ∨ i = 8 ∨ i = 9 ∨ i = 10 ∨ i = 11 := by omega
    refine ⟨⟨⟨⟨⟨h1, h2⟩, by omega⟩, by omega⟩, h5⟩, ?_⟩
    rcases this with h | h | h | h | h | h | h | h | h | h | h | h <;> subst h <;> simp [monthLengths] at h3 <;> subst h3 <;> simpa using h6

/-- C87: `_infer_date` reads a text as a date exactly if it spells a day of the calendar in one of the forms above. -/
theorem C87_calendar (t : PyText) (x : PyDate) : pyDateText t = .ok x ↔ DateSpelling t x ∧ CalendarDay x := by
  rw [C87_date, dateOk_iff]

example : CalendarDay ⟨2000, 2, 29⟩ ∧ ¬ CalendarDay ⟨1900, 2, 29⟩ ∧ ¬ CalendarDay ⟨2021, 13, 1⟩ := by
  rw [← dateOk_iff, ← dateOk_iff, ← dateOk_iff]
  decide +kernel

/-- C87: every failure to read a text as a date is a ValueError. -/
theorem C87_raises (t : PyText) (e : Err) (h : pyDateText t = .error e) : e = .value := by
  unfold pyDateText at h
  cases h1 : fromIsoDate t with
  | ok d => rw [h1] at h; cases h
  | error e' =>
    rw [h1] at h
    dsimp only at h
    cases hg : dGet (digitPattern t) dateFormats with
    | none => rw [hg] at h; cases h; rfl
    | some f =>
      rw [hg] at h
      dsimp only at h
      have hp : ∀ u e, parseNatText u = .error e → e = .value := by
        intro u e hu
        unfold parseNatText at hu
        split at hu
        · cases hu
        · cases hu; rfl
      have h3 : ∀ (a b c : PyText) (f : List Nat → Except Err PyDate), (∀ l e, l.length = 3 → f l = .error e → e = .value) →
          ([a, b, c].mapM parseNatText).bind f = .error e → e = .value := by
        intro a b c f hf hh
        rw [mapM3] at hh
        cases h1 : parseNatText a with
        | error e => rw [h1] at hh; cases hh; exact hp _ _ h1
        | ok i =>
          cases h2 : parseNatText b with
          | error e => rw [h1, h2] at hh; cases hh; exact hp _ _ h2
          | ok j =>
            cases h3 : parseNatText c with
            | error e => rw [h1, h2, h3] at hh; cases hh; exact hp _ _ h3
            | ok k => rw [h1, h2, h3] at hh; exact hf _ _ rfl hh
      have hmk : ∀ l e, l.length = 3 → mkDate l = .error e → e = .value := by
        intro l e hl he
        match l, hl with
        | [a, b, c], _ =>
          rw [mkDate] at he
          split at he
          · cases he
          · cases he; rfl
      rcases dateFormats_forms _ (dGet_mem _ _ _ hg) with ⟨s, hs, i, hi, j, hj, e⟩ | ⟨s, hs, i, hi, j, hj, e⟩ | e
      · rw [Prod.mk.injEq] at e
        obtain ⟨a, b, c, rfl, la, lb, lc, na, nb, nc⟩ := pattern_sep hs e.1
        rw [e.2, readDateFmt, pySplit3 s a b c na nb nc] at h
        exact h3 _ _ _ _ hmk h
      · rw [Prod.mk.injEq] at e
        obtain ⟨a, b, c, rfl, la, lb, lc, na, nb, nc⟩ := pattern_sep hs e.1
        rw [e.2, readDateFmt, pySplit3 s a b c na nb nc] at h
        exact h3 _ _ _ _ (fun l e hl => hmk l.reverse e (by rw [List.length_reverse, hl])) h
      · rw [Prod.mk.injEq] at e
        rw [e.2, readDateFmt] at h
        exact h3 _ _ _ _ hmk h

example : DateSpelling (txt "7/12/2021") ⟨2021, 12, 7⟩ ∧ dateOk ⟨2021, 12, 7⟩ = true :=
  ⟨.dayFirst 47 (txt "2021") (txt "12") (txt "7") (by decide) ⟨by decide, by decide +kernel⟩ ⟨by decide, by decide +kernel⟩ ⟨by decide, by decide +kernel⟩ rfl
    (by decide) (by decide), by decide +kernel⟩


/-! ## datetimes -/

/-- how date and time of day are written: separator and order of the date, the character between date and time -/
structure DtStyle where
  sep : Nat
  dayFirst : Bool
  t : Nat

/-- the date in a style, all numbers with leading zeros -/
def styleDate (st : DtStyle) (d : PyDate) : PyText :=
  if st.dayFirst then pad2 d.d ++ st.sep :: (pad2 d.m ++ st.sep :: pad4 d.y) else pad4 d.y ++ st.sep :: (pad2 d.m ++ st.sep :: pad2 d.d)

/-- the time of day, with or without seconds -/
def clockText (h m : Nat) : Option Nat → PyText
  | none => pad2 h ++ 58 :: pad2 m
  | some s => pad2 h ++ 58 :: (pad2 m ++ 58 :: pad2 s)

/-- date and time in a style -/
def styleText (st : DtStyle) (d : PyDate) (h m : Nat) (s : Option Nat) : PyText := styleDate st d ++ st.t :: clockText h m s

/-- the styles that work: `-`, `/` or space in the date, `T` or space before the time -/
def StyleOk (st : DtStyle) : Prop := st.sep ∈ [45, 47, 32] ∧ st.t ∈ [84, 32]

theorem dig_cases {c : Nat} (h : isDig c = true) : 48 ≤ c ∧ c < 58 := by simpa [isDig] using h

theorem dig_ne {c k : Nat} (h : isDig c = true) (hk : isDig k = false) : (c = k) = False := by
  rw [eq_iff_iff, iff_false]
  rintro rfl
  rw [h] at hk
  cases hk

theorem pad2_dig (n : Nat) (hn : n < 100) : ∃ a b, pad2 n = [a, b] ∧ isDig a = true ∧ isDig b = true := by
  refine ⟨_, _, rfl, ?_, ?_⟩ <;> simp only [isDig, Bool.and_eq_true, decide_eq_true_eq] <;> omega

theorem pad4_dig (n : Nat) (hn : n < 10000) : ∃ a b c d, pad4 n = [a, b, c, d] ∧ isDig a = true ∧ isDig b = true ∧ isDig c = true ∧ isDig d = true := by
  refine ⟨_, _, _, _, rfl, ?_, ?_, ?_, ?_⟩ <;> simp only [isDig, Bool.and_eq_true, decide_eq_true_eq] <;> omega

theorem dateOk_bounds {d : PyDate} (h : dateOk d = true) : d.y < 10000 ∧ d.m < 100 ∧ d.d < 100 := by
  simp only [dateOk, Bool.and_eq_true, decide_eq_true_eq] at h
  have := monthDays_le d.y d.m
  omega

theorem takeWhile_all {p : Nat → Bool} {t : PyText} (h : ∀ x ∈ t, p x = true) : t.takeWhile p = t := by
  induction t with
  | nil => rfl
  | cons x t ih => rw [List.takeWhile_cons, if_pos (h x (by simp)), ih fun y hy => h y (List.mem_cons_of_mem _ hy)]

theorem dropWhile_all {p : Nat → Bool} {t : PyText} (h : ∀ x ∈ t, p x = true) : t.dropWhile p = [] := by
  induction t with
  | nil => rfl
  | cons x t ih => rw [List.dropWhile_cons, if_pos (h x (by simp)), ih fun y hy => h y (List.mem_cons_of_mem _ hy)]

theorem swapChar_notMem {a b : Nat} {t : PyText} (h : a ∉ t) : swapChar a b t = t := by
  unfold swapChar
  conv_rhs => rw [← List.map_id t]
  exact List.map_congr_left fun c hc => if_neg fun (e : c = a) => h (e ▸ hc)

/-- the entry of a style in the table -/
def styleFmt (st : DtStyle) : DtFmt :=
  if st.dayFirst then
    (if st.sep = 45 then { ymd := some 45, T := some 32, dayFirst := true }
     else if st.sep = 47 then { ymd := some 47, T := if st.t = 32 then some 32 else none, dayFirst := true }
     else { ymd := some 47, dayFirst := true })
  else { ymd := if st.sep = 45 then none else some st.sep, T := if st.t = 32 then some 32 else none }

/-- the pattern of a style -/
def stylePat (st : DtStyle) (sec : Bool) : PyText :=
  (if st.dayFirst then [78, 78, st.sep, 78, 78, st.sep, 78, 78, 78, 78] else [78, 78, 78, 78, st.sep, 78, 78, st.sep, 78, 78]) ++
    st.t :: (if sec then [78, 78, 58, 78, 78, 58, 78, 78] else [78, 78, 58, 78, 78])

theorem stylePat_table : ∀ s ∈ [45, 47, 32], ∀ t ∈ [84, 32], ∀ df ∈ [true, false], ∀ sec ∈ [true, false],
    dGet (stylePat ⟨s, df, t⟩ sec) datetimeFormats = some (styleFmt ⟨s, df, t⟩) := by decide +kernel

/-- reading by the table, without a fraction -/
theorem table_read (fl : Rat → Rat) (t v : PyText) (f : DtFmt) (hiso : ∀ x, isoDatetimeText t ≠ .ok x) (h1 : 46 ∉ t) (h2 : 44 ∉ t)
    (hp : dGet (digitPattern t) datetimeFormats = some f) (hc : f.compact = 0) (hv : yearFirst f t = v) (h3 : 46 ∉ v) (h4 : 44 ∉ v) :
    pyDatetimeText fl t = isoDatetimeText (fixT f (fixYmd f v)) := by
  unfold pyDatetimeText
  cases hi : isoDatetimeText t with
  | ok x => exact absurd hi (hiso x)
  | error e =>
    dsimp only
    have hpp : patternPart t = t := by
      have he : patternEnd t = t.length := by
        unfold patternEnd
        rw [if_neg (by simpa using h1), if_neg (by simpa using h2)]
      unfold patternPart
      rw [he, if_neg (by omega)]
      simp
    rw [hpp, hp]
    dsimp only
    unfold patternToDatetime uncompact
    rw [if_pos hc, hv, swapChar_notMem h4]
    unfold fixFraction
    rw [if_neg (fun h => h3 (by simpa using h.1))]
    rfl

/-- reading the ISO form, with any character between date and time -/
theorem isoDatetimeText_clock (d : PyDate) (hd : dateOk d = true) (c h m : Nat) (s : Option Nat) (hh : h < 24) (hm : m < 60) (hs : ∀ x, s = some x → x < 60) :
    isoDatetimeText (isoDate d ++ c :: clockText h m s) = .ok (d, ⟨h, m, s.getD 0, 0, none⟩) := by
  unfold isoDatetimeText
  rw [readDate_iso d hd]
  dsimp only [Except.bind]
  have key : isoTimeText (clockText h m s) = .ok ⟨h, m, s.getD 0, 0, none⟩ := by
    have hall : ∀ x ∈ clockText h m s, noSign x = true := by
      intro x hx
      have h2 : ∀ n, n < 100 → ∀ y ∈ pad2 n, noSign y = true := by
        intro n hn y hy
        obtain ⟨a, b, e, ha, hb⟩ := pad2_dig n hn
        rw [e] at hy
        simp only [List.mem_cons, List.not_mem_nil, or_false] at hy
        have := dig_cases ha
        have := dig_cases hb
        unfold noSign
        simp only [Bool.and_eq_true, bne_iff_ne, ne_eq]
        rcases hy with rfl | rfl <;> omega
      cases s with
      | none =>
        simp only [clockText, List.mem_append, List.mem_cons] at hx
        rcases hx with hx | rfl | hx
        · exact h2 h (by omega) x hx
        · rfl
        · exact h2 m (by omega) x hx
      | some s =>
        have := hs s rfl
        simp only [clockText, List.mem_append, List.mem_cons] at hx
        rcases hx with hx | rfl | hx | rfl | hx
        · exact h2 h (by omega) x hx
        · rfl
        · exact h2 m (by omega) x hx
        · rfl
        · exact h2 s (by omega) x hx
    unfold isoTimeText
    rw [takeWhile_all hall, dropWhile_all hall]
    cases s with
    | none =>
      rw [clockText, read2_pad2 h (by omega)]
      dsimp only [Except.bind]
      have e2 := read2_pad2 m (by omega) []
      rw [List.append_nil] at e2
      rw [isoAfterH, e2]
      dsimp only [Except.bind]
      rw [isoAfterM]
      dsimp only [readOff]
      rw [if_pos (by simp [timeOk]; omega)]
      rfl
    | some s =>
      have := hs s rfl
      rw [clockText, read2_pad2 h (by omega)]
      dsimp only [Except.bind]
      rw [isoAfterH, read2_pad2 m (by omega)]
      dsimp only [Except.bind]
      have e2 := read2_pad2 s (by omega) []
      rw [List.append_nil] at e2
      rw [isoAfterM, e2]
      dsimp only [Except.bind]
      rw [isoAfterS]
      dsimp only [readOff]
      rw [if_pos (by simp [timeOk]; omega)]
      rfl
  rw [key]

/-- digits of a date, in a style -/
def digDate (st : DtStyle) (y m d : PyText) : PyText :=
  if st.dayFirst then d ++ st.sep :: (m ++ st.sep :: y) else y ++ st.sep :: (m ++ st.sep :: d)

/-- what remains of it after `yearFirst` -/
def digYear (st : DtStyle) (y m d : PyText) : PyText :=
  if st.dayFirst then y ++ 45 :: (m ++ 45 :: d) else y ++ st.sep :: (m ++ st.sep :: d)

theorem style_year (st : DtStyle) (y m d K : PyText) (hy : y.length = 4) (hm : m.length = 2) (hd : d.length = 2) :
    yearFirst (styleFmt st) (digDate st y m d ++ K) = digYear st y m d ++ K := by
  match y, hy with
  | [y1, y2, y3, y4], _ =>
    match m, hm with
    | [m1, m2], _ =>
      match d, hd with
      | [d1, d2], _ =>
        obtain ⟨s, df, t⟩ := st
        cases df with
        | false => rfl
        | true =>
          unfold styleFmt
          simp only [if_true]
          split_ifs <;> rfl

theorem swapFirst_notMem (a b n : Nat) (t : PyText) (h : a ∉ t) : swapFirst a b n t = t := by
  induction t generalizing n with
  | nil => cases n <;> rfl
  | cons x t ih =>
    cases n with
    | zero => rfl
    | succ n =>
      rw [swapFirst, if_neg (fun e => h (by rw [e]; simp)), ih _ fun hm => h (List.mem_cons_of_mem _ hm)]

theorem swapFirst_append (a b n : Nat) (p t : PyText) (h : a ∉ p) : swapFirst a b n (p ++ t) = p ++ swapFirst a b n t := by
  induction p with
  | nil => rfl
  | cons x p ih =>
    cases n with
    | zero => simp [swapFirst]
    | succ n =>
      rw [List.cons_append, swapFirst, if_neg (fun e => h (by rw [e]; simp)), ih fun hm => h (List.mem_cons_of_mem _ hm)]
      rfl

theorem swapFirst_date (a : Nat) (y m d K : PyText) (hy : a ∉ y) (hm : a ∉ m) : swapFirst a 45 2 (y ++ a :: (m ++ a :: (d ++ K))) = y ++ 45 :: (m ++ 45 :: (d ++ K)) := by
  rw [swapFirst_append _ _ _ _ _ hy, swapFirst, if_pos rfl, swapFirst_append _ _ _ _ _ hm, swapFirst, if_pos rfl]
  simp [swapFirst]

theorem swapChar_append (a b : Nat) (p t : PyText) : swapChar a b (p ++ t) = swapChar a b p ++ swapChar a b t := List.map_append

theorem style_norm (st : DtStyle) (hst : StyleOk st) (y m d K : PyText) (hy : AllDig y) (hm : AllDig m) (hd : AllDig d) (h32 : 32 ∉ K) (h47 : 47 ∉ K) :
    ∃ c, fixT (styleFmt st) (fixYmd (styleFmt st) (digYear st y m d ++ st.t :: K)) = y ++ 45 :: (m ++ 45 :: (d ++ c :: K)) := by
  have ny : ∀ k ∈ [32, 45, 47], k ∉ y ∧ k ∉ m ∧ k ∉ d := fun k hk =>
    have h : isDig k = false := by revert k; decide
    ⟨dig_ne_sep h hy, dig_ne_sep h hm, dig_ne_sep h hd⟩
  obtain ⟨a32, b32, c32⟩ := ny 32 (by decide)
  obtain ⟨a45, b45, c45⟩ := ny 45 (by decide)
  obtain ⟨a47, b47, c47⟩ := ny 47 (by decide)
  have sT : ∀ c, swapChar 32 84 (y ++ 45 :: (m ++ 45 :: (d ++ c :: K))) = y ++ 45 :: (m ++ 45 :: (d ++ (if c = 32 then 84 else c) :: K)) := by
    intro c
    have hc : ∀ (x : Nat) (t : PyText), swapChar 32 84 (x :: t) = (if x = 32 then 84 else x) :: swapChar 32 84 t := fun _ _ => rfl
    rw [swapChar_append, hc, swapChar_append, hc, swapChar_append, hc, swapChar_notMem a32, swapChar_notMem b32, swapChar_notMem c32, swapChar_notMem h32]
    rfl
  have n47 : ∀ c, c ≠ 47 → swapFirst 47 45 2 (y ++ 45 :: (m ++ 45 :: (d ++ c :: K))) = y ++ 45 :: (m ++ 45 :: (d ++ c :: K)) := by
    intro c hc
    apply swapFirst_notMem
    simp only [List.mem_append, List.mem_cons]
    rintro (h | h | h | h | h | h | h)
    · exact a47 h
    · cases h
    · exact b47 h
    · cases h
    · exact c47 h
    · exact hc h.symm
    · exact h47 h
  obtain ⟨s, df, t⟩ := st
  obtain ⟨h1, h2⟩ := hst
  simp only [List.mem_cons, List.not_mem_nil, or_false] at h1 h2
  rcases h1 with rfl | rfl | rfl <;> rcases h2 with rfl | rfl <;> cases df
  all_goals simp only [styleFmt, fixT, fixYmd, digYear, if_true, if_false, Bool.false_eq_true, List.append_assoc, List.cons_append,
    show ¬ (84 = 32) by decide, show ¬ (47 = 45) by decide, show ¬ (32 = 45) by decide, show ¬ (32 = 47) by decide, swapFirst_date 45 y m d _ a45 b45,
    swapFirst_date 47 y m d _ a47 b47, swapFirst_date 32 y m d _ a32 b32, sT]
  all_goals first
    | exact ⟨_, rfl⟩
    | (rw [n47 _ (by decide)]; first | exact ⟨_, rfl⟩ | (rw [sT]; exact ⟨_, rfl⟩))

/-- texts that are not in ISO form are not read by `fromisoformat` -/
theorem style_notIso (st : DtStyle) (hst : StyleOk st ∨ st.sep = 46) (hn : ¬ (st.sep = 45 ∧ st.dayFirst = false)) (y m d K : PyText) (hy : AllDig y) (hm : AllDig m) (hd : AllDig d)
    (ly : y.length = 4) (lm : m.length = 2) (ld : d.length = 2) (x : PyDate × PyTime) : isoDatetimeText (digDate st y m d ++ K) ≠ .ok x := by
  intro h
  unfold isoDatetimeText at h
  have hs : isDig st.sep = false := by
    rcases hst with hst | hst
    · have h1 := hst.1
      simp only [List.mem_cons, List.not_mem_nil, or_false] at h1
      rcases h1 with h | h | h <;> rw [h] <;> decide
    · rw [hst]; decide
  cases hr : readDate (digDate st y m d ++ K) with
  | error e => rw [hr] at h; cases h
  | ok r =>
    obtain ⟨a, b, c, e, la, lb, lc, ha, hb, hc, _⟩ := readDate_ok hr
    unfold digDate at e
    by_cases hdf : st.dayFirst = true
    · rw [if_pos hdf, List.append_assoc] at e
      -- the third character is no digit
      have e2 := congrArg (fun t => t[2]?) e
      rw [List.getElem?_append_right (by omega), ld] at e2
      simp only [Nat.sub_self, List.cons_append, List.getElem?_cons_zero] at e2
      rw [List.getElem?_append_left (by omega)] at e2
      have := ha.2 st.sep (List.mem_of_getElem? e2.symm)
      simp [isDig] at hs
      omega
    · rw [if_neg hdf, List.append_assoc] at e
      have e1 := (List.append_inj e (by rw [ly, la])).2
      rw [List.cons_append] at e1
      have := (List.cons.inj e1).1
      exact hn ⟨this, by simpa using hdf⟩

theorem style_pattern (st : DtStyle) (hs : isDig st.sep = false) (y m d K : PyText) (hy : AllDig y) (hm : AllDig m) (hd : AllDig d)
    (ly : y.length = 4) (lm : m.length = 2) (ld : d.length = 2) : digitPattern (digDate st y m d ++ K) =
      (if st.dayFirst then [78, 78, st.sep, 78, 78, st.sep, 78, 78, 78, 78] else [78, 78, 78, 78, st.sep, 78, 78, st.sep, 78, 78]) ++ digitPattern K := by
  unfold digDate
  rw [digitPattern_append]
  congr 1
  by_cases hdf : st.dayFirst = true
  · rw [if_pos hdf, if_pos hdf, digitPattern_append, digitPattern_cons, digitPattern_append, digitPattern_cons, digitPattern_dig hy, digitPattern_dig hm, digitPattern_dig hd, ly, lm, ld, hs]
    rfl
  · rw [if_neg hdf, if_neg hdf, digitPattern_append, digitPattern_cons, digitPattern_append, digitPattern_cons, digitPattern_dig hy, digitPattern_dig hm, digitPattern_dig hd, ly, lm, ld, hs]
    rfl

theorem pad_allDig2 (n : Nat) (hn : n < 100) : AllDig (pad2 n) := by
  obtain ⟨a, b, e, ha, hb⟩ := pad2_dig n hn
  rw [e]
  refine ⟨by simp, ?_⟩
  intro c hc
  simp only [List.mem_cons, List.not_mem_nil, or_false] at hc
  rcases hc with rfl | rfl
  · exact dig_cases ha
  · exact dig_cases hb

theorem pad_allDig4 (n : Nat) (hn : n < 10000) : AllDig (pad4 n) := by
  obtain ⟨a, b, c, d, e, ha, hb, hc, hd⟩ := pad4_dig n hn
  rw [e]
  refine ⟨by simp, ?_⟩
  intro x hx
  simp only [List.mem_cons, List.not_mem_nil, or_false] at hx
  rcases hx with rfl | rfl | rfl | rfl
  · exact dig_cases ha
  · exact dig_cases hb
  · exact dig_cases hc
  · exact dig_cases hd

/-- characters of the time of day -/
theorem clock_chars (h m : Nat) (s : Option Nat) (hh : h < 24) (hm : m < 60) (hs : ∀ x, s = some x → x < 60) : ∀ c ∈ clockText h m s, (48 ≤ c ∧ c < 58) ∨ c = 58 := by
  intro c hc
  cases s with
  | none =>
    simp only [clockText, List.mem_append, List.mem_cons] at hc
    rcases hc with hc | rfl | hc
    · exact .inl ((pad_allDig2 h (by omega)).2 c hc)
    · exact .inr rfl
    · exact .inl ((pad_allDig2 m (by omega)).2 c hc)
  | some s =>
    have := hs s rfl
    simp only [clockText, List.mem_append, List.mem_cons] at hc
    rcases hc with hc | rfl | hc | rfl | hc
    · exact .inl ((pad_allDig2 h (by omega)).2 c hc)
    · exact .inr rfl
    · exact .inl ((pad_allDig2 m (by omega)).2 c hc)
    · exact .inr rfl
    · exact .inl ((pad_allDig2 s (by omega)).2 c hc)

theorem clock_pattern (h m : Nat) (s : Option Nat) (hh : h < 24) (hm : m < 60) (hs : ∀ x, s = some x → x < 60) :
    digitPattern (clockText h m s) = if s.isSome then [78, 78, 58, 78, 78, 58, 78, 78] else [78, 78, 58, 78, 78] := by
  cases s with
  | none =>
    rw [clockText, digitPattern_append, digitPattern_cons, digitPattern_dig (pad_allDig2 h (by omega)), digitPattern_dig (pad_allDig2 m (by omega))]
    rfl
  | some s =>
    have := hs s rfl
    rw [clockText, digitPattern_append, digitPattern_cons, digitPattern_append, digitPattern_cons, digitPattern_dig (pad_allDig2 h (by omega)),
      digitPattern_dig (pad_allDig2 m (by omega)), digitPattern_dig (pad_allDig2 s (by omega))]
    rfl

theorem styleDate_dig (st : DtStyle) (d : PyDate) : styleDate st d = digDate st (pad4 d.y) (pad2 d.m) (pad2 d.d) := rfl

theorem digDate_chars {st : DtStyle} {y m d : PyText} (hy : AllDig y) (hm : AllDig m) (hd : AllDig d) {c : Nat} (hc : c ∈ digDate st y m d) :
    (48 ≤ c ∧ c < 58) ∨ c = st.sep := by
  unfold digDate at hc
  split at hc <;> simp only [List.mem_append, List.mem_cons] at hc
  · rcases hc with hc | rfl | hc | rfl | hc
    · exact .inl (hd.2 c hc)
    · exact .inr rfl
    · exact .inl (hm.2 c hc)
    · exact .inr rfl
    · exact .inl (hy.2 c hc)
  · rcases hc with hc | rfl | hc | rfl | hc
    · exact .inl (hy.2 c hc)
    · exact .inr rfl
    · exact .inl (hm.2 c hc)
    · exact .inr rfl
    · exact .inl (hd.2 c hc)

theorem digYear_chars {st : DtStyle} {y m d : PyText} (hy : AllDig y) (hm : AllDig m) (hd : AllDig d) {c : Nat} (hc : c ∈ digYear st y m d) :
    (48 ≤ c ∧ c < 58) ∨ c = st.sep ∨ c = 45 := by
  unfold digYear at hc
  split at hc <;> simp only [List.mem_append, List.mem_cons] at hc
  · rcases hc with hc | rfl | hc | rfl | hc
    · exact .inl (hy.2 c hc)
    · exact .inr (.inr rfl)
    · exact .inl (hm.2 c hc)
    · exact .inr (.inr rfl)
    · exact .inl (hd.2 c hc)
  · rcases hc with hc | rfl | hc | rfl | hc
    · exact .inl (hy.2 c hc)
    · exact .inr (.inl rfl)
    · exact .inl (hm.2 c hc)
    · exact .inr (.inl rfl)
    · exact .inl (hd.2 c hc)

/-- C88: a datetime written with `-`, `/` or spaces, year or day first, `T` or space, with or without seconds, is read as that datetime. Missing: dates with
dots (see `C88_dots_fail`), fractions of seconds (see `C88_fraction_partial`). -/
theorem C88_datetime_partial (fl : Rat → Rat) (st : DtStyle) (hst : StyleOk st) (d : PyDate) (hd : dateOk d = true) (h m : Nat) (s : Option Nat)
    (hh : h < 24) (hm : m < 60) (hs : ∀ x, s = some x → x < 60) :
    pyDatetimeText fl (styleText st d h m s) = .ok (d, ⟨h, m, s.getD 0, 0, none⟩) := by
  have iso := fun c => isoDatetimeText_clock d hd c h m s hh hm hs
  obtain ⟨by_, bm, bd⟩ := dateOk_bounds hd
  have gy := pad_allDig4 d.y by_
  have gm := pad_allDig2 d.m bm
  have gd := pad_allDig2 d.d bd
  by_cases hiso : st.sep = 45 ∧ st.dayFirst = false
  · have e : styleText st d h m s = isoDate d ++ st.t :: clockText h m s := by
      unfold styleText styleDate isoDate
      rw [hiso.1, hiso.2]
      simp
    unfold pyDatetimeText
    rw [e, iso]
  · have h1 := hst.1
    have h2 := hst.2
    simp only [List.mem_cons, List.not_mem_nil, or_false] at h1 h2
    have hsd : isDig st.sep = false := by rcases h1 with h | h | h <;> rw [h] <;> decide
    have htd : isDig st.t = false := by rcases h2 with h | h <;> rw [h] <;> decide
    have cc := clock_chars h m s hh hm hs
    have no : ∀ k, k = 46 ∨ k = 44 → k ∉ digDate st (pad4 d.y) (pad2 d.m) (pad2 d.d) ++ st.t :: clockText h m s := by
      intro k hk hm'
      rw [List.mem_append, List.mem_cons] at hm'
      rcases hm' with hm' | hm' | hm'
      · have := digDate_chars gy gm gd hm'
        omega
      · omega
      · have := cc k hm'
        omega
    have no' : ∀ k, k = 46 ∨ k = 44 → k ∉ digYear st (pad4 d.y) (pad2 d.m) (pad2 d.d) ++ st.t :: clockText h m s := by
      intro k hk hm'
      rw [List.mem_append, List.mem_cons] at hm'
      rcases hm' with hm' | hm' | hm'
      · have := digYear_chars gy gm gd hm'
        omega
      · omega
      · have := cc k hm'
        omega
    have hp : digitPattern (digDate st (pad4 d.y) (pad2 d.m) (pad2 d.d) ++ st.t :: clockText h m s) = stylePat st s.isSome := by
      rw [style_pattern st hsd _ _ _ _ gy gm gd rfl rfl rfl, digitPattern_cons, htd, clock_pattern h m s hh hm hs]
      rfl
    unfold styleText
    rw [styleDate_dig]
    rw [table_read fl _ _ (styleFmt st) (style_notIso st (.inl hst) hiso _ _ _ _ gy gm gd rfl rfl rfl) (no 46 (.inl rfl)) (no 44 (.inr rfl))
      (by rw [hp]; exact stylePat_table st.sep hst.1 st.t hst.2 st.dayFirst (by cases st.dayFirst <;> decide) _ (by cases s.isSome <;> decide))
      (by unfold styleFmt; split_ifs <;> rfl) (style_year st _ _ _ _ rfl rfl rfl) (no' 46 (.inl rfl)) (no' 44 (.inr rfl))]
    obtain ⟨c, hc⟩ := style_norm st hst (pad4 d.y) (pad2 d.m) (pad2 d.d) (clockText h m s) gy gm gd
      (fun hm' => by have := cc _ hm'; omega) (fun hm' => by have := cc _ hm'; omega)
    rw [hc]
    have := iso c
    unfold isoDate at this
    simpa using this

example : styleText ⟨47, true, 32⟩ ⟨2021, 12, 7⟩ 9 5 (some 30) = txt "07/12/2021 09:05:30" := by decide +kernel

/-! ## fractions of seconds -/

theorem natText_six (n : Nat) (hn : n < 10 ^ 6) : (natText n).length ≤ 6 := by
  unfold natText
  split
  · simp
  · rw [List.length_map, List.length_reverse]
    exact (Nat.digits_length_le_iff (by decide) n).2 hn

theorem rjust6_ok (n : Nat) (hn : n < 10 ^ 6) : (rjust6 n).length = 6 ∧ AllDig (rjust6 n) ∧ digNum (rjust6 n) = n := by
  have hl := natText_six n hn
  obtain ⟨h1, h2⟩ := (parseNatText_iff (natText n) n).1 (parseNatText_natText n)
  have h0 : ∀ k, digNum (List.replicate k 48) = 0 := by
    intro k
    induction k with
    | zero => rfl
    | succ k ih => rw [List.replicate_succ']; rw [digNum_append, ih]; rfl
  refine ⟨?_, ⟨?_, ?_⟩, ?_⟩
  · unfold rjust6
    rw [List.length_append, List.length_replicate]
    omega
  · unfold rjust6
    intro e
    exact h1.1 (List.append_eq_nil_iff.1 e).2
  · intro c hc
    rcases List.mem_append.1 hc with hc | hc
    · rw [List.eq_of_mem_replicate hc]; decide
    · exact h1.2 c hc
  · unfold rjust6
    rw [digNum_append, h0, ← h2]
    simp

theorem digNum_lt {t : PyText} (h : AllDig t) : digNum t < 10 ^ t.length := by
  have key : ∀ t : PyText, (∀ c ∈ t, 48 ≤ c ∧ c < 58) → digNum t < 10 ^ t.length := by
    intro t
    induction t using List.reverseRecOn with
    | nil => intro _; decide
    | append_singleton t c ih =>
      intro h
      rw [digNum_append]
      have := ih fun x hx => h x (by simp [hx])
      have hc := h c (by simp)
      have e : digNum [c] = c - 48 := by simp [digNum]
      rw [e, List.length_append, List.length_singleton, Nat.pow_add]
      omega
  exact key t h.2

/-- the fraction in steps of a nanosecond -/
def nanos (ds : PyText) : Nat := digNum ds * 10 ^ (9 - ds.length)

/-- C88: up to nine digits of a second become microseconds: cut off after six digits, but when there is nothing to cut off, one microsecond may be missing -/
theorem C88_micro_partial (fl : Rat → Rat) (hfl : IsRound fl) (ds : PyText) (hd : AllDig ds) (hl : ds.length ≤ 9) :
    ∃ us, microOf fl ds = .ok us ∧ (us = nanos ds / 1000 ∨ (nanos ds % 1000 = 0 ∧ us + 1 = nanos ds / 1000)) := by
  have hp : parseNatText ds = .ok (digNum ds) := (parseNatText_iff _ _).2 ⟨hd, rfl⟩
  unfold microOf
  rw [hp]
  refine ⟨_, rfl, ?_⟩
  have hlt := digNum_lt hd
  have hN : nanos ds < 10 ^ 9 := by
    have : 10 ^ 9 = 10 ^ ds.length * 10 ^ (9 - ds.length) := by rw [← Nat.pow_add]; congr 1; omega
    rw [this]
    unfold nanos
    exact Nat.mul_lt_mul_of_pos_right hlt (by positivity)
  have hx : (digNum ds : Rat) / 10 ^ ds.length = (nanos ds : Rat) / 10 ^ 9 := by
    have : (10 : Rat) ^ 9 = 10 ^ ds.length * 10 ^ (9 - ds.length) := by rw [← pow_add]; congr 1; omega
    rw [this]
    unfold nanos
    push_cast
    field_simp
  rw [hx]
  generalize nanos ds = N at *
  clear hx hp hlt
  rcases Nat.eq_zero_or_pos N with rfl | hpos
  · left
    have z := hfl.int 0 (by norm_num)
    simp only [Int.cast_zero] at z
    simp [z]
  · have e1 := hfl.err ((N : Rat) / 10 ^ 9)
    have e2 := hfl.err (fl ((N : Rat) / 10 ^ 9) * 10 ^ 6)
    have hN' : (N : Rat) ≤ 10 ^ 9 := by exact_mod_cast hN.le
    have hpos' : (0 : Rat) < N := by exact_mod_cast hpos
    generalize hA : fl ((N : Rat) / 10 ^ 9) = A at *
    generalize fl (A * 10 ^ 6) = B at *
    rw [abs_of_pos (show (0 : Rat) < (N : Rat) / 10 ^ 9 by positivity), abs_le] at e1
    have hApos : 0 < A := by
      have : (0 : Rat) < (N : Rat) / 10 ^ 9 - (N : Rat) / 10 ^ 9 / 2 ^ 53 := by
        have : (0 : Rat) < (N : Rat) / 10 ^ 9 := by positivity
        linarith [this]
      linarith [e1.1]
    rw [abs_of_pos (show (0 : Rat) < A * 10 ^ 6 by positivity), abs_le] at e2
    have hA2 : A ≤ 2 := by
      have : (N : Rat) / 10 ^ 9 ≤ 1 := by rw [div_le_one (by positivity)]; exact hN'
      linarith [e1.2]
    have b1 : B ≤ (N : Rat) / 1000 + 1 / 2000 := by
      have : (N : Rat) / 10 ^ 9 ≤ 1 := by rw [div_le_one (by positivity)]; exact hN'
      have q : (N : Rat) / 1000 = N / 10 ^ 9 * 10 ^ 6 := by ring
      rw [q]
      linarith [e1.2, e2.2]
    have b2 : (N : Rat) / 1000 - 1 / 2000 ≤ B := by
      have : (N : Rat) / 10 ^ 9 ≤ 1 := by rw [div_le_one (by positivity)]; exact hN'
      have q : (N : Rat) / 1000 = N / 10 ^ 9 * 10 ^ 6 := by ring
      rw [q]
      linarith [e1.1, e2.1]
    have hq := Nat.div_add_mod N 1000
    have hr := Nat.mod_lt N (show 1000 > 0 by decide)
    generalize N / 1000 = k at *
    generalize N % 1000 = r at *
    have hNr : (N : Rat) = 1000 * k + r := by exact_mod_cast hq.symm
    rw [hNr] at b1 b2
    have hr' : (r : Rat) ≤ 999 := by exact_mod_cast (by omega : r ≤ 999)
    have hr0 : (0 : Rat) ≤ r := by positivity
    have up : B < k + 1 := by linarith
    by_cases hz : r = 0
    · subst hz
      by_cases hB : (k : Rat) ≤ B
      · left
        have : ⌊B⌋ = k := Int.floor_eq_iff.2 ⟨by exact_mod_cast hB, by exact_mod_cast up⟩
        rw [this]
        exact Int.toNat_natCast k
      · right
        refine ⟨rfl, ?_⟩
        have hk : 1 ≤ k := by omega
        have : ⌊B⌋ = (k : Int) - 1 := by
          refine Int.floor_eq_iff.2 ⟨?_, ?_⟩
          · push_cast
            push_cast at b2
            linarith
          · push_cast
            linarith
        rw [this]
        omega
    · left
      have hr1 : (1 : Rat) ≤ r := by exact_mod_cast (by omega : 1 ≤ r)
      have : ⌊B⌋ = k := Int.floor_eq_iff.2 ⟨by push_cast; linarith, by push_cast; linarith⟩
      rw [this]
      exact Int.toNat_natCast k

/-- date, time of day and a fraction: the text -/
def fracText (st : DtStyle) (d : PyDate) (h m : Nat) (s : Option Nat) (c : Nat) (ds : PyText) : PyText := styleText st d h m s ++ c :: ds

/-- styles that work with a fraction: those without, and the year first with dots if the fraction has a dot too -/
def FracOk (st : DtStyle) (c : Nat) : Prop := (StyleOk st ∧ (c = 46 ∨ c = 44)) ∨ (st.sep = 46 ∧ st.dayFirst = false ∧ st.t ∈ [84, 32] ∧ c = 46)

theorem isoFrac_ok (r : PyText) (hr : AllDig r) (hl : r.length = 3 ∨ r.length = 6) : isoFrac r = .ok (digNum r * 10 ^ (6 - r.length)) := by
  have hp : parseNatText r = .ok (digNum r) := (parseNatText_iff _ _).2 ⟨hr, rfl⟩
  unfold isoFrac
  rcases hl with hl | hl <;> rw [hl, hp]
  · rfl
  · simp

/-- the ISO form with a character and digits after the time -/
theorem isoDatetimeText_frac (d : PyDate) (hd : dateOk d = true) (c h m : Nat) (s : Option Nat) (hh : h < 24) (hm : m < 60) (hs : ∀ x, s = some x → x < 60)
    (k : Nat) (hk : k = 46 ∨ k = 44) (r : PyText) (hr : AllDig r) :
    isoDatetimeText (isoDate d ++ c :: (clockText h m s ++ k :: r)) =
      if k = 46 ∧ (r.length = 3 ∨ r.length = 6) then .ok (d, ⟨h, m, s.getD 0, digNum r * 10 ^ (6 - r.length), none⟩) else .error .value := by
  unfold isoDatetimeText
  rw [readDate_iso d hd]
  dsimp only [Except.bind]
  have hall : ∀ x ∈ clockText h m s ++ k :: r, noSign x = true := by
    intro x hx
    have : (48 ≤ x ∧ x < 58) ∨ x = 58 ∨ x = 46 ∨ x = 44 := by
      rw [List.mem_append, List.mem_cons] at hx
      rcases hx with hx | hx | hx
      · have := clock_chars h m s hh hm hs x hx; omega
      · omega
      · have := hr.2 x hx; omega
    unfold noSign
    simp only [Bool.and_eq_true, bne_iff_ne, ne_eq]
    omega
  have hus : (r.length = 3 ∨ r.length = 6) → digNum r * 10 ^ (6 - r.length) < 1000000 := by
    intro hl
    have := digNum_lt hr
    rcases hl with hl | hl <;> rw [hl] at this ⊢ <;> norm_num at this ⊢ <;> omega
  have tok : ∀ x, (∀ y, s = some y → x = y) → (s = none → x = 0) → (r.length = 3 ∨ r.length = 6) → timeOk ⟨h, m, x, digNum r * 10 ^ (6 - r.length), none⟩ = true := by
    intro x h1 h2 hl
    have := hus hl
    have hx : x < 60 := by
      cases s with
      | none => rw [h2 rfl]; decide
      | some y => rw [h1 y rfl]; exact hs y rfl
    simp only [timeOk, Bool.and_eq_true, decide_eq_true_eq, and_true]
    omega
  have bad : ¬ (r.length = 3 ∨ r.length = 6) → isoFrac r = .error .value := by
    intro hl
    unfold isoFrac
    rw [if_neg (fun e => hl (.inr e)), if_neg (fun e => hl (.inl e))]
  unfold isoTimeText
  rw [takeWhile_all hall, dropWhile_all hall]
  cases s with
  | none =>
    rw [clockText, List.append_assoc, read2_pad2 h (by omega)]
    dsimp only [Except.bind, List.cons_append]
    rw [isoAfterH, read2_pad2 m (by omega)]
    dsimp only [Except.bind]
    rcases hk with rfl | rfl
    · rw [isoAfterM]
      by_cases hl : r.length = 3 ∨ r.length = 6
      · rw [isoFrac_ok r hr hl, if_pos ⟨rfl, hl⟩]
        dsimp only [Except.bind, readOff]
        rw [if_pos (tok 0 (by simp) (by simp) hl)]
        rfl
      · rw [bad hl, if_neg (fun e => hl e.2)]
        rfl
    · rw [if_neg (by simp)]
      rfl
  | some s =>
    have := hs s rfl
    rw [clockText, List.append_assoc, read2_pad2 h (by omega)]
    dsimp only [Except.bind, List.cons_append]
    rw [isoAfterH, List.append_assoc, read2_pad2 m (by omega)]
    dsimp only [Except.bind, List.cons_append]
    rw [isoAfterM, read2_pad2 s (by omega)]
    dsimp only [Except.bind]
    rcases hk with rfl | rfl
    · rw [isoAfterS]
      by_cases hl : r.length = 3 ∨ r.length = 6
      · rw [isoFrac_ok r hr hl, if_pos ⟨rfl, hl⟩]
        dsimp only [Except.bind, readOff]
        rw [if_pos (tok s (by simp) (by simp) hl)]
        rfl
      · rw [bad hl, if_neg (fun e => hl e.2)]
        rfl
    · rw [if_neg (by simp)]
      rfl

theorem clock_length (h m : Nat) (s : Option Nat) : (clockText h m s).length = if s.isSome then 8 else 5 := by cases s <;> rfl

theorem digDate_length (st : DtStyle) (y m d : PyText) (ly : y.length = 4) (lm : m.length = 2) (ld : d.length = 2) : (digDate st y m d).length = 10 := by
  unfold digDate
  split <;> simp [ly, lm, ld]

/-- where the pattern ends when there is a fraction -/
theorem patternPart_frac (D C : PyText) (t c : Nat) (ds : PyText) (lD : D.length = 10) (hC : c ∉ C) (hc : c = 46 ∨ (c = 44 ∧ 46 ∉ D ++ t :: (C ++ c :: ds))) :
    patternPart (D ++ t :: (C ++ c :: ds)) = D ++ t :: C := by
  have hdrop : (D ++ t :: (C ++ c :: ds)).drop 11 = C ++ c :: ds := by
    rw [List.drop_append, lD, List.drop_of_length_le (by omega)]
    rfl
  have hidx : (C ++ c :: ds).idxOf c = C.length := by
    rw [List.idxOf_append, if_neg hC]
    simp
  have hf : findFrom11 c (D ++ t :: (C ++ c :: ds)) = 11 + (C.length : Int) := by
    unfold findFrom11
    rw [hdrop, if_pos (by simp), hidx]
  have he : patternEnd (D ++ t :: (C ++ c :: ds)) = 11 + (C.length : Int) := by
    unfold patternEnd
    rcases hc with rfl | ⟨rfl, h46⟩
    · rw [if_pos (by simp), hf]
    · rw [if_neg (by simpa using h46), if_pos (by simp), hf]
  unfold patternPart
  rw [he, if_neg (by omega)]
  have e : (11 + (C.length : Int)).toNat = (D ++ t :: C).length := by simp [lD]; omega
  rw [e]
  have e2 : D ++ t :: (C ++ c :: ds) = (D ++ t :: C) ++ (c :: ds) := by simp
  rw [e2, List.take_left]

theorem fixFraction_digits (fl : Rat → Rat) (v ds : PyText) (hd : AllDig ds) (hl : ds.length ≤ 9) (us : Nat) (hus : microOf fl ds = .ok us) :
    fixFraction fl (v ++ 46 :: ds) = .ok (v ++ 46 :: rjust6 us) := by
  have hn : 46 ∉ ds := fun h => by have := hd.2 _ h; omega
  have hidx : (v ++ 46 :: ds).reverse.idxOf 46 = ds.length := by
    rw [List.reverse_append, List.reverse_cons, List.append_assoc, List.idxOf_append, if_neg (by simpa using hn)]
    simp
  have hpos : 0 < ds.length := List.length_pos_iff.2 hd.1
  have e1 : v ++ 46 :: ds = (v ++ [46]) ++ ds := by simp
  have e2 : (v ++ 46 :: ds).length - ds.length = (v ++ [46]).length := by simp; omega
  unfold fixFraction
  rw [hidx, if_pos ⟨by simp, hpos, by omega⟩, e2, e1, List.drop_left, List.take_left, hus]
  simp [Except.bind]

theorem dot_norm (t : Nat) (y m d K : PyText) (hy : AllDig y) (hm : AllDig m) (hd : AllDig d) (h32 : 32 ∉ K) :
    ∃ c, fixT (styleFmt ⟨46, false, t⟩) (fixYmd (styleFmt ⟨46, false, t⟩) (digYear ⟨46, false, t⟩ y m d ++ t :: K)) = y ++ 45 :: (m ++ 45 :: (d ++ c :: K)) := by
  have ny : ∀ k ∈ [32, 46], k ∉ y ∧ k ∉ m ∧ k ∉ d := fun k hk =>
    have h : isDig k = false := by revert k; decide
    ⟨dig_ne_sep h hy, dig_ne_sep h hm, dig_ne_sep h hd⟩
  obtain ⟨a32, b32, c32⟩ := ny 32 (by decide)
  obtain ⟨a46, b46, _⟩ := ny 46 (by decide)
  have sT : ∀ c, swapChar 32 84 (y ++ 45 :: (m ++ 45 :: (d ++ c :: K))) = y ++ 45 :: (m ++ 45 :: (d ++ (if c = 32 then 84 else c) :: K)) := by
    intro c
    have hc : ∀ (x : Nat) (t : PyText), swapChar 32 84 (x :: t) = (if x = 32 then 84 else x) :: swapChar 32 84 t := fun _ _ => rfl
    rw [swapChar_append, hc, swapChar_append, hc, swapChar_append, hc, swapChar_notMem a32, swapChar_notMem b32, swapChar_notMem c32, swapChar_notMem h32]
    rfl
  by_cases ht : t = 32
  · subst ht
    simp only [styleFmt, fixT, fixYmd, digYear, if_true, if_false, Bool.false_eq_true, List.append_assoc, List.cons_append,
      show ¬ (46 = 45) by decide, swapFirst_date 46 y m d _ a46 b46, sT]
    exact ⟨_, rfl⟩
  · simp only [styleFmt, fixT, fixYmd, digYear, if_neg ht, if_false, Bool.false_eq_true, List.append_assoc, List.cons_append,
      show ¬ (46 = 45) by decide, swapFirst_date 46 y m d _ a46 b46]
    exact ⟨_, rfl⟩

theorem stylePat_dot : ∀ t ∈ [84, 32], ∀ sec ∈ [true, false], dGet (stylePat ⟨46, false, t⟩ sec) datetimeFormats = some (styleFmt ⟨46, false, t⟩) := by
  decide +kernel

/-- what the reading of fractions would have to give -/
def C88_fraction_statement (fl : Rat → Rat) : Prop :=
  ∀ (st : DtStyle) (c : Nat), FracOk st c → ∀ d, dateOk d = true → ∀ h m s, h < 24 → m < 60 → s < 60 → ∀ ds, AllDig ds → ds.length ≤ 9 →
    pyDatetimeText fl (fracText st d h m (some s) c ds) = .ok (d, ⟨h, m, s, nanos ds / 1000, none⟩)

/-- C88: with a fraction of up to nine digits the datetime is read, and the fraction is cut off after six digits; one microsecond may be missing when there is
nothing to cut off. After the minutes, too, the digits count as a fraction of a second. Missing: that microsecond, see `C88_fraction_fails`. -/
theorem C88_fraction_partial (fl : Rat → Rat) (hfl : IsRound fl) (st : DtStyle) (c : Nat) (hst : FracOk st c) (d : PyDate) (hd : dateOk d = true) (h m : Nat) (s : Option Nat)
    (hh : h < 24) (hm : m < 60) (hs : ∀ x, s = some x → x < 60) (ds : PyText) (hds : AllDig ds) (hl : ds.length ≤ 9) :
    ∃ us, pyDatetimeText fl (fracText st d h m s c ds) = .ok (d, ⟨h, m, s.getD 0, us, none⟩) ∧
      (us = nanos ds / 1000 ∨ (nanos ds % 1000 = 0 ∧ us + 1 = nanos ds / 1000)) := by
  have hc : c = 46 ∨ c = 44 := by
    rcases hst with h | h
    · exact h.2
    · exact .inl h.2.2.2
  have ht : st.t ∈ [84, 32] := by
    rcases hst with h | h
    · exact h.1.2
    · exact h.2.2.1
  have hsep : st.sep ∈ [45, 47, 32] ∨ st.sep = 46 := by
    rcases hst with h | h
    · exact .inl h.1.1
    · exact .inr h.1
  have hso : StyleOk st ∨ st.sep = 46 := hst.imp (fun h => h.1) fun h => h.1
  obtain ⟨by_, bm, bd⟩ := dateOk_bounds hd
  have gy := pad_allDig4 d.y by_
  have gm := pad_allDig2 d.m bm
  have gd := pad_allDig2 d.d bd
  have cc := clock_chars h m s hh hm hs
  have iso := fun k => isoDatetimeText_frac d hd k h m s hh hm hs
  have etext : fracText st d h m s c ds = digDate st (pad4 d.y) (pad2 d.m) (pad2 d.d) ++ st.t :: (clockText h m s ++ c :: ds) := by
    unfold fracText styleText
    rw [styleDate_dig]
    simp
  by_cases hdir : (st.sep = 45 ∧ st.dayFirst = false) ∧ c = 46 ∧ (ds.length = 3 ∨ ds.length = 6)
  · -- read by `fromisoformat`
    obtain ⟨⟨h1, h2⟩, rfl, h3⟩ := hdir
    have e : fracText st d h m s 46 ds = isoDate d ++ st.t :: (clockText h m s ++ 46 :: ds) := by
      rw [etext]
      unfold digDate isoDate
      rw [h1, h2]
      simp
    refine ⟨_, ?_, .inl rfl⟩
    unfold pyDatetimeText
    rw [e, iso _ 46 (.inl rfl) ds hds, if_pos ⟨rfl, h3⟩]
    have : nanos ds / 1000 = digNum ds * 10 ^ (6 - ds.length) := by
      unfold nanos
      rcases h3 with h3 | h3 <;> rw [h3] <;> norm_num <;> omega
    rw [this]
  · obtain ⟨us, hus, hval⟩ := C88_micro_partial fl hfl ds hds hl
    have hNlt : nanos ds < 10 ^ 9 := by
      have : 10 ^ 9 = 10 ^ ds.length * 10 ^ (9 - ds.length) := by rw [← Nat.pow_add]; congr 1; omega
      rw [this]
      exact Nat.mul_lt_mul_of_pos_right (digNum_lt hds) (by positivity)
    have hus6 : us < 10 ^ 6 := by omega
    obtain ⟨lr, gr, nr⟩ := rjust6_ok us hus6
    refine ⟨us, ?_, hval⟩
    have hsd : isDig st.sep = false := by
      rcases hsep with h | h
      · simp only [List.mem_cons, List.not_mem_nil, or_false] at h
        rcases h with h | h | h <;> rw [h] <;> decide
      · rw [h]; decide
    have htd : isDig st.t = false := by
      simp only [List.mem_cons, List.not_mem_nil, or_false] at ht
      rcases ht with h | h <;> rw [h] <;> decide
    have hnot : ∀ x, isoDatetimeText (fracText st d h m s c ds) ≠ .ok x := by
      by_cases hiso : st.sep = 45 ∧ st.dayFirst = false
      · intro x hx
        have e : fracText st d h m s c ds = isoDate d ++ st.t :: (clockText h m s ++ c :: ds) := by
          rw [etext]
          unfold digDate isoDate
          rw [hiso.1, hiso.2]
          simp
        rw [e, iso _ c hc ds hds, if_neg (fun e => hdir ⟨hiso, e⟩)] at hx
        cases hx
      · rw [etext]
        exact style_notIso st hso hiso _ _ _ _ gy gm gd rfl rfl rfl
    have n46 : c = 44 → 46 ∉ digDate st (pad4 d.y) (pad2 d.m) (pad2 d.d) ++ st.t :: (clockText h m s ++ c :: ds) := by
      rintro rfl hm'
      have h1 : st.sep ∈ [45, 47, 32] := by
        rcases hst with h | h
        · exact h.1.1
        · exact absurd h.2.2.2 (by decide)
      simp only [List.mem_cons, List.not_mem_nil, or_false] at h1 ht
      simp only [List.mem_append, List.mem_cons] at hm'
      rcases hm' with hm' | hm' | hm' | hm' | hm'
      · have := digDate_chars gy gm gd hm'
        omega
      · omega
      · have := cc _ hm'; omega
      · cases hm'
      · have := hds.2 _ hm'; omega
    have hpp := patternPart_frac (digDate st (pad4 d.y) (pad2 d.m) (pad2 d.d)) (clockText h m s) st.t c ds (digDate_length st _ _ _ rfl rfl rfl)
      (fun hm' => by have := cc _ hm'; omega) (hc.imp id fun e => ⟨e, n46 e⟩)
    have hp : digitPattern (digDate st (pad4 d.y) (pad2 d.m) (pad2 d.d) ++ st.t :: clockText h m s) = stylePat st s.isSome := by
      rw [style_pattern st hsd _ _ _ _ gy gm gd rfl rfl rfl, digitPattern_cons, htd, clock_pattern h m s hh hm hs]
      rfl
    have htab : dGet (stylePat st s.isSome) datetimeFormats = some (styleFmt st) := by
      rcases hst with h | h
      · exact stylePat_table st.sep h.1.1 st.t h.1.2 st.dayFirst (by cases st.dayFirst <;> decide) _ (by cases s.isSome <;> decide)
      · have := stylePat_dot st.t h.2.2.1 s.isSome (by cases s.isSome <;> decide)
        rw [← h.1, ← h.2.1] at this
        exact this
    unfold pyDatetimeText
    cases hi : isoDatetimeText (fracText st d h m s c ds) with
    | ok x => exact absurd hi (hnot x)
    | error e =>
      dsimp only
      rw [etext, hpp, hp, htab]
      dsimp only
      unfold patternToDatetime uncompact
      rw [if_pos (by unfold styleFmt; split_ifs <;> rfl), style_year st _ _ _ _ rfl rfl rfl]
      -- commas become dots
      have hcomma : swapChar 44 46 (digYear st (pad4 d.y) (pad2 d.m) (pad2 d.d) ++ st.t :: (clockText h m s ++ c :: ds)) =
          (digYear st (pad4 d.y) (pad2 d.m) (pad2 d.d) ++ st.t :: clockText h m s) ++ 46 :: ds := by
        have e : digYear st (pad4 d.y) (pad2 d.m) (pad2 d.d) ++ st.t :: (clockText h m s ++ c :: ds) =
          (digYear st (pad4 d.y) (pad2 d.m) (pad2 d.d) ++ st.t :: clockText h m s) ++ c :: ds := by simp
        have hcons : swapChar 44 46 (c :: ds) = (if c = 44 then 46 else c) :: swapChar 44 46 ds := rfl
        have hc46 : (if c = 44 then 46 else c) = 46 := by rcases hc with rfl | rfl <;> rfl
        rw [e, swapChar_append, hcons, hc46, swapChar_notMem (t := ds) (fun hm' => by have := hds.2 _ hm'; omega), swapChar_notMem]
        intro hm'
        simp only [List.mem_cons, List.not_mem_nil, or_false] at hsep ht
        simp only [List.mem_append, List.mem_cons] at hm'
        rcases hm' with hm' | hm' | hm'
        · have := digYear_chars gy gm gd hm'
          omega
        · omega
        · have := cc _ hm'; omega
      rw [hcomma, fixFraction_digits fl _ ds hds hl us hus]
      dsimp only [Except.bind]
      have e3 : (digYear st (pad4 d.y) (pad2 d.m) (pad2 d.d) ++ st.t :: clockText h m s) ++ 46 :: rjust6 us =
        digYear st (pad4 d.y) (pad2 d.m) (pad2 d.d) ++ st.t :: (clockText h m s ++ 46 :: rjust6 us) := by simp
      rw [e3]
      have hK : ∀ k, k = 32 ∨ k = 47 → k ∉ clockText h m s ++ 46 :: rjust6 us := by
        intro k hk hm'
        simp only [List.mem_append, List.mem_cons] at hm'
        rcases hm' with hm' | hm' | hm'
        · have := cc _ hm'; omega
        · omega
        · have := gr.2 _ hm'; omega
      have hnorm : ∃ k, fixT (styleFmt st) (fixYmd (styleFmt st) (digYear st (pad4 d.y) (pad2 d.m) (pad2 d.d) ++ st.t :: (clockText h m s ++ 46 :: rjust6 us))) =
          pad4 d.y ++ 45 :: (pad2 d.m ++ 45 :: (pad2 d.d ++ k :: (clockText h m s ++ 46 :: rjust6 us))) := by
        rcases hst with h' | h'
        · exact style_norm st h'.1 _ _ _ _ gy gm gd (hK 32 (.inl rfl)) (hK 47 (.inr rfl))
        · obtain ⟨sp, df, t⟩ := st
          obtain ⟨rfl, rfl, _, _⟩ := h'
          exact dot_norm t _ _ _ _ gy gm gd (hK 32 (.inl rfl))
      obtain ⟨k, hk⟩ := hnorm
      rw [hk]
      have := iso k 46 (.inl rfl) (rjust6 us) gr
      rw [if_pos ⟨rfl, .inr lr⟩, nr, lr] at this
      unfold isoDate at this
      simpa using this

example : FracOk ⟨47, true, 32⟩ 44 ∧ fracText ⟨47, true, 32⟩ ⟨2021, 12, 7⟩ 9 5 (some 30) 44 (txt "125") = txt "07/12/2021 09:05:30,125" :=
  ⟨.inl ⟨⟨by decide, by decide⟩, .inr rfl⟩, by decide +kernel⟩

/-- the fraction `.0157` loses a microsecond with doubles -/
theorem C88_fraction_fails : ¬ C88_fraction_statement fl64 := by
  intro h
  have := h ⟨47, false, 32⟩ 46 (.inl ⟨⟨by decide, by decide⟩, .inl rfl⟩) ⟨2021, 12, 7⟩ (by decide +kernel) 9 5 30 (by decide) (by decide) (by decide) (txt "0157")
    ⟨by decide, by decide +kernel⟩ (by decide)
  revert this
  decide +kernel

theorem milli_table : ∀ n : Nat, n < 1000 → ⌊fl64 (fl64 ((n : Rat) / 1000) * 10 ^ 6)⌋.toNat = n * 1000 := by decide +kernel

/-- with doubles, fractions of up to three digits are exact -/
theorem C88_milliseconds (ds : PyText) (hd : AllDig ds) (hl : ds.length ≤ 3) : microOf fl64 ds = .ok (nanos ds / 1000) := by
  have hp : parseNatText ds = .ok (digNum ds) := (parseNatText_iff _ _).2 ⟨hd, rfl⟩
  have hlt := digNum_lt hd
  have hN : digNum ds * 10 ^ (3 - ds.length) < 1000 := by
    have : 1000 = 10 ^ ds.length * 10 ^ (3 - ds.length) := by rw [← Nat.pow_add, show ds.length + (3 - ds.length) = 3 by omega]
    rw [this]
    exact Nat.mul_lt_mul_of_pos_right hlt (by positivity)
  have hx : (digNum ds : Rat) / 10 ^ ds.length = ((digNum ds * 10 ^ (3 - ds.length) : Nat) : Rat) / 1000 := by
    have : (1000 : Rat) = 10 ^ ds.length * 10 ^ (3 - ds.length) := by rw [← pow_add, show ds.length + (3 - ds.length) = 3 by omega]; norm_num
    rw [this]
    push_cast
    field_simp
  unfold microOf
  rw [hp]
  dsimp only [Except.bind]
  rw [hx, milli_table _ hN]
  congr 1
  unfold nanos
  have : 9 - ds.length = (3 - ds.length) + 6 := by omega
  rw [this, Nat.pow_add, ← Nat.mul_assoc]
  omega

/-! ## dates with dots -/

theorem digitPattern_take (n : Nat) (t : PyText) : digitPattern (t.take n) = (digitPattern t).take n := by
  unfold digitPattern
  rw [List.map_take]

theorem dots_table : ∀ df ∈ [true, false], ∀ t ∈ [84, 32], ∀ sec ∈ [true, false],
    dGet ((stylePat ⟨46, df, t⟩ sec).take ((stylePat ⟨46, df, t⟩ sec).length - 1)) datetimeFormats = none := by decide +kernel

/-- C88: dates with dots are in the table of formats, but such a datetime without a fraction always raises ValueError: the search for a dot after the date fails
and the last digit is left out of the pattern -/
theorem C88_dots_raise (fl : Rat → Rat) (df : Bool) (t : Nat) (ht : t ∈ [84, 32]) (d : PyDate) (hd : dateOk d = true) (h m : Nat) (s : Option Nat)
    (hh : h < 24) (hm : m < 60) (hs : ∀ x, s = some x → x < 60) : pyDatetimeText fl (styleText ⟨46, df, t⟩ d h m s) = .error .value := by
  obtain ⟨by_, bm, bd⟩ := dateOk_bounds hd
  have gy := pad_allDig4 d.y by_
  have gm := pad_allDig2 d.m bm
  have gd := pad_allDig2 d.d bd
  have cc := clock_chars h m s hh hm hs
  have htd : isDig t = false := by revert t; decide
  unfold styleText
  rw [styleDate_dig]
  have lD := digDate_length ⟨46, df, t⟩ (pad4 d.y) (pad2 d.m) (pad2 d.d) rfl rfl rfl
  have hp : digitPattern (digDate ⟨46, df, t⟩ (pad4 d.y) (pad2 d.m) (pad2 d.d) ++ t :: clockText h m s) = stylePat ⟨46, df, t⟩ s.isSome := by
    rw [style_pattern ⟨46, df, t⟩ (show isDig 46 = false by decide) _ _ _ _ gy gm gd rfl rfl rfl, digitPattern_cons, htd, clock_pattern h m s hh hm hs]
    rfl
  have hmem : 46 ∈ digDate ⟨46, df, t⟩ (pad4 d.y) (pad2 d.m) (pad2 d.d) := by
    unfold digDate
    split <;> simp
  have he : patternEnd (digDate ⟨46, df, t⟩ (pad4 d.y) (pad2 d.m) (pad2 d.d) ++ t :: clockText h m s) = -1 := by
    unfold patternEnd findFrom11
    have hdrop : (digDate ⟨46, df, t⟩ (pad4 d.y) (pad2 d.m) (pad2 d.d) ++ t :: clockText h m s).drop 11 = clockText h m s := by
      rw [List.drop_append, lD, List.drop_of_length_le (by omega)]
      rfl
    rw [if_pos (by simp [hmem]), hdrop, if_neg]
    intro hc
    have := cc 46 (by simpa using hc)
    omega
  unfold pyDatetimeText
  cases hi : isoDatetimeText (digDate ⟨46, df, t⟩ (pad4 d.y) (pad2 d.m) (pad2 d.d) ++ t :: clockText h m s) with
  | ok x => exact absurd hi (style_notIso ⟨46, df, t⟩ (.inr rfl) (by simp) _ _ _ _ gy gm gd rfl rfl rfl x)
  | error e =>
    dsimp only
    unfold patternPart
    rw [he, if_pos (by decide), digitPattern_take, hp]
    have hlen : (digDate ⟨46, df, t⟩ (pad4 d.y) (pad2 d.m) (pad2 d.d) ++ t :: clockText h m s).length = (stylePat ⟨46, df, t⟩ s.isSome).length := by
      rw [← hp]
      unfold digitPattern
      rw [List.length_map]
    have e1 : (-(-1 : Int)).toNat = 1 := rfl
    rw [hlen, e1, dots_table df (by cases df <;> decide) t ht s.isSome (by cases s.isSome <;> decide)]

example : styleText ⟨46, true, 32⟩ ⟨2021, 12, 7⟩ 9 5 none = txt "07.12.2021 09:05" := by decide +kernel

theorem dots_day_table : ∀ t ∈ [84, 32], ∀ sec ∈ [true, false],
    dGet (stylePat ⟨46, true, t⟩ sec) datetimeFormats = some { ymd := some 46, dayFirst := true } := by decide +kernel

/-- C88: with the day first, dots and a fraction of a second, too, ValueError is raised: the dot before the fraction is replaced like the dots of the date -/
theorem C88_day_dots_raise (fl : Rat → Rat) (hfl : IsRound fl) (t : Nat) (ht : t ∈ [84, 32]) (d : PyDate) (hd : dateOk d = true) (h m : Nat) (s : Option Nat)
    (hh : h < 24) (hm : m < 60) (hs : ∀ x, s = some x → x < 60) (ds : PyText) (hds : AllDig ds) (hl : ds.length ≤ 9) :
    pyDatetimeText fl (fracText ⟨46, true, t⟩ d h m s 46 ds) = .error .value := by
  obtain ⟨by_, bm, bd⟩ := dateOk_bounds hd
  have gy := pad_allDig4 d.y by_
  have gm := pad_allDig2 d.m bm
  have gd := pad_allDig2 d.d bd
  have cc := clock_chars h m s hh hm hs
  have htd : isDig t = false := by revert t; decide
  obtain ⟨us, hus, hval⟩ := C88_micro_partial fl hfl ds hds hl
  have hNlt : nanos ds < 10 ^ 9 := by
    have : 10 ^ 9 = 10 ^ ds.length * 10 ^ (9 - ds.length) := by rw [← Nat.pow_add]; congr 1; omega
    rw [this]
    exact Nat.mul_lt_mul_of_pos_right (digNum_lt hds) (by positivity)
  have hus6 : us < 10 ^ 6 := by omega
  obtain ⟨lr, gr, nr⟩ := rjust6_ok us hus6
  have etext : fracText ⟨46, true, t⟩ d h m s 46 ds = digDate ⟨46, true, t⟩ (pad4 d.y) (pad2 d.m) (pad2 d.d) ++ t :: (clockText h m s ++ 46 :: ds) := by
    unfold fracText styleText
    rw [styleDate_dig]
    simp
  rw [etext]
  have hpp := patternPart_frac (digDate ⟨46, true, t⟩ (pad4 d.y) (pad2 d.m) (pad2 d.d)) (clockText h m s) t 46 ds (digDate_length _ _ _ _ rfl rfl rfl)
    (fun hm' => by have := cc _ hm'; omega) (.inl rfl)
  have hp : digitPattern (digDate ⟨46, true, t⟩ (pad4 d.y) (pad2 d.m) (pad2 d.d) ++ t :: clockText h m s) = stylePat ⟨46, true, t⟩ s.isSome := by
    rw [style_pattern ⟨46, true, t⟩ (show isDig 46 = false by decide) _ _ _ _ gy gm gd rfl rfl rfl, digitPattern_cons, htd, clock_pattern h m s hh hm hs]
    rfl
  unfold pyDatetimeText
  cases hi : isoDatetimeText (digDate ⟨46, true, t⟩ (pad4 d.y) (pad2 d.m) (pad2 d.d) ++ t :: (clockText h m s ++ 46 :: ds)) with
  | ok x => exact absurd hi (style_notIso ⟨46, true, t⟩ (.inr rfl) (by simp) _ _ _ _ gy gm gd rfl rfl rfl x)
  | error e =>
    dsimp only
    rw [hpp, hp, dots_day_table t ht s.isSome (by cases s.isSome <;> decide)]
    dsimp only
    unfold patternToDatetime uncompact
    have hy : yearFirst { ymd := some 46, dayFirst := true } (digDate ⟨46, true, t⟩ (pad4 d.y) (pad2 d.m) (pad2 d.d) ++ t :: (clockText h m s ++ 46 :: ds)) =
        (isoDate d ++ t :: clockText h m s) ++ 46 :: ds := by
      have : (isoDate d ++ t :: clockText h m s) ++ 46 :: ds = isoDate d ++ t :: (clockText h m s ++ 46 :: ds) := by simp
      rw [this]
      rfl
    have hiso : ∀ c ∈ isoDate d, (48 ≤ c ∧ c < 58) ∨ c = 45 := by
      intro c hc
      unfold isoDate at hc
      simp only [List.mem_append, List.mem_cons] at hc
      rcases hc with hc | hc | hc | hc | hc
      · exact .inl (gy.2 _ hc)
      · exact .inr hc
      · exact .inl (gm.2 _ hc)
      · exact .inr hc
      · exact .inl (gd.2 _ hc)
    have hpre : ∀ k, k = 44 ∨ k = 46 → k ∉ isoDate d ++ t :: clockText h m s := by
      intro k hk hm'
      simp only [List.mem_cons, List.not_mem_nil, or_false] at ht
      simp only [List.mem_append, List.mem_cons] at hm'
      rcases hm' with hm' | hm' | hm'
      · have := hiso _ hm'; omega
      · omega
      · have := cc _ hm'; omega
    have hds44 : 44 ∉ (46 :: ds) := by
      intro hm'
      rcases List.mem_cons.1 hm' with e | e
      · cases e
      · have := hds.2 _ e; omega
    rw [if_pos rfl, hy, swapChar_append, swapChar_notMem (hpre 44 (.inl rfl)), swapChar_notMem hds44, fixFraction_digits fl _ ds hds hl us hus]
    dsimp only [Except.bind, fixT, fixYmd]
    rw [swapFirst_append _ _ _ _ _ (hpre 46 (.inr rfl)), swapFirst, if_pos rfl, swapFirst_notMem _ _ _ _ (fun hm' => by have := gr.2 _ hm'; omega)]
    -- the rest is taken for an offset from UTC
    have e4 : (isoDate d ++ t :: clockText h m s) ++ 45 :: rjust6 us = isoDate d ++ t :: (clockText h m s ++ 45 :: rjust6 us) := by simp
    rw [e4]
    unfold isoDatetimeText
    rw [readDate_iso d hd]
    dsimp only [Except.bind]
    have hoff : readOff (45 :: rjust6 us) = .error .value := by
      match hr : rjust6 us, lr with
      | [a, b, c, e, f, g], _ =>
        rw [hr] at gr
        have ha := gr.2 a (by simp)
        have hb := gr.2 b (by simp)
        have hc := gr.2 c (by simp)
        have h2 : read2 [a, b, c, e, f, g] = .ok ((a - 48) * 10 + (b - 48), [c, e, f, g]) := by
          dsimp only [read2]
          rw [if_pos (by simp [isDig]; omega)]
        rw [readOff, h2]
        dsimp only [Except.bind, expect]
        rw [if_neg (by omega)]
    have htw : (clockText h m s ++ 45 :: rjust6 us).takeWhile noSign = clockText h m s := by
      rw [List.takeWhile_append_of_pos]
      · simp [noSign]
      · intro x hx
        have := cc _ hx
        unfold noSign
        simp only [Bool.and_eq_true, bne_iff_ne, ne_eq]
        omega
    have hdw : (clockText h m s ++ 45 :: rjust6 us).dropWhile noSign = 45 :: rjust6 us := by
      rw [List.dropWhile_append_of_pos]
      · simp [noSign]
      · intro x hx
        have := cc _ hx
        unfold noSign
        simp only [Bool.and_eq_true, bne_iff_ne, ne_eq]
        omega
    unfold isoTimeText
    rw [htw, hdw, hoff]
    cases s with
    | none =>
      rw [clockText, read2_pad2 h (by omega)]
      dsimp only [Except.bind]
      have e2 := read2_pad2 m (by omega) []
      rw [List.append_nil] at e2
      rw [isoAfterH, e2]
      rfl
    | some s =>
      have := hs s rfl
      rw [clockText, read2_pad2 h (by omega)]
      dsimp only [Except.bind]
      rw [isoAfterH, read2_pad2 m (by omega)]
      dsimp only [Except.bind]
      have e2 := read2_pad2 s (by omega) []
      rw [List.append_nil] at e2
      rw [isoAfterM, e2]
      rfl

end Tablite
