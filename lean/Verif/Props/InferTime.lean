import Verif.Props.InferDate
import Verif.Props.Dates
import Verif.Model.Cast
/-!
# C92: times and datetimes read from text by the native code

`TimeForm` says which texts are times, independently of the parser: two digits each for hours, minutes and seconds, with colons or without.
-/

namespace Tablite

/-- two decimal digits -/
def TwoDigits (w : List Char) : Prop := Digits w ∧ w.length = 2

/-- what may follow the seconds: nothing, or a point with three or six digits (milli- or microseconds) -/
def FracForm (f : List Char) (us : Int) : Prop :=
  (f = [] ∧ us = 0) ∨ ∃ ds, f = '.' :: ds ∧ Digits ds ∧ ((ds.length = 3 ∧ us = (decVal ds : Int) * 1000) ∨ (ds.length = 6 ∧ us = (decVal ds : Int)))

/-- HH:MM, HH:MM:SS, HH:MM:SS.fff, HH:MM:SS.ffffff: the numbers and the microseconds -/
def ColonForm (s : List Char) (hms : List Int) (us : Int) : Prop :=
  (∃ h m, TwoDigits h ∧ TwoDigits m ∧ s = h ++ ':' :: m ∧ hms = [(decVal h : Int), (decVal m : Int)] ∧ us = 0) ∨
  ∃ h m sec f, TwoDigits h ∧ TwoDigits m ∧ TwoDigits sec ∧ FracForm f us ∧ s = h ++ ':' :: (m ++ ':' :: (sec ++ f)) ∧
    hms = [(decVal h : Int), (decVal m : Int), (decVal sec : Int)]

/-- HH, HHMM, HHMMSS -/
def CompactForm (s : List Char) (hms : List Int) : Prop :=
  (TwoDigits s ∧ hms = [(decVal s : Int)]) ∨
  (∃ h m, TwoDigits h ∧ TwoDigits m ∧ s = h ++ m ∧ hms = [(decVal h : Int), (decVal m : Int)]) ∨
  ∃ h m sec, TwoDigits h ∧ TwoDigits m ∧ TwoDigits sec ∧ s = h ++ (m ++ sec) ∧ hms = [(decVal h : Int), (decVal m : Int), (decVal sec : Int)]

/-- the text of a time of day -/
def TimeForm (s : List Char) (hms : List Int) (us : Int) : Prop := ColonForm s hms us ∨ (CompactForm s hms ∧ us = 0)

/-- hours, minutes and seconds in range -/
def HmsOk (hms : List Int) : Prop := hms.getD 0 0 < 24 ∧ hms.getD 1 0 < 60 ∧ hms.getD 2 0 < 60

/-- the characters of a time -/
def TimeChars (s : List Char) : Prop := ∀ c ∈ s, c.isDigit = true ∨ c = ':' ∨ c = '.'

/-- **C92** in full: text without a time zone is read as a time exactly when it denotes a time of day -/
def C92_statement : Prop := ∀ (s : List Char) (hms : List Int) (us : Int), inferTime s = .ok (hms, us, none) ↔ TimeForm s hms us ∧ HmsOk hms

/-! ## proofs -/

theorem nimSign_plain (s : List Char) (h : TimeChars s) : nimSign s = (false, s) := by
  unfold nimSign
  split
  · exact absurd (h '+' List.mem_cons_self) (by decide)
  · exact absurd (h '-' List.mem_cons_self) (by decide)
  · rfl

/-- of digits, colons and points only digits are numbers -/
theorem nimParseInt_plain (s : List Char) (h : TimeChars s) (v : Int) (hv : nimParseInt s = .ok v) : Digits s ∧ s ≠ [] := by
  unfold nimParseInt at hv
  rw [nimSign_plain s h] at hv
  dsimp only at hv
  match s, h, hv with
  | [], _, hv => cases hv
  | c :: r, h, hv =>
    dsimp only at hv
    split at hv
    · rename_i hc
      refine ⟨?_, by simp⟩
      cases hd : nimDigits (digitVal c) r with
      | mk v' rest =>
        rw [hd] at hv
        dsimp only at hv
        split at hv
        · cases hv
        · rename_i hr
          push Not at hr
          subst hr
          intro c' hc'
          rcases List.mem_cons.1 hc' with rfl | hm
          · exact hc
          · rcases nimDigits_rest r _ _ hd c' hm with h1 | h1
            · exact h1
            · subst h1
              rcases h _ hc' with h | h | h <;> revert h <;> decide
    · cases hv

theorem TwoDigits.ne {w : List Char} (h : TwoDigits w) : w ≠ [] := by
  intro e; have := h.2; rw [e] at this; cases this

theorem TwoDigits.parse {w : List Char} (h : TwoDigits w) : nimParseInt w = .ok (decVal w : Int) := nimParseInt_short w h.1 h.ne (by rw [h.2]; decide)

theorem TimeChars.take {s : List Char} (h : TimeChars s) (n : Nat) : TimeChars (s.take n) := fun c hc => h c (List.mem_of_mem_take hc)
theorem TimeChars.drop {s : List Char} (h : TimeChars s) (n : Nat) : TimeChars (s.drop n) := fun c hc => h c (List.mem_of_mem_drop hc)

theorem twoDigits_parse {w : List Char} (h : TimeChars w) (hl : w.length = 2) {v : Int} (hv : nimParseInt w = .ok v) : TwoDigits w ∧ v = (decVal w : Int) := by
  have hd := (nimParseInt_plain w h v hv).1
  have h2 : TwoDigits w := ⟨hd, hl⟩
  rw [h2.parse] at hv
  exact ⟨h2, (Except.ok.inj hv).symm⟩

theorem TwoDigits.take {w : List Char} (h : TwoDigits w) (r : List Char) : (w ++ r).take 2 = w ∧ (w ++ r).drop 2 = r := by
  obtain ⟨-, hl⟩ := h
  exact ⟨by rw [← hl]; exact List.take_left, by rw [← hl]; exact List.drop_left⟩

theorem TwoDigits.take3 {w : List Char} (h : TwoDigits w) (c : Char) (r : List Char) : (w ++ c :: r).drop 3 = r := by
  have := (h.take (c :: r)).2
  rw [show 3 = 2 + 1 from rfl, ← List.drop_drop, this]
  rfl

/-- the last component -/
theorem hmsLoop_end (k : Nat) (w : List Char) (h : TwoDigits w) : hmsLoop (k + 1) w = .ok ([(decVal w : Int)], []) := by
  obtain ⟨t1, t2⟩ := h.take []
  rw [List.append_nil] at t1 t2
  rw [hmsLoop, if_neg (by rw [h.2]; decide), t1, h.parse, t2]
  rfl

theorem hmsLoop_last (w r : List Char) (h : TwoDigits w) : hmsLoop 1 (w ++ r) = .ok ([(decVal w : Int)], r) := by
  obtain ⟨t1, t2⟩ := h.take r
  rw [hmsLoop, if_neg (by rw [List.length_append, h.2]; omega), t1, h.parse, t2]
  show (if r = [] ∨ 0 = 0 then _ else _) = _
  rw [if_pos (Or.inr rfl)]

theorem hmsLoop_next (k : Nat) (w r : List Char) (h : TwoDigits w) (vs : List Int) (rest : List Char) (hn : hmsLoop (k + 1) r = .ok (vs, rest)) :
    hmsLoop (k + 2) (w ++ ':' :: r) = .ok ((decVal w : Int) :: vs, rest) := by
  obtain ⟨t1, t2⟩ := h.take (':' :: r)
  rw [hmsLoop, if_neg (by rw [List.length_append, h.2]; omega), t1, h.parse, t2, h.take3]
  simp only [List.cons_ne_nil, Nat.add_one_ne_zero, or_self, if_false, List.head?_cons, if_true, hn, bind, Except.bind]

theorem hmsLoop_split (k : Nat) (s : List Char) (hs : TimeChars s) (vs : List Int) (rest : List Char) (h : hmsLoop (k + 1) s = .ok (vs, rest)) :
    ∃ w r, TwoDigits w ∧ s = w ++ r ∧ ((vs = [(decVal w : Int)] ∧ rest = r ∧ (r = [] ∨ k = 0)) ∨
      ∃ r' vs', r = ':' :: r' ∧ k ≠ 0 ∧ hmsLoop k r' = .ok (vs', rest) ∧ vs = (decVal w : Int) :: vs') := by
  rw [hmsLoop] at h
  by_cases hl : s.length < 2
  · rw [if_pos hl] at h; cases h
  rw [if_neg hl] at h
  obtain ⟨v, hv, h⟩ := ebind_ok h
  obtain ⟨h2, rfl⟩ := twoDigits_parse (hs.take 2) (by rw [List.length_take]; omega) hv
  refine ⟨s.take 2, s.drop 2, h2, (List.take_append_drop 2 s).symm, ?_⟩
  by_cases he : s.drop 2 = [] ∨ k = 0
  · rw [if_pos he] at h
    simp only [Except.ok.injEq, Prod.mk.injEq] at h
    exact Or.inl ⟨h.1.symm, h.2.symm, he⟩
  · rw [if_neg he] at h
    push Not at he
    split at h
    · rename_i hc
      obtain ⟨x, hx, h⟩ := ebind_ok h
      simp only [Except.ok.injEq, Prod.mk.injEq] at h
      obtain ⟨c, r', hr⟩ := List.exists_cons_of_ne_nil he.1
      rw [hr] at hc
      simp only [List.head?_cons, Option.some.injEq] at hc
      subst hc
      refine Or.inr ⟨r', x.1, hr, he.2, ?_, h.1.symm⟩
      rw [show s.drop 3 = (s.drop 2).drop 1 from by rw [List.drop_drop], hr] at hx
      rw [← h.2]
      exact hx
    · cases h

theorem parseHms_end (s : List Char) (vs : List Int) (f : List Char) (us : Int) (h : hmsLoop 3 s = .ok (vs, f)) (hf : FracForm f us) : parseHms s = .ok (vs, us) := by
  unfold parseHms
  rw [h]
  rcases hf with ⟨rfl, rfl⟩ | ⟨ds, rfl, hd, hl⟩
  · rfl
  · rcases hl with ⟨h3, rfl⟩ | ⟨h6, rfl⟩
    · have := nimParseInt_short ds hd (by intro e; rw [e] at h3; cases h3) (by omega)
      simp [bind, Except.bind, h3, this]
    · have := nimParseInt_short ds hd (by intro e; rw [e] at h6; cases h6) (by omega)
      simp [bind, Except.bind, h6, this]

theorem parseHms_colon (s : List Char) (hms : List Int) (us : Int) (h : ColonForm s hms us) : parseHms s = .ok (hms, us) := by
  rcases h with ⟨h, m, hh, hm, rfl, rfl, rfl⟩ | ⟨h, m, sec, f, hh, hm, hs, hf, rfl, rfl⟩
  · exact parseHms_end _ _ [] 0 (hmsLoop_next 1 h m hh _ _ (hmsLoop_end 1 m hm)) (Or.inl ⟨rfl, rfl⟩)
  · exact parseHms_end _ _ f us (hmsLoop_next 1 h _ hh _ _ (hmsLoop_next 0 m _ hm _ _ (hmsLoop_last sec f hs))) hf

theorem frac_parse (rest : List Char) (vs : List Int) (x : List Int × Int)
    (h : (match rest with
      | [] => .ok (vs, 0)
      | c :: r =>
        if c ≠ '.' then .error .value
        else if r.length = 3 then do .ok (vs, (← nimParseInt r) * 1000)
        else if r.length = 6 then do .ok (vs, ← nimParseInt r)
        else .error .value : Except Err (List Int × Int)) = .ok x) (hr : TimeChars rest) : x.1 = vs ∧ FracForm rest x.2 := by
  match rest, hr, h with
  | [], _, h => cases h; exact ⟨rfl, Or.inl ⟨rfl, rfl⟩⟩
  | c :: r, hr, h =>
    dsimp only at h
    have hr' : TimeChars r := fun c' hc' => hr c' (List.mem_cons_of_mem _ hc')
    split at h
    · cases h
    · rename_i hc
      push Not at hc
      subst hc
      by_cases h3 : r.length = 3
      · rw [if_pos h3] at h
        obtain ⟨v, hv, h⟩ := ebind_ok h
        cases h
        obtain ⟨hd, hn⟩ := nimParseInt_plain r hr' v hv
        rw [nimParseInt_short r hd hn (by omega)] at hv
        cases hv
        exact ⟨rfl, Or.inr ⟨r, rfl, hd, Or.inl ⟨h3, rfl⟩⟩⟩
      · rw [if_neg h3] at h
        by_cases h6 : r.length = 6
        · rw [if_pos h6] at h
          obtain ⟨v, hv, h⟩ := ebind_ok h
          cases h
          obtain ⟨hd, hn⟩ := nimParseInt_plain r hr' v hv
          rw [nimParseInt_short r hd hn (by omega)] at hv
          cases hv
          exact ⟨rfl, Or.inr ⟨r, rfl, hd, Or.inr ⟨h6, rfl⟩⟩⟩
        · rw [if_neg h6] at h; cases h

theorem parseHms_only (s : List Char) (hs : TimeChars s) (hc : ':' ∈ s) (hms : List Int) (us : Int) (h0 : parseHms s = .ok (hms, us)) : ColonForm s hms us := by
  unfold parseHms at h0
  obtain ⟨⟨vs, rest⟩, hl, h⟩ := ebind_ok h0
  dsimp only at h
  obtain ⟨w, r, hw, rfl, h1⟩ := hmsLoop_split 2 s hs vs rest hl
  have hr : TimeChars r := fun c hc => hs c (List.mem_append_right _ hc)
  rcases h1 with ⟨rfl, rfl, h1⟩ | ⟨r', vs', rfl, -, h2, rfl⟩
  · exfalso
    rcases h1 with rfl | h1
    · rw [List.append_nil] at hc
      have := hw.1 _ hc
      revert this; decide
    · cases h1
  have hr' : TimeChars r' := fun c hc => hr c (List.mem_cons_of_mem _ hc)
  obtain ⟨w2, r2, hw2, rfl, h3⟩ := hmsLoop_split 1 r' hr' vs' rest h2
  have hr2 : TimeChars r2 := fun c hc => hr' c (List.mem_append_right _ hc)
  rcases h3 with ⟨rfl, rfl, h3⟩ | ⟨r3, vs3, rfl, -, h4, rfl⟩
  · rcases h3 with rfl | h3
    · have := (frac_parse [] _ _ h hr2)
      obtain ⟨e1, e2⟩ := this
      dsimp only at e1 e2
      subst e1
      rcases e2 with ⟨-, rfl⟩ | ⟨ds, hd, -⟩
      · exact Or.inl ⟨w, w2, hw, hw2, by rw [List.append_nil], rfl, rfl⟩
      · cases hd
    · cases h3
  have hr3 : TimeChars r3 := fun c hc => hr2 c (List.mem_cons_of_mem _ hc)
  obtain ⟨w3, r4, hw3, rfl, h5⟩ := hmsLoop_split 0 r3 hr3 vs3 rest h4
  rcases h5 with ⟨rfl, rfl, -⟩ | ⟨_, _, _, h5, _⟩
  · obtain ⟨e1, e2⟩ := frac_parse rest _ _ h (fun c hc => hr3 c (List.mem_append_right _ hc))
    dsimp only at e1 e2
    subst e1
    exact Or.inr ⟨w, w2, w3, rest, hw, hw2, hw3, e2, rfl, rfl⟩
  · exact absurd rfl h5

theorem ColonForm.chars {s : List Char} {hms : List Int} {us : Int} (h : ColonForm s hms us) : TimeChars s ∧ ':' ∈ s ∧ 5 ≤ s.length := by
  rcases h with ⟨h, m, hh, hm, rfl, -, -⟩ | ⟨h, m, sec, f, hh, hm, hs, hf, rfl, -⟩
  · refine ⟨?_, by simp, by simp [hh.2, hm.2]⟩
    intro c hc
    simp only [List.mem_append, List.mem_cons] at hc
    rcases hc with hc | rfl | hc
    · exact Or.inl (hh.1 _ hc)
    · exact Or.inr (Or.inl rfl)
    · exact Or.inl (hm.1 _ hc)
  · refine ⟨?_, by simp, by simp only [List.length_append, List.length_cons, hh.2, hm.2, hs.2]; omega⟩
    intro c hc
    simp only [List.mem_append, List.mem_cons] at hc
    rcases hc with hc | rfl | hc | rfl | hc | hc
    · exact Or.inl (hh.1 _ hc)
    · exact Or.inr (Or.inl rfl)
    · exact Or.inl (hm.1 _ hc)
    · exact Or.inr (Or.inl rfl)
    · exact Or.inl (hs.1 _ hc)
    · rcases hf with ⟨rfl, -⟩ | ⟨ds, rfl, hd, -⟩
      · cases hc
      · rcases List.mem_cons.1 hc with rfl | hc
        · exact Or.inr (Or.inr rfl)
        · exact Or.inl (hd _ hc)

theorem TimeChars.no_sign {s : List Char} (h : TimeChars s) : '+' ∉ s ∧ '-' ∉ s := by
  constructor <;> intro hm <;> rcases h _ hm with h | h | h <;> revert h <;> decide

theorem takeWhile_eq_all {p : Char → Bool} (s : List Char) (h : ∀ c ∈ s, p c = true) : s.takeWhile p = s ∧ s.dropWhile p = [] := by
  induction s with
  | nil => exact ⟨rfl, rfl⟩
  | cons c s ih =>
    obtain ⟨h1, h2⟩ := ih fun c' hc' => h c' (List.mem_cons_of_mem _ hc')
    have hc := h c List.mem_cons_self
    exact ⟨by rw [List.takeWhile_cons_of_pos hc, h1], by rw [List.dropWhile_cons_of_pos hc, h2]⟩

theorem inferTime_plain (s : List Char) (hs : TimeChars s) (hl : 2 ≤ s.length) (hc : ':' ∈ s) :
    inferTime s = (parseHms s).bind fun x => .ok (x.1, x.2, none) := by
  obtain ⟨hp, hm⟩ := hs.no_sign
  unfold inferTime
  rw [if_neg (by omega), if_neg (by simpa using hc), if_neg (by rintro ⟨h, -⟩; exact hm h)]
  have hsg : ∀ c ∈ s, decide (c ≠ (if '+' ∈ s then '+' else '-')) = true := by
    intro c hcm
    rw [if_neg hp]
    have : c ≠ '-' := by rintro rfl; exact hm hcm
    simp [this]
  obtain ⟨t1, t2⟩ := takeWhile_eq_all s hsg
  dsimp only
  rw [t1, t2]
  cases parseHms s <;> rfl

/-- digits without a colon -/
theorem timeDigits_iff (s : List Char) (hs : TimeChars s) (hms : List Int) (us : Int) :
    timeDigits s = .ok (hms, us, none) ↔ CompactForm s hms ∧ us = 0 := by
  unfold timeDigits
  constructor
  · intro h
    by_cases h2 : s.length = 2
    · rw [if_pos h2] at h
      obtain ⟨v, hv, h⟩ := ebind_ok h
      obtain ⟨ht, rfl⟩ := twoDigits_parse hs h2 hv
      simp only [Except.ok.injEq, Prod.mk.injEq] at h
      exact ⟨Or.inl ⟨ht, h.1.symm⟩, h.2.1.symm⟩
    · rw [if_neg h2] at h
      by_cases h4 : s.length = 4
      · rw [if_pos h4] at h
        obtain ⟨a, ha, h⟩ := ebind_ok h
        obtain ⟨b, hb, h⟩ := ebind_ok h
        obtain ⟨hta, rfl⟩ := twoDigits_parse (hs.take 2) (by rw [List.length_take]; omega) ha
        obtain ⟨htb, rfl⟩ := twoDigits_parse (hs.drop 2) (by rw [List.length_drop]; omega) hb
        simp only [Except.ok.injEq, Prod.mk.injEq] at h
        exact ⟨Or.inr (Or.inl ⟨_, _, hta, htb, (List.take_append_drop 2 s).symm, h.1.symm⟩), h.2.1.symm⟩
      · rw [if_neg h4] at h
        by_cases h6 : s.length = 6
        · rw [if_pos h6] at h
          obtain ⟨a, ha, h⟩ := ebind_ok h
          obtain ⟨b, hb, h⟩ := ebind_ok h
          obtain ⟨c, hc, h⟩ := ebind_ok h
          obtain ⟨hta, rfl⟩ := twoDigits_parse (hs.take 2) (by rw [List.length_take]; omega) ha
          obtain ⟨htb, rfl⟩ := twoDigits_parse ((hs.drop 2).take 2) (by rw [List.length_take, List.length_drop]; omega) hb
          obtain ⟨htc, rfl⟩ := twoDigits_parse (hs.drop 4) (by rw [List.length_drop]; omega) hc
          simp only [Except.ok.injEq, Prod.mk.injEq] at h
          refine ⟨Or.inr (Or.inr ⟨_, _, _, hta, htb, htc, ?_, h.1.symm⟩), h.2.1.symm⟩
          rw [show s.drop 4 = (s.drop 2).drop 2 from by rw [List.drop_drop], List.take_append_drop, List.take_append_drop]
        · rw [if_neg h6] at h; cases h
  · rintro ⟨h, rfl⟩
    rcases h with ⟨ht, rfl⟩ | ⟨h, m, hh, hm, rfl, rfl⟩ | ⟨h, m, sec, hh, hm, hs', rfl, rfl⟩
    · rw [if_pos ht.2, ht.parse]; rfl
    · have hl : (h ++ m).length = 4 := by rw [List.length_append, hh.2, hm.2]
      rw [if_neg (by omega), if_pos hl, (hh.take m).1, (hh.take m).2, hh.parse, hm.parse]; rfl
    · have hl : (h ++ (m ++ sec)).length = 6 := by simp only [List.length_append, hh.2, hm.2, hs'.2]
      rw [if_neg (by omega), if_neg (by omega), if_pos hl, (hh.take _).1, (hh.take _).2, (hm.take sec).1,
        show (h ++ (m ++ sec)).drop 4 = ((h ++ (m ++ sec)).drop 2).drop 2 from by rw [List.drop_drop], (hh.take _).2, (hm.take sec).2, hh.parse, hm.parse, hs'.parse]
      rfl

theorem CompactForm.digits {s : List Char} {hms : List Int} (h : CompactForm s hms) : Digits s ∧ 2 ≤ s.length := by
  rcases h with ⟨ht, -⟩ | ⟨h, m, hh, hm, rfl, -⟩ | ⟨h, m, sec, hh, hm, hs, rfl, -⟩
  · exact ⟨ht.1, by rw [ht.2]⟩
  · refine ⟨fun c hc => ?_, by rw [List.length_append, hh.2]; omega⟩
    rcases List.mem_append.1 hc with hc | hc
    · exact hh.1 c hc
    · exact hm.1 c hc
  · refine ⟨fun c hc => ?_, by rw [List.length_append, hh.2]; omega⟩
    simp only [List.mem_append] at hc
    rcases hc with hc | hc | hc
    · exact hh.1 c hc
    · exact hm.1 c hc
    · exact hs.1 c hc

theorem colon_not_digit : (':' : Char).isDigit = false := by decide

/-- **C92**, partial: a text of digits, colons and points is read as a time exactly when it is two digits each of hours, minutes and seconds in one of the
forms, with the numbers written in it.  Missing: the numbers are not checked (`C92_fails`). -/
theorem C92_partial (s : List Char) (hs : TimeChars s) (hms : List Int) (us : Int) : inferTime s = .ok (hms, us, none) ↔ TimeForm s hms us := by
  by_cases hl : s.length < 2
  · constructor
    · intro h; unfold inferTime at h; rw [if_pos hl] at h; cases h
    · rintro (h | ⟨h, -⟩)
      · have := h.chars.2.2; omega
      · have := h.digits.2; omega
  by_cases hc : ':' ∈ s
  · rw [inferTime_plain s hs (by omega) hc]
    constructor
    · intro h
      cases hp : parseHms s with
      | error e => rw [hp] at h; cases h
      | ok x =>
        rw [hp] at h
        simp only [Except.bind, Except.ok.injEq, Prod.mk.injEq] at h
        obtain ⟨rfl, rfl, -⟩ := h
        exact Or.inl (parseHms_only s hs hc _ _ hp)
    · rintro (h | ⟨h, -⟩)
      · rw [parseHms_colon s hms us h]; rfl
      · have := h.digits.1 _ hc
        rw [colon_not_digit] at this; cases this
  · have e : inferTime s = timeDigits s := by
      unfold inferTime; rw [if_neg hl, if_pos hc]
    rw [e, timeDigits_iff s hs]
    constructor
    · exact Or.inr
    · rintro (h | h)
      · exact absurd h.chars.2.1 hc
      · exact h

theorem TimeForm.chars {s : List Char} {hms : List Int} {us : Int} (h : TimeForm s hms us) : TimeChars s := by
  rcases h with h | ⟨h, -⟩
  · exact h.chars.1
  · exact fun c hc => Or.inl (h.digits.1 c hc)

/-- every time of day is read as such -/
theorem C92_accepts (s : List Char) (hms : List Int) (us : Int) (h : TimeForm s hms us) : inferTime s = .ok (hms, us, none) :=
  (C92_partial s h.chars hms us).2 h

example : TimeForm "23:59:07.250".toList [23, 59, 7] 250000 ∧ HmsOk [23, 59, 7] ∧ TimeForm "0930".toList [9, 30] 0 := by
  refine ⟨Or.inl (Or.inr ⟨"23".toList, "59".toList, "07".toList, ".250".toList, ?_, ?_, ?_, Or.inr ⟨"250".toList, rfl, ?_, Or.inl ⟨rfl, by decide⟩⟩, rfl, by decide⟩),
    by unfold HmsOk; decide, Or.inr ⟨Or.inr (Or.inl ⟨"09".toList, "30".toList, ?_, ?_, rfl, by decide⟩), rfl⟩⟩ <;> first
    | exact ⟨by unfold Digits; decide, rfl⟩
    | (unfold Digits; decide)

/-- 99:99 is read as a time -/
theorem C92_fails : ¬ C92_statement := by
  intro h
  have h1 : inferTime "99:99".toList = .ok ([99, 99], 0, none) := by decide +kernel
  have := ((h _ _ _).1 h1).2.1
  revert this
  decide

/-! ## time zones -/

/-- microseconds of a duration of hours, minutes, seconds and microseconds -/
def clockUs (hms : List Int) (us : Int) : Int := (hms.getD 0 0 * 3600 + hms.getD 1 0 * 60 + hms.getD 2 0) * 1000000 + us

theorem twoDigits_small (w : List Char) (h : TwoDigits w) : (decVal w : Int) < 100 := by
  have := decVal_lt w h.1
  rw [h.2] at this
  omega

theorem FracForm.small {f : List Char} {us : Int} (h : FracForm f us) : 0 ≤ us ∧ us < 1000000 := by
  rcases h with ⟨-, rfl⟩ | ⟨ds, -, hd, hl⟩
  · decide
  · have := decVal_lt ds hd
    rcases hl with ⟨h3, rfl⟩ | ⟨h6, rfl⟩
    · rw [h3] at this; omega
    · rw [h6] at this; omega

theorem TimeForm.small {s : List Char} {hms : List Int} {us : Int} (h : TimeForm s hms us) :
    (∀ i, 0 ≤ hms.getD i 0 ∧ hms.getD i 0 < 100) ∧ 0 ≤ us ∧ us < 1000000 := by
  have key : ∀ l : List Int, (∀ v ∈ l, 0 ≤ v ∧ v < 100) → ∀ i, 0 ≤ l.getD i 0 ∧ l.getD i 0 < 100 := by
    intro l hl i
    rw [List.getD_eq_getElem?_getD]
    cases e : l[i]? with
    | none => exact ⟨le_refl _, by decide⟩
    | some v => exact hl v (List.mem_of_getElem? e)
  rcases h with (⟨h, m, hh, hm, -, rfl, rfl⟩ | ⟨h, m, sec, f, hh, hm, hs, hf, -, rfl⟩) | ⟨⟨ht, rfl⟩ | ⟨h, m, hh, hm, -, rfl⟩ | ⟨h, m, sec, hh, hm, hs, -, rfl⟩, rfl⟩
  · refine ⟨key _ ?_, le_refl _, by decide⟩
    intro v hv
    simp only [List.mem_cons, List.not_mem_nil, or_false] at hv
    rcases hv with rfl | rfl
    · exact ⟨by omega, twoDigits_small _ hh⟩
    · exact ⟨by omega, twoDigits_small _ hm⟩
  · refine ⟨key _ ?_, hf.small⟩
    intro v hv
    simp only [List.mem_cons, List.not_mem_nil, or_false] at hv
    rcases hv with rfl | rfl | rfl
    · exact ⟨by omega, twoDigits_small _ hh⟩
    · exact ⟨by omega, twoDigits_small _ hm⟩
    · exact ⟨by omega, twoDigits_small _ hs⟩
  · refine ⟨key _ ?_, le_refl _, by decide⟩
    intro v hv
    simp only [List.mem_cons, List.not_mem_nil, or_false] at hv
    subst hv
    exact ⟨by omega, twoDigits_small _ ht⟩
  · refine ⟨key _ ?_, le_refl _, by decide⟩
    intro v hv
    simp only [List.mem_cons, List.not_mem_nil, or_false] at hv
    rcases hv with rfl | rfl
    · exact ⟨by omega, twoDigits_small _ hh⟩
    · exact ⟨by omega, twoDigits_small _ hm⟩
  · refine ⟨key _ ?_, le_refl _, by decide⟩
    intro v hv
    simp only [List.mem_cons, List.not_mem_nil, or_false] at hv
    rcases hv with rfl | rfl | rfl
    · exact ⟨by omega, twoDigits_small _ hh⟩
    · exact ⟨by omega, twoDigits_small _ hm⟩
    · exact ⟨by omega, twoDigits_small _ hs⟩

theorem TimeForm.us_eq {s : List Char} {hms : List Int} {us : Int} (h : TimeForm s hms us) : hmsUs hms us = clockUs hms us := by
  obtain ⟨h1, h2⟩ := h.small
  have a := h1 0
  have b := h1 1
  have c := h1 2
  unfold hmsUs clockUs
  rw [Int.emod_eq_of_lt a.1 (by omega), Int.emod_eq_of_lt b.1 (by omega), Int.emod_eq_of_lt c.1 (by omega), Int.emod_eq_of_lt h2.1 (by omega)]

theorem zoneUs_eq (neg : Bool) {s : List Char} {hms : List Int} {us : Int} (h : TimeForm s hms us) :
    zoneUs neg hms us = (if neg then -1 else 1) * clockUs hms us := by
  obtain ⟨h1, h2⟩ := h.small
  have a := h1 0
  have b := h1 1
  have c := h1 2
  unfold zoneUs
  dsimp only
  rw [Int.emod_eq_of_lt a.1 (by omega), Int.emod_eq_of_lt b.1 (by omega), Int.emod_eq_of_lt c.1 (by omega), Int.emod_eq_of_lt h2.1 (by omega)]
  have := (C43_exact 0 0 ((if neg then -1 else 1) * hms.getD 0 0) ((if neg then -1 else 1) * hms.getD 1 0) ((if neg then -1 else 1) * hms.getD 2 0) 0
    ((if neg then -1 else 1) * us)).1
  rw [this]
  unfold micros clockUs
  cases neg <;> simp <;> omega

/-- **C92** a time with a zone: a colon form, a sign and an offset HH:MM, HH:MM:SS or HH:MM:SS.ffffff; its value is the clock time less the offset -/
theorem C92_zone (s z : List Char) (hms zh : List Int) (us zu : Int) (neg : Bool) (h : ColonForm s hms us) (hz : ColonForm z zh zu)
    (hl : z.length = 5 ∨ z.length = 8 ∨ z.length = 15) :
    ∃ t, inferTime (s ++ (if neg then '-' else '+') :: z) = .ok t ∧ timeUs t = clockUs hms us - (if neg then -1 else 1) * clockUs zh zu := by
  obtain ⟨hs, hc, h5⟩ := h.chars
  obtain ⟨hzs, -, -⟩ := hz.chars
  refine ⟨(hms, us, some (neg, zh, zu)), ?_, ?_⟩
  · unfold inferTime
    rw [if_neg (by rw [List.length_append]; omega), if_neg (by simp only [not_not]; exact List.mem_append_left _ hc)]
    have hp : ∀ x : Char, x = '+' ∨ x = '-' → (x ∈ s ++ (if neg then '-' else '+') :: z ↔ x = if neg then '-' else '+') := by
      intro x hx
      have h1 : x ∉ s := by rcases hx with rfl | rfl; exact hs.no_sign.1; exact hs.no_sign.2
      have h2 : x ∉ z := by rcases hx with rfl | rfl; exact hzs.no_sign.1; exact hzs.no_sign.2
      simp [h1, h2]
    have hsign : (if '+' ∈ s ++ (if neg then '-' else '+') :: z then '+' else '-') = if neg then '-' else '+' := by
      cases neg
      · rw [if_pos ((hp '+' (Or.inl rfl)).2 rfl)]; rfl
      · rw [if_neg (by rw [hp '+' (Or.inl rfl)]; decide)]; rfl
    rw [if_neg (by
      rintro ⟨a, b⟩
      rw [hp _ (Or.inr rfl)] at a
      rw [hp _ (Or.inl rfl)] at b
      rw [← a] at b
      revert b; decide)]
    dsimp only
    rw [hsign]
    have hne : ∀ c ∈ s, decide (c ≠ if neg then '-' else '+') = true := by
      intro c hc
      have : c ≠ if neg then '-' else '+' := by
        rintro rfl
        cases neg
        · exact hs.no_sign.1 hc
        · exact hs.no_sign.2 hc
      simpa using this
    have e1 : (s ++ (if neg then '-' else '+') :: z).takeWhile (fun c => decide (c ≠ if neg then '-' else '+')) = s := by
      rw [List.takeWhile_append_of_pos hne, List.takeWhile_cons_of_neg (by simp), List.append_nil]
    have e2 : (s ++ (if neg then '-' else '+') :: z).dropWhile (fun c => decide (c ≠ if neg then '-' else '+')) = (if neg then '-' else '+') :: z := by
      rw [List.dropWhile_append_of_pos hne, List.dropWhile_cons_of_neg (by simp)]
    rw [e1, e2, parseHms_colon s hms us h]
    show (do let z' ← timeZone z; Except.ok (hms, us, some (decide ((if neg then '-' else '+') = '-'), z'.1, z'.2))) = _
    unfold timeZone
    rw [if_pos hl, parseHms_colon z zh zu hz]
    cases neg <;> rfl
  · unfold timeUs
    dsimp only
    rw [TimeForm.us_eq (Or.inl h), zoneUs_eq neg (Or.inl hz)]

/-- one o'clock two hours east of Greenwich is 23 o'clock of the day before -/
example : (inferTime "01:00+02:00".toList).map timeUs = .ok (-3600000000) := by decide +kernel

/-- an offset of any other length ends the import: the error is not the one by which "not a time" is reported -/
theorem C92_zone_raises (s z : List Char) (hms : List Int) (us : Int) (h : ColonForm s hms us) (hz : '+' ∉ z ∧ '-' ∉ z) (hl : z.length ≠ 5 ∧ z.length ≠ 8 ∧ z.length ≠ 15)
    (neg : Bool) : inferTime (s ++ (if neg then '-' else '+') :: z) = .error .other := by
  obtain ⟨hs, hc, h5⟩ := h.chars
  unfold inferTime
  rw [if_neg (by rw [List.length_append]; omega), if_neg (by simp only [not_not]; exact List.mem_append_left _ hc)]
  have hp : ∀ x : Char, x = '+' ∨ x = '-' → (x ∈ s ++ (if neg then '-' else '+') :: z ↔ x = if neg then '-' else '+') := by
    intro x hx
    have h1 : x ∉ s := by rcases hx with rfl | rfl; exact hs.no_sign.1; exact hs.no_sign.2
    have h2 : x ∉ z := by rcases hx with rfl | rfl; exact hz.1; exact hz.2
    simp [h1, h2]
  have hsign : (if '+' ∈ s ++ (if neg then '-' else '+') :: z then '+' else '-') = if neg then '-' else '+' := by
    cases neg
    · rw [if_pos ((hp '+' (Or.inl rfl)).2 rfl)]; rfl
    · rw [if_neg (by rw [hp '+' (Or.inl rfl)]; decide)]; rfl
  rw [if_neg (by
    rintro ⟨a, b⟩
    rw [hp _ (Or.inr rfl)] at a
    rw [hp _ (Or.inl rfl)] at b
    rw [← a] at b
    revert b; decide)]
  dsimp only
  rw [hsign]
  have hne : ∀ c ∈ s, decide (c ≠ if neg then '-' else '+') = true := by
    intro c hc
    have : c ≠ if neg then '-' else '+' := by
      rintro rfl
      cases neg
      · exact hs.no_sign.1 hc
      · exact hs.no_sign.2 hc
    simpa using this
  have e1 : (s ++ (if neg then '-' else '+') :: z).takeWhile (fun c => decide (c ≠ if neg then '-' else '+')) = s := by
    rw [List.takeWhile_append_of_pos hne, List.takeWhile_cons_of_neg (by simp), List.append_nil]
  have e2 : (s ++ (if neg then '-' else '+') :: z).dropWhile (fun c => decide (c ≠ if neg then '-' else '+')) = (if neg then '-' else '+') :: z := by
    rw [List.dropWhile_append_of_pos hne, List.dropWhile_cons_of_neg (by simp)]
  rw [e1, e2, parseHms_colon s hms us h]
  show (do let z' ← timeZone z; Except.ok (hms, us, some (decide ((if neg then '-' else '+') = '-'), z'.1, z'.2))) = _
  unfold timeZone
  rw [if_neg (by omega)]
  rfl

/-! ## datetimes -/

theorem parse_words_time (w0 w1 w2 : List Char) (t c : Char) (ht : dateToken t = true) (hc : c = ' ' ∨ c = 'T') (hct : c ≠ t) (h0 : Digits w0) (h1 : Digits w1) (h2 : Digits w2)
    (n0 : w0 ≠ []) (n1 : w1 ≠ []) (n2 : w2 ≠ []) (hl : w0.length ≤ 4) (r : List Char) (hr : ∀ x ∈ r, x.toNat ≤ 127) :
    parseDateWords .dontCare true (w0 ++ t :: (w1 ++ t :: (w2 ++ c :: r))) = .ok ((w0, w1, w2), c :: r) := by
  obtain ⟨ht1, ht2, ht3⟩ := token_spec t ht
  have hcd : c.isDigit = false := by rcases hc with rfl | rfl <;> decide
  have hca : c.toNat ≤ 127 := by rcases hc with rfl | rfl <;> decide
  unfold parseDateWords
  rw [if_neg]
  · have htake : (w0 ++ t :: (w1 ++ t :: (w2 ++ c :: r))).take 5 = w0 ++ t :: (w1 ++ t :: (w2 ++ c :: r)).take (4 - w0.length) := by
      rw [List.take_append, List.take_of_length_le (by omega : w0.length ≤ 5), show 5 - w0.length = (4 - w0.length) + 1 by omega, List.take_succ_cons]
    rw [htake, dateHead_token true w0 h0 t ht1, if_pos ht]
    dsimp only [bind, Except.bind]
    rw [if_pos rfl, if_neg (by decide)]
    have hloop : dateWordsLoop true true false [] none [] (w0 ++ t :: (w1 ++ t :: (w2 ++ c :: r))) = .ok ([w0, w1], w2, c :: r) := by
      rw [wordsLoop_digits true w0 h0 _ _ _ _ _ _ n0, dateWordsLoop, if_neg (by rw [ht1]; decide), if_neg (by decide), if_neg (by simp), if_neg (by simp),
        wordsLoop_digits true w1 h1 _ _ _ _ _ _ n1, dateWordsLoop, if_neg (by rw [ht1]; decide), if_neg (by decide), if_neg (by simp), if_neg (by simp),
        wordsLoop_digits true w2 h2 _ _ _ _ _ _ n2, dateWordsLoop, if_neg (by rw [hcd]; decide), if_neg (by decide), if_pos ⟨by simp, by simpa using fun e => hct e.symm⟩,
        if_pos ⟨by simp, rfl, hc⟩]
      simp
    rw [hloop]
    simp [n2]
  · simp only [List.any_eq_true, decide_eq_true_eq, not_exists, not_and, not_lt]
    intro x hx
    simp only [List.mem_append, List.mem_cons] at hx
    rcases hx with hx | rfl | hx | rfl | hx | rfl | hx
    · exact digit_ascii _ (h0 _ hx)
    · exact ht3
    · exact digit_ascii _ (h1 _ hx)
    · exact ht3
    · exact digit_ascii _ (h2 _ hx)
    · exact hca
    · exact hr _ hx

/-- **C92**, partial: a date written with separators, a blank or `T` that is not the separator of the date, and a time are read as that date and that time.
Missing: December dates after the twelfth with the day first (`C39_december_fails`). -/
theorem C92_datetime_partial (am yf : Bool) (s t : List Char) (x : Int × Int × Int) (hms : List Int) (us : Int) (c : Char) (hd : DateText am s yf x) (hv : ValidDate x)
    (h12 : yf = false → x.2.1 = 12 → x.2.2 ≤ 12) (hc : c = ' ' ∨ c = 'T') (hcs : c ∉ s) (ht : TimeForm t hms us) :
    inferDatetime am (s ++ c :: t) = .ok (x, hms, us, none) := by
  have hinf : inferDate false am s = .ok x := (C39_exact am s x).2 ⟨yf, hd, hv.1, hv.2.1, hv.2.2.2, fun h => ⟨hv.2.2.1, h12 h⟩⟩
  obtain ⟨tk, w0, w1, w2, htk, h0, h1, h2, n0, n1, n2, rfl, hl8, hl10, hform⟩ := hd
  have htk' : dateToken tk = true := (token_mem tk).2 htk
  have hw0 : w0.length ≤ 4 := by
    cases yf with
    | true => exact le_of_eq hform.2.1
    | false =>
      have h4 : w2.length = 4 := by simpa using hform.1
      have := List.length_pos_iff.2 n1
      simp only [List.length_append, List.length_cons] at hl10
      omega
  have hwords : wordsToDate am (w0, w1, w2) = .ok x := by
    unfold inferDate at hinf
    rw [if_neg (by omega), if_neg (by decide), parse_words .never (by decide) w0 w1 w2 tk htk' h0 h1 h2 n0 n1 n2 hw0] at hinf
    exact hinf
  have htl : 2 ≤ t.length ∧ t.length ≤ 15 := by
    rcases ht with (⟨h, m, hh, hm, rfl, -, -⟩ | ⟨h, m, sec, f, hh, hm, hs, hf, rfl, -⟩) | ⟨⟨ht, -⟩ | ⟨h, m, hh, hm, rfl, -⟩ | ⟨h, m, sec, hh, hm, hs, rfl, -⟩, -⟩
    · simp only [List.length_append, List.length_cons, hh.2, hm.2]; omega
    · have : f.length ≤ 7 := by
        rcases hf with ⟨rfl, -⟩ | ⟨ds, rfl, -, hl⟩
        · simp
        · rw [List.length_cons]; omega
      simp only [List.length_append, List.length_cons, hh.2, hm.2, hs.2]; omega
    · rw [ht.2]; decide
    · simp only [List.length_append, hh.2, hm.2]; omega
    · simp only [List.length_append, hh.2, hm.2, hs.2]; omega
  have hct : c ≠ tk := by rintro rfl; exact hcs (by simp)
  have hta : ∀ y ∈ t, y.toNat ≤ 127 := by
    intro y hy
    rcases ht.chars y hy with h | rfl | rfl
    · exact digit_ascii _ h
    · decide
    · decide
  unfold inferDatetime
  rw [if_neg (by simp only [List.length_append, List.length_cons] at *; omega)]
  rw [show (w0 ++ tk :: (w1 ++ tk :: w2)) ++ c :: t = w0 ++ tk :: (w1 ++ tk :: (w2 ++ c :: t)) by simp,
    parse_words_time w0 w1 w2 tk c htk' hc hct h0 h1 h2 n0 n1 n2 hw0 t hta]
  have htt : timeText (c :: t) = .ok t := by
    unfold timeText
    dsimp only
    rw [if_neg (by rcases hc with rfl | rfl <;> decide), if_pos hc]
  show (do let t' ← timeText (c :: t); let d ← wordsToDate am (w0, w1, w2); Except.ok (d, ← inferTime t')) = _
  rw [htt]
  show (do let d ← wordsToDate am (w0, w1, w2); Except.ok (d, ← inferTime t)) = _
  rw [hwords]
  show (do Except.ok (x, ← inferTime t)) = _
  rw [C92_accepts t hms us ht]
  rfl

set_option synthInstance.maxSize 512 in
example : inferDatetime false "2024-02-29T23:59".toList = .ok ((2024, 2, 29), [23, 59], 0, none) := by decide +kernel

set_option synthInstance.maxSize 512 in
/-- a date written with blanks is not recognised before a blank and a time -/
theorem C92_blank_fails : inferDatetime false "2024 02 29 23:59".toList = .error .value ∧ inferDatetime true "2024 02 29 23:59".toList = .error .value ∧
    DateText false "2024 02 29".toList true (2024, 2, 29) ∧ TimeForm "23:59".toList [23, 59] 0 := by
  refine ⟨by decide +kernel, by decide +kernel, ⟨' ', "2024".toList, "02".toList, "29".toList, by decide, by unfold Digits; decide, by unfold Digits; decide, by unfold Digits; decide,
    by decide, by decide, by decide, by decide, by decide, by decide, by decide⟩,
    Or.inl (Or.inl ⟨"23".toList, "59".toList, ⟨by unfold Digits; decide, rfl⟩, ⟨by unfold Digits; decide, rfl⟩, rfl, by decide, rfl⟩)⟩

end Tablite
