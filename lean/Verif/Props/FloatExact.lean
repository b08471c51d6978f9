import Verif.Props.InferFloat
/-!
# C68 exactly: which texts are read as floats of a locale
-/

namespace Tablite

/-! ## specification -/

/-- a plus or minus sign -/
def IsSign (c : Char) : Prop := c = '+' ∨ c = '-'

/-- the last sign among the characters, `d` if there is none -/
def lastSign (d : Int) : List Char → Int
  | [] => d
  | c :: r => lastSign (if c = '+' then 1 else if c = '-' then -1 else d) r

/-- what is read as an exponent: nothing, or `e` or `E`, a sign, and then digits and signs in any order; the last sign counts -/
inductive LooseExp : List Char → Int → Prop
  | none : LooseExp [] 0
  | some (e s : Char) (r : List Char) : (e = 'e' ∨ e = 'E') → IsSign s → (∀ c ∈ r, c.isDigit = true ∨ IsSign c) →
      LooseExp (e :: s :: r) (decVal (r.filter Char.isDigit) * lastSign 0 (s :: r))

/-- what is read as the end of a number: nothing, or the decimal point, digits and an exponent -/
inductive LooseFrac (american : Bool) : List Char → Rat → Int → Prop
  | none : LooseFrac american [] 0 0
  | some (fp ex : List Char) (e : Int) : Digits fp → LooseExp ex e →
      LooseFrac american (decimalPoint american :: (fp ++ ex)) ((decVal fp : Rat) / 10 ^ fp.length) e

/-- digits and separators, each separator with at least three characters behind it; `n` characters follow the text -/
def LooseWhole (american : Bool) (w : List Char) (n : Nat) : Prop :=
  (∀ c ∈ w, c.isDigit = true ∨ c = groupSep american) ∧ ∀ pre post, w = pre ++ groupSep american :: post → 3 ≤ post.length + n

/-- what is read as a float: a sign or none, a digit, digits and separators, and an end; or, without a sign, an end that starts with the decimal point -/
inductive LooseFloat (american : Bool) : List Char → Rat → Prop
  | whole (sg : List Char) (f : Int) (d : Char) (w tail : List Char) (fv : Rat) (e : Int) : SignOf sg f → d.isDigit = true →
      LooseWhole american w tail.length → LooseFrac american tail fv e →
      LooseFloat american (sg ++ d :: (w ++ tail)) ((f : Rat) * ((decVal (d :: w.filter Char.isDigit) : Rat) + fv) * (10 : Rat) ^ e)
  | point (tail : List Char) (fv : Rat) (e : Int) : tail ≠ [] → LooseFrac american tail fv e → LooseFloat american tail (fv * (10 : Rat) ^ e)

/-! ## proofs -/

theorem toLower_e (c : Char) : c.toLower = 'e' ↔ c = 'e' ∨ c = 'E' := by
  constructor
  · intro h
    unfold Char.toLower at h
    split at h
    · rename_i hc
      right
      have h2 := congrArg (fun c : Char => c.val.toNat) h
      apply Char.ext
      apply UInt32.toNat_inj.1
      have h3 : c.val.toNat ≤ 90 := by
        have := UInt32.le_iff_toNat_le.1 hc.2; exact this
      have h4 : (c.val + ('a'.val - 'A'.val)).toNat = 101 := h2
      rw [UInt32.toNat_add] at h4
      have h5 : ('a'.val - 'A'.val).toNat = 32 := rfl
      rw [h5] at h4
      show c.val.toNat = 69
      omega
    · exact .inl h
  · rintro (rfl | rfl) <;> decide

theorem floatChar_frac_error (am : Bool) (st : FloatSt) (c : Char) (n : Nat) (hf : st.isFrac = true) (hd : ¬ c.isDigit = true) (he : ¬ ((c = 'e' ∨ c = 'E') ∧ st.isExp = false))
    (hs : ¬ (IsSign c ∧ st.isExp = true)) : floatChar am st c n = .error .value := by
  unfold floatChar
  dsimp only
  rw [if_neg hd]
  generalize (if am = true then ',' else '.') = g
  generalize (if am = true then '.' else ',') = p
  by_cases h1 : c = g
  · rw [if_pos h1, if_pos (.inr hf)]
  · rw [if_neg h1]
    by_cases h2 : c = p
    · rw [if_pos h2, if_pos hf]
    · rw [if_neg h2, if_neg (by rw [toLower_e]; exact fun h => he h.2), if_neg (fun h => hs h.2)]

theorem floatLoop_exp_iff (am : Bool) (r : List Char) (v l sign q : Rat) (sg : Int) (hs : sg ≠ 0) (x : Int) :
    (floatLoop am { value := v, isFrac := true, fracLevel := l, isExp := true, expSign := sg, exponent := x } r >>= floatEnd sign) = .ok q ↔
      (∀ c ∈ r, c.isDigit = true ∨ IsSign c) ∧ q = v * sign * (10 : Rat) ^ (accDigits x (r.filter Char.isDigit) * lastSign sg r) := by
  induction r generalizing sg x with
  | nil =>
    rw [floatLoop]
    dsimp only [bind, Except.bind]
    unfold floatEnd
    rw [if_pos rfl, if_neg hs]
    constructor
    · intro h
      injection h with h
      exact ⟨fun c hc => absurd hc List.not_mem_nil, h.symm⟩
    · rintro ⟨-, h⟩
      rw [h]; rfl
  | cons c r ih =>
    rw [floatLoop]
    by_cases hd : c.isDigit = true
    · have hc : floatChar am { value := v, isFrac := true, fracLevel := l, isExp := true, expSign := sg, exponent := x } c (c :: r).length =
          .ok { value := v, isFrac := true, fracLevel := l, isExp := true, expSign := sg, exponent := x * 10 + digitVal c } := by
        unfold floatChar
        dsimp only
        rw [if_pos hd, if_pos rfl, if_neg hs]
      have hns : ¬ c = '+' ∧ ¬ c = '-' := by
        constructor <;> rintro rfl <;> exact absurd hd (by decide)
      rw [hc]
      show (floatLoop am _ r >>= floatEnd sign) = _ ↔ _
      rw [ih sg hs]
      rw [List.filter_cons_of_pos hd]
      simp only [List.mem_cons, forall_eq_or_imp, hd, true_or, true_and, lastSign, if_neg hns.1, if_neg hns.2]
      rfl
    · have hdf : c.isDigit = false := by simpa using hd
      by_cases hsg : IsSign c
      · have hc : floatChar am { value := v, isFrac := true, fracLevel := l, isExp := true, expSign := sg, exponent := x } c (c :: r).length =
            .ok { value := v, isFrac := true, fracLevel := l, isExp := true, expSign := if c = '+' then 1 else -1, exponent := x } := by
          unfold floatChar
          rcases hsg with rfl | rfl <;> cases am <;> simp
        rw [hc]
        show (floatLoop am _ r >>= floatEnd sign) = _ ↔ _
        rw [ih _ (by split <;> decide), List.filter_cons_of_neg hd]
        simp only [List.mem_cons, forall_eq_or_imp, hsg, or_true, true_and, lastSign]
        have : (if c = '+' then (1 : Int) else if c = '-' then -1 else sg) = if c = '+' then 1 else -1 := by
          rcases hsg with rfl | rfl <;> simp
        rw [this]
      · have hc : ∃ e, floatChar am { value := v, isFrac := true, fracLevel := l, isExp := true, expSign := sg, exponent := x } c (c :: r).length = .error e := by
          exact ⟨_, floatChar_frac_error am _ c _ rfl hd (by simp) (fun h => hsg h.1)⟩
        obtain ⟨e, he⟩ := hc
        rw [he]
        constructor
        · intro h; exact absurd h (by simp [bind, Except.bind])
        · intro h
          rcases h.1 c List.mem_cons_self with h | h
          · exact absurd h hd
          · exact absurd h hsg

theorem floatLoop_e_iff (am : Bool) (r : List Char) (v l sign q : Rat) :
    (floatLoop am { value := v, isFrac := true, fracLevel := l, isExp := true } r >>= floatEnd sign) = .ok q ↔
      ∃ s r', r = s :: r' ∧ IsSign s ∧ (∀ c ∈ r', c.isDigit = true ∨ IsSign c) ∧
        q = v * sign * (10 : Rat) ^ ((decVal (r'.filter Char.isDigit) : Int) * lastSign 0 (s :: r')) := by
  cases r with
  | nil =>
    rw [floatLoop]
    constructor
    · intro h
      exact absurd (show floatEnd sign { value := v, isFrac := true, fracLevel := l, isExp := true } = .ok q from h) (by unfold floatEnd; simp)
    · rintro ⟨s, r', h, -⟩; exact absurd h (by simp)
  | cons c r =>
    rw [floatLoop]
    by_cases hsg : IsSign c
    · rw [floatChar_sign am v l c hsg]
      show (floatLoop am _ r >>= floatEnd sign) = _ ↔ _
      rw [floatLoop_exp_iff am r v l sign q _ (by split <;> decide) 0, accDigits_decVal]
      have e : ∀ d : Int, lastSign d (c :: r) = lastSign (if c = '+' then 1 else -1) r := by
        intro d
        rw [lastSign]
        rcases hsg with rfl | rfl <;> simp
      constructor
      · rintro ⟨h1, h2⟩
        exact ⟨c, r, rfl, hsg, h1, by rw [e]; exact h2⟩
      · rintro ⟨s, r', h, -, h1, h2⟩
        injection h with ha hb
        subst ha; subst hb
        rw [e] at h2
        exact ⟨h1, h2⟩
    · have hc : ∃ e, floatChar am { value := v, isFrac := true, fracLevel := l, isExp := true } c (c :: r).length = .error e := by
        by_cases hd : c.isDigit = true
        · refine ⟨.value, ?_⟩
          unfold floatChar
          dsimp only
          rw [if_pos hd, if_pos rfl, if_pos rfl]
        · exact ⟨_, floatChar_frac_error am _ c _ rfl hd (by simp) (fun h => hsg h.1)⟩
      obtain ⟨e, he⟩ := hc
      rw [he]
      constructor
      · intro h; exact absurd h (by simp [bind, Except.bind])
      · rintro ⟨s, r', h, h1, -⟩
        injection h with ha hb
        subst ha
        exact absurd h1 hsg

theorem floatLoop_frac_iff (am : Bool) (r : List Char) (v l sign q : Rat) :
    (floatLoop am { value := v, isFrac := true, fracLevel := l } r >>= floatEnd sign) = .ok q ↔
      ∃ fp ex e, r = fp ++ ex ∧ Digits fp ∧ LooseExp ex e ∧ q = (v + (decVal fp : Rat) * (l / 10 ^ fp.length)) * sign * (10 : Rat) ^ e := by
  induction r generalizing v l with
  | nil =>
    rw [floatLoop]
    dsimp only [bind, Except.bind]
    unfold floatEnd
    rw [if_neg (by simp)]
    constructor
    · intro h
      injection h with h
      exact ⟨[], [], 0, rfl, (fun c hc => absurd hc (List.not_mem_nil)), .none, by rw [← h]; simp [decVal]⟩
    · rintro ⟨fp, ex, e, h, -, h2, h3⟩
      obtain ⟨rfl, rfl⟩ := List.nil_eq_append_iff.1 h
      cases h2
      rw [h3]; simp [decVal]
  | cons c r ih =>
    rw [floatLoop]
    by_cases hd : c.isDigit = true
    · have hc : floatChar am { value := v, isFrac := true, fracLevel := l } c (c :: r).length =
          .ok { value := v + digitVal c * (l / 10), isFrac := true, fracLevel := l / 10 } := by
        unfold floatChar
        dsimp only
        rw [if_pos hd, if_neg (by decide), if_pos rfl]
      rw [hc]
      show (floatLoop am _ r >>= floatEnd sign) = _ ↔ _
      rw [ih]
      have ev : ∀ fp : List Char, v + (digitVal c : Rat) * (l / 10) + (decVal fp : Rat) * (l / 10 / 10 ^ fp.length) =
          v + (decVal (c :: fp) : Rat) * (l / 10 ^ (c :: fp).length) := by
        intro fp
        rw [decVal_cons, List.length_cons]
        push_cast
        field_simp
        ring
      constructor
      · rintro ⟨fp, ex, e, h1, h2, h3, h4⟩
        refine ⟨c :: fp, ex, e, by rw [h1]; rfl, ?_, h3, by rw [h4, ev]⟩
        intro x hx
        rcases List.mem_cons.1 hx with rfl | hx
        · exact hd
        · exact h2 x hx
      · rintro ⟨fp, ex, e, h1, h2, h3, h4⟩
        cases fp with
        | nil =>
          rw [List.nil_append] at h1
          subst h1
          cases h3 with
          | some e s r he _ _ => rcases he with rfl | rfl <;> exact absurd hd (by decide)
        | cons d fp =>
          rw [List.cons_append] at h1
          injection h1 with ha hb
          subst ha
          exact ⟨fp, ex, e, hb, fun x hx => h2 x (List.mem_cons_of_mem _ hx), h3, by rw [h4, ev]⟩
    · by_cases he : c = 'e' ∨ c = 'E'
      · rw [floatChar_e am v l c he]
        show (floatLoop am _ r >>= floatEnd sign) = _ ↔ _
        rw [floatLoop_e_iff]
        constructor
        · rintro ⟨s, r', h1, h2, h3, h4⟩
          refine ⟨[], c :: r, (decVal (r'.filter Char.isDigit) : Int) * lastSign 0 (s :: r'), rfl, (fun c hc => absurd hc (List.not_mem_nil)), h1 ▸ LooseExp.some c s r' he h2 h3, ?_⟩
          rw [h4]; simp [decVal]
        · rintro ⟨fp, ex, e, h1, h2, h3, h4⟩
          cases fp with
          | nil =>
            rw [List.nil_append] at h1
            subst h1
            cases h3 with
            | some e s r he h5 h6 =>
              refine ⟨s, r, rfl, h5, h6, ?_⟩
              rw [h4]; simp [decVal]
          | cons d fp =>
            rw [List.cons_append] at h1
            injection h1 with ha hb
            subst ha
            exact absurd (h2 c List.mem_cons_self) hd
      · have hc : ∃ e, floatChar am { value := v, isFrac := true, fracLevel := l } c (c :: r).length = .error e := by
          exact ⟨_, floatChar_frac_error am _ c _ rfl hd (fun h => he h.1) (by simp)⟩
        obtain ⟨e, hce⟩ := hc
        rw [hce]
        constructor
        · intro h; exact absurd h (by simp [bind, Except.bind])
        · rintro ⟨fp, ex, e, h1, h2, h3, h4⟩
          cases fp with
          | nil =>
            rw [List.nil_append] at h1
            subst h1
            cases h3 with
            | some e s r he' _ _ => exact absurd he' he
          | cons d fp =>
            rw [List.cons_append] at h1
            injection h1 with ha hb
            subst ha
            exact absurd (h2 c List.mem_cons_self) hd

theorem looseWhole_nil (am : Bool) (n : Nat) : LooseWhole am [] n :=
  ⟨by simp, fun pre post h => absurd h (by simp)⟩

theorem looseWhole_cons (am : Bool) (c : Char) (w : List Char) (n : Nat) :
    LooseWhole am (c :: w) n ↔ (c.isDigit = true ∨ (c = groupSep am ∧ 3 ≤ w.length + n)) ∧ LooseWhole am w n := by
  constructor
  · rintro ⟨h1, h2⟩
    refine ⟨?_, fun x hx => h1 x (List.mem_cons_of_mem _ hx), fun pre post h => h2 (c :: pre) post (by rw [h]; rfl)⟩
    rcases h1 c List.mem_cons_self with h | h
    · exact .inl h
    · exact .inr ⟨h, h2 [] w (by rw [h]; rfl)⟩
  · rintro ⟨h1, h2, h3⟩
    refine ⟨?_, ?_⟩
    · intro x hx
      rcases List.mem_cons.1 hx with rfl | hx
      · rcases h1 with h | h
        · exact .inl h
        · exact .inr h.1
      · exact h2 x hx
    · intro pre post h
      cases pre with
      | nil =>
        rw [List.nil_append] at h
        injection h with ha hb
        subst hb
        rcases h1 with h | h
        · rw [ha] at h
          cases am <;> exact absurd h (by decide)
        · exact h.2
      | cons p pre =>
        rw [List.cons_append] at h
        injection h with ha hb
        exact h3 pre post hb

theorem floatLoop_whole_iff (am : Bool) (r : List Char) (x : Int) (sign q : Rat) :
    (floatLoop am { value := (x : Rat), isFrac := false } r >>= floatEnd sign) = .ok q ↔
      ∃ w tail fv e, r = w ++ tail ∧ LooseWhole am w tail.length ∧ LooseFrac am tail fv e ∧
        q = (((accDigits x (w.filter Char.isDigit) : Int) : Rat) + fv) * sign * (10 : Rat) ^ e := by
  induction r generalizing x with
  | nil =>
    rw [floatLoop]
    dsimp only [bind, Except.bind]
    unfold floatEnd
    rw [if_neg (by simp)]
    constructor
    · intro h
      injection h with h
      exact ⟨[], [], 0, 0, rfl, looseWhole_nil am 0, .none, by rw [← h]; simp [accDigits]⟩
    · rintro ⟨w, tail, fv, e, h, -, h2, h3⟩
      obtain ⟨rfl, rfl⟩ := List.nil_eq_append_iff.1 h
      cases h2
      rw [h3]; simp [accDigits]
  | cons c r ih =>
    rw [floatLoop]
    have hpd : (decimalPoint am).isDigit = false := point_not_digit am
    have hgd : (groupSep am).isDigit = false := by cases am <;> decide
    have hpg : decimalPoint am ≠ groupSep am := by cases am <;> decide
    -- how a reading of `c :: r` starts
    have start : ∀ w tail fv e, c :: r = w ++ tail → LooseFrac am tail fv e → (c = decimalPoint am ∧ w = [] ∧ tail = c :: r) ∨ ∃ w', w = c :: w' ∧ r = w' ++ tail := by
      intro w tail fv e h1 h2
      cases w with
      | nil =>
        rw [List.nil_append] at h1
        cases h2 with
        | none => exact absurd h1 (by simp)
        | some fp ex e _ _ =>
          injection h1 with ha hb
          exact .inl ⟨ha, rfl, by rw [ha, hb]⟩
      | cons d w =>
        rw [List.cons_append] at h1
        injection h1 with ha hb
        exact .inr ⟨w, by rw [ha], hb⟩
    by_cases hd : c.isDigit = true
    · have hc : floatChar am { value := (x : Rat), isFrac := false } c (c :: r).length = .ok { value := ((x * 10 + digitVal c : Int) : Rat), isFrac := false } := by
        unfold floatChar
        dsimp only
        rw [if_pos hd, if_neg (by decide), if_neg (by decide)]
        push_cast
        rfl
      rw [hc]
      show (floatLoop am _ r >>= floatEnd sign) = _ ↔ _
      rw [ih]
      constructor
      · rintro ⟨w, tail, fv, e, h1, h2, h3, h4⟩
        refine ⟨c :: w, tail, fv, e, by rw [h1]; rfl, (looseWhole_cons _ _ _ _).2 ⟨.inl hd, h2⟩, h3, ?_⟩
        rw [h4, List.filter_cons_of_pos hd]
        rfl
      · rintro ⟨w, tail, fv, e, h1, h2, h3, h4⟩
        rcases start w tail fv e h1 h3 with ⟨h, -⟩ | ⟨w', rfl, h⟩
        · rw [h, hpd] at hd; exact absurd hd (by decide)
        · refine ⟨w', tail, fv, e, h, ((looseWhole_cons _ _ _ _).1 h2).2, h3, ?_⟩
          rw [h4, List.filter_cons_of_pos hd]
          rfl
    · by_cases hg : c = groupSep am
      · by_cases hl : 3 ≤ r.length
        · have hc : floatChar am { value := (x : Rat), isFrac := false } c (c :: r).length = .ok { value := (x : Rat), isFrac := false } := by
            rw [hg]; exact floatChar_sep am _ _ (by rw [List.length_cons]; omega)
          rw [hc]
          show (floatLoop am _ r >>= floatEnd sign) = _ ↔ _
          rw [ih]
          constructor
          · rintro ⟨w, tail, fv, e, h1, h2, h3, h4⟩
            refine ⟨c :: w, tail, fv, e, by rw [h1]; rfl, (looseWhole_cons _ _ _ _).2 ⟨.inr ⟨hg, ?_⟩, h2⟩, h3, ?_⟩
            · rw [h1, List.length_append] at hl; exact hl
            · rw [h4, List.filter_cons_of_neg hd]
          · rintro ⟨w, tail, fv, e, h1, h2, h3, h4⟩
            rcases start w tail fv e h1 h3 with ⟨h, -⟩ | ⟨w', rfl, h⟩
            · exact absurd (h.symm.trans hg) hpg
            · refine ⟨w', tail, fv, e, h, ((looseWhole_cons _ _ _ _).1 h2).2, h3, ?_⟩
              rw [h4, List.filter_cons_of_neg hd]
        · have hc : ∃ e, floatChar am { value := (x : Rat), isFrac := false } c (c :: r).length = .error e := by
            unfold floatChar
            dsimp only
            rw [if_neg hd, if_pos (by rw [hg]; rfl), if_pos (by left; rw [List.length_cons]; omega)]
            exact ⟨_, rfl⟩
          obtain ⟨e, he⟩ := hc
          rw [he]
          constructor
          · intro h; exact absurd h (by simp [bind, Except.bind])
          · rintro ⟨w, tail, fv, e, h1, h2, h3, h4⟩
            rcases start w tail fv e h1 h3 with ⟨h, -⟩ | ⟨w', rfl, h⟩
            · exact absurd (h.symm.trans hg) hpg
            · rcases ((looseWhole_cons _ _ _ _).1 h2).1 with h5 | h5
              · exact absurd h5 hd
              · rw [h, List.length_append] at hl; exact absurd h5.2 hl
      · by_cases hp : c = decimalPoint am
        · have hc : floatChar am { value := (x : Rat), isFrac := false } c (c :: r).length = .ok { value := (x : Rat), isFrac := true } := by
            unfold floatChar
            dsimp only
            rw [if_neg hd, if_neg (show ¬ c = (if am = true then ',' else '.') from hg), if_pos (show c = (if am = true then '.' else ',') from hp), if_neg (by decide)]
          rw [hc]
          show (floatLoop am _ r >>= floatEnd sign) = _ ↔ _
          rw [floatLoop_frac_iff]
          constructor
          · rintro ⟨fp, ex, e, h1, h2, h3, h4⟩
            refine ⟨[], c :: r, _, e, rfl, looseWhole_nil _ _, by rw [h1, hp]; exact .some fp ex e h2 h3, ?_⟩
            rw [h4]
            simp only [List.filter_nil, accDigits, List.foldl_nil]
            ring
          · rintro ⟨w, tail, fv, e, h1, h2, h3, h4⟩
            rcases start w tail fv e h1 h3 with ⟨-, rfl, h⟩ | ⟨w', rfl, h⟩
            · rw [h] at h3
              cases h3 with
              | some fp ex e h5 h6 =>
                refine ⟨fp, ex, e, rfl, h5, h6, ?_⟩
                rw [h4]
                simp only [List.filter_nil, accDigits, List.foldl_nil]
                ring
            · rcases ((looseWhole_cons _ _ _ _).1 h2).1 with h5 | h5
              · exact absurd h5 hd
              · exact absurd h5.1 hg
        · have hc : ∃ e, floatChar am { value := (x : Rat), isFrac := false } c (c :: r).length = .error e := by
            unfold floatChar
            dsimp only
            rw [if_neg hd, if_neg (show ¬ c = (if am = true then ',' else '.') from hg), if_neg (show ¬ c = (if am = true then '.' else ',') from hp), if_neg (by simp), if_neg (by simp)]
            exact ⟨_, rfl⟩
          obtain ⟨e, he⟩ := hc
          rw [he]
          constructor
          · intro h; exact absurd h (by simp [bind, Except.bind])
          · rintro ⟨w, tail, fv, e, h1, h2, h3, h4⟩
            rcases start w tail fv e h1 h3 with ⟨h, -⟩ | ⟨w', rfl, h⟩
            · exact absurd h hp
            · rcases ((looseWhole_cons _ _ _ _).1 h2).1 with h5 | h5
              · exact absurd h5 hd
              · exact absurd h5.1 hg

theorem acc_dec (d : Char) (l : List Char) : ((accDigits (digitVal d : Int) l : Int) : Rat) = (decVal (d :: l) : Rat) := by
  have : accDigits (digitVal d : Int) l = accDigits 0 (d :: l) := by simp [accDigits]
  rw [this, accDigits_decVal]
  simp

theorem looseFloat_cast {am : Bool} {s : List Char} {q q' : Rat} (h : LooseFloat am s q) (e : q' = q) : LooseFloat am s q' := e ▸ h

/-- **C68** (exact).  Text is read as a float of a locale exactly when it is of the form `LooseFloat`, which says for every text what its value is:
separators may stand anywhere before the point with three characters or more behind them, and an exponent needs a sign but may have many. -/
theorem C68_exact (pf : List Char → Option Rat) (am : Bool) (s : List Char) (q : Rat) : inferFloat pf false am s = .ok q ↔ LooseFloat am (stripNum s) q := by
  unfold inferFloat
  dsimp only
  generalize stripNum s = s
  rw [if_neg (by simp : ¬ (false = true))]
  have hpd : (decimalPoint am).isDigit = false := point_not_digit am
  have hps : ¬ (decimalPoint am = '+' ∨ decimalPoint am = '-') := by cases am <;> decide
  constructor
  · intro h
    split at h
    · exact absurd h (by simp)
    · unfold floatLocale at h
      cases s with
      | nil => exact absurd h (by simp)
      | cons c r =>
        dsimp only at h
        split at h
        · rename_i hd
          obtain ⟨w, tail, fv, e, h1, h2, h3, h4⟩ := (floatLoop_whole_iff am r (digitVal c) 1 q).1 (by push_cast; exact h)
          subst h1
          have := LooseFloat.whole [] 1 c w tail fv e .none hd h2 h3
          rw [acc_dec] at h4
          rw [h4]
          exact looseFloat_cast this (by push_cast; ring)
        · split at h
          · rename_i hsg
            cases r with
            | nil => exact absurd h (by simp)
            | cons c' r' =>
              dsimp only at h
              split at h
              · rename_i hd
                obtain ⟨w, tail, fv, e, h1, h2, h3, h4⟩ := (floatLoop_whole_iff am r' (digitVal c') _ q).1 (by push_cast; exact h)
                subst h1
                rw [acc_dec] at h4
                rw [h4]
                rcases hsg with rfl | rfl
                · have := LooseFloat.whole ['+'] 1 c' w tail fv e .plus hd h2 h3
                  exact looseFloat_cast this (by rw [if_pos rfl]; push_cast; ring)
                · have := LooseFloat.whole ['-'] (-1) c' w tail fv e .minus hd h2 h3
                  exact looseFloat_cast this (by rw [if_neg (by decide)]; push_cast; ring)
              · exact absurd h (by simp)
          · by_cases hp : c = (if am = true then '.' else ',')
            · rw [if_pos hp] at h
              obtain ⟨fp, ex, e, h1, h2, h3, h4⟩ := (floatLoop_frac_iff am r 0 1 1 q).1 h
              subst h1
              have hp' : c = decimalPoint am := hp
              subst hp'
              have := LooseFloat.point _ _ e (by simp) (LooseFrac.some (american := am) fp ex e h2 h3)
              rw [h4]
              exact looseFloat_cast this (by ring)
            · rw [if_neg hp] at h
              exact absurd h (by simp)
  · intro h
    cases h with
    | whole sg f d w tail fv e h1 h2 h3 h4 =>
      rw [if_neg (by cases sg <;> simp)]
      have key : ∀ σ : Rat, (floatLoop am { value := (digitVal d : Rat), isFrac := false } (w ++ tail) >>= floatEnd σ) =
          .ok (((decVal (d :: w.filter Char.isDigit) : Rat) + fv) * σ * (10 : Rat) ^ e) := by
        intro σ
        have := (floatLoop_whole_iff am (w ++ tail) (digitVal d) σ _).2 ⟨w, tail, fv, e, rfl, h3, h4, rfl⟩
        rw [acc_dec] at this
        push_cast at this
        exact this
      cases h1 with
      | none =>
        unfold floatLocale
        dsimp only [List.nil_append]
        rw [if_pos h2]
        refine (key 1).trans ?_
        congr 1; push_cast; ring
      | plus =>
        unfold floatLocale
        dsimp only [List.cons_append, List.nil_append]
        rw [if_neg (by decide), if_pos (by simp), if_pos h2, if_pos rfl]
        refine (key 1).trans ?_
        congr 1; push_cast; ring
      | minus =>
        unfold floatLocale
        dsimp only [List.cons_append, List.nil_append]
        rw [if_neg (by decide), if_pos (by simp), if_pos h2, if_neg (by decide)]
        refine (key (-1)).trans ?_
        congr 1; push_cast; ring
    | point tail fv e h1 h2 =>
      cases h2 with
      | none => exact absurd rfl h1
      | some fp ex e h3 h4 =>
        rw [if_neg (by simp)]
        unfold floatLocale
        dsimp only
        rw [if_neg (by simp [hpd]), if_neg hps, if_pos (show decimalPoint am = (if am = true then '.' else ',') from rfl)]
        refine ((floatLoop_frac_iff am (fp ++ ex) 0 1 1 _).2 ⟨fp, ex, e, rfl, h3, h4, rfl⟩).trans ?_
        congr 1; ring

/-- `0,1234` is read as 1234 in the US, and `1.5e+1-1` as 0.15e-9: both are of the form -/
example : LooseFloat true "0,1234".toList 1234 ∧ LooseFloat true "1.5e+1-1".toList (15 / 10 ^ 12) :=
  ⟨(C68_exact noFloat true "0,1234".toList 1234).1 (by decide +kernel), (C68_exact noFloat true "1.5e+1-1".toList (15 / 10 ^ 12)).1 (by decide +kernel)⟩

end Tablite
