import Verif.Props.InferInt
import Verif.Props.Dates
/-!
# C39: dates in text

Specification: a date is written as three runs of digits separated twice by the same character out of blank, full stop, hyphen and slash, eight to ten
characters in all, with a year of four digits first (year-month-day, not in the US form) or last (day-month-year, or month-day-year in the US form).
-/

namespace Tablite

/-! ## specification -/

/-- `s` is written as the date `x`; `yearFirst` tells which of the orders is used -/
def DateText (american : Bool) (s : List Char) (yearFirst : Bool) (x : Int × Int × Int) : Prop :=
  ∃ (t : Char) (w0 w1 w2 : List Char), t ∈ [' ', '.', '-', '/'] ∧ Digits w0 ∧ Digits w1 ∧ Digits w2 ∧ w0 ≠ [] ∧ w1 ≠ [] ∧ w2 ≠ [] ∧
    s = w0 ++ t :: (w1 ++ t :: w2) ∧ 8 ≤ s.length ∧ s.length ≤ 10 ∧
    if yearFirst then american = false ∧ w0.length = 4 ∧ x = ((decVal w0 : Int), (decVal w1 : Int), (decVal w2 : Int))
    else w2.length = 4 ∧ x = if american then ((decVal w2 : Int), (decVal w0 : Int), (decVal w1 : Int)) else ((decVal w2 : Int), (decVal w1 : Int), (decVal w0 : Int))

/-- **C39** in full: text is inferred as a date exactly when it is a calendar date written in one of the forms -/
def C39_statement : Prop := ∀ (american : Bool) (s : List Char) (x : Int × Int × Int),
  inferDate false american s = .ok x ↔ (∃ yf, DateText american s yf x) ∧ ValidDate x ∧ 1 ≤ x.1

/-! ## proofs -/

theorem ebind_ok {α β : Type} {x : Except Err α} {f : α → Except Err β} {b : β} (h : (x >>= f) = .ok b) : ∃ a, x = .ok a ∧ f a = .ok b := by
  cases x with
  | error e => cases h
  | ok a => exact ⟨a, rfl, h⟩

theorem nimDigits_rest (l : List Char) (a v : Nat) (h : nimDigits a l = (v, [])) : ∀ c ∈ l, c.isDigit = true ∨ c = '_' := by
  induction l generalizing a with
  | nil => intro c hc; cases hc
  | cons c r ih =>
    rw [nimDigits] at h
    intro c' hc'
    by_cases hd : c.isDigit = true
    · rw [if_pos hd] at h
      rcases List.mem_cons.1 hc' with rfl | hc'
      · exact Or.inl hd
      · exact ih _ h c' hc'
    · rw [if_neg hd] at h
      by_cases hu : c = '_'
      · rw [if_pos hu] at h
        rcases List.mem_cons.1 hc' with rfl | hc'
        · exact Or.inr hu
        · exact ih _ h c' hc'
      · rw [if_neg hu] at h
        injection h with _ h; cases h

/-- no separator occurs behind the first character of an integer -/
theorem nimParseInt_tail (a : List Char) (ha : Digits a) (h0 : a ≠ []) (t : Char) (ht : t.isDigit = false ∧ t ≠ '_') (r : List Char) (v : Int) :
    nimParseInt (a ++ t :: r) ≠ .ok v := by
  obtain ⟨c, a', rfl⟩ := List.exists_cons_of_ne_nil h0
  intro h
  have hd := ha c List.mem_cons_self
  rw [nimParseInt, List.cons_append, nimSign_digit c hd] at h
  dsimp only at h
  rw [if_pos hd] at h
  by_cases hr : (nimDigits (digitVal c) (a' ++ t :: r)).2 = []
  · have := nimDigits_rest (a' ++ t :: r) (digitVal c) (nimDigits (digitVal c) (a' ++ t :: r)).1 (Prod.ext rfl hr) t (by simp)
    rcases this with h | h
    · rw [ht.1] at h; cases h
    · exact ht.2 h
  · rw [if_pos hr] at h; cases h

theorem decVal_lt (l : List Char) (h : Digits l) : decVal l < 10 ^ l.length := by
  have key : ∀ (l : List Char) (a : Nat), Digits l → l.foldl (fun a c => a * 10 + digitVal c) a < (a + 1) * 10 ^ l.length := by
    intro l
    induction l with
    | nil => intro a _; simp
    | cons c r ih =>
      intro a hd
      rw [List.foldl_cons, List.length_cons]
      have h1 := ih (a * 10 + digitVal c) (fun c' h' => hd c' (List.mem_cons_of_mem _ h'))
      have h2 := digitVal_lt c (hd c List.mem_cons_self)
      have h3 : (a * 10 + digitVal c + 1) * 10 ^ r.length ≤ ((a + 1) * 10) * 10 ^ r.length := Nat.mul_le_mul_right _ (by omega)
      have h4 : ((a + 1) * 10) * 10 ^ r.length = (a + 1) * 10 ^ (r.length + 1) := by ring
      omega
  have := key l 0 h
  rw [Nat.zero_add, Nat.one_mul] at this
  exact this

theorem nimParseInt_short (l : List Char) (h : Digits l) (h0 : l ≠ []) (hl : l.length ≤ 10) : nimParseInt l = .ok (decVal l : Int) := by
  have h1 := decVal_lt l h
  have h2 : 10 ^ l.length ≤ 10 ^ 10 := Nat.pow_le_pow_right (by decide) hl
  rw [nimParseInt_digits l h h0, if_pos (by omega)]

theorem wordsLoop_digits (at' : Bool) (ds : List Char) (hd : Digits ds) (r : List Char) :
    ∀ (first wd : Bool) (cur : List Char) (act : Option Char) (ws : List (List Char)), ds ≠ [] →
      dateWordsLoop at' first wd cur act ws (ds ++ r) = dateWordsLoop at' false true ((if wd then cur else []) ++ ds) act ws r := by
  induction ds with
  | nil => intro _ _ _ _ _ h; exact absurd rfl h
  | cons c ds ih =>
    intro first wd cur act ws _
    rw [List.cons_append, dateWordsLoop, if_pos (hd c List.mem_cons_self)]
    by_cases hds : ds = []
    · subst hds
      cases wd <;> rfl
    · rw [ih (fun c' h' => hd c' (List.mem_cons_of_mem _ h')) _ _ _ _ _ hds]
      cases wd <;> simp

theorem wordsLoop_prefix (at' : Bool) (l : List Char) : ∀ (first wd : Bool) (cur : List Char) (act : Option Char) (ws : List (List Char)) ws' cur' rest,
    dateWordsLoop at' first wd cur act ws l = .ok (ws', cur', rest) → ws <+: ws' := by
  induction l with
  | nil =>
    intro first wd cur act ws ws' cur' rest h
    rw [dateWordsLoop] at h
    cases h
    exact List.prefix_rfl
  | cons c r ih =>
    intro first wd cur act ws ws' cur' rest h
    rw [dateWordsLoop] at h
    by_cases h1 : c.isDigit = true
    · rw [if_pos h1] at h; exact ih _ _ _ _ _ _ _ _ h
    rw [if_neg h1] at h
    by_cases h2 : first = true
    · rw [if_pos h2] at h; cases h
    rw [if_neg h2] at h
    by_cases h3 : act ≠ none ∧ act ≠ some c
    · rw [if_pos h3] at h
      by_cases h4 : ws.length = 2 ∧ at' = true ∧ (c = ' ' ∨ c = 'T')
      · rw [if_pos h4] at h; cases h; exact List.prefix_rfl
      · rw [if_neg h4] at h; cases h
    rw [if_neg h3] at h
    by_cases h4 : ws.length ≥ 3
    · rw [if_pos h4] at h; cases h
    rw [if_neg h4] at h
    exact (List.prefix_append _ _).trans (ih _ _ _ _ _ _ _ _ h)

theorem token_mem (t : Char) : dateToken t = true ↔ t ∈ [' ', '.', '-', '/'] := by
  simp [dateToken, or_assoc]

theorem token_spec (t : Char) (h : dateToken t = true) : t.isDigit = false ∧ t ≠ '_' ∧ t.toNat ≤ 127 := by
  rw [token_mem] at h
  simp only [List.mem_cons, List.not_mem_nil, or_false] at h
  rcases h with rfl | rfl | rfl | rfl <;> decide

theorem digit_ascii (c : Char) (h : c.isDigit = true) : c.toNat ≤ 127 := by
  simp only [Char.isDigit, Bool.and_eq_true, decide_eq_true_eq] at h
  have h2 : c.toNat ≤ 57 := h.2
  omega

/-- leading digits and what follows -/
theorem split_digits (l : List Char) : ∃ d r, l = d ++ r ∧ Digits d ∧ (r = [] ∨ ∃ c r', r = c :: r' ∧ c.isDigit = false) := by
  induction l with
  | nil => exact ⟨[], [], rfl, by (intro c hc; cases hc), Or.inl rfl⟩
  | cons c l ih =>
    by_cases h : c.isDigit = true
    · obtain ⟨d, r, h1, h2, h3⟩ := ih
      refine ⟨c :: d, r, by rw [h1]; rfl, ?_, h3⟩
      intro c' hc'
      rcases List.mem_cons.1 hc' with rfl | hc'
      · exact h
      · exact h2 c' hc'
    · exact ⟨[], c :: l, rfl, by (intro c hc; cases hc), Or.inr ⟨c, l, rfl, by simpa using h⟩⟩

theorem dateHead_digits (at' : Bool) (l : List Char) (h : Digits l) : dateHead at' l = .ok false := by
  induction l with
  | nil => rfl
  | cons c r ih => rw [dateHead, if_pos (h c List.mem_cons_self), ih (fun c' h' => h c' (List.mem_cons_of_mem _ h'))]

theorem dateHead_token (at' : Bool) (l : List Char) (h : Digits l) (t : Char) (ht : t.isDigit = false) (r : List Char) :
    dateHead at' (l ++ t :: r) = if dateToken t then .ok true else if (t = ':' ∨ t = 'T') ∧ at' then dateHead at' r else .error .value := by
  induction l with
  | nil => rw [List.nil_append, dateHead, if_neg (by rw [ht]; decide)]
  | cons c r ih => rw [List.cons_append, dateHead, if_pos (h c List.mem_cons_self), ih (fun c' h' => h c' (List.mem_cons_of_mem _ h'))]

/-- the words that `guessDate` accepts are integers -/
theorem guessDate_parse {am : Bool} {w : List Char × List Char × List Char} {x : Int × Int × Int} (h : guessDate am w = .ok x) :
    (∃ a, nimParseInt w.1 = .ok a) ∧ (∃ b, nimParseInt w.2.1 = .ok b) ∧ (∃ c, nimParseInt w.2.2 = .ok c) := by
  unfold guessDate at h
  by_cases h4 : w.1.length = 4
  · rw [if_pos h4] at h
    obtain ⟨y, hy, h⟩ := ebind_ok h
    obtain ⟨a, ha, h⟩ := ebind_ok h
    obtain ⟨b, hb, h⟩ := ebind_ok h
    exact ⟨⟨_, hy⟩, ⟨_, ha⟩, ⟨_, hb⟩⟩
  · rw [if_neg h4] at h
    by_cases h5 : w.2.2.length = 4
    · rw [if_pos h5] at h
      obtain ⟨y, hy, h⟩ := ebind_ok h
      obtain ⟨a, ha, h⟩ := ebind_ok h
      obtain ⟨b, hb, h⟩ := ebind_ok h
      exact ⟨⟨_, ha⟩, ⟨_, hb⟩, ⟨_, hy⟩⟩
    · rw [if_neg h5] at h; cases h

/-- text with separators is cut at them -/
theorem parse_words (short : ShortDate) (hs : short ≠ .required) (w0 w1 w2 : List Char) (t : Char) (ht : dateToken t = true) (h0 : Digits w0) (h1 : Digits w1) (h2 : Digits w2)
    (n0 : w0 ≠ []) (n1 : w1 ≠ []) (n2 : w2 ≠ []) (hl : w0.length ≤ 4) :
    parseDateWords short false (w0 ++ t :: (w1 ++ t :: w2)) = .ok ((w0, w1, w2), []) := by
  obtain ⟨ht1, ht2, ht3⟩ := token_spec t ht
  unfold parseDateWords
  rw [if_neg]
  · have htake : (w0 ++ t :: (w1 ++ t :: w2)).take 5 = w0 ++ t :: (w1 ++ t :: w2).take (4 - w0.length) := by
      rw [List.take_append, List.take_of_length_le (by omega), show 5 - w0.length = (4 - w0.length) + 1 by omega, List.take_succ_cons]
    rw [htake, dateHead_token false w0 h0 t ht1, if_pos ht]
    dsimp only [bind, Except.bind]
    rw [if_pos rfl, if_neg hs, wordsLoop_digits false w0 h0 _ _ _ _ _ _ n0, dateWordsLoop, if_neg (by rw [ht1]; decide), if_neg (by decide), if_neg (by simp), if_neg (by decide),
      wordsLoop_digits false w1 h1 _ _ _ _ _ _ n1, dateWordsLoop, if_neg (by rw [ht1]; decide), if_neg (by decide), if_neg (by simp), if_neg (by simp)]
    have := wordsLoop_digits false w2 h2 [] false false ((if false = true then (if false = true then [] else []) ++ w0 ++ [t] else []) ++ w1 ++ [t]) (some t)
      ([] ++ [(if false = true then [] else []) ++ w0] ++ [(if false = true then (if false = true then [] else []) ++ w0 ++ [t] else []) ++ w1]) n2
    rw [List.append_nil] at this
    rw [this, dateWordsLoop]
    simp [n2]
  · simp only [List.any_eq_true, decide_eq_true_eq, not_exists, not_and, Nat.not_lt]
    intro c hc
    rcases List.mem_append.1 hc with hc | hc
    · exact digit_ascii c (h0 c hc)
    rcases List.mem_cons.1 hc with rfl | hc
    · exact ht3
    rcases List.mem_append.1 hc with hc | hc
    · exact digit_ascii c (h1 c hc)
    rcases List.mem_cons.1 hc with rfl | hc
    · exact ht3
    · exact digit_ascii c (h2 c hc)

/-- conversely, text whose words are integers consists of three runs of digits and two equal separators -/
theorem words_parse (s : List Char) (w : List Char × List Char × List Char) (rest : List Char) (h : parseDateWords .never false s = .ok (w, rest))
    (hp1 : ∃ b, nimParseInt w.2.1 = .ok b) (hp2 : ∃ c, nimParseInt w.2.2 = .ok c) :
    ∃ t w0 w1 w2, dateToken t = true ∧ Digits w0 ∧ Digits w1 ∧ Digits w2 ∧ w0 ≠ [] ∧ w1 ≠ [] ∧ w2 ≠ [] ∧ w0.length ≤ 4 ∧ s = w0 ++ t :: (w1 ++ t :: w2) := by
  unfold parseDateWords at h
  split at h
  · cases h
  obtain ⟨ht, hh, h⟩ := ebind_ok h
  cases ht with
  | false =>
    rw [if_neg (by decide), if_pos (Or.inr rfl)] at h; cases h
  | true =>
    rw [if_pos rfl, if_neg (by decide)] at h
    obtain ⟨⟨ws, cur, rest'⟩, hl, h⟩ := ebind_ok h
    dsimp only at h
    obtain ⟨d0, r0, rfl, hd0, hr0⟩ := split_digits s
    have n0 : d0 ≠ [] := by
      rintro rfl
      rw [List.nil_append] at hl hh
      rcases hr0 with rfl | ⟨c, r', rfl, hc⟩
      · rw [dateWordsLoop] at hl; cases hl; cases h
      · rw [dateWordsLoop, if_neg (by rw [hc]; decide), if_pos rfl] at hl; cases hl
    rcases hr0 with rfl | ⟨t, r0, rfl, ht⟩
    · rw [dateHead_digits false _ (by intro c hc; exact hd0 c (by simpa using List.mem_of_mem_take hc))] at hh; cases hh
    have hlen : d0.length ≤ 4 := by
      by_contra hc
      rw [List.take_append_of_le_length (by omega), dateHead_digits false _ (fun c hc => hd0 c (List.mem_of_mem_take hc))] at hh
      cases hh
    have htok : dateToken t = true := by
      rw [List.take_append, List.take_of_length_le (by omega), show 5 - d0.length = (4 - d0.length) + 1 by omega, List.take_succ_cons, dateHead_token false d0 hd0 t ht] at hh
      by_contra hc
      rw [if_neg hc, if_neg (by simp)] at hh; cases hh
    obtain ⟨ht1, ht2, _⟩ := token_spec t htok
    rw [wordsLoop_digits false d0 hd0 _ _ _ _ _ _ n0, dateWordsLoop, if_neg (by rw [ht]; decide), if_neg (by decide), if_neg (by simp), if_neg (by decide)] at hl
    have hl : dateWordsLoop false false false (d0 ++ [t]) (some t) [d0] r0 = .ok (ws, cur, rest') := hl
    obtain ⟨d1, r1, rfl, hd1, hr1⟩ := split_digits r0
    by_cases n1 : d1 = []
    · subst n1
      rw [List.nil_append] at hl
      rcases hr1 with rfl | ⟨c, r1, rfl, hc⟩
      · rw [dateWordsLoop] at hl; cases hl; cases h
      · rw [dateWordsLoop, if_neg (by rw [hc]; decide), if_neg (by decide)] at hl
        by_cases hct : c = t
        · subst hct
          rw [if_neg (by simp), if_neg (by simp)] at hl
          obtain ⟨z, hz⟩ := wordsLoop_prefix _ _ _ _ _ _ _ _ _ _ hl
          subst hz
          cases z with
          | nil =>
            exfalso
            have h : (if cur = [] then (.error .value : Except Err _) else .ok ((d0, d0 ++ [c], cur), rest')) = .ok (w, rest) := h
            by_cases hcur : cur = []
            · rw [if_pos hcur] at h; cases h
            · rw [if_neg hcur] at h; cases h
              obtain ⟨b, hb⟩ := hp1
              exact nimParseInt_tail d0 hd0 n0 c ⟨ht1, ht2⟩ [] b hb
          | cons z zs => cases h
        · rw [if_pos ⟨by simp, fun h => hct (by injection h with h; exact h.symm)⟩, if_neg (by simp)] at hl; cases hl
    rw [wordsLoop_digits false d1 hd1 _ _ _ _ _ _ n1] at hl
    rcases hr1 with rfl | ⟨c, r1, rfl, hc⟩
    · rw [dateWordsLoop] at hl; cases hl; cases h
    rw [dateWordsLoop, if_neg (by rw [hc]; decide), if_neg (by decide)] at hl
    by_cases hct : c = t
    swap
    · rw [if_pos ⟨by simp, fun h => hct (by injection h with h; exact h.symm)⟩, if_neg (by simp)] at hl; cases hl
    subst hct
    rw [if_neg (by simp), if_neg (by simp)] at hl
    have hl : dateWordsLoop false false false (d1 ++ [c]) (some c) [d0, d1] r1 = .ok (ws, cur, rest') := hl
    obtain ⟨d2, r2, rfl, hd2, hr2⟩ := split_digits r1
    have three : ∀ (x : List Char) (a b : Bool) (cu : List Char) (ac : Option Char) (l : List Char), dateWordsLoop false a b cu ac ([d0, d1] ++ [x]) l = .ok (ws, cur, rest') → False := by
      intro x a b cu ac l hx
      obtain ⟨z, hz⟩ := wordsLoop_prefix _ _ _ _ _ _ _ _ _ _ hx
      subst hz
      cases h
    by_cases n2 : d2 = []
    · subst n2
      exfalso
      rw [List.nil_append] at hl
      rcases hr2 with rfl | ⟨c', r2, rfl, hc'⟩
      · rw [dateWordsLoop] at hl
        cases hl
        have h : (if d1 ++ [c] = [] then (.error .value : Except Err _) else .ok ((d0, d1, d1 ++ [c]), [])) = .ok (w, rest) := h
        rw [if_neg (by simp)] at h
        cases h
        obtain ⟨b, hb⟩ := hp2
        exact nimParseInt_tail d1 hd1 n1 c ⟨ht1, ht2⟩ [] b hb
      · rw [dateWordsLoop, if_neg (by rw [hc']; decide), if_neg (by decide)] at hl
        by_cases hct : c' = c
        · subst hct
          rw [if_neg (by simp), if_neg (by simp)] at hl
          exact three _ _ _ _ _ _ hl
        · rw [if_pos ⟨by simp, fun h => hct (by injection h with h; exact h.symm)⟩, if_neg (by simp)] at hl; cases hl
    rcases hr2 with rfl | ⟨c', r2, rfl, hc'⟩
    · refine ⟨c, d0, d1, d2, htok, hd0, hd1, hd2, n0, n1, n2, hlen, by simp⟩
    · exfalso
      rw [wordsLoop_digits false d2 hd2 _ _ _ _ _ _ n2, dateWordsLoop, if_neg (by rw [hc']; decide), if_neg (by decide)] at hl
      by_cases hct : c' = c
      · subst hct
        rw [if_neg (by simp), if_neg (by simp)] at hl
        exact three _ _ _ _ _ _ hl
      · rw [if_pos ⟨by simp, fun h => hct (by injection h with h; exact h.symm)⟩, if_neg (by simp)] at hl; cases hl

theorem daysInMonth_eq (y m : Int) (h1 : 1 ≤ m) (h2 : m ≤ 12) : getDaysInMonth y m = monthLen y m := by
  rw [monthLen_eq]
  unfold getDaysInMonth
  generalize isLeapYear y = b
  obtain ⟨k, rfl⟩ : ∃ k : Nat, m = k := ⟨m.toNat, by omega⟩
  have : ∀ b : Bool, ∀ k : Nat, k < 13 → 1 ≤ k → (monthTable b).getD ((k : Int) - 1).toNat 0 = monthLenB b k := by decide
  exact this b k (by omega) (by omega)

/-- `wordsToDate` on digits -/
theorem wordsToDate_digits (am : Bool) (w0 w1 w2 : List Char) (h0 : Digits w0) (h1 : Digits w1) (h2 : Digits w2) (n0 : w0 ≠ []) (n1 : w1 ≠ []) (n2 : w2 ≠ [])
    (hl : w0.length + w1.length + w2.length ≤ 8) (x : Int × Int × Int) :
    wordsToDate am (w0, w1, w2) = .ok x ↔
      (1 ≤ x.2.1 ∧ x.2.1 ≤ 12 ∧ x.2.2 ≤ monthLen x.1 x.2.1) ∧
      ((w0.length = 4 ∧ am = false ∧ x = ((decVal w0 : Int), (decVal w1 : Int), (decVal w2 : Int))) ∨
       (w0.length ≠ 4 ∧ w2.length = 4 ∧ (x = if am then ((decVal w2 : Int), (decVal w0 : Int), (decVal w1 : Int)) else ((decVal w2 : Int), (decVal w1 : Int), (decVal w0 : Int))) ∧
        1 ≤ x.2.2 ∧ (x.2.1 = 12 → x.2.2 ≤ 12))) := by
  have l0 : 0 < w0.length := List.length_pos_iff.2 n0
  have l1 : 0 < w1.length := List.length_pos_iff.2 n1
  have l2 : 0 < w2.length := List.length_pos_iff.2 n2
  have p0 := nimParseInt_short w0 h0 n0 (by omega)
  have p1 := nimParseInt_short w1 h1 n1 (by omega)
  have p2 := nimParseInt_short w2 h2 n2 (by omega)
  have y0 : w0.length = 4 → decVal w0 ≤ 9999 := by intro h; have := decVal_lt w0 h0; rw [h] at this; omega
  have y2 : w2.length = 4 → decVal w2 ≤ 9999 := by intro h; have := decVal_lt w2 h2; rw [h] at this; omega
  have fin : ∀ y m d : Int, 0 ≤ y → y ≤ 9999 → 0 ≤ d →
      ((if y < 0 ∨ y > 9999 then (.error .value : Except Err (Int × Int × Int)) else if m < 1 ∨ m > 12 then .error .value
        else if getDaysInMonth y m < d ∨ d < 0 then .error .value else .ok (y, m, d)) = .ok x ↔
        (1 ≤ x.2.1 ∧ x.2.1 ≤ 12 ∧ x.2.2 ≤ monthLen x.1 x.2.1) ∧ x = (y, m, d)) := by
    intro y m d hy hy' hd
    rw [if_neg (by omega)]
    by_cases hm : m < 1 ∨ m > 12
    · rw [if_pos hm]
      constructor
      · intro h; cases h
      · rintro ⟨⟨ha, hb, _⟩, rfl⟩
        dsimp only at ha hb
        omega
    · rw [if_neg hm, daysInMonth_eq y m (by omega) (by omega)]
      by_cases hdd : monthLen y m < d ∨ d < 0
      · rw [if_pos hdd]
        constructor
        · intro h; cases h
        · rintro ⟨⟨_, _, hc⟩, rfl⟩
          dsimp only at hc
          omega
      · rw [if_neg hdd]
        constructor
        · intro h
          cases h
          dsimp only
          refine ⟨⟨by omega, by omega, by omega⟩, rfl⟩
        · rintro ⟨_, rfl⟩; rfl
  unfold wordsToDate guessDate
  dsimp only
  by_cases h4 : w0.length = 4
  · rw [if_pos h4, p0, p1, p2]
    cases am with
    | true =>
      constructor
      · intro h; cases h
      · rintro ⟨_, ⟨_, h, _⟩ | ⟨h, _⟩⟩
        · cases h
        · exact absurd h4 h
    | false =>
      refine (fin (decVal w0) (decVal w1) (decVal w2) (by omega) (by have := y0 h4; omega) (by omega)).trans ?_
      constructor
      · rintro ⟨h, rfl⟩; exact ⟨h, Or.inl ⟨h4, rfl, rfl⟩⟩
      · rintro ⟨h, ⟨_, _, h'⟩ | ⟨h', _⟩⟩
        · exact ⟨h, h'⟩
        · exact absurd h4 h'
  · rw [if_neg h4]
    by_cases h5 : w2.length = 4
    · rw [if_pos h5, p0, p1, p2]
      have hy := y2 h5
      generalize decVal w0 = a at *
      generalize decVal w1 = b at *
      generalize decVal w2 = y at *
      show ((if (a : Int) ≤ 0 ∨ (b : Int) ≤ 0 ∨ ((a : Int) > 12 ∧ (b : Int) > 12) then (.error .value : Except Err (Int × Int × Int))
        else if (a : Int) ≤ 12 ∧ (b : Int) ≤ 12 then (if am then .ok ((y : Int), (a : Int), (b : Int)) else .ok ((y : Int), (b : Int), (a : Int)))
        else if (a : Int) < 12 then (if am then .ok ((y : Int), (a : Int), (b : Int)) else .error .value)
        else if (b : Int) < 12 then (if am then .error .value else .ok ((y : Int), (b : Int), (a : Int)))
        else .error .value) >>= _) = _ ↔ _
      have fin1 := fin (y : Int) (a : Int) (b : Int) (by omega) (by omega) (by omega)
      have fin2 := fin (y : Int) (b : Int) (a : Int) (by omega) (by omega) (by omega)
      by_cases c1 : (a : Int) ≤ 0 ∨ (b : Int) ≤ 0 ∨ ((a : Int) > 12 ∧ (b : Int) > 12)
      · rw [if_pos c1]
        constructor
        · intro h; cases h
        · rintro ⟨⟨m1, m2, m3⟩, ⟨h, _⟩ | ⟨_, _, h, h1, h2⟩⟩
          · exact absurd h h4
          · exfalso
            cases am
            · subst h; simp only [Bool.false_eq_true, if_false] at m1 m2 h1; omega
            · subst h; simp only [if_true] at m1 m2 h1; omega
      rw [if_neg c1]
      by_cases c2 : (a : Int) ≤ 12 ∧ (b : Int) ≤ 12
      · rw [if_pos c2]
        cases am
        · refine fin2.trans ⟨?_, ?_⟩
          · rintro ⟨h, rfl⟩; exact ⟨h, Or.inr ⟨h4, h5, rfl, by dsimp only; omega, by dsimp only; omega⟩⟩
          · rintro ⟨h, ⟨h', _⟩ | ⟨_, _, h', _⟩⟩
            · exact absurd h' h4
            · exact ⟨h, h'⟩
        · refine fin1.trans ⟨?_, ?_⟩
          · rintro ⟨h, rfl⟩; exact ⟨h, Or.inr ⟨h4, h5, rfl, by dsimp only; omega, by dsimp only; omega⟩⟩
          · rintro ⟨h, ⟨h', _⟩ | ⟨_, _, h', _⟩⟩
            · exact absurd h' h4
            · exact ⟨h, h'⟩
      rw [if_neg c2]
      by_cases c3 : (a : Int) < 12
      · rw [if_pos c3]
        cases am
        · constructor
          · intro h; cases h
          · rintro ⟨⟨m1, m2, m3⟩, ⟨h, _⟩ | ⟨_, _, h, h1, h2⟩⟩
            · exact absurd h h4
            · subst h; simp only [Bool.false_eq_true, if_false] at m1 m2 h1; omega
        · refine fin1.trans ⟨?_, ?_⟩
          · rintro ⟨h, rfl⟩; exact ⟨h, Or.inr ⟨h4, h5, rfl, by dsimp only; omega, by dsimp only; omega⟩⟩
          · rintro ⟨h, ⟨h', _⟩ | ⟨_, _, h', _⟩⟩
            · exact absurd h' h4
            · exact ⟨h, h'⟩
      rw [if_neg c3]
      by_cases c4 : (b : Int) < 12
      · rw [if_pos c4]
        cases am
        · refine fin2.trans ⟨?_, ?_⟩
          · rintro ⟨h, rfl⟩; exact ⟨h, Or.inr ⟨h4, h5, rfl, by dsimp only; omega, by dsimp only; omega⟩⟩
          · rintro ⟨h, ⟨h', _⟩ | ⟨_, _, h', _⟩⟩
            · exact absurd h' h4
            · exact ⟨h, h'⟩
        · constructor
          · intro h; cases h
          · rintro ⟨⟨m1, m2, m3⟩, ⟨h, _⟩ | ⟨_, _, h, h1, h2⟩⟩
            · exact absurd h h4
            · subst h; simp only [if_true] at m1 m2 h1 h2; omega
      rw [if_neg c4]
      constructor
      · intro h; cases h
      · rintro ⟨⟨m1, m2, m3⟩, ⟨h, _⟩ | ⟨_, _, h, h1, h2⟩⟩
        · exact absurd h h4
        · exfalso
          cases am
          · subst h; simp only [Bool.false_eq_true, if_false] at m1 m2 h1 h2; omega
          · subst h; simp only [if_true] at m1 m2 h1 h2; omega
    · rw [if_neg h5]
      constructor
      · intro h; cases h
      · rintro ⟨_, ⟨h, _⟩ | ⟨_, h, _⟩⟩
        · exact absurd h h4
        · exact absurd h h5

/-- **C39** exactly which texts are inferred as dates: text in one of the forms whose month is 1 to 12 and whose day is not beyond the end of the month; with
the year last the day is at least 1, and in December at most 12. -/
theorem C39_exact (am : Bool) (s : List Char) (x : Int × Int × Int) :
    inferDate false am s = .ok x ↔ ∃ yf, DateText am s yf x ∧ 1 ≤ x.2.1 ∧ x.2.1 ≤ 12 ∧ x.2.2 ≤ monthLen x.1 x.2.1 ∧
      (yf = false → 1 ≤ x.2.2 ∧ (x.2.1 = 12 → x.2.2 ≤ 12)) := by
  unfold inferDate
  by_cases hlen : s.length > 10 ∨ s.length < 8
  · rw [if_pos hlen]
    constructor
    · intro h; cases h
    · rintro ⟨yf, ⟨t, w0, w1, w2, _, _, _, _, _, _, _, _, h8, h10, _⟩, _⟩
      omega
  · rw [if_neg hlen]
    constructor
    · intro h
      obtain ⟨⟨w, rest⟩, hw, h⟩ := ebind_ok h
      dsimp only at h
      have hg : ∃ y, guessDate am w = .ok y := by
        unfold wordsToDate at h
        obtain ⟨y, hy, _⟩ := ebind_ok h
        exact ⟨y, hy⟩
      obtain ⟨y, hg⟩ := hg
      obtain ⟨_, hp1, hp2⟩ := guessDate_parse hg
      obtain ⟨t, w0, w1, w2, ht, h0, h1, h2, n0, n1, n2, hl, hs⟩ := words_parse s w rest hw hp1 hp2
      have := parse_words .never (by decide) w0 w1 w2 t ht h0 h1 h2 n0 n1 n2 hl
      rw [← hs] at this
      have hw : parseDateWords .never false s = .ok (w, rest) := hw
      rw [this] at hw
      cases hw
      have hsl : s.length = w0.length + w1.length + w2.length + 2 := by rw [hs]; simp; omega
      obtain ⟨⟨m1, m2, m3⟩, hx⟩ := (wordsToDate_digits am w0 w1 w2 h0 h1 h2 n0 n1 n2 (by omega) x).1 h
      rcases hx with ⟨l4, ha, hx⟩ | ⟨l4, l5, hx, d1, d2⟩
      · exact ⟨true, ⟨t, w0, w1, w2, (token_mem t).1 ht, h0, h1, h2, n0, n1, n2, hs, by omega, by omega, by rw [if_pos rfl]; exact ⟨ha, l4, hx⟩⟩, m1, m2, m3, by simp⟩
      · exact ⟨false, ⟨t, w0, w1, w2, (token_mem t).1 ht, h0, h1, h2, n0, n1, n2, hs, by omega, by omega, by rw [if_neg (by decide)]; exact ⟨l5, hx⟩⟩, m1, m2, m3, fun _ => ⟨d1, d2⟩⟩
    · rintro ⟨yf, ⟨t, w0, w1, w2, ht, h0, h1, h2, n0, n1, n2, hs, h8, h10, hx⟩, m1, m2, m3, hd⟩
      have hsl : s.length = w0.length + w1.length + w2.length + 2 := by rw [hs]; simp; omega
      have l0 : 0 < w0.length := List.length_pos_iff.2 n0
      have l1 : 0 < w1.length := List.length_pos_iff.2 n1
      have l2 : 0 < w2.length := List.length_pos_iff.2 n2
      have hcase : w0.length ≤ 4 ∧ (yf = true ↔ w0.length = 4) := by
        cases yf
        · rw [if_neg (by decide)] at hx
          refine ⟨by omega, ?_⟩
          constructor
          · intro h; cases h
          · intro h; omega
        · rw [if_pos rfl] at hx
          exact ⟨by omega, by simp [hx.2.1]⟩
      have hp := parse_words .never (by decide) w0 w1 w2 t ((token_mem t).2 ht) h0 h1 h2 n0 n1 n2 hcase.1
      rw [← hs] at hp
      show (parseDateWords .never false s >>= _) = _
      rw [hp]
      show wordsToDate am (w0, w1, w2) = _
      rw [wordsToDate_digits am w0 w1 w2 h0 h1 h2 n0 n1 n2 (by omega) x]
      refine ⟨⟨m1, m2, m3⟩, ?_⟩
      cases yf
      · rw [if_neg (by decide)] at hx
        exact Or.inr ⟨fun h => (by have := hcase.2.2 h; cases this), hx.1, hx.2, hd rfl⟩
      · rw [if_pos rfl] at hx
        exact Or.inl ⟨hx.2.1, hx.1, hx.2.2⟩

/-- **C39**, partial: the full statement for every `x` with year and day at least 1 that is not a date after the 12th of December.  Missing: those dates, which
are rejected when the year comes last, and the year 0 and day 0, which are accepted (see `C39_fails`). -/
theorem C39_partial (am : Bool) (s : List Char) (x : Int × Int × Int) (hy : 1 ≤ x.1) (hd : 1 ≤ x.2.2) (h12 : x.2.1 = 12 → x.2.2 ≤ 12) :
    inferDate false am s = .ok x ↔ (∃ yf, DateText am s yf x) ∧ ValidDate x ∧ 1 ≤ x.1 := by
  rw [C39_exact]
  constructor
  · rintro ⟨yf, h, m1, m2, m3, _⟩
    exact ⟨⟨yf, h⟩, ⟨m1, m2, hd, m3⟩, hy⟩
  · rintro ⟨⟨yf, h⟩, ⟨m1, m2, _, m3⟩, _⟩
    exact ⟨yf, h, m1, m2, m3, fun _ => ⟨hd, h12⟩⟩

/-- year first: every calendar date is accepted -/
theorem C39_year_first (s : List Char) (x : Int × Int × Int) (h : DateText false s true x) (hv : ValidDate x) : inferDate false false s = .ok x :=
  (C39_exact false s x).2 ⟨true, h, hv.1, hv.2.1, hv.2.2.2, by simp⟩

example : DateText false "2024-02-29".toList true (2024, 2, 29) ∧ ValidDate (2024, 2, 29) ∧ DateText true "2/29/2024".toList false (2024, 2, 29) := by
  refine ⟨⟨'-', "2024".toList, "02".toList, "29".toList, by decide, by unfold Digits; decide, by unfold Digits; decide, by unfold Digits; decide, by decide, by decide, by decide, by decide, by decide, by decide, by decide⟩,
    by unfold ValidDate; decide,
    ⟨'/', "2".toList, "29".toList, "2024".toList, by decide, by unfold Digits; decide, by unfold Digits; decide, by unfold Digits; decide, by decide, by decide, by decide, by decide, by decide, by decide, by decide⟩⟩

/-- the last day of the year is not recognised -/
theorem C39_december_fails : inferDate false false "31/12/2024".toList = .error .value ∧ inferDate false true "12/31/2024".toList = .error .value ∧
    DateText false "31/12/2024".toList false (2024, 12, 31) ∧ ValidDate (2024, 12, 31) := by
  refine ⟨by decide +kernel, by decide +kernel, ⟨'/', "31".toList, "12".toList, "2024".toList, by decide, by unfold Digits; decide, by unfold Digits; decide, by unfold Digits; decide, by decide, by decide, by decide, by decide, by decide, by decide, by decide⟩, by unfold ValidDate; decide⟩

/-- a day that does not exist is recognised -/
theorem C39_day_zero_fails : inferDate false false "2024-01-00".toList = .ok (2024, 1, 0) := by decide +kernel

/-- **C39** fails in both directions -/
theorem C39_fails : ¬ C39_statement := by
  intro h
  have := ((h false _ _).1 C39_day_zero_fails).2.1.2.2.1
  revert this
  decide

/-- **C39** text with more separators than a date has makes the parser write behind the end of its array -/
theorem C39_bounds_fails : inferDate false false "1-2-3-4-5".toList = .error .index := by decide +kernel

/-! ## short dates -/

/-- **C39**, partial: eight digits are inferred as the date YYYYMMDD exactly when the month and the day are not too large -/
theorem C39_short_partial (s : List Char) (hs : Digits s) (hl : s.length = 8) (x : Int × Int × Int) :
    inferDate true false s = .ok x ↔ x = ((decVal (s.take 4) : Int), (decVal ((s.drop 4).take 2) : Int), (decVal (s.drop 6) : Int)) ∧
      1 ≤ x.2.1 ∧ x.2.1 ≤ 12 ∧ x.2.2 ≤ monthLen x.1 x.2.1 := by
  have e1 : (s.take 4).length = 4 := by rw [List.length_take]; omega
  have e2 : ((s.drop 4).take 2).length = 2 := by rw [List.length_take, List.length_drop]; omega
  have e3 : (s.drop 6).length = 2 := by rw [List.length_drop]; omega
  have h3 : (s.drop 6).take 2 = s.drop 6 := List.take_of_length_le (by omega)
  have key := wordsToDate_digits false (s.take 4) ((s.drop 4).take 2) (s.drop 6) (fun c h => hs c (List.mem_of_mem_take h))
    (fun c h => hs c (List.mem_of_mem_drop (List.mem_of_mem_take h))) (fun c h => hs c (List.mem_of_mem_drop h))
    (by intro h; rw [h] at e1; cases e1) (by intro h; rw [h] at e2; cases e2) (by intro h; rw [h] at e3; cases e3) (by omega) x
  unfold inferDate
  rw [if_neg (by omega), if_pos rfl]
  unfold parseDateWords
  rw [if_neg, dateHead_digits false _ (fun c h => hs c (List.mem_of_mem_take h))]
  · dsimp only [bind, Except.bind]
    rw [if_neg (by decide), if_neg (by intro h; rcases h with h | h; omega; cases h), h3]
    refine Iff.trans key ?_
    constructor
    · rintro ⟨h, ⟨_, _, hx⟩ | ⟨h', _⟩⟩
      · exact ⟨hx, h⟩
      · exact absurd e1 h'
    · rintro ⟨hx, h⟩
      exact ⟨h, Or.inl ⟨e1, rfl, hx⟩⟩
  · simp only [List.any_eq_true, decide_eq_true_eq, not_exists, not_and, Nat.not_lt]
    exact fun c hc => digit_ascii c (hs c hc)

example : Digits "20240229".toList ∧ "20240229".toList.length = 8 ∧ inferDate true false "20240229".toList = .ok (2024, 2, 29) := by
  refine ⟨by unfold Digits; decide, by decide, by decide +kernel⟩

/-- text after the eighth character is ignored: a number of ten digits is inferred as a date, which loses its last two digits -/
theorem C39_short_fails : inferDate true false "2012051234".toList = .ok (2012, 5, 12) ∧ inferDate true false "2012051299".toList = .ok (2012, 5, 12) := by
  constructor <;> decide +kernel

end Tablite
