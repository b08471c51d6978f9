import Verif.Props.RankExact
import Verif.Props.InferDate
/-!
# C39: exactly which texts make the reader of dates write behind the end of its array
-/
namespace Tablite

/-- `n` separators `t`, with nothing but digits before each of them -/
def manySeps (t : Char) : Nat → List Char → Prop
  | 0, _ => True
  | n + 1, s => ∃ d rest, s = d ++ t :: rest ∧ Digits d ∧ manySeps t n rest

theorem manySeps_digit (t c : Char) (hc : c.isDigit = true) (ht : t.isDigit = false) (n : Nat) (s : List Char) : manySeps t (n + 1) (c :: s) ↔ manySeps t (n + 1) s := by
  constructor
  · rintro ⟨d, rest, e, hd, h⟩
    cases d with
    | nil =>
      simp only [List.nil_append, List.cons.injEq] at e
      rw [e.1, ht] at hc
      cases hc
    | cons x d =>
      simp only [List.cons_append, List.cons.injEq] at e
      exact ⟨d, rest, e.2, fun y hy => hd y (by simp [hy]), h⟩
  · rintro ⟨d, rest, rfl, hd, h⟩
    refine ⟨c :: d, rest, rfl, ?_, h⟩
    intro y hy
    rcases List.mem_cons.1 hy with rfl | hy
    · exact hc
    · exact hd y hy

theorem manySeps_other (t c : Char) (hc : c.isDigit = false) (hct : c ≠ t) (n : Nat) (s : List Char) : ¬ manySeps t (n + 1) (c :: s) := by
  rintro ⟨d, rest, e, hd, h⟩
  cases d with
  | nil =>
    simp only [List.nil_append, List.cons.injEq] at e
    exact hct e.1
  | cons x d =>
    simp only [List.cons_append, List.cons.injEq] at e
    have := hd x (by simp)
    rw [← e.1, hc] at this
    cases this

theorem manySeps_sep (t : Char) (ht : t.isDigit = false) (n : Nat) (s : List Char) : manySeps t (n + 1) (t :: s) ↔ manySeps t n s := by
  constructor
  · rintro ⟨d, rest, e, hd, h⟩
    cases d with
    | nil =>
      simp only [List.nil_append, List.cons.injEq] at e
      rw [e.2]; exact h
    | cons x d =>
      simp only [List.cons_append, List.cons.injEq] at e
      have := hd x (by simp)
      rw [← e.1, ht] at this
      cases this
  · intro h
    exact ⟨[], s, rfl, fun y hy => by simp at hy, h⟩

theorem wordsLoop_index (allowTime : Bool) (t : Char) (ht : t.isDigit = false) (s : List Char) : ∀ (wd : Bool) (cur : List Char) (words : List (List Char)) (j : Nat),
    words.length + j = 3 → (dateWordsLoop allowTime false wd cur (some t) words s = .error .index ↔ manySeps t (j + 1) s) := by
  induction s with
  | nil =>
    intro wd cur words j _
    refine iff_of_false (by simp [dateWordsLoop]) ?_
    rintro ⟨d, rest, e, -⟩
    simp at e
  | cons c s ih =>
    intro wd cur words j hj
    rw [dateWordsLoop]
    by_cases hc : c.isDigit = true
    · rw [if_pos hc, manySeps_digit t c hc ht]
      exact ih _ _ _ _ hj
    · have hcf : c.isDigit = false := by simpa using hc
      rw [if_neg hc, if_neg (by decide)]
      by_cases hct : c = t
      · subst hct
        rw [if_neg (by simp), manySeps_sep c ht]
        by_cases hw : words.length ≥ 3
        · rw [if_pos hw]
          obtain rfl : j = 0 := by omega
          exact iff_of_true rfl trivial
        · rw [if_neg hw]
          obtain ⟨j, rfl⟩ : ∃ j', j = j' + 1 := ⟨j - 1, by omega⟩
          exact ih _ _ _ _ (by simp only [List.length_append, List.length_singleton]; omega)
      · rw [if_pos ⟨by simp, by simpa using Ne.symm hct⟩]
        refine iff_of_false ?_ (manySeps_other t c hcf hct j s)
        split <;> simp

/-- spec: digits and then four times the same separator, with nothing but digits between -/
def FourSeps (s : List Char) : Prop := ∃ a t rest, s = a ++ t :: rest ∧ Digits a ∧ a ≠ [] ∧ t.isDigit = false ∧ manySeps t 3 rest

theorem wordsLoop_start (allowTime : Bool) (a : List Char) (ha : Digits a) : ∀ (wd : Bool) (cur : List Char) (rest : List Char),
    ∃ wd' cur', dateWordsLoop allowTime false wd cur none [] (a ++ rest) = dateWordsLoop allowTime false wd' cur' none [] rest := by
  induction a with
  | nil => intro wd cur rest; exact ⟨wd, cur, rfl⟩
  | cons c a ih =>
    intro wd cur rest
    rw [List.cons_append, dateWordsLoop, if_pos (ha c (by simp))]
    exact ih (fun x hx => ha x (by simp [hx])) _ _ _

theorem digits_split (s : List Char) : Digits s ∨ ∃ a t rest, s = a ++ t :: rest ∧ Digits a ∧ t.isDigit = false := by
  induction s with
  | nil => exact .inl fun c hc => by simp at hc
  | cons c s ih =>
    by_cases hc : c.isDigit = true
    · rcases ih with h | ⟨a, t, rest, rfl, ha, ht⟩
      · left
        intro x hx
        rcases List.mem_cons.1 hx with rfl | hx
        · exact hc
        · exact h x hx
      · right
        refine ⟨c :: a, t, rest, rfl, ?_, ht⟩
        intro x hx
        rcases List.mem_cons.1 hx with rfl | hx
        · exact hc
        · exact ha x hx
    · exact .inr ⟨[], c, s, rfl, fun x hx => by simp at hx, by simpa using hc⟩

theorem split_unique (a b : List Char) (t u : Char) (r q : List Char) (ha : Digits a) (hb : Digits b) (ht : t.isDigit = false) (hu : u.isDigit = false)
    (h : a ++ t :: r = b ++ u :: q) : a = b ∧ t = u ∧ r = q := by
  induction a generalizing b with
  | nil =>
    cases b with
    | nil => simpa using h
    | cons x b =>
      simp only [List.nil_append, List.cons_append, List.cons.injEq] at h
      have := hb x (by simp)
      rw [← h.1, ht] at this
      cases this
  | cons y a ih =>
    cases b with
    | nil =>
      simp only [List.nil_append, List.cons_append, List.cons.injEq] at h
      have := ha y (by simp)
      rw [h.1, hu] at this
      cases this
    | cons x b =>
      simp only [List.cons_append, List.cons.injEq] at h
      obtain ⟨h1, h2, h3⟩ := ih b (fun z hz => ha z (by simp [hz])) (fun z hz => hb z (by simp [hz])) h.2
      exact ⟨by rw [h.1, h1], h2, h3⟩

theorem wordsLoop_four (allowTime : Bool) (s : List Char) : dateWordsLoop allowTime true false [] none [] s = .error .index ↔ FourSeps s := by
  rcases digits_split s with hd | ⟨a, t, rest, rfl, ha, ht⟩
  · refine iff_of_false ?_ ?_
    · cases s with
      | nil => simp [dateWordsLoop]
      | cons c s =>
        rw [dateWordsLoop, if_pos (hd c (by simp))]
        obtain ⟨wd', cur', e⟩ := wordsLoop_start allowTime s (fun x hx => hd x (by simp [hx])) true (if false = true then [] ++ [c] else [c]) []
        rw [List.append_nil] at e
        rw [e, dateWordsLoop]
        simp
    · rintro ⟨a, t, rest, rfl, -, -, ht, -⟩
      have := hd t (by simp)
      rw [ht] at this
      cases this
  · have hspec : FourSeps (a ++ t :: rest) ↔ a ≠ [] ∧ manySeps t 3 rest := by
      constructor
      · rintro ⟨b, u, q, e, hb, hbn, hu, hm⟩
        obtain ⟨rfl, rfl, rfl⟩ := split_unique a b t u rest q ha hb ht hu e
        exact ⟨hbn, hm⟩
      · rintro ⟨h1, h2⟩
        exact ⟨a, t, rest, rfl, ha, h1, ht, h2⟩
    rw [hspec]
    cases a with
    | nil =>
      refine iff_of_false ?_ (by simp)
      rw [List.nil_append, dateWordsLoop, if_neg (by simp [ht]), if_pos rfl]
      simp
    | cons c a =>
      rw [List.cons_append, dateWordsLoop, if_pos (ha c (by simp))]
      obtain ⟨wd', cur', e⟩ := wordsLoop_start allowTime a (fun x hx => ha x (by simp [hx])) true (if false = true then [] ++ [c] else [c]) (t :: rest)
      rw [e, dateWordsLoop, if_neg (by simp [ht]), if_neg (by decide), if_neg (by simp), if_neg (by simp)]
      rw [wordsLoop_index allowTime t ht rest _ _ _ 2 (by simp)]
      simp

theorem dateHead_err (allowTime : Bool) (s : List Char) (e : Err) (h : dateHead allowTime s = .error e) : e = .value := by
  induction s with
  | nil => cases h
  | cons c s ih =>
    rw [dateHead] at h
    split at h
    · exact ih h
    · split at h
      · cases h
      · split at h
        · exact ih h
        · cases h; rfl

theorem parseWords_index (short : ShortDate) (allowTime : Bool) (s : List Char) (hshort : short ≠ .required) :
    parseDateWords short allowTime s = .error .index ↔ (∀ c ∈ s, c.toNat ≤ 127) ∧ dateHead allowTime (s.take 5) = .ok true ∧ FourSeps s := by
  unfold parseDateWords
  by_cases hasc : (s.any fun c => decide (127 < c.toNat)) = true
  · rw [if_pos hasc]
    refine iff_of_false (by simp) ?_
    rintro ⟨h, -⟩
    obtain ⟨c, hc, h'⟩ := List.any_eq_true.1 hasc
    have := h c hc
    simp only [decide_eq_true_eq] at h'
    omega
  · rw [if_neg hasc]
    have hall : ∀ c ∈ s, c.toNat ≤ 127 := by
      intro c hc
      by_contra hcon
      exact hasc (List.any_eq_true.2 ⟨c, hc, by simpa using hcon⟩)
    rw [and_iff_right hall]
    cases hh : dateHead allowTime (s.take 5) with
    | error e =>
      have := dateHead_err _ _ _ hh
      subst this
      simp [bind, Except.bind]
    | ok b =>
      cases b with
      | false =>
        simp only [bind, Except.bind, Bool.false_eq_true, if_false]
        refine iff_of_false ?_ (by simp)
        split <;> simp
      | true =>
        simp only [bind, Except.bind, if_true, if_neg hshort, true_and]
        rw [← wordsLoop_four allowTime s]
        cases hw : dateWordsLoop allowTime true false [] none [] s with
        | error e => simp
        | ok x =>
          obtain ⟨words, cur, rest⟩ := x
          dsimp only
          refine iff_of_false ?_ (by simp)
          split
          · split <;> simp
          · simp

theorem guessDate_err (am : Bool) (w : List Char × List Char × List Char) (e : Err) (h : guessDate am w = .error e) : e = .value := by
  unfold guessDate at h
  split at h
  · cases h1 : nimParseInt w.1 with
    | error e' => rw [h1] at h; cases h; exact nimParseInt_err _ _ h1
    | ok y =>
      cases h2 : nimParseInt w.2.1 with
      | error e' => rw [h1, h2] at h; cases h; exact nimParseInt_err _ _ h2
      | ok a =>
        cases h3 : nimParseInt w.2.2 with
        | error e' => rw [h1, h2, h3] at h; cases h; exact nimParseInt_err _ _ h3
        | ok b =>
          rw [h1, h2, h3] at h
          simp only [bind, Except.bind] at h
          split at h <;> cases h
          rfl
  · split at h
    · cases h1 : nimParseInt w.2.2 with
      | error e' => rw [h1] at h; cases h; exact nimParseInt_err _ _ h1
      | ok y =>
        cases h2 : nimParseInt w.1 with
        | error e' => rw [h1, h2] at h; cases h; exact nimParseInt_err _ _ h2
        | ok a =>
          cases h3 : nimParseInt w.2.1 with
          | error e' => rw [h1, h2, h3] at h; cases h; exact nimParseInt_err _ _ h3
          | ok b =>
            rw [h1, h2, h3] at h
            simp only [bind, Except.bind] at h
            repeat' split at h
            all_goals first | (cases h; done) | (cases h; rfl)
    · cases h; rfl

theorem wordsToDate_err (am : Bool) (w : List Char × List Char × List Char) (e : Err) (h : wordsToDate am w = .error e) : e = .value := by
  unfold wordsToDate at h
  cases h1 : guessDate am w with
  | error e' => rw [h1] at h; cases h; exact guessDate_err _ _ _ h1
  | ok y =>
    rw [h1] at h
    simp only [bind, Except.bind] at h
    repeat' split at h
    all_goals first | (cases h; done) | (cases h; rfl)

theorem dateHead_first (a rest : List Char) (t : Char) (ha : Digits a) (ht : t.isDigit = false) : dateHead false ((a ++ t :: rest).take 5) = .ok true ↔ a.length ≤ 4 ∧ dateToken t = true := by
  have gen : ∀ (n : Nat) (a : List Char), Digits a → (dateHead false ((a ++ t :: rest).take n) = .ok true ↔ a.length < n ∧ dateToken t = true) := by
    intro n
    induction n with
    | zero => intro a _; simp [dateHead]
    | succ n ih =>
      intro a ha
      cases a with
      | nil =>
        rw [List.nil_append, List.take_succ_cons, dateHead, if_neg (by simp [ht])]
        by_cases hd : dateToken t = true
        · simp [hd]
        · simp [hd]
      | cons c a =>
        rw [List.cons_append, List.take_succ_cons, dateHead, if_pos (ha c (by simp)), ih a fun x hx => ha x (by simp [hx])]
        simp
  rw [gen 5 a ha]
  exact and_congr_left fun _ => by omega

/-- **C39**, exactly which texts make the reader of dates write behind the end of its array: 8 to 10 characters of ASCII that start with one to four digits and
in which four times the same separator - blank, point, hyphen or slash - occurs with nothing but digits between -/
theorem C39_bounds_exact (am : Bool) (s : List Char) : inferDate false am s = .error .index ↔
    8 ≤ s.length ∧ s.length ≤ 10 ∧ (∀ c ∈ s, c.toNat ≤ 127) ∧
      ∃ a t rest, s = a ++ t :: rest ∧ Digits a ∧ 1 ≤ a.length ∧ a.length ≤ 4 ∧ (t = ' ' ∨ t = '.' ∨ t = '-' ∨ t = '/') ∧ manySeps t 3 rest := by
  unfold inferDate
  by_cases hl : s.length > 10 ∨ s.length < 8
  · rw [if_pos hl]
    refine iff_of_false (by simp) ?_
    rintro ⟨h1, h2, -⟩
    omega
  · rw [if_neg hl]
    have e1 : (do
        let __discr ← parseDateWords (if false = true then ShortDate.required else ShortDate.never) false s
        match __discr with
          | (w, snd) => wordsToDate am w) = (.error .index : Except Err (Int × Int × Int)) ↔ parseDateWords .never false s = .error .index := by
      simp only [Bool.false_eq_true, if_false]
      cases hp : parseDateWords .never false s with
      | error e => simp [bind, Except.bind]
      | ok x =>
        simp only [bind, Except.bind, reduceCtorEq, iff_false]
        intro h
        have := wordsToDate_err _ _ _ h
        cases this
    refine e1.trans ((parseWords_index .never false s (by decide)).trans ?_)
    have htok : ∀ t, dateToken t = true ↔ t = ' ' ∨ t = '.' ∨ t = '-' ∨ t = '/' := by
      intro t; simp [dateToken, or_assoc]
    constructor
    · rintro ⟨h1, h2, a, t, rest, rfl, ha, hne, ht, hm⟩
      obtain ⟨h3, h4⟩ := (dateHead_first a rest t ha ht).1 h2
      have := List.length_pos_of_ne_nil hne
      exact ⟨by omega, by omega, h1, a, t, rest, rfl, ha, this, h3, (htok t).1 h4, hm⟩
    · rintro ⟨-, -, h1, a, t, rest, rfl, ha, h2, h3, h4, hm⟩
      have ht : t.isDigit = false := by rcases h4 with rfl | rfl | rfl | rfl <;> decide
      refine ⟨h1, (dateHead_first a rest t ha ht).2 ⟨h3, (htok t).2 h4⟩, a, t, rest, rfl, ha, ?_, ht, hm⟩
      rintro rfl
      simp at h2

/-- eight characters: `1-2-3-4-` -/
example : inferDate false false "1-2-3-4-".toList = .error .index ∧ inferDate false false "12----31".toList = .error .index ∧
    inferDate false false "12-12-12".toList = .error .value ∧ inferDate false false "1-2-3-45".toList = .error .value := by
  refine ⟨by decide +kernel, by decide +kernel, by decide +kernel, by decide +kernel⟩

end Tablite
