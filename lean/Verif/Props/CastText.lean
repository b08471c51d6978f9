import Verif.Props.Cast
import Verif.Props.DateBounds
/-!
# C93: which texts become which dates

A text cast to a date is tried with the day first, with the month first and as eight digits.  Here: which of the three readings wins, exactly which short texts become dates, and which texts make the reader write behind the
end of its array, which no `except` catches.
-/

namespace Tablite

/-- Spec: the date that a text with separators shows, in the order of the words of `am` (month first or not), as far as the reader accepts it (C39) -/
def ReadsDate (am : Bool) (s : List Char) (x : Int × Int × Int) : Prop :=
  ∃ yf, DateText am s yf x ∧ 1 ≤ x.2.1 ∧ x.2.1 ≤ 12 ∧ x.2.2 ≤ monthLen x.1 x.2.1 ∧ (yf = false → 1 ≤ x.2.2 ∧ (x.2.1 = 12 → x.2.2 ≤ 12))

/-- Spec: 8 to 10 characters of ASCII that start with one to four digits, and four times the same separator with nothing but digits between -/
def TooManyWords (s : List Char) : Prop :=
  8 ≤ s.length ∧ s.length ≤ 10 ∧ (∀ c ∈ s, c.toNat ≤ 127) ∧
    ∃ a t rest, s = a ++ t :: rest ∧ Digits a ∧ 1 ≤ a.length ∧ a.length ≤ 4 ∧ (t = ' ' ∨ t = '.' ∨ t = '-' ∨ t = '/') ∧ manySeps t 3 rest

theorem inferDate_reads (am : Bool) (s : List Char) (x : Int × Int × Int) : inferDate false am s = .ok x ↔ ReadsDate am s x := C39_exact am s x

theorem inferDate_many (am : Bool) (s : List Char) : inferDate false am s = .error .index ↔ TooManyWords s := C39_bounds_exact am s

/-- **C93** the reading with the day first wins, then the one with the month first; a text with too many words is not rejected but written behind the end of an array -/
theorem C93_forms (rt : CastRt) (s : List Char) (x : Int × Int × Int) :
    (ReadsDate false s x → castVal rt .date (.str s) = .ok (.date (ymdUs x))) ∧
    (ReadsDate true s x → (∀ y, ¬ ReadsDate false s y) → castVal rt .date (.str s) = .ok (.date (ymdUs x))) ∧
    (TooManyWords s → castVal rt .date (.str s) = .error .index) := by
  refine ⟨fun h => ?_, fun h hn => ?_, fun h => ?_⟩
  · have e := (inferDate_reads false s x).2 h
    simp only [castVal, castStr, inferDateAny, e, orElseAny, Except.map, orElseValue]
  · have e := (inferDate_reads true s x).2 h
    have hi : inferDate false false s ≠ .error .index := by
      intro g
      have := (inferDate_many true s).2 ((inferDate_many false s).1 g)
      rw [e] at this
      cases this
    cases e0 : inferDate false false s with
    | ok y => exact absurd ((inferDate_reads false s y).1 e0) (hn y)
    | error er =>
      rw [e0] at hi
      cases er <;> first
        | exact absurd rfl hi
        | simp only [castVal, castStr, inferDateAny, e0, e, orElseAny, Except.map, orElseValue]
  · have e := (inferDate_many false s).2 h
    simp only [castVal, castStr, inferDateAny, e, orElseAny, Except.map, orElseValue]

theorem dateHead_value (at_ : Bool) (s : List Char) (e : Err) (h : dateHead at_ s = .error e) : e = .value := by
  induction s with
  | nil => cases h
  | cons c r ih =>
    unfold dateHead at h
    split_ifs at h
    · exact ih h
    · exact ih h
    · injection h with h; exact h.symm

theorem dateHead_false (s : List Char) (h : dateHead false s = .ok false) : Digits s := by
  induction s with
  | nil => intro c hc; cases hc
  | cons c r ih =>
    unfold dateHead at h
    split_ifs at h with h1 h2 h3
    · intro d hd
      rcases List.mem_cons.1 hd with rfl | hd
      · exact h1
      · exact ih h d hd
    · cases h
    · exact absurd h3.2 id

/-- a text that does not start with five digits is not a short date -/
theorem short_rejects (s : List Char) (h : ¬ Digits (s.take 5)) : inferDate true false s = .error .value := by
  unfold inferDate
  by_cases h1 : s.length > 10 ∨ s.length < 8
  · rw [if_pos h1]
  · rw [if_neg h1]
    have e : parseDateWords .required false s = .error .value := by
      unfold parseDateWords
      by_cases h3 : (s.any fun c => decide (127 < c.toNat)) = true
      · rw [if_pos h3]
      · rw [if_neg h3]
        cases e : dateHead false (s.take 5) with
        | error er => rw [dateHead_value _ _ _ e]; rfl
        | ok b =>
          cases b with
          | false => exact absurd (dateHead_false _ e) h
          | true => rfl
    rw [if_pos rfl, e]
    rfl

/-- **C93** exactly which texts of at most nine characters, other than numbers, become dates, and which ones are rejected -/
theorem C93_forms_exact (rt : CastRt) (s : List Char) (hl : s.length ≤ 9) (hd : ¬ Digits (s.take 5)) :
    (∀ v, castVal rt .date (.str s) = .ok v ↔ ∃ x, v = .date (ymdUs x) ∧ (ReadsDate false s x ∨ (ReadsDate true s x ∧ ∀ y, ¬ ReadsDate false s y))) ∧
    (castVal rt .date (.str s) = .error .index ↔ TooManyWords s) ∧
    (castVal rt .date (.str s) = .error .value ↔ ¬ TooManyWords s ∧ ∀ am x, ¬ ReadsDate am s x) := by
  obtain ⟨-, -, hmany⟩ := C93_forms rt s (0, 0, 0)
  have hdt : ∀ am, inferDatetime am s = .error .value := by
    intro am
    unfold inferDatetime
    rw [if_pos (by omega)]
  have hfall : inferDatetimeAny s = .error .value := by
    simp only [inferDatetimeAny, hdt, orElseValue, Except.bind]
  have hsh := short_rejects s hd
  by_cases hm : TooManyWords s
  · have hno : ∀ am x, ¬ ReadsDate am s x := by
      intro am x h
      have h1 := (inferDate_reads am s x).2 h
      rw [(inferDate_many am s).2 hm] at h1
      cases h1
    rw [hmany hm]
    refine ⟨fun v => iff_of_false (by simp) ?_, iff_of_true rfl hm, iff_of_false (by simp) (fun h => h.1 hm)⟩
    rintro ⟨x, -, h | h⟩
    · exact hno _ _ h
    · exact hno _ _ h.1
  · by_cases h0 : ∃ x, ReadsDate false s x
    · obtain ⟨x, hx⟩ := h0
      have e := (C93_forms rt s x).1 hx
      rw [e]
      refine ⟨fun v => ⟨fun h => ?_, ?_⟩, iff_of_false (by simp) hm, iff_of_false (by simp) (fun h => h.2 _ _ hx)⟩
      · injection h with h
        exact ⟨x, h.symm, .inl hx⟩
      · rintro ⟨y, rfl, h | h⟩
        · have := (C93_forms rt s y).1 h
          rw [e] at this
          exact this
        · exact absurd hx (h.2 x)
    · have h0 : ∀ y, ¬ ReadsDate false s y := fun y h => h0 ⟨y, h⟩
      by_cases h1 : ∃ x, ReadsDate true s x
      · obtain ⟨x, hx⟩ := h1
        have e := (C93_forms rt s x).2.1 hx h0
        rw [e]
        refine ⟨fun v => ⟨fun h => ?_, ?_⟩, iff_of_false (by simp) hm, iff_of_false (by simp) (fun h => h.2 _ _ hx)⟩
        · injection h with h
          exact ⟨x, h.symm, .inr ⟨hx, h0⟩⟩
        · rintro ⟨y, rfl, h | h⟩
          · exact absurd h (h0 y)
          · have := (C93_forms rt s y).2.1 h.1 h0
            rw [e] at this
            exact this
      · have h1 : ∀ y, ¬ ReadsDate true s y := fun y h => h1 ⟨y, h⟩
        have hno : ∀ am x, ¬ ReadsDate am s x := by
          intro am x
          cases am
          · exact h0 x
          · exact h1 x
        have hany : castVal rt .date (.str s) = .error .value := by
          have step : ∀ am (y : Unit → Except Err (Int × Int × Int)), orElseAny (inferDate false am s) y = y () := by
            intro am y
            cases e : inferDate false am s with
            | ok z => exact absurd ((inferDate_reads am s z).1 e) (hno am z)
            | error er =>
              cases er <;> first
                | exact absurd ((inferDate_many am s).1 e) hm
                | rfl
          have : inferDateAny s = .error .value := by
            unfold inferDateAny
            rw [step, step, hsh]
          simp only [castVal, castStr, this, Except.map, orElseValue, hfall]
        rw [hany]
        refine ⟨fun v => iff_of_false (by simp) ?_, iff_of_false (by simp) hm, iff_of_true rfl ⟨hm, hno⟩⟩
        rintro ⟨x, -, h | h⟩
        · exact hno _ _ h
        · exact hno _ _ h.1

/-- a text with the day first, though with the month first it is a date too; a text that only makes sense with the month first; a text with too many words; text that is no date -/
example (rt : CastRt) : castVal rt .date (.str "01/2/2024".toList) = .ok (.date (ymdUs (2024, 2, 1))) ∧ castVal rt .date (.str "1/31/2024".toList) = .ok (.date (ymdUs (2024, 1, 31))) ∧
    castVal rt .date (.str "1-2-3-4-5".toList) = .error .index ∧ castVal rt .date (.str "31/2/2024".toList) = .error .value := ⟨rfl, rfl, rfl, rfl⟩

/-- the conditions of `C93_forms_exact` are met by the first of them -/
example : "01/2/2024".toList.length ≤ 9 ∧ ¬ Digits ("01/2/2024".toList.take 5) := by
  refine ⟨by decide, fun h => ?_⟩
  exact absurd (h '/' (by decide)) (by decide)

end Tablite
