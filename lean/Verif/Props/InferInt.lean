import Mathlib.Tactic.Linarith
import Mathlib.Tactic.NormNum
import Mathlib.Tactic.Ring
import Verif.Model.Infer
/-!
# C40: integers written with thousands separators

Specification: the text, after removal of quotes and blanks, is an optional sign, at least one digit, and then any number of groups, each a separator
followed by exactly three digits; its value is that of the digits alone.
-/

namespace Tablite

/-! ## specification -/

/-- a nonempty or empty run of decimal digits -/
def Digits (l : List Char) : Prop := ∀ c ∈ l, c.isDigit = true

/-- value of a run of digits in base ten -/
def decVal (l : List Char) : Nat := l.foldl (fun a c => a * 10 + digitVal c) 0

/-- signs and the factors they stand for -/
inductive SignOf : List Char → Int → Prop
  | none : SignOf [] 1
  | plus : SignOf ['+'] 1
  | minus : SignOf ['-'] (-1)

/-- `s` is a grouped rendering of `n` -/
def GroupedInt (sep : Char) (s : List Char) (n : Int) : Prop :=
  ∃ (sg : List Char) (f : Int) (g : List Char) (gs : List (List Char)), SignOf sg f ∧ Digits g ∧ g ≠ [] ∧ (∀ x ∈ gs, Digits x ∧ x.length = 3) ∧
    s = sg ++ (g ++ (gs.map (sep :: ·)).flatten) ∧ n = f * (decVal (g ++ gs.flatten) : Int)

/-- the separator of the locale -/
def groupSep (american : Bool) : Char := if american then ',' else '.'

/-- integers of 64 bit -/
def Int64 (n : Int) : Prop := -2 ^ 63 ≤ n ∧ n < 2 ^ 63

/-- the digit characters -/
def digitChar (n : Nat) : Char := Char.ofNat (48 + n % 10)

/-- decimal rendering -/
def renderNat (n : Nat) : List Char := if n < 10 then [digitChar n] else renderNat (n / 10) ++ [digitChar n]
termination_by n
decreasing_by omega

/-- decimal rendering in groups of three -/
def renderGrouped (sep : Char) (n : Nat) : List Char :=
  if n < 1000 then renderNat n else renderGrouped sep (n / 1000) ++ [sep, digitChar (n / 100), digitChar (n / 10), digitChar n]
termination_by n
decreasing_by omega

/-- with a minus sign for negative numbers -/
def renderSigned (render : Nat → List Char) (n : Int) : List Char := if n < 0 then '-' :: render n.natAbs else render n.natAbs

/-- **C40** in full: text is accepted exactly when it is a grouped rendering, and its value is the number that was written -/
def C40_statement : Prop := ∀ (american : Bool) (s : List Char) (n : Int),
  inferInt false american s = .ok n ↔ GroupedInt (groupSep american) (stripNum s) n

/-! ## proofs -/

theorem wrap64_id (n : Int) (h : Int64 n) : wrap64 n = n := by
  obtain ⟨h1, h2⟩ := h
  unfold wrap64
  rw [Int.emod_eq_of_lt (by omega) (by omega)]; omega

theorem wrap64_step (x d : Int) : wrap64 (wrap64 x * 10 + d) = wrap64 (x * 10 + d) := by unfold wrap64; omega

theorem wrap64_neg (x : Int) : wrap64 (wrap64 x * -1) = wrap64 (-1 * x) := by unfold wrap64; omega
theorem wrap64_one (x : Int) : wrap64 (wrap64 x * 1) = wrap64 (1 * x) := by unfold wrap64; omega

/-- the value after further digits -/
def accDigits (x : Int) (l : List Char) : Int := l.foldl (fun a c => a * 10 + (digitVal c : Int)) x

theorem accDigits_nat (l : List Char) (a : Nat) : accDigits a l = ((l.foldl (fun a c => a * 10 + digitVal c) a : Nat) : Int) := by
  induction l generalizing a with
  | nil => rfl
  | cons c r ih =>
    show accDigits ((a : Int) * 10 + (digitVal c : Int)) r = _
    rw [List.foldl_cons, ← ih]; push_cast; rfl

theorem accDigits_append (x : Int) (a b : List Char) : accDigits x (a ++ b) = accDigits (accDigits x a) b := by simp [accDigits]

theorem sep_not_digit (am : Bool) : (groupSep am).isDigit = false := by cases am <;> decide

theorem intLoop_sound (sep : Char) (x : Int) (count : Bool) (after : Nat) (r : List Char) (w : Int) (h : intLoop sep (wrap64 x) count after r = .ok w) :
    ∃ (t : List Char) (gs : List (List Char)), Digits t ∧ (count = true → after + t.length = 3) ∧ (∀ g ∈ gs, Digits g ∧ g.length = 3) ∧ r = t ++ (gs.map (sep :: ·)).flatten ∧
      w = wrap64 (accDigits x (t ++ gs.flatten)) := by
  induction r generalizing x count after with
  | nil =>
    rw [intLoop] at h
    by_cases hc : (count && after != 3) = true
    · rw [if_pos hc] at h; cases h
    · rw [if_neg hc] at h
      cases h
      refine ⟨[], [], (by intro c hc; cases hc), ?_, (by intro g hg; cases hg), rfl, rfl⟩
      intro hcnt
      subst hcnt
      simpa using hc
  | cons ch r ih =>
    rw [intLoop] at h
    by_cases hd : ch.isDigit = true
    · rw [if_pos hd, wrap64_step] at h
      obtain ⟨t, gs, h1, h2, h3, h4, h5⟩ := ih _ _ _ h
      refine ⟨ch :: t, gs, ?_, ?_, h3, by rw [h4]; rfl, by rw [h5]; rfl⟩
      · intro c hc
        rcases List.mem_cons.1 hc with rfl | hc
        · exact hd
        · exact h1 c hc
      · intro hcnt
        subst hcnt
        have := h2 rfl
        rw [if_pos rfl] at this
        rw [List.length_cons]; omega
    · rw [if_neg hd] at h
      by_cases hs : ch = sep
      · subst hs
        rw [if_pos rfl] at h
        by_cases hl : (ch :: r).length < 4
        · rw [if_pos hl] at h; cases h
        · rw [if_neg hl] at h
          by_cases hc : (count && after != 3) = true
          · rw [if_pos hc] at h; cases h
          · rw [if_neg hc] at h
            obtain ⟨t, gs, h1, h2, h3, h4, h5⟩ := ih _ _ _ h
            refine ⟨[], t :: gs, (by intro c hc; cases hc), ?_, ?_, ?_, ?_⟩
            · intro hcnt
              subst hcnt
              simpa using hc
            · intro g hg
              rcases List.mem_cons.1 hg with rfl | hg
              · exact ⟨h1, by have := h2 rfl; omega⟩
              · exact h3 g hg
            · rw [h4]; rfl
            · rw [h5]; rfl
      · rw [if_neg hs] at h; cases h

theorem intLoop_complete (sep : Char) (hsep : sep.isDigit = false) (gs : List (List Char)) (hg : ∀ g ∈ gs, Digits g ∧ g.length = 3) (t : List Char) (ht : Digits t) :
    ∀ (x : Int) (count : Bool) (after : Nat), (count = true → after + t.length = 3) →
      intLoop sep (wrap64 x) count after (t ++ (gs.map (sep :: ·)).flatten) = .ok (wrap64 (accDigits x (t ++ gs.flatten))) := by
  induction gs generalizing t with
  | nil =>
    induction t with
    | nil =>
      intro x count after hc
      rw [List.nil_append, List.map_nil, List.flatten_nil, intLoop, if_neg]
      · rfl
      · intro h
        rw [Bool.and_eq_true] at h
        have := hc h.1
        simp at h this; omega
    | cons c t ih =>
      intro x count after hc
      have hd : c.isDigit = true := ht c List.mem_cons_self
      rw [List.cons_append, intLoop, if_pos hd, wrap64_step]
      rw [ih (fun c' h => ht c' (List.mem_cons_of_mem _ h))]
      · rfl
      · intro h
        have := hc h
        rw [List.length_cons] at this
        subst h; rw [if_pos rfl]; omega
  | cons g gs ihg =>
    obtain ⟨hgd, hgl⟩ := hg g List.mem_cons_self
    induction t with
    | nil =>
      intro x count after hc
      rw [List.nil_append, List.map_cons, List.flatten_cons, List.cons_append, intLoop, if_neg (by rw [hsep]; decide), if_pos rfl,
        if_neg (by simp [hgl]), if_neg]
      · rw [ihg (fun g' h => hg g' (List.mem_cons_of_mem _ h)) g hgd x true 0 (by intro _; omega)]; rfl
      · intro h
        rw [Bool.and_eq_true] at h
        have := hc h.1
        simp at h this; omega
    | cons c t ih =>
      intro x count after hc
      have hd : c.isDigit = true := ht c List.mem_cons_self
      rw [List.cons_append, intLoop, if_pos hd, wrap64_step]
      rw [ih (fun c' h => ht c' (List.mem_cons_of_mem _ h))]
      · rfl
      · intro h
        have := hc h
        rw [List.length_cons] at this
        subst h; rw [if_pos rfl]; omega

theorem digitVal_lt (c : Char) (h : c.isDigit = true) : digitVal c < 10 := by
  simp only [Char.isDigit, Bool.and_eq_true, decide_eq_true_eq] at h
  have h2 : c.toNat ≤ 57 := h.2
  unfold digitVal
  omega

theorem wrap_digit (c : Char) (h : c.isDigit = true) : ((digitVal c : Nat) : Int) = wrap64 (digitVal c : Int) := by
  have := digitVal_lt c h
  refine (wrap64_id _ ⟨?_, ?_⟩).symm <;> omega

theorem sign_not_digit : ('+').isDigit = false ∧ ('-').isDigit = false := by decide

/-- text accepted by `intLocale` is a grouped rendering, and conversely; the value is reduced to 64 bit -/
theorem intLocale_iff (am : Bool) (s : List Char) (w : Int) :
    intLocale am s = .ok w ↔ ∃ n, GroupedInt (groupSep am) s n ∧ w = wrap64 n := by
  constructor
  · intro h
    cases s with
    | nil => cases h
    | cons c r =>
      have hkey : ∀ (c : Char) (r : List Char) (v : Int), c.isDigit = true → intLoop (groupSep am) (digitVal c) false 0 r = .ok v →
          ∃ (t : List Char) (gs : List (List Char)), Digits (c :: t) ∧ (∀ x ∈ gs, Digits x ∧ x.length = 3) ∧ c :: r = (c :: t) ++ (gs.map (groupSep am :: ·)).flatten ∧
            v = wrap64 (decVal ((c :: t) ++ gs.flatten) : Nat) := by
        intro c r v hd h
        rw [wrap_digit c hd] at h
        obtain ⟨t, gs, h1, _, h3, h4, h5⟩ := intLoop_sound _ _ _ _ _ _ h
        refine ⟨t, gs, ?_, h3, by rw [h4]; rfl, ?_⟩
        · intro c' hc'
          rcases List.mem_cons.1 hc' with rfl | hc'
          · exact hd
          · exact h1 c' hc'
        · rw [h5, accDigits_nat]; simp [decVal]
      unfold intLocale at h
      dsimp only at h
      rw [show (if am = true then ',' else '.') = groupSep am from rfl] at h
      by_cases hd : c.isDigit = true
      · rw [if_pos hd] at h
        obtain ⟨t, gs, h1, h2, h3, h4⟩ := hkey c r w hd h
        exact ⟨_, ⟨[], 1, c :: t, gs, .none, h1, by simp, h2, h3, rfl⟩, by rw [h4, one_mul]⟩
      · rw [if_neg hd] at h
        by_cases hs : c = '+' ∨ c = '-'
        · rw [if_pos hs] at h
          cases r with
          | nil => cases h
          | cons c' r' =>
            dsimp only at h
            by_cases hd' : c'.isDigit = true
            · rw [if_pos hd'] at h
              cases hv : intLoop (groupSep am) (digitVal c') false 0 r' with
              | error e => rw [hv] at h; cases h
              | ok v =>
                rw [hv] at h
                obtain ⟨t, gs, h1, h2, h3, h4⟩ := hkey c' r' v hd' hv
                have hw : w = wrap64 (v * (if c = '+' then 1 else -1)) := by
                  have h' : (Except.ok (wrap64 (v * (if c = '+' then 1 else -1))) : Except Err Int) = .ok w := h
                  injection h' with h'; exact h'.symm
                rcases hs with rfl | rfl
                · refine ⟨_, ⟨['+'], 1, c' :: t, gs, .plus, h1, by simp, h2, by rw [h3]; rfl, rfl⟩, ?_⟩
                  rw [hw, if_pos rfl, h4, wrap64_one]
                · refine ⟨_, ⟨['-'], -1, c' :: t, gs, .minus, h1, by simp, h2, by rw [h3]; rfl, rfl⟩, ?_⟩
                  rw [hw, if_neg (by decide), h4, wrap64_neg]
            · rw [if_neg hd'] at h; cases h
        · rw [if_neg hs] at h; cases h
  · rintro ⟨n, ⟨sg, f, g, gs, hsg, hg, hg0, hgs, rfl, rfl⟩, rfl⟩
    obtain ⟨c, t, rfl⟩ := List.exists_cons_of_ne_nil hg0
    have hd : c.isDigit = true := hg c List.mem_cons_self
    have hloop : intLoop (groupSep am) (digitVal c) false 0 (t ++ (gs.map (groupSep am :: ·)).flatten) = .ok (wrap64 (decVal ((c :: t) ++ gs.flatten) : Nat)) := by
      rw [wrap_digit c hd, intLoop_complete _ (sep_not_digit am) gs hgs t (fun c' h => hg c' (List.mem_cons_of_mem _ h)) _ _ _ (by intro h; cases h), accDigits_nat]
      simp [decVal]
    unfold intLocale
    cases hsg with
    | none =>
      rw [List.nil_append, List.cons_append]
      dsimp only
      rw [if_pos hd, one_mul]
      exact hloop
    | plus =>
      rw [List.cons_append, List.nil_append, List.cons_append]
      dsimp only
      rw [if_neg (by decide), if_pos (Or.inl rfl), if_pos hd]
      have : intLoop (if am = true then ',' else '.') (digitVal c) false 0 (t ++ (gs.map (groupSep am :: ·)).flatten) = .ok (wrap64 (decVal ((c :: t) ++ gs.flatten) : Nat)) := hloop
      rw [this]
      show Except.ok (wrap64 (wrap64 _ * (if '+' = '+' then 1 else -1))) = _
      rw [if_pos rfl, wrap64_one]
    | minus =>
      rw [List.cons_append, List.nil_append, List.cons_append]
      dsimp only
      rw [if_neg (by decide), if_pos (Or.inr rfl), if_pos hd]
      have : intLoop (if am = true then ',' else '.') (digitVal c) false 0 (t ++ (gs.map (groupSep am :: ·)).flatten) = .ok (wrap64 (decVal ((c :: t) ++ gs.flatten) : Nat)) := hloop
      rw [this]
      show Except.ok (wrap64 (wrap64 _ * (if '-' = '+' then 1 else -1))) = _
      rw [if_neg (by decide), wrap64_neg]

theorem inferInt_locale (am : Bool) (s : List Char) (w : Int) : inferInt false am s = .ok w ↔ intLocale am (stripNum s) = .ok w := by
  unfold inferInt
  dsimp only
  by_cases h : stripNum s = []
  · rw [if_pos h, h]; exact ⟨fun h => (by cases h), fun h => (by cases h)⟩
  · rw [if_neg h, if_neg (by decide)]

/-- **C40** exactly the grouped renderings are accepted -/
theorem C40_accepts (am : Bool) (s : List Char) : (∃ v, inferInt false am s = .ok v) ↔ ∃ n, GroupedInt (groupSep am) (stripNum s) n := by
  constructor
  · rintro ⟨v, h⟩
    obtain ⟨n, h, _⟩ := (intLocale_iff am _ v).1 ((inferInt_locale am s v).1 h)
    exact ⟨n, h⟩
  · rintro ⟨n, h⟩
    exact ⟨_, (inferInt_locale am s _).2 ((intLocale_iff am _ _).2 ⟨n, h, rfl⟩)⟩

theorem SignOf.head {a b : List Char} {f : Int} (h : SignOf a f) (ha : a ≠ []) (c : Char) (hc : c.isDigit = true) (r : List Char) : a ++ b ≠ c :: r := by
  cases h with
  | none => exact absurd rfl ha
  | plus => rintro h; injection h with h; subst h; revert hc; decide
  | minus => rintro h; injection h with h; subst h; revert hc; decide

theorem digits_filter (sep : Char) (hsep : sep.isDigit = false) (gs : List (List Char)) (hgs : ∀ x ∈ gs, Digits x) :
    ((gs.map (sep :: ·)).flatten).filter Char.isDigit = gs.flatten := by
  induction gs with
  | nil => rfl
  | cons g gs ih =>
    rw [List.map_cons, List.flatten_cons, List.flatten_cons, List.cons_append, List.filter_cons_of_neg (by rw [hsep]; decide), List.filter_append,
      ih (fun x h => hgs x (List.mem_cons_of_mem _ h)), List.filter_eq_self.2 (hgs g List.mem_cons_self)]

/-- a text is the rendering of at most one number, which is that of its digits with its sign -/
theorem GroupedInt.value {sep : Char} (hsep : sep.isDigit = false) {s : List Char} {n : Int} (h : GroupedInt sep s n) :
    n = (if s.head? = some '-' then -1 else 1) * (decVal (s.filter Char.isDigit) : Int) := by
  obtain ⟨sg, f, g, gs, hsg, hg, hg0, hgs, rfl, rfl⟩ := h
  obtain ⟨c, t, rfl⟩ := List.exists_cons_of_ne_nil hg0
  have hd : c.isDigit = true := hg c List.mem_cons_self
  have hf : ((c :: t) ++ (gs.map (sep :: ·)).flatten).filter Char.isDigit = (c :: t) ++ gs.flatten := by
    rw [List.filter_append, digits_filter sep hsep gs (fun x h => (hgs x h).1), List.filter_eq_self.2 hg]
  cases hsg with
  | none =>
    rw [List.nil_append, hf, if_neg]
    rw [List.cons_append, List.head?_cons]
    rintro h; injection h with h; subst h; revert hd; decide
  | plus => rw [List.singleton_append, List.filter_cons_of_neg (by decide), hf, if_neg (by simp)]
  | minus => rw [List.singleton_append, List.filter_cons_of_neg (by decide), hf, if_pos (by simp)]

/-- **C40**, partial: text that stands for a 64 bit integer is accepted exactly when it is a grouped rendering, and has the value that was written.
Missing: longer numbers, for which see `C40_fails`. -/
theorem C40_partial (am : Bool) (s : List Char) (n : Int) (hs : ∀ m, GroupedInt (groupSep am) (stripNum s) m → Int64 m) :
    inferInt false am s = .ok n ↔ GroupedInt (groupSep am) (stripNum s) n := by
  rw [inferInt_locale, intLocale_iff]
  constructor
  · rintro ⟨m, h, rfl⟩
    rwa [wrap64_id _ (hs m h)]
  · intro h
    exact ⟨n, h, (wrap64_id _ (hs n h)).symm⟩

/-- **C40** fails for numbers that need more than 64 bit: the value is silently reduced -/
theorem C40_fails : ¬ C40_statement := by
  intro h
  have h1 : inferInt false true "18,446,744,073,709,551,617".toList = .ok 1 := by decide +kernel
  have h2 := (GroupedInt.value (sep_not_digit true) ((h true _ 1).1 h1))
  revert h2
  decide +kernel

/-! ## renderings -/

theorem digitChar_spec (n : Nat) : (digitChar n).isDigit = true ∧ digitVal (digitChar n) = n % 10 ∧ digitChar n ≠ '"' ∧ digitChar n ≠ '\'' ∧ digitChar n ≠ ' ' ∧ digitChar n ≠ '_' := by
  unfold digitChar
  have h : n % 10 < 10 := Nat.mod_lt _ (by decide)
  generalize n % 10 = m at h
  have : ∀ m < 10, (Char.ofNat (48 + m)).isDigit = true ∧ digitVal (Char.ofNat (48 + m)) = m ∧ Char.ofNat (48 + m) ≠ '"' ∧ Char.ofNat (48 + m) ≠ '\'' ∧ Char.ofNat (48 + m) ≠ ' ' ∧ Char.ofNat (48 + m) ≠ '_' := by decide
  exact this m h

theorem decVal_append (a : List Char) (c : Char) : decVal (a ++ [c]) = decVal a * 10 + digitVal c := by simp [decVal]

theorem renderNat_spec (n : Nat) : Digits (renderNat n) ∧ renderNat n ≠ [] ∧ decVal (renderNat n) = n := by
  induction n using Nat.strongRecOn with
  | _ n ih =>
    rw [renderNat]
    by_cases h : n < 10
    · rw [if_pos h]
      refine ⟨?_, by simp, ?_⟩
      · intro c hc
        rw [List.mem_singleton.1 hc]
        exact (digitChar_spec n).1
      · show 0 * 10 + digitVal (digitChar n) = n
        rw [(digitChar_spec n).2.1]; omega
    · rw [if_neg h]
      obtain ⟨h1, _, h3⟩ := ih (n / 10) (by omega)
      refine ⟨?_, by simp, ?_⟩
      · intro c hc
        rcases List.mem_append.1 hc with hc | hc
        · exact h1 c hc
        · rw [List.mem_singleton.1 hc]
          exact (digitChar_spec n).1
      · rw [decVal_append, h3, (digitChar_spec n).2.1]; omega

theorem renderGrouped_spec (sep : Char) (n : Nat) : ∃ (g : List Char) (gs : List (List Char)), Digits g ∧ g ≠ [] ∧ (∀ x ∈ gs, Digits x ∧ x.length = 3) ∧
    renderGrouped sep n = g ++ (gs.map (sep :: ·)).flatten ∧ decVal (g ++ gs.flatten) = n := by
  induction n using Nat.strongRecOn with
  | _ n ih =>
    rw [renderGrouped]
    by_cases h : n < 1000
    · rw [if_pos h]
      obtain ⟨h1, h2, h3⟩ := renderNat_spec n
      exact ⟨renderNat n, [], h1, h2, by simp, by simp, by simpa using h3⟩
    · rw [if_neg h]
      obtain ⟨g, gs, h1, h2, h3, h4, h5⟩ := ih (n / 1000) (by omega)
      refine ⟨g, gs ++ [[digitChar (n / 100), digitChar (n / 10), digitChar n]], h1, h2, ?_, ?_, ?_⟩
      · intro x hx
        rcases List.mem_append.1 hx with hx | hx
        · exact h3 x hx
        · rw [List.mem_singleton.1 hx]
          refine ⟨?_, rfl⟩
          intro c hc
          rcases List.mem_cons.1 hc with rfl | hc
          · exact (digitChar_spec _).1
          rcases List.mem_cons.1 hc with rfl | hc
          · exact (digitChar_spec _).1
          rw [List.mem_singleton.1 hc]
          exact (digitChar_spec _).1
      · rw [h4]; simp
      · have e : g ++ (gs ++ [[digitChar (n / 100), digitChar (n / 10), digitChar n]]).flatten =
            ((g ++ gs.flatten ++ [digitChar (n / 100)]) ++ [digitChar (n / 10)]) ++ [digitChar n] := by simp
        rw [e, decVal_append, decVal_append, decVal_append, h5, (digitChar_spec _).2.1, (digitChar_spec _).2.1, (digitChar_spec _).2.1]
        omega

theorem stripNum_id (s : List Char) (h : ∀ c ∈ s, c ≠ '"' ∧ c ≠ '\'' ∧ c ≠ ' ') : stripNum s = s := by
  unfold stripNum
  rw [List.filter_eq_self]
  intro c hc
  simpa using h c hc

theorem digit_clean (c : Char) (h : c.isDigit = true) : c ≠ '"' ∧ c ≠ '\'' ∧ c ≠ ' ' := by
  refine ⟨?_, ?_, ?_⟩ <;> (rintro rfl; revert h; decide)

theorem renderGrouped_clean (am : Bool) (n : Nat) : ∀ c ∈ renderGrouped (groupSep am) n, c ≠ '"' ∧ c ≠ '\'' ∧ c ≠ ' ' := by
  obtain ⟨g, gs, h1, _, h3, h4, _⟩ := renderGrouped_spec (groupSep am) n
  rw [h4]
  intro c hc
  rcases List.mem_append.1 hc with hc | hc
  · exact digit_clean c (h1 c hc)
  · obtain ⟨l, hl, hc⟩ := List.mem_flatten.1 hc
    obtain ⟨x, hx, rfl⟩ := List.mem_map.1 hl
    rcases List.mem_cons.1 hc with rfl | hc
    · cases am <;> decide
    · exact digit_clean c ((h3 x hx).1 c hc)

/-- **C40** the grouped rendering of every 64 bit integer is read as that integer -/
theorem C40_render (am : Bool) (n : Int) (hn : Int64 n) : inferInt false am (renderSigned (renderGrouped (groupSep am)) n) = .ok n := by
  obtain ⟨g, gs, h1, h2, h3, h4, h5⟩ := renderGrouped_spec (groupSep am) n.natAbs
  have hG : GroupedInt (groupSep am) (renderSigned (renderGrouped (groupSep am)) n) n := by
    unfold renderSigned
    by_cases h : n < 0
    · rw [if_pos h, h4]
      exact ⟨['-'], -1, g, gs, .minus, h1, h2, h3, rfl, by rw [h5]; omega⟩
    · rw [if_neg h, h4]
      exact ⟨[], 1, g, gs, .none, h1, h2, h3, rfl, by rw [h5]; omega⟩
  have hstrip : stripNum (renderSigned (renderGrouped (groupSep am)) n) = renderSigned (renderGrouped (groupSep am)) n := by
    refine stripNum_id _ ?_
    unfold renderSigned
    by_cases h : n < 0
    · rw [if_pos h]
      intro c hc
      rcases List.mem_cons.1 hc with rfl | hc
      · decide
      · exact renderGrouped_clean am _ c hc
    · rw [if_neg h]
      exact renderGrouped_clean am _
  refine (C40_partial am _ n ?_).2 (by rw [hstrip]; exact hG)
  rw [hstrip]
  intro m hm
  rw [GroupedInt.value (sep_not_digit am) hm, ← GroupedInt.value (sep_not_digit am) hG]
  exact hn

example : renderSigned (renderGrouped (groupSep true)) (-1234567) = "-1,234,567".toList ∧ Int64 (-1234567) := by
  constructor
  · rw [renderSigned, if_pos (by decide)]
    simp [renderGrouped, renderNat, digitChar, groupSep]
  · unfold Int64; omega

/-! ## plain integers -/

theorem nimDigits_digits (l : List Char) (h : Digits l) (a : Nat) : nimDigits a l = (l.foldl (fun a c => a * 10 + digitVal c) a, []) := by
  induction l generalizing a with
  | nil => rfl
  | cons c r ih =>
    rw [nimDigits, if_pos (h c List.mem_cons_self), ih (fun c' h' => h c' (List.mem_cons_of_mem _ h'))]; rfl

theorem nimSign_digit (c : Char) (h : c.isDigit = true) (r : List Char) : nimSign (c :: r) = (false, c :: r) := by
  unfold nimSign
  split
  · rename_i heq; injection heq with h1 h2; subst h1; exact absurd h (by decide)
  · rename_i heq; injection heq with h1 h2; subst h1; exact absurd h (by decide)
  · rfl

/-- digits in range are read as their value -/
theorem nimParseInt_digits (l : List Char) (h : Digits l) (h0 : l ≠ []) :
    nimParseInt l = if decVal l < 2 ^ 63 then .ok (decVal l : Int) else .error .value := by
  obtain ⟨c, t, rfl⟩ := List.exists_cons_of_ne_nil h0
  have hd := h c List.mem_cons_self
  unfold nimParseInt
  rw [nimSign_digit c hd]
  dsimp only
  rw [if_pos hd, nimDigits_digits t (fun c' h' => h c' (List.mem_cons_of_mem _ h'))]
  simp [decVal]

theorem nimParseInt_neg (l : List Char) (h : Digits l) (h0 : l ≠ []) :
    nimParseInt ('-' :: l) = if decVal l ≤ 2 ^ 63 then .ok (-(decVal l : Int)) else .error .value := by
  obtain ⟨c, t, rfl⟩ := List.exists_cons_of_ne_nil h0
  have hd := h c List.mem_cons_self
  unfold nimParseInt
  rw [show nimSign ('-' :: c :: t) = (true, c :: t) from rfl]
  dsimp only
  rw [if_pos hd, nimDigits_digits t (fun c' h' => h c' (List.mem_cons_of_mem _ h'))]
  simp [decVal]

/-- **C40** the plain rendering of an integer is read as that integer if it fits into 64 bit and rejected otherwise -/
theorem C40_simple (n : Int) : inferInt true false (renderSigned renderNat n) = if -2 ^ 63 ≤ n ∧ n < 2 ^ 63 then .ok n else .error .value := by
  obtain ⟨h1, h2, h3⟩ := renderNat_spec n.natAbs
  have hstrip : stripNum (renderSigned renderNat n) = renderSigned renderNat n := by
    refine stripNum_id _ ?_
    unfold renderSigned
    by_cases h : n < 0
    · rw [if_pos h]
      intro c hc
      rcases List.mem_cons.1 hc with rfl | hc
      · decide
      · exact digit_clean c (h1 c hc)
    · rw [if_neg h]
      exact fun c hc => digit_clean c (h1 c hc)
  unfold inferInt
  dsimp only
  rw [hstrip]
  unfold renderSigned
  by_cases h : n < 0
  · rw [if_pos h, if_neg (by simp), if_pos rfl, nimParseInt_neg _ h1 h2, h3]
    by_cases hr : -2 ^ 63 ≤ n ∧ n < 2 ^ 63
    · rw [if_pos hr, if_pos (by omega)]; congr 1; omega
    · rw [if_neg hr, if_neg (by omega)]
  · rw [if_neg h, if_neg h2, if_pos rfl, nimParseInt_digits _ h1 h2, h3]
    by_cases hr : -2 ^ 63 ≤ n ∧ n < 2 ^ 63
    · rw [if_pos hr, if_pos (by omega)]; congr 1; omega
    · rw [if_neg hr, if_neg (by omega)]

end Tablite
