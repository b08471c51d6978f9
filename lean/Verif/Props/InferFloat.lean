import Mathlib.Tactic.FieldSimp
import Verif.Props.TypedPage
/-!
# C68: decimal numbers in text

The model computes with exact numbers where the code computes with doubles, so the theorems are about which digits end up in the value with which weight, not about rounding.
-/

namespace Tablite

/-! ## specification -/

/-- the decimal point of the locale -/
def decimalPoint (american : Bool) : Char := if american then '.' else ','

/-- an exponent: nothing, or `e` or `E`, a sign and digits -/
inductive ExpText : List Char → Int → Prop
  | none : ExpText [] 0
  | plus (e : Char) (d : List Char) : (e = 'e' ∨ e = 'E') → Digits d → ExpText (e :: '+' :: d) (decVal d)
  | minus (e : Char) (d : List Char) : (e = 'e' ∨ e = 'E') → Digits d → ExpText (e :: '-' :: d) (-(decVal d : Int))

/-- `s` is a decimal number with integer part `g` and `gs` in groups, fraction `fp` and an exponent, and stands for `q` -/
def DecimalText (american : Bool) (s : List Char) (q : Rat) : Prop :=
  ∃ (sg : List Char) (f : Int) (g : List Char) (gs : List (List Char)) (fp ex : List Char) (e : Int), SignOf sg f ∧ Digits g ∧ g ≠ [] ∧
    (∀ x ∈ gs, Digits x ∧ x.length = 3) ∧ Digits fp ∧ ExpText ex e ∧
    s = sg ++ (g ++ ((gs.map (groupSep american :: ·)).flatten ++ decimalPoint american :: (fp ++ ex))) ∧
    q = (f : Rat) * ((decVal (g ++ gs.flatten) : Rat) + (decVal fp : Rat) / 10 ^ fp.length) * (10 : Rat) ^ e

/-- **C68** in full: text is read as a float of the locale exactly when it is a grouped integer or a decimal number, and has the value that is written -/
def C68_statement : Prop := ∀ (pf : List Char → Option Rat) (american : Bool) (s : List Char) (q : Rat), inferFloat pf false american s = .ok q ↔
  (DecimalText american (stripNum s) q ∨ ∃ n : Int, GroupedInt (groupSep american) (stripNum s) n ∧ q = n)

/-! ## proofs -/

theorem point_not_digit (am : Bool) : (decimalPoint am).isDigit = false := by cases am <;> decide

theorem floatLoop_groups_then (am : Bool) (gs : List (List Char)) (hg : ∀ g ∈ gs, Digits g ∧ g.length = 3) (r : List Char) (x : Int) :
    floatLoop am { value := (x : Rat), isFrac := false } ((gs.map (groupSep am :: ·)).flatten ++ r) =
      floatLoop am { value := ((accDigits x gs.flatten : Int) : Rat), isFrac := false } r := by
  induction gs generalizing x with
  | nil => rfl
  | cons g gs ih =>
    obtain ⟨h1, h2⟩ := hg g List.mem_cons_self
    rw [List.map_cons, List.flatten_cons, List.append_assoc, List.cons_append, floatLoop, floatChar_sep am _ _ (by simp [h2])]
    show floatLoop am _ _ = _
    rw [floatLoop_digits am g h1, ih (fun g' h => hg g' (List.mem_cons_of_mem _ h)), List.flatten_cons, accDigits_append]

theorem foldl_dec (l : List Char) (a : Nat) : l.foldl (fun a c => a * 10 + digitVal c) a = a * 10 ^ l.length + decVal l := by
  induction l generalizing a with
  | nil => simp [decVal]
  | cons c l ih =>
    have e : decVal (c :: l) = l.foldl (fun a c => a * 10 + digitVal c) (0 * 10 + digitVal c) := rfl
    rw [List.foldl_cons, ih, e, ih, List.length_cons]
    ring

theorem decVal_cons (c : Char) (l : List Char) : decVal (c :: l) = digitVal c * 10 ^ l.length + decVal l := by
  have e : decVal (c :: l) = l.foldl (fun a c => a * 10 + digitVal c) (0 * 10 + digitVal c) := rfl
  rw [e, foldl_dec]; simp

theorem floatLoop_frac (am : Bool) (ds : List Char) (h : Digits ds) (r : List Char) (v l : Rat) :
    floatLoop am { value := v, isFrac := true, fracLevel := l } (ds ++ r) =
      floatLoop am { value := v + decVal ds * (l / 10 ^ ds.length), isFrac := true, fracLevel := l / 10 ^ ds.length } r := by
  induction ds generalizing v l with
  | nil => simp [decVal]
  | cons c ds ih =>
    have hc : floatChar am { value := v, isFrac := true, fracLevel := l } c (c :: (ds ++ r)).length =
        .ok { value := v + digitVal c * (l / 10), isFrac := true, fracLevel := l / 10 } := by
      unfold floatChar
      dsimp only
      rw [if_pos (h c List.mem_cons_self), if_neg (by decide), if_pos rfl]
    rw [List.cons_append, floatLoop, hc]
    show floatLoop am _ (ds ++ r) = _
    rw [ih (fun c' h' => h c' (List.mem_cons_of_mem _ h'))]
    congr 2
    · rw [decVal_cons, List.length_cons]
      push_cast
      field_simp
      ring
    · rw [List.length_cons]; field_simp; ring

theorem floatLoop_exp (am : Bool) (ds : List Char) (h : Digits ds) (v l : Rat) (sg : Int) (hs : sg ≠ 0) (x : Int) :
    floatLoop am { value := v, isFrac := true, fracLevel := l, isExp := true, expSign := sg, exponent := x } ds =
      .ok { value := v, isFrac := true, fracLevel := l, isExp := true, expSign := sg, exponent := accDigits x ds } := by
  induction ds generalizing x with
  | nil => rfl
  | cons c ds ih =>
    have hc : floatChar am { value := v, isFrac := true, fracLevel := l, isExp := true, expSign := sg, exponent := x } c (c :: ds).length =
        .ok { value := v, isFrac := true, fracLevel := l, isExp := true, expSign := sg, exponent := x * 10 + digitVal c } := by
      unfold floatChar
      dsimp only
      rw [if_pos (h c List.mem_cons_self), if_pos rfl, if_neg hs]
    rw [floatLoop, hc]
    exact ih (fun c' h' => h c' (List.mem_cons_of_mem _ h')) _

theorem accDigits_decVal (ds : List Char) : accDigits 0 ds = (decVal ds : Int) := accDigits_nat ds 0

theorem floatChar_e (am : Bool) (v l : Rat) (e : Char) (he : e = 'e' ∨ e = 'E') (n : Nat) :
    floatChar am { value := v, isFrac := true, fracLevel := l } e n = .ok { value := v, isFrac := true, fracLevel := l, isExp := true } := by
  unfold floatChar
  rcases he with rfl | rfl <;> cases am <;> simp

theorem floatChar_sign (am : Bool) (v l : Rat) (c : Char) (hc : c = '+' ∨ c = '-') (n : Nat) :
    floatChar am { value := v, isFrac := true, fracLevel := l, isExp := true } c n =
      .ok { value := v, isFrac := true, fracLevel := l, isExp := true, expSign := if c = '+' then 1 else -1 } := by
  unfold floatChar
  rcases hc with rfl | rfl <;> cases am <;> simp

/-- the end of the text: fraction and exponent -/
theorem float_tail (am : Bool) (fp ex : List Char) (e : Int) (hf : Digits fp) (he : ExpText ex e) (v sign : Rat) :
    (floatLoop am { value := v, isFrac := true } (fp ++ ex) >>= floatEnd sign) = .ok ((v + (decVal fp : Rat) / 10 ^ fp.length) * sign * (10 : Rat) ^ e) := by
  rw [floatLoop_frac am fp hf ex v 1]
  have ev : v + (decVal fp : Rat) * (1 / 10 ^ fp.length) = v + (decVal fp : Rat) / 10 ^ fp.length := by ring
  rw [ev]
  cases he with
  | none =>
    rw [floatLoop]
    dsimp only [bind, Except.bind]
    unfold floatEnd
    rw [if_neg (by simp)]
    simp
  | plus e d hc hd =>
    rw [floatLoop, floatChar_e am _ _ e hc]
    show (floatLoop am _ ('+' :: d) >>= _) = _
    rw [floatLoop, floatChar_sign am _ _ '+' (Or.inl rfl)]
    show (floatLoop am _ d >>= _) = _
    rw [if_pos rfl, floatLoop_exp am d hd _ _ 1 (by decide)]
    dsimp only [bind, Except.bind]
    unfold floatEnd
    rw [if_pos rfl, if_neg (by simp)]
    dsimp only
    rw [accDigits_decVal, mul_one]
  | minus e d hc hd =>
    rw [floatLoop, floatChar_e am _ _ e hc]
    show (floatLoop am _ ('-' :: d) >>= _) = _
    rw [floatLoop, floatChar_sign am _ _ '-' (Or.inr rfl)]
    show (floatLoop am _ d >>= _) = _
    rw [if_neg (by decide), floatLoop_exp am d hd _ _ (-1) (by decide)]
    dsimp only [bind, Except.bind]
    unfold floatEnd
    rw [if_pos rfl, if_neg (by simp)]
    dsimp only
    rw [accDigits_decVal, mul_neg, mul_one]

/-- **C68**, partial: every decimal number is read as the number that is written; for integers see `C40_float`.  Missing: that nothing else is accepted, which is
false (`C68_fails`). -/
theorem C68_partial (pf : List Char → Option Rat) (am : Bool) (s : List Char) (q : Rat) (h : DecimalText am (stripNum s) q) : inferFloat pf false am s = .ok q := by
  obtain ⟨sg, f, g, gs, fp, ex, e, hsg, hg, hg0, hgs, hfp, hex, hs, rfl⟩ := h
  obtain ⟨c, t, rfl⟩ := List.exists_cons_of_ne_nil hg0
  have hd : c.isDigit = true := hg c List.mem_cons_self
  have hpoint : ∀ (v : Rat) (r : List Char), floatLoop am { value := v, isFrac := false } (decimalPoint am :: r) = floatLoop am { value := v, isFrac := true } r := by
    intro v r
    have : floatChar am { value := v, isFrac := false } (decimalPoint am) (decimalPoint am :: r).length = .ok { value := v, isFrac := true } := by
      unfold floatChar
      cases am <;> simp [decimalPoint]
    rw [floatLoop, this]; rfl
  have hloop : ∀ sign : Rat, (floatLoop am { value := ((digitVal c : Nat) : Rat), isFrac := false } (t ++ ((gs.map (groupSep am :: ·)).flatten ++ decimalPoint am :: (fp ++ ex))) >>= floatEnd sign) =
      .ok (((decVal ((c :: t) ++ gs.flatten) : Rat) + (decVal fp : Rat) / 10 ^ fp.length) * sign * (10 : Rat) ^ e) := by
    intro sign
    have h1 := floatLoop_digits am t (fun c' h' => hg c' (List.mem_cons_of_mem _ h')) ((gs.map (groupSep am :: ·)).flatten ++ decimalPoint am :: (fp ++ ex)) (digitVal c : Int)
    rw [floatLoop_groups_then am gs hgs, ← accDigits_append, accDigits_nat, hpoint] at h1
    have e1 : ((decVal ((c :: t) ++ gs.flatten) : Nat)) = (t ++ gs.flatten).foldl (fun a c => a * 10 + digitVal c) (digitVal c) := by simp [decVal]
    rw [← e1] at h1
    have h2 : floatLoop am { value := ((digitVal c : Nat) : Rat), isFrac := false } (t ++ ((gs.map (groupSep am :: ·)).flatten ++ decimalPoint am :: (fp ++ ex))) =
        floatLoop am { value := ((decVal ((c :: t) ++ gs.flatten) : Nat) : Rat), isFrac := true } (fp ++ ex) := by
      push_cast at h1; exact h1
    rw [h2]
    exact float_tail am fp ex e hfp hex _ sign
  unfold inferFloat
  dsimp only
  rw [hs, if_neg (by simp), if_neg (by decide)]
  unfold floatLocale
  cases hsg with
  | none =>
    rw [List.nil_append, List.cons_append]
    dsimp only
    rw [if_pos hd]
    refine (hloop 1).trans ?_
    congr 1; push_cast; ring
  | plus =>
    rw [List.singleton_append, List.cons_append]
    dsimp only
    rw [if_neg (by decide), if_pos (Or.inl rfl), if_pos hd]
    refine (hloop (if '+' = '+' then 1 else -1)).trans ?_
    rw [if_pos rfl]
    congr 1; push_cast; ring
  | minus =>
    rw [List.singleton_append, List.cons_append]
    dsimp only
    rw [if_neg (by decide), if_pos (Or.inr rfl), if_pos hd]
    refine (hloop (if '-' = '+' then 1 else -1)).trans ?_
    rw [if_neg (by decide)]
    congr 1; push_cast; ring

example : DecimalText true (stripNum "-1,234.50e-2".toList) (-(12345 / 1000)) := by
  refine ⟨['-'], -1, ['1'], ["234".toList], "50".toList, "e-2".toList, -2, .minus, by unfold Digits; decide, by decide, by unfold Digits; decide, by unfold Digits; decide,
    ExpText.minus 'e' ['2'] (Or.inl rfl) (by unfold Digits; decide), by decide, ?_⟩
  rw [show decVal (['1'] ++ ["234".toList].flatten) = 1234 by decide, show decVal "50".toList = 50 by decide, show "50".toList.length = 2 by decide]
  norm_num

/-- separators need not stand between groups of three: a decimal number written in the European way is taken for a large number of the US locale -/
theorem C68_group_fails : inferFloat noFloat false true "0,1234".toList = .ok 1234 := by decide +kernel

theorem C68_fails : ¬ C68_statement := by
  intro h
  have hs : stripNum "0,1234".toList = "0,1234".toList := by decide
  rcases (h noFloat true _ _).1 C68_group_fails with h | ⟨n, h, _⟩
  · rw [hs] at h
    obtain ⟨sg, f, g, gs, fp, ex, e, _, _, _, _, _, _, hs, _⟩ := h
    have : decimalPoint true ∈ "0,1234".toList := by rw [hs]; simp
    revert this; decide
  · have h2 := (C40_accepts true "0,1234".toList).2 ⟨n, h⟩
    obtain ⟨v, hv⟩ := h2
    have : inferInt false true "0,1234".toList = .error .value := by decide +kernel
    rw [this] at hv; cases hv

end Tablite
