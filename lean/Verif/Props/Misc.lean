import Verif.Model.Misc
import Mathlib.Data.List.Induction
import Mathlib.Tactic.Linarith
import Mathlib.Tactic.FieldSimp
import Mathlib.Tactic.Ring
import Mathlib.Tactic.NormNum
/-!
# C48 spreadsheet column letters, C50 splitting, C53 rounding, C55 page file header
-/

namespace Tablite

/-! ## C48 -/

/-- an upper case letter (spec vocabulary) -/
def IsLetter (c : Char) : Prop := 65 ≤ c.toNat ∧ c.toNat ≤ 90

instance (c : Char) : Decidable (IsLetter c) := inferInstanceAs (Decidable (_ ∧ _))

/-- A=1 … Z=26 (spec vocabulary) -/
def letterVal (c : Char) : Int := (c.toNat : Int) - 64

theorem colCountLoop_append (a : List Char) (v : Char) (i : Nat) (acc : Int) :
    colCountLoop (a ++ [v]) i acc = colCountLoop a i acc + letterVal v * 26 ^ (i + a.length) := by
  induction a generalizing i acc with
  | nil => simp [colCountLoop, letterVal]
  | cons x t ih =>
    simp only [List.cons_append, colCountLoop, ih, List.length_cons]
    rw [show i + 1 + t.length = i + (t.length + 1) by omega]

theorem calcColCount_cons (c : Char) (l : List Char) : calcColCount (c :: l) = calcColCount l + letterVal c * 26 ^ l.length := by
  unfold calcColCount
  rw [List.reverse_cons, colCountLoop_append]
  simp

theorem calcColCount_nil : calcColCount [] = 0 := rfl

theorem calcColCount_append (l m : List Char) : calcColCount (l ++ m) = calcColCount l * 26 ^ m.length + calcColCount m := by
  induction l with
  | nil => simp [calcColCount_nil]
  | cons c t ih =>
    rw [List.cons_append, calcColCount_cons, ih, calcColCount_cons, List.length_append]
    rw [pow_add]
    ring

/-- C48: the value is the base-26 number with digits A=1 … Z=26 read from the left -/
theorem C48_value (l : List Char) : calcColCount l = l.foldl (fun a c => a * 26 + letterVal c) 0 := by
  induction l using List.reverseRecOn with
  | nil => rfl
  | append_singleton l c ih =>
    rw [calcColCount_append, ih, List.foldl_append]
    simp [calcColCount_cons, calcColCount_nil]

theorem calcColCount_bounds (l : List Char) (h : ∀ c ∈ l, IsLetter c) :
    26 ^ l.length - 1 ≤ 25 * calcColCount l ∧ 25 * calcColCount l ≤ 26 * (26 ^ l.length - 1) := by
  induction l with
  | nil => simp [calcColCount_nil]
  | cons c t ih =>
    obtain ⟨h1, h2⟩ := ih (fun d hd => h d (by simp [hd]))
    have hc := h c (by simp)
    unfold IsLetter at hc
    rw [calcColCount_cons, List.length_cons, pow_succ]
    have hp : (0 : Int) < 26 ^ t.length := by positivity
    have e1 : 1 ≤ letterVal c := by unfold letterVal; omega
    have e2 : letterVal c ≤ 26 := by unfold letterVal; omega
    constructor
    · nlinarith
    · nlinarith

/-- shortlex order of letter strings: shorter first, then alphabetical (spec vocabulary) -/
def alphaLt : List Char → List Char → Prop
  | c :: l, c' :: l' => c.toNat < c'.toNat ∨ (c = c' ∧ alphaLt l l')
  | _, _ => False

def shortlexLt (l l' : List Char) : Prop := l.length < l'.length ∨ (l.length = l'.length ∧ alphaLt l l')

theorem alpha_lt (l l' : List Char) (h : ∀ c ∈ l, IsLetter c) (h' : ∀ c ∈ l', IsLetter c) (hl : l.length = l'.length) (ha : alphaLt l l') :
    calcColCount l < calcColCount l' := by
  induction l generalizing l' with
  | nil => exact absurd ha (by simp [alphaLt])
  | cons c t ih =>
    cases l' with
    | nil => exact absurd ha (by simp [alphaLt])
    | cons c' t' =>
      simp only [List.length_cons, Nat.add_right_cancel_iff] at hl
      rw [calcColCount_cons, calcColCount_cons]
      rcases ha with ha | ⟨rfl, ha⟩
      · have b1 := calcColCount_bounds t (fun d hd => h d (by simp [hd]))
        have b2 := calcColCount_bounds t' (fun d hd => h' d (by simp [hd]))
        rw [hl] at b1 ⊢
        have : letterVal c + 1 ≤ letterVal c' := by unfold letterVal; omega
        have hp : (0 : Int) < 26 ^ t'.length := by positivity
        nlinarith
      · have := ih t' (fun d hd => h d (by simp [hd])) (fun d hd => h' d (by simp [hd])) hl ha
        rw [hl]
        omega

/-- C48: strictly increasing in shortlex order -/
theorem C48_shortlex (l l' : List Char) (h : ∀ c ∈ l, IsLetter c) (h' : ∀ c ∈ l', IsLetter c) (hs : shortlexLt l l') :
    calcColCount l < calcColCount l' := by
  rcases hs with hs | ⟨hl, ha⟩
  · have b1 := calcColCount_bounds l h
    have b2 := calcColCount_bounds l' h'
    have hp : (26 : Int) ^ (l.length + 1) ≤ 26 ^ l'.length := by
      exact_mod_cast Nat.pow_le_pow_right (by omega) hs
    rw [pow_succ] at hp
    omega
  · exact alpha_lt l l' h h' hl ha

theorem char_eq_of_toNat (c d : Char) (h : c.toNat = d.toNat) : c = d := Char.toNat_inj.1 h

theorem shortlex_total (l l' : List Char) : shortlexLt l l' ∨ l = l' ∨ shortlexLt l' l := by
  unfold shortlexLt
  rcases lt_trichotomy l.length l'.length with h | h | h
  · exact Or.inl (Or.inl h)
  · have : alphaLt l l' ∨ l = l' ∨ alphaLt l' l := by
      induction l generalizing l' with
      | nil => cases l' with
        | nil => simp
        | cons => simp at h
      | cons c t ih => cases l' with
        | nil => simp at h
        | cons c' t' =>
          simp only [alphaLt]
          rcases lt_trichotomy c.toNat c'.toNat with e | e | e
          · exact Or.inl (Or.inl e)
          · have := char_eq_of_toNat _ _ e
            subst this
            rcases ih t' (by simpa using h) with i | i | i
            · exact Or.inl (Or.inr ⟨rfl, i⟩)
            · subst i; exact Or.inr (Or.inl rfl)
            · exact Or.inr (Or.inr (Or.inr ⟨rfl, i⟩))
          · exact Or.inr (Or.inr (Or.inl e))
    rcases this with i | i | i
    · exact Or.inl (Or.inr ⟨h, i⟩)
    · exact Or.inr (Or.inl i)
    · exact Or.inr (Or.inr (Or.inr ⟨h.symm, i⟩))
  · exact Or.inr (Or.inr (Or.inl h))

theorem letter_exists (k : Nat) (h : k < 26) : IsLetter (Char.ofNat (65 + k)) ∧ letterVal (Char.ofNat (65 + k)) = k + 1 := by
  have h2 : (Char.ofNat (65 + k)).toNat = 65 + k := by
    have hv : (65 + k).isValidChar := by left; omega
    unfold Char.ofNat
    rw [dif_pos hv]
    rfl
  unfold IsLetter letterVal
  rw [h2]
  omega

/-- C48: every positive number is the value of exactly one string of letters -/
theorem C48_unique (n : Nat) (hn : 0 < n) : ∃ l, ((∀ c ∈ l, IsLetter c) ∧ l ≠ [] ∧ calcColCount l = n) ∧
    ∀ l', (∀ c ∈ l', IsLetter c) → calcColCount l' = n → l' = l := by
  have ex : ∀ n : Nat, ∃ l, (∀ c ∈ l, IsLetter c) ∧ (0 < n → l ≠ []) ∧ calcColCount l = n := by
    intro n
    induction n using Nat.strongRecOn with
    | ind n ih =>
      by_cases h : n = 0
      · subst h; exact ⟨[], by simp, by omega, rfl⟩
      · obtain ⟨l, h1, -, h3⟩ := ih ((n - 1) / 26) (by omega)
        obtain ⟨k1, k2⟩ := letter_exists ((n - 1) % 26) (Nat.mod_lt _ (by omega))
        refine ⟨l ++ [Char.ofNat (65 + (n - 1) % 26)], ?_, by simp, ?_⟩
        · intro c hc
          rcases List.mem_append.1 hc with hc | hc
          · exact h1 c hc
          · rw [List.mem_singleton] at hc; subst hc; exact k1
        · rw [calcColCount_append, h3, calcColCount_cons, calcColCount_nil, k2]
          simp only [List.length_cons, List.length_nil]
          omega
  obtain ⟨l, h1, h2, h3⟩ := ex n
  refine ⟨l, ⟨h1, h2 hn, h3⟩, ?_⟩
  intro l' h1' h3'
  rcases shortlex_total l' l with h | h | h
  · have := C48_shortlex l' l h1' h1 h; omega
  · exact h
  · have := C48_shortlex l l' h1 h1' h; omega

example : calcColCount ['A'] = 1 ∧ calcColCount ['Z'] = 26 ∧ calcColCount ['A', 'A'] = 27 ∧ calcColCount ['X', 'F', 'D'] = 16384 := by decide
example : shortlexLt ['Z'] ['A', 'A'] ∧ shortlexLt ['A', 'Z'] ['B', 'A'] := by
  constructor
  · left; decide
  · right; exact ⟨rfl, Or.inl (by decide)⟩

/-! ## C50 -/

/-- the pieces with the delimiters put back between them (spec vocabulary) -/
def interleave : List (List Char) → List (List Char) → List Char
  | p :: ps, d :: ds => p ++ d ++ interleave ps ds
  | ps, _ => ps.flatten

/-- `d` occurs in `s` at position `i` (spec vocabulary) -/
def OccursAt (d s : List Char) (i : Nat) : Prop := i ≤ s.length ∧ d <+: s.drop i

theorem strFind_some (d s : List Char) (i : Nat) (h : strFind d s = some i) : OccursAt d s i ∧ ∀ j < i, ¬ OccursAt d s j := by
  induction s generalizing i with
  | nil =>
    unfold strFind at h
    split at h
    · rename_i hd
      obtain rfl := Option.some.inj h
      subst hd
      exact ⟨⟨by simp, by simp⟩, by intro j hj; omega⟩
    · cases h
  | cons c t ih =>
    unfold strFind at h
    split at h
    · rename_i hp
      obtain rfl := Option.some.inj h
      exact ⟨⟨by simp, by simpa using List.isPrefixOf_iff_prefix.1 hp⟩, by intro j hj; omega⟩
    · rename_i hp
      rw [Option.map_eq_some_iff] at h
      obtain ⟨k, hk, rfl⟩ := h
      obtain ⟨h1, h2⟩ := ih k hk
      refine ⟨⟨by simp; exact h1.1, by simpa using h1.2⟩, ?_⟩
      intro j hj ho
      cases j with
      | zero => exact hp (List.isPrefixOf_iff_prefix.2 (by simpa using ho.2))
      | succ j => exact h2 j (by omega) ⟨by have := ho.1; simp at this; omega, by simpa using ho.2⟩

theorem strFind_none (d s : List Char) (h : strFind d s = none) : ∀ j, ¬ OccursAt d s j := by
  induction s with
  | nil =>
    intro j ho
    unfold strFind at h
    split at h
    · cases h
    · rename_i hd
      have := ho.2
      simp at this
      exact hd this
  | cons c t ih =>
    unfold strFind at h
    split at h
    · cases h
    · rename_i hp
      rw [Option.map_eq_none_iff] at h
      intro j ho
      cases j with
      | zero => exact hp (List.isPrefixOf_iff_prefix.2 (by simpa using ho.2))
      | succ j => exact ih h j ⟨by have := ho.1; simp at this; omega, by simpa using ho.2⟩

/-- C50: pieces and delimiters joined give the line back and there is one more piece than delimiters -/
theorem C50_split (text : List Char) (seq : List (List Char)) (chunks : List (List Char)) (h : splitBySequence text seq = .ok chunks) :
    chunks.length = seq.length + 1 ∧ interleave chunks seq = text := by
  induction seq generalizing text chunks with
  | nil =>
    unfold splitBySequence at h
    obtain rfl := Except.ok.inj h
    simp [interleave]
  | cons d rest ih =>
    unfold splitBySequence at h
    cases hf : strFind d text with
    | none => rw [hf] at h; cases h
    | some i =>
      rw [hf] at h
      simp only [bind, Except.bind] at h
      cases hr : splitBySequence (text.drop (d.length + i)) rest with
      | error e => rw [hr] at h; cases h
      | ok ch =>
        rw [hr] at h
        obtain rfl := Except.ok.inj h
        obtain ⟨h1, h2⟩ := ih _ _ hr
        refine ⟨by simp [h1], ?_⟩
        simp only [interleave, h2]
        obtain ⟨⟨hi, hp⟩, -⟩ := strFind_some d text i hf
        obtain ⟨s, hs⟩ := hp
        have : text.drop (d.length + i) = s := by
          rw [Nat.add_comm, ← List.drop_drop, ← hs]; simp
        rw [this, List.append_assoc, hs, List.take_append_drop]

/-- C50: each piece ends at the first occurrence of its delimiter in the remaining text -/
theorem C50_first (text : List Char) (d : List Char) (rest : List (List Char)) (p : List Char) (ps : List (List Char))
    (h : splitBySequence text (d :: rest) = .ok (p :: ps)) :
    ∃ s, text = p ++ d ++ s ∧ splitBySequence s rest = .ok ps ∧ ∀ j < p.length, ¬ OccursAt d text j := by
  unfold splitBySequence at h
  cases hf : strFind d text with
  | none => rw [hf] at h; cases h
  | some i =>
    rw [hf] at h
    simp only [bind, Except.bind] at h
    cases hr : splitBySequence (text.drop (d.length + i)) rest with
    | error e => rw [hr] at h; cases h
    | ok ch =>
      rw [hr] at h
      injection h with h
      injection h with ha hb
      subst ha hb
      obtain ⟨⟨hi, s, hs⟩, hmin⟩ := strFind_some d text i hf
      have hd : text.drop (d.length + i) = s := by
        rw [Nat.add_comm, ← List.drop_drop, ← hs]; simp
      refine ⟨s, ?_, by rw [← hd]; exact hr, ?_⟩
      · rw [List.append_assoc, hs, List.take_append_drop]
      · intro j hj
        rw [List.length_take] at hj
        exact hmin j (by omega)

/-- C50: a delimiter that does not occur is a ValueError -/
theorem C50_missing (text d : List Char) (rest : List (List Char)) (h : ∀ j, ¬ OccursAt d text j) : splitBySequence text (d :: rest) = .error .value := by
  unfold splitBySequence
  cases hf : strFind d text with
  | none => rfl
  | some i => exact absurd (strFind_some d text i hf).1 (h i)

/-- C50: when the delimiters occur in order, with any texts between them, splitting succeeds -/
theorem C50_succeeds (pieces seq : List (List Char)) (h : pieces.length = seq.length + 1) :
    ∃ ch, splitBySequence (interleave pieces seq) seq = .ok ch := by
  suffices H : ∀ u, ∃ ch, splitBySequence (u ++ interleave pieces seq) seq = .ok ch by simpa using H []
  induction seq generalizing pieces with
  | nil => intro u; exact ⟨_, rfl⟩
  | cons d rest ih =>
    intro w
    cases pieces with
    | nil => simp at h
    | cons p ps =>
      have hs := ih ps (by simpa using h)
      simp only [interleave]
      rw [← List.append_assoc, ← List.append_assoc]
      generalize w ++ p = q
      generalize interleave ps rest = s at *
      have ho : OccursAt d (q ++ d ++ s) q.length := ⟨by simp, by simp⟩
      unfold splitBySequence
      cases hf : strFind d (q ++ d ++ s) with
      | none => exact absurd ho (strFind_none _ _ hf _)
      | some i =>
        obtain ⟨-, hmin⟩ := strFind_some _ _ _ hf
        have hi : i ≤ q.length := by
          by_contra hc
          exact hmin q.length (by omega) ho
        have hu : (q ++ d ++ s).drop (d.length + i) = (q ++ d).drop (d.length + i) ++ s := by
          rw [List.drop_append_of_le_length (by simp; omega)]
        obtain ⟨ch, hch⟩ := hs ((q ++ d).drop (d.length + i))
        dsimp only
        rw [hu]
        simp only [bind, Except.bind, hch]
        exact ⟨_, rfl⟩

example : splitBySequence "ab,c;;d".toList [",".toList, ";;".toList] = .ok ["ab".toList, "c".toList, "d".toList] := by decide

/-! ## C53 -/

/-- C53 as stated: a multiple of m, the nearest one at or below (down), at or above (up), or the closest with halves going up -/
def C53_statement : Prop :=
  ∀ (v m : Rat), 0 < m → ∃ lo hi cl : Rat, dtRound v m (some false) = .ok lo ∧ dtRound v m (some true) = .ok hi ∧ dtRound v m none = .ok cl ∧
    (∃ k : Int, lo = k * m) ∧ (lo ≤ v ∧ v < lo + m) ∧
    (∃ k : Int, hi = k * m) ∧ (v ≤ hi ∧ hi - m < v) ∧
    (∃ k : Int, cl = k * m) ∧ (cl - m / 2 ≤ v ∧ v < cl + m / 2)

/-- C53 fails: rounding 2 up to a multiple of 1 gives 3 -/
theorem C53_fails : ¬ C53_statement := by
  intro h
  obtain ⟨lo, hi, cl, -, h2, -, -, -, -, h6, -⟩ := h 2 1 (by norm_num)
  have : dtRound 2 1 (some true) = .ok 3 := by decide +kernel
  rw [this] at h2
  obtain rfl := Except.ok.inj h2
  norm_num at h6

/-- and a value halfway between two multiples is rounded down: 3/2 to 1 -/
theorem C53_half_fails : ∃ v m : Rat, 0 < m ∧ dtRound v m none = .ok (v - m / 2) := ⟨3/2, 1, by norm_num, by decide +kernel⟩

theorem floor_mul (v m : Rat) (hm : 0 < m) : (Rat.floor (v / m) : Rat) * m ≤ v ∧ v < (Rat.floor (v / m) : Rat) * m + m := by
  have h1 : ((⌊v / m⌋ : Int) : Rat) ≤ v / m := Int.floor_le (v / m)
  have h2 : v / m < (⌊v / m⌋ : Int) + 1 := Int.lt_floor_add_one (v / m)
  have e : (⌊v / m⌋ : Int) = Rat.floor (v / m) := rfl
  rw [e] at h1 h2
  rw [le_div_iff₀ hm] at h1
  rw [div_lt_iff₀ hm] at h2
  exact ⟨h1, by linarith⟩

/-- C53, what holds: rounding down is exact; rounding up gives the smallest multiple strictly above v (except that 0 stays 0); without direction the
result is a closest multiple and halves go down.  Missing: rounding up an exact multiple moves it by m; halves do not go up. -/
theorem C53_partial (v m : Rat) (hm : 0 < m) : ∃ lo hi cl : Rat, dtRound v m (some false) = .ok lo ∧ dtRound v m (some true) = .ok hi ∧ dtRound v m none = .ok cl ∧
    (∃ k : Int, lo = k * m) ∧ (lo ≤ v ∧ v < lo + m) ∧
    (∃ k : Int, hi = k * m) ∧ (v ≤ hi ∧ hi - m ≤ v) ∧ (v ≠ 0 → v < hi) ∧ (v = 0 → hi = 0) ∧
    (∃ k : Int, cl = k * m) ∧ (cl - m / 2 < v ∧ v ≤ cl + m / 2) := by
  unfold dtRound
  by_cases h0 : v = 0
  · subst h0
    simp only [if_true]
    refine ⟨0, 0, 0, rfl, rfl, rfl, ⟨0, by simp⟩, ⟨le_refl _, by linarith⟩, ⟨0, by simp⟩, ⟨le_refl _, by linarith⟩, by simp, by simp, ⟨0, by simp⟩, ⟨by linarith, by linarith⟩⟩
  · simp only [h0, if_false, ne_of_gt hm]
    obtain ⟨h1, h2⟩ := floor_mul v m hm
    set k := Rat.floor (v / m)
    have hk : ((k : Rat) + 1) * m = k * m + m := by ring
    have e2 : |v - (k : Rat) * m| = v - k * m := abs_of_nonneg (by linarith)
    have e1 : |(k : Rat) * m + m - v| = k * m + m - v := abs_of_nonneg (by linarith)
    by_cases hc : |(k : Rat) * m + m - v| < |v - k * m|
    · refine ⟨_, _, _, rfl, rfl, by rw [if_pos hc], ⟨k, rfl⟩, ⟨h1, h2⟩, ⟨k + 1, by push_cast; linarith⟩, ⟨le_of_lt h2, by linarith⟩, fun _ => h2, fun h => absurd h (by simp),
        ⟨k + 1, by push_cast; linarith⟩, ?_⟩
      rw [e1, e2] at hc
      constructor <;> linarith
    · refine ⟨_, _, _, rfl, rfl, by rw [if_neg hc], ⟨k, rfl⟩, ⟨h1, h2⟩, ⟨k + 1, by push_cast; linarith⟩, ⟨le_of_lt h2, by linarith⟩, fun _ => h2, fun h => absurd h (by simp),
        ⟨k, rfl⟩, ?_⟩
      rw [e1, e2] at hc
      constructor <;> linarith

example : dtRound (-7/4) (1/2) none = .ok (-2) ∧ dtRound (-7/4) (1/2) (some true) = .ok (-3/2) := by decide +kernel

/-! ## C55 -/

/-- C55: the header has a length that is a multiple of 64, its length field (little endian, bytes 8 and 9) is the number of bytes that follow the
field, and the last byte is a newline -/
theorem C55_header (s : List UInt8) (b : List UInt8) (h : numpyHeader s = .ok b) :
    64 ∣ b.length ∧ (∃ lo hi, b[8]? = some lo ∧ b[9]? = some hi ∧ lo.toNat + 256 * hi.toNat = b.length - 10) ∧
    b.take 8 = [0x93, 78, 85, 77, 80, 89, 1, 0] ∧ (b.drop 10).take s.length = s ∧ b.getLast? = some 10 ∧
    (∀ x ∈ (b.drop (10 + s.length)).dropLast, x = 32) := by
  unfold numpyHeader at h
  dsimp only at h
  split at h
  · cases h
  · rename_i hlt
    obtain rfl := Except.ok.inj h
    simp only [List.length_cons, List.length_nil, List.length_append, List.length_replicate] at *
    generalize hp : 64 - (0 + 1 + 1 + 1 + 1 + 1 + 1 + (0 + 1) + (0 + 1) + 2 + s.length) % 64 = p at *
    have hp1 : 1 ≤ p ∧ p ≤ 64 ∧ (10 + s.length + p) % 64 = 0 := by omega
    refine ⟨by omega, ⟨UInt8.ofNat ((s.length + p) % 256), UInt8.ofNat ((s.length + p) / 256), ?_, ?_, ?_⟩, ?_, ?_, ?_, ?_⟩
    · simp
    · simp
    · rw [UInt8.toNat_ofNat_of_lt' (by show _ < 256; omega), UInt8.toNat_ofNat_of_lt' (by show _ < 256; omega)]
      omega
    · simp
    · simp
    · rw [← List.append_assoc, List.getLast?_concat]
    · intro x hx
      rw [← List.drop_drop] at hx
      have e : ∀ (z : List UInt8), ([147, 78, 85, 77, 80, 89] ++ [1] ++ [0] ++ [UInt8.ofNat ((s.length + p) % 256), UInt8.ofNat ((s.length + p) / 256)] ++ s ++ z).drop 10 = s ++ z := by
        intro z; simp
      rw [e, List.drop_left, List.dropLast_concat] at hx
      exact (List.mem_replicate.1 hx).2

/-- C55: it is written whenever the field can hold the length -/
theorem C55_total (s : List UInt8) (h : s.length + 64 < 65536) : ∃ b, numpyHeader s = .ok b := by
  unfold numpyHeader
  dsimp only
  rw [if_neg]
  · exact ⟨_, rfl⟩
  · simp only [List.length_cons, List.length_nil]; omega

example : (numpyHeader (List.replicate 54 97)).map List.length = .ok 128 ∧ (numpyHeader (List.replicate 53 97)).map List.length = .ok 64 := by decide +kernel

end Tablite
