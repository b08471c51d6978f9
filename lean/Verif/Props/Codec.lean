import Verif.Model.Codec
import Verif.Props.Dates
import Mathlib.Data.Rat.Encodable
import Mathlib.Data.Nat.Digits.Lemmas
import Mathlib.Tactic.Linarith
import Mathlib.Tactic.Positivity
import Mathlib.Tactic.IntervalCases

/-! C51, C52, C54: byte, JSON and temporary page forms of values. -/
namespace Tablite

/-! ## UTF-8 -/

/-- a code point that is not a surrogate -/
def Scalar (c : Nat) : Prop := c < 1114112 ∧ ¬ (55296 ≤ c ∧ c < 57344)

instance (c : Nat) : Decidable (Scalar c) := inferInstanceAs (Decidable (_ ∧ _))

theorem utf8Char_decode (c : Nat) (hc : Scalar c) : ∃ h, utf8Char c = .ok h ∧
    ∀ r, utf8Decode (h ++ r) = (utf8Decode r).bind fun t => .ok (c :: t) := by
  obtain ⟨h1, h2⟩ := hc
  unfold utf8Char
  split_ifs with a b d
  · exact ⟨_, rfl, fun r => by rw [List.singleton_append, utf8Decode.eq_def]; dsimp only; rw [if_pos a]⟩
  · refine ⟨_, rfl, fun r => ?_⟩
    simp only [List.cons_append, List.nil_append]
    rw [utf8Decode.eq_def]
    dsimp only
    rw [if_neg (by omega), if_neg (by omega), if_pos (by omega)]
    rw [if_pos (by simp only [isCont, Bool.and_eq_true, decide_eq_true_eq]; omega)]
    rw [show (192 + c / 64 - 192) * 64 + (128 + c % 64 - 128) = c by omega]
  · refine ⟨_, rfl, fun r => ?_⟩
    simp only [List.cons_append, List.nil_append]
    rw [utf8Decode.eq_def]
    dsimp only
    rw [if_neg (by omega), if_neg (by omega), if_neg (by omega), if_pos (by omega)]
    rw [show (224 + c / 4096 - 224) * 4096 + (128 + c / 64 % 64 - 128) * 64 + (128 + c % 64 - 128) = c by omega]
    rw [if_pos (by simp only [isCont, Bool.and_eq_true, decide_eq_true_eq, Bool.not_eq_true', Bool.and_eq_false_iff, decide_eq_false_iff_not]; omega)]
  · refine ⟨_, rfl, fun r => ?_⟩
    simp only [List.cons_append, List.nil_append]
    rw [utf8Decode.eq_def]
    dsimp only
    rw [if_neg (by omega), if_neg (by omega), if_neg (by omega), if_neg (by omega)]
    rw [show (240 + c / 262144 - 240) * 262144 + (128 + c / 4096 % 64 - 128) * 4096 + (128 + c / 64 % 64 - 128) * 64 + (128 + c % 64 - 128) = c by omega]
    rw [if_pos (by simp only [isCont, Bool.and_eq_true, decide_eq_true_eq]; omega)]

/-- UTF-8 text without surrogates survives encoding and decoding -/
theorem utf8_roundtrip (t : PyText) (ht : ∀ c ∈ t, Scalar c) : ∃ b, utf8Encode t = .ok b ∧ utf8Decode b = .ok t := by
  induction t with
  | nil => exact ⟨[], rfl, rfl⟩
  | cons c l ih =>
    obtain ⟨b, hb, hd⟩ := ih fun c hc => ht c (List.mem_cons_of_mem _ hc)
    obtain ⟨h, hh, hr⟩ := utf8Char_decode c (ht c List.mem_cons_self)
    refine ⟨h ++ b, ?_, ?_⟩
    · rw [utf8Encode, hh, hb]; rfl
    · rw [hr, hd]; rfl

theorem utf8Encode_ascii (t : PyText) (ht : ∀ c ∈ t, c < 128) : utf8Encode t = .ok t := by
  induction t with
  | nil => rfl
  | cons c l ih =>
    rw [utf8Encode, utf8Char, if_pos (ht c List.mem_cons_self), ih fun c hc => ht c (List.mem_cons_of_mem _ hc)]; rfl

theorem utf8Decode_ascii (t : PyText) (ht : ∀ c ∈ t, c < 128) : utf8Decode t = .ok t := by
  induction t with
  | nil => rfl
  | cons c l ih =>
    rw [utf8Decode.eq_def]; dsimp only; rw [if_pos (ht c List.mem_cons_self), ih fun c hc => ht c (List.mem_cons_of_mem _ hc)]; rfl

/-! ## integers -/

theorem natText_digits (n : Nat) : ∀ c ∈ natText n, 48 ≤ c ∧ c < 58 := by
  intro c hc
  unfold natText at hc
  split_ifs at hc
  · simp at hc; omega
  · simp only [List.mem_map, List.mem_reverse] at hc
    obtain ⟨d, hd, rfl⟩ := hc
    have := Nat.digits_lt_base (b := 10) (by norm_num) hd
    omega

theorem foldl_digits (l : List Nat) (a : Nat) :
    (l.map (48 + ·)).reverse.foldl (fun a c => a * 10 + (c - 48)) a = a * 10 ^ l.length + Nat.ofDigits 10 l := by
  induction l generalizing a with
  | nil => simp
  | cons d l ih =>
    rw [List.map_cons, List.reverse_cons, List.foldl_append, ih]
    simp only [List.foldl_cons, List.foldl_nil, List.length_cons, Nat.ofDigits_cons, Nat.add_sub_cancel_left]
    rw [pow_succ]; ring

theorem parseNatText_natText (n : Nat) : parseNatText (natText n) = .ok n := by
  unfold parseNatText
  rw [if_pos]
  · by_cases h : n = 0
    · subst h; rfl
    · rw [natText, if_neg h, List.map_reverse, foldl_digits]
      rw [Nat.ofDigits_digits]; simp
  · constructor
    · unfold natText
      split_ifs with h
      · simp
      · simp [Nat.digits_ne_nil_iff_ne_zero.2 h]
    · rw [List.all_eq_true]
      intro c hc
      have := natText_digits n c hc
      simp only [isDig, Bool.and_eq_true, decide_eq_true_eq]; omega

theorem parseIntText_unsigned (c : Nat) (t : PyText) (h1 : c ≠ 45) (h2 : c ≠ 43) :
    parseIntText (c :: t) = (parseNatText (c :: t)).bind fun n => .ok (n : Int) := by
  unfold parseIntText
  split
  · rename_i h; cases h; exact absurd rfl h1
  · rename_i h; cases h; exact absurd rfl h2
  · rfl

theorem natText_ne_nil (n : Nat) : natText n ≠ [] := by
  unfold natText
  split_ifs with h
  · simp
  · simp [Nat.digits_ne_nil_iff_ne_zero.2 h]

theorem parseIntText_intText (z : Int) : parseIntText (intText z) = .ok z := by
  unfold intText
  split_ifs with h
  · rw [parseIntText, parseNatText_natText]
    show Except.ok _ = _
    congr 1; omega
  · cases hc : natText z.natAbs with
    | nil => exact absurd hc (natText_ne_nil _)
    | cons c t =>
      have := natText_digits z.natAbs c (by rw [hc]; exact List.mem_cons_self)
      rw [parseIntText_unsigned c t (by omega) (by omega), ← hc, parseNatText_natText]
      show Except.ok _ = _
      congr 1; omega

theorem intText_chars (z : Int) : ∀ c ∈ intText z, c = 45 ∨ (48 ≤ c ∧ c < 58) := by
  intro c hc
  unfold intText at hc
  split_ifs at hc
  · rcases List.mem_cons.1 hc with h | h
    · exact .inl h
    · exact .inr (natText_digits _ c h)
  · exact .inr (natText_digits _ c hc)

/-! ## dates and times -/

theorem read2_pad2 (n : Nat) (hn : n < 100) (r : PyText) : read2 (pad2 n ++ r) = .ok (n, r) := by
  simp only [pad2, List.cons_append, List.nil_append, read2]
  rw [if_pos (by simp only [isDig, Bool.and_eq_true, decide_eq_true_eq]; omega)]
  rw [show (48 + n / 10 - 48) * 10 + (48 + n % 10 - 48) = n by omega]

theorem read4_pad4 (n : Nat) (hn : n < 10000) (r : PyText) : read4 (pad4 n ++ r) = .ok (n, r) := by
  rw [read4, pad4, List.append_assoc, read2_pad2 _ (by omega)]
  dsimp only [Except.bind]
  rw [read2_pad2 _ (by omega)]
  dsimp only
  rw [show n / 100 * 100 + n % 100 = n by omega]

theorem read6_pad6 (n : Nat) (hn : n < 1000000) (r : PyText) : read6 (pad6 n ++ r) = .ok (n, r) := by
  rw [read6, pad6, List.append_assoc, read2_pad2 _ (by omega)]
  dsimp only [Except.bind]
  rw [read4_pad4 _ (by omega)]
  dsimp only
  rw [show n / 10000 * 10000 + n % 10000 = n by omega]

theorem expect_cons (c : Nat) (r : PyText) : expect c (c :: r) = .ok r := by rw [expect, if_pos rfl]

theorem monthDays_le (y m : Nat) : monthDays y m ≤ 31 := by
  unfold monthDays; split_ifs <;> omega

theorem readDate_iso (d : PyDate) (hd : dateOk d = true) (r : PyText) : readDate (isoDate d ++ r) = .ok (d, r) := by
  have h := hd
  simp only [dateOk, Bool.and_eq_true, decide_eq_true_eq] at h
  have := monthDays_le d.y d.m
  rw [readDate, isoDate]
  simp only [List.append_assoc, List.cons_append]
  rw [read4_pad4 _ (by omega)]
  dsimp only [Except.bind]
  rw [expect_cons]
  dsimp only
  rw [read2_pad2 _ (by omega)]
  dsimp only
  rw [expect_cons]
  dsimp only
  rw [read2_pad2 _ (by omega)]
  dsimp only
  rw [if_pos hd]

theorem fromIsoDate_iso (d : PyDate) (hd : dateOk d = true) : fromIsoDate (isoDate d) = .ok d := by
  have := readDate_iso d hd []
  rw [List.append_nil] at this
  rw [fromIsoDate, this]
  rfl

theorem readOff_iso (o : Option Int) (ho : ∀ z, o = some z → z.natAbs < 1440) : readOff (isoOff o) = .ok o := by
  cases o with
  | none => rfl
  | some z =>
    have hz := ho z rfl
    rw [isoOff, readOff, read2_pad2 _ (by omega)]
    dsimp only [Except.bind]
    rw [expect_cons]
    dsimp only
    have h2 := read2_pad2 (z.natAbs % 60) (by omega) []
    rw [List.append_nil] at h2
    rw [h2]
    dsimp only
    by_cases h : z < 0
    · simp only [if_pos h]
      rw [if_pos (by simp)]
      simp only [if_true]
      congr 2
      have : z.natAbs / 60 * 60 + z.natAbs % 60 = z.natAbs := by omega
      rw [this]; omega
    · simp only [if_neg h]
      rw [if_pos (by simp)]
      simp only [Nat.reduceEqDiff, if_false]
      congr 2
      have : z.natAbs / 60 * 60 + z.natAbs % 60 = z.natAbs := by omega
      rw [this]; omega

theorem readUs_iso (n : Nat) (hn : n < 1000000) (o : Option Int) :
    readUs ((if n = 0 then [] else 46 :: pad6 n) ++ isoOff o) = .ok (n, isoOff o) := by
  split_ifs with h
  · subst h
    cases o with
    | none => rfl
    | some z =>
      rw [List.nil_append, isoOff]
      by_cases hz : z < 0
      · rw [if_pos hz]; rfl
      · rw [if_neg hz]; rfl
  · rw [List.cons_append, readUs, read6_pad6 _ hn]

theorem fromIsoTime_iso (t : PyTime) (ht : timeOk t = true) : fromIsoTime (isoTime t) = .ok t := by
  have h := ht
  simp only [timeOk, Bool.and_eq_true, decide_eq_true_eq] at h
  obtain ⟨⟨⟨⟨h1, h2⟩, h3⟩, h4⟩, h5⟩ := h
  have ho : ∀ z, t.off = some z → z.natAbs < 1440 := by
    intro z hz; rw [hz] at h5; simpa using h5
  rw [fromIsoTime, isoTime, read2_pad2 _ (by omega)]
  dsimp only [Except.bind]
  rw [expect_cons]
  dsimp only
  rw [read2_pad2 _ (by omega)]
  dsimp only
  rw [expect_cons]
  dsimp only
  rw [read2_pad2 _ (by omega)]
  dsimp only
  rw [readUs_iso _ h4]
  dsimp only
  rw [readOff_iso _ ho]
  dsimp only
  rw [if_pos ht]

theorem fromIsoDatetime_iso (d : PyDate) (t : PyTime) (hd : dateOk d = true) (ht : timeOk t = true) :
    fromIsoDatetime (isoDatetime d t) = .ok (d, t) := by
  rw [fromIsoDatetime, isoDatetime, readDate_iso d hd]
  dsimp only [Except.bind]
  rw [fromIsoTime_iso t ht]

theorem pad2_ascii (n : Nat) (hn : n < 100) : ∀ c ∈ pad2 n, c < 128 := by
  intro c hc
  simp only [pad2, List.mem_cons, List.not_mem_nil, or_false] at hc
  omega

theorem pad4_ascii (n : Nat) (hn : n < 10000) : ∀ c ∈ pad4 n, c < 128 := by
  intro c hc
  rcases List.mem_append.1 hc with h | h
  · exact pad2_ascii _ (by omega) c h
  · exact pad2_ascii _ (by omega) c h

theorem pad6_ascii (n : Nat) (hn : n < 1000000) : ∀ c ∈ pad6 n, c < 128 := by
  intro c hc
  rcases List.mem_append.1 hc with h | h
  · exact pad2_ascii _ (by omega) c h
  · exact pad4_ascii _ (by omega) c h

theorem isoDate_ascii (d : PyDate) (hd : dateOk d = true) : ∀ c ∈ isoDate d, c < 128 := by
  have h := hd
  simp only [dateOk, Bool.and_eq_true, decide_eq_true_eq] at h
  have := monthDays_le d.y d.m
  intro c hc
  simp only [isoDate, List.mem_append, List.mem_cons] at hc
  rcases hc with h | h | h | h | h
  · exact pad4_ascii _ (by omega) c h
  · omega
  · exact pad2_ascii _ (by omega) c h
  · omega
  · exact pad2_ascii _ (by omega) c h

theorem isoOff_ascii (o : Option Int) (ho : ∀ z, o = some z → z.natAbs < 1440) : ∀ c ∈ isoOff o, c < 128 := by
  intro c hc
  cases o with
  | none => simp [isoOff] at hc
  | some z =>
    have hz := ho z rfl
    simp only [isoOff, List.mem_append, List.mem_cons] at hc
    rcases hc with h | h | h | h
    · split_ifs at h <;> omega
    · exact pad2_ascii _ (by omega) c h
    · omega
    · exact pad2_ascii _ (by omega) c h

theorem isoTime_ascii (t : PyTime) (ht : timeOk t = true) : ∀ c ∈ isoTime t, c < 128 := by
  have h := ht
  simp only [timeOk, Bool.and_eq_true, decide_eq_true_eq] at h
  obtain ⟨⟨⟨⟨h1, h2⟩, h3⟩, h4⟩, h5⟩ := h
  have ho : ∀ z, t.off = some z → z.natAbs < 1440 := by
    intro z hz; rw [hz] at h5; simpa using h5
  intro c hc
  simp only [isoTime, List.mem_append, List.mem_cons] at hc
  rcases hc with h | h | h | h | h | h | h
  · exact pad2_ascii _ (by omega) c h
  · omega
  · exact pad2_ascii _ (by omega) c h
  · omega
  · exact pad2_ascii _ (by omega) c h
  · split_ifs at h
    · simp at h
    · rcases List.mem_cons.1 h with h | h
      · omega
      · exact pad6_ascii _ h4 c h
  · exact isoOff_ascii _ ho c h

theorem isoDatetime_ascii (d : PyDate) (t : PyTime) (hd : dateOk d = true) (ht : timeOk t = true) :
    ∀ c ∈ isoDatetime d t, c < 128 := by
  intro c hc
  simp only [isoDatetime, List.mem_append, List.mem_cons] at hc
  rcases hc with h | h | h
  · exact isoDate_ascii d hd c h
  · omega
  · exact isoTime_ascii t ht c h

/-! ## durations -/

theorem roundEven_near (q : Rat) (n : Int) (h : |q - n| < 1 / 2) : roundEven q = n := by
  rw [abs_lt] at h
  unfold roundEven
  have h1 := Int.floor_le q
  have h2 := Int.lt_floor_add_one q
  rcases le_or_gt (n : Rat) q with hq | hq
  · have hf : ⌊q⌋ = n := by rw [Int.floor_eq_iff]; constructor <;> linarith
    rw [hf, if_pos (by linarith)]
  · have hf : ⌊q⌋ = n - 1 := by rw [Int.floor_eq_iff]; push_cast; constructor <;> linarith
    rw [hf, if_neg (by push_cast; linarith), if_pos (by push_cast; linarith)]; omega

theorem ratTrunc_near (q : Rat) : |q - ratTrunc q| ≤ 1 := by
  unfold ratTrunc
  rw [abs_le]
  split_ifs with h
  · have h1 := Int.floor_le q
    have h2 := Int.lt_floor_add_one q
    constructor <;> linarith
  · have h1 := Int.le_ceil q
    have h2 := Int.ceil_lt_add_one q
    constructor <;> linarith

/-- a number of seconds within half a microsecond of a whole number of microseconds gives that number -/
theorem timedelta_near (fl : Rat → Rat) (hfl : IsRound fl) (days : Int) (q : Rat) (N : Int) (h : |q * 1000000 - N| ≤ 49 / 100) :
    timedelta fl days (.fin q) = tdOf (days * 86400000000 + N) := by
  have ht := ratTrunc_near q
  have he := hfl.err ((q - ratTrunc q) * 1000000)
  have hr : roundEven (fl ((q - ratTrunc q) * 1000000)) = N - ratTrunc q * 1000000 := by
    apply roundEven_near
    have hb : |(q - ratTrunc q) * 1000000| ≤ 1000000 := by
      rw [abs_mul]; norm_num; linarith
    have he' : |fl ((q - ratTrunc q) * 1000000) - (q - ratTrunc q) * 1000000| ≤ 1000000 / 2 ^ 53 :=
      he.trans (by gcongr)
    rw [abs_le] at h he'
    have : (1000000 : Rat) / 2 ^ 53 < 1 / 100 := by norm_num
    push_cast
    rw [abs_lt]
    constructor <;> linarith [h.1, h.2, he'.1, he'.2]
  show tdOf _ = _
  rw [hr]
  congr 1
  ring

theorem tdOf_fields (d s us : Int) (hd : -999999999 ≤ d ∧ d ≤ 999999999) (hs : 0 ≤ s ∧ s < 86400) (hu : 0 ≤ us ∧ us < 1000000) :
    tdOf ((d * 86400 + s) * 1000000 + us) = .ok (d, s, us) := by
  have h1 : ((d * 86400 + s) * 1000000 + us) / dayUs = d := by unfold dayUs; omega
  have h2 : ((d * 86400 + s) * 1000000 + us) % dayUs / 1000000 = s := by unfold dayUs; omega
  have h3 : ((d * 86400 + s) * 1000000 + us) % 1000000 = us := by omega
  rw [tdOf, h1, h2, h3, if_pos hd]

/-- the two divisions and the two products of `b_timedelta` and `_timedelta` stay within half a microsecond
for durations of up to 50000 days -/
theorem days_error (fl : Rat → Rat) (hfl : IsRound fl) (d s w : Int) (hd : -50000 ≤ d ∧ d ≤ 50000) (hs : 0 ≤ s ∧ s < 86400)
    (hw : |fl (d + fl (s / 86400)) - w| ≤ 1) :
    |fl (86400 * fl (fl (d + fl (s / 86400)) - w)) * 1000000 - (((86400 * (d - w) + s) * 1000000 : Int) : Rat)| ≤ 49 / 100 := by
  have d1 : (-50000 : Rat) ≤ d := by exact_mod_cast hd.1
  have d2 : (d : Rat) ≤ 50000 := by exact_mod_cast hd.2
  have s1 : (0 : Rat) ≤ s := by exact_mod_cast hs.1
  have s2 : (s : Rat) < 86400 := by exact_mod_cast hs.2
  have e1 := hfl.err ((s : Rat) / 86400)
  generalize hr : fl ((s : Rat) / 86400) = r at *
  have b1 : |(s : Rat) / 86400| ≤ 1 := by rw [abs_le]; constructor <;> linarith
  have e1' : |r - (s : Rat) / 86400| ≤ 1 / 2 ^ 53 := e1.trans (by gcongr)
  rw [abs_le] at e1'
  have t1 : (1 : Rat) / 2 ^ 53 < 1 := by norm_num
  have e2 := hfl.err ((d : Rat) + r)
  generalize hx : fl ((d : Rat) + r) = x at *
  have b2 : |(d : Rat) + r| ≤ 50002 := by rw [abs_le]; constructor <;> linarith
  have e2' : |x - (d + r)| ≤ 50002 / 2 ^ 53 := e2.trans (by gcongr)
  rw [abs_le] at e2'
  have e3 := hfl.err (x - w)
  generalize hg : fl (x - (w : Rat)) = g at *
  have e3' : |g - (x - w)| ≤ 1 / 2 ^ 53 := e3.trans (by gcongr)
  rw [abs_le] at e3' hw
  have e4 := hfl.err (86400 * g)
  generalize hk : fl (86400 * g) = k at *
  have b4 : |86400 * g| ≤ 172800 := by rw [abs_le]; constructor <;> linarith
  have e4' : |k - 86400 * g| ≤ 172800 / 2 ^ 53 := e4.trans (by gcongr)
  rw [abs_le] at e4'
  have t2 : (1000000 : Rat) * (172800 + 86400 * (50002 + 1 + 1)) / 2 ^ 53 ≤ 49 / 100 := by norm_num
  push_cast
  rw [abs_le]
  constructor <;> linarith

theorem seconds_error (fl : Rat → Rat) (hfl : IsRound fl) (s us : Int) (hs : 0 ≤ s ∧ s < 86400) (hu : 0 ≤ us ∧ us < 1000000) :
    |fl (s + fl (us / 1000000)) * 1000000 - ((s * 1000000 + us : Int) : Rat)| ≤ 49 / 100 := by
  have s1 : (0 : Rat) ≤ s := by exact_mod_cast hs.1
  have s2 : (s : Rat) < 86400 := by exact_mod_cast hs.2
  have u1 : (0 : Rat) ≤ us := by exact_mod_cast hu.1
  have u2 : (us : Rat) < 1000000 := by exact_mod_cast hu.2
  have e1 := hfl.err ((us : Rat) / 1000000)
  generalize hr : fl ((us : Rat) / 1000000) = r at *
  have b1 : |(us : Rat) / 1000000| ≤ 1 := by rw [abs_le]; constructor <;> linarith
  have e1' : |r - (us : Rat) / 1000000| ≤ 1 / 2 ^ 53 := e1.trans (by gcongr)
  rw [abs_le] at e1'
  have t1 : (1 : Rat) / 2 ^ 53 < 1 := by norm_num
  have e2 := hfl.err ((s : Rat) + r)
  generalize hx : fl ((s : Rat) + r) = x at *
  have b2 : |(s : Rat) + r| ≤ 86402 := by rw [abs_le]; constructor <;> linarith
  have e2' : |x - (s + r)| ≤ 86402 / 2 ^ 53 := e2.trans (by gcongr)
  rw [abs_le] at e2'
  have t2 : (1000000 : Rat) * (86402 + 1) / 2 ^ 53 ≤ 49 / 100 := by norm_num
  push_cast
  rw [abs_le]
  constructor <;> linarith

/-! ## assumptions about the Python runtime -/

/-- the number is a double -/
def IsDouble (fl : Rat → Rat) : Dbl → Prop
  | .fin q => fl q = q
  | _ => True

/-- what is assumed of the runtime: rounding has relative error at most 2^-53, `float(str(x))` is `x` for doubles,
`str(x)` is ASCII and holds no `D` and no `S`, and pickling gives back the object -/
structure RuntimeOk {O : Type} (R : Runtime O) : Prop where
  round : IsRound R.fl
  idem : ∀ q, R.fl (R.fl q) = R.fl q
  parse : ∀ x, IsDouble R.fl x → R.parse (R.text x) = .ok x
  chars : ∀ x, ∀ c ∈ R.text x, c < 128 ∧ c ≠ 68 ∧ c ≠ 83
  pickle : ∀ o, R.loads (R.dumps o) = .ok o

/-- the values Python can hold in each type -/
def PVOk {O : Type} (R : Runtime O) : PV O → Prop
  | .float x => IsDouble R.fl x
  | .str t => ∀ c ∈ t, c < 1114112
  | .bytes b => ∀ c ∈ b, c < 256
  | .datetime d t => dateOk d = true ∧ timeOk t = true
  | .date d => dateOk d = true
  | .time t => timeOk t = true
  | .timedelta d s us => (-999999999 ≤ d ∧ d ≤ 999999999) ∧ (0 ≤ s ∧ s < 86400) ∧ (0 ≤ us ∧ us < 1000000)
  | _ => True

/-- C51 in full: bytes and type code of every value give the value back -/
def C51_statement : Prop :=
  ∀ (O : Type) (R : Runtime O), RuntimeOk R → ∀ v : PV O, PVOk R v →
    ∃ b, toBytes R v = .ok b ∧ fromTypeCode R b (typeCode v) = .ok v

/-- what C51 needs in addition: texts without lone surrogates, durations of at most 50000 days without microseconds -/
def Codable {O : Type} : PV O → Prop
  | .str t => ∀ c ∈ t, ¬ (55296 ≤ c ∧ c < 57344)
  | .timedelta d _ us => (-50000 ≤ d ∧ d ≤ 50000) ∧ us = 0
  | _ => True

theorem ascii_roundtrip {β : Type} (t : PyText) (ht : ∀ c ∈ t, c < 128) (f : PyText → Except Err β) (x : β) (h : f t = .ok x) :
    ∃ b, utf8Encode t = .ok b ∧ (utf8Decode b).bind f = .ok x :=
  ⟨t, utf8Encode_ascii t ht, by rw [utf8Decode_ascii t ht]; exact h⟩

theorem intText_ascii (z : Int) : ∀ c ∈ intText z, c < 128 := fun c hc => by
  have := intText_chars z c hc; omega

/-- C51 for texts without surrogates and durations of whole seconds up to 50000 days; all other values without restriction.
Missing: the values the code does not restore, see `C51_fails` and the theorems after it. -/
theorem C51_partial {O : Type} (R : Runtime O) (hR : RuntimeOk R) (v : PV O) (hv : PVOk R v) (hc : Codable v) :
    ∃ b, toBytes R v = .ok b ∧ fromTypeCode R b (typeCode v) = .ok v := by
  cases v with
  | none => exact ⟨_, rfl, rfl⟩
  | bool b => cases b <;> exact ⟨_, rfl, rfl⟩
  | int z => exact ascii_roundtrip _ (intText_ascii z) _ _ (by rw [parseIntText_intText]; rfl)
  | float x => exact ascii_roundtrip _ (fun c hc => (hR.chars x c hc).1) _ _ (by rw [hR.parse x hv]; rfl)
  | str t =>
    obtain ⟨b, h1, h2⟩ := utf8_roundtrip t fun c h => ⟨hv c h, hc c h⟩
    exact ⟨b, h1, by show Except.bind _ _ = _; rw [h2]; rfl⟩
  | bytes b => exact ⟨_, rfl, rfl⟩
  | datetime d t =>
    exact ascii_roundtrip _ (isoDatetime_ascii d t hv.1 hv.2) _ _ (by rw [fromIsoDatetime_iso d t hv.1 hv.2]; rfl)
  | date d => exact ascii_roundtrip _ (isoDate_ascii d hv) _ _ (by rw [fromIsoDate_iso d hv]; rfl)
  | time t => exact ascii_roundtrip _ (isoTime_ascii t hv) _ _ (by rw [fromIsoTime_iso t hv]; rfl)
  | timedelta d s us =>
    obtain ⟨h1, h2, h3⟩ := hv
    obtain ⟨h4, rfl⟩ := hc
    refine ⟨_, utf8Encode_ascii _ fun c hc => (hR.chars _ c hc).1, ?_⟩
    show bytesToTimedelta R _ = _
    rw [bytesToTimedelta, hR.parse (.fin _) (hR.idem _)]
    dsimp only [Except.bind]
    have hw := ratTrunc_near (R.fl (d + R.fl (s / 86400)))
    rw [timedelta_near R.fl hR.round _ _ _ (days_error R.fl hR.round d s _ h4 h2 hw)]
    generalize ratTrunc (R.fl (d + R.fl (s / 86400))) = w
    rw [show w * 86400000000 + (86400 * (d - w) + s) * 1000000 = (d * 86400 + s) * 1000000 + 0 by ring]
    rw [tdOf_fields d s 0 h1 h2 h3]
  | other o => exact ⟨_, rfl, by show Except.bind _ _ = _; rw [hR.pickle]; rfl⟩

/-- a runtime with exact arithmetic (only to show the assumptions can be met) -/
def exactRuntime : Runtime Unit where
  fl := id
  text
    | .posInf => []
    | .negInf => [49]
    | .nan => [49, 49]
    | .fin q => List.replicate (Encodable.encode q + 3) 49
  parse t :=
    match t.length with
    | 0 => .ok .posInf
    | 1 => .ok .negInf
    | 2 => .ok .nan
    | n + 3 => match (Encodable.decode n : Option Rat) with
      | some q => .ok (.fin q)
      | none => .error .value
  dumps _ := []
  loads _ := .ok ()

theorem exactRuntime_ok : RuntimeOk exactRuntime where
  round := ⟨by intro z; simp only [exactRuntime, id, sub_self, abs_zero]; positivity, fun _ _ => rfl⟩
  idem _ := rfl
  parse x _ := by
    cases x with
    | posInf => rfl
    | negInf => rfl
    | nan => rfl
    | fin q =>
      show (match (List.replicate (Encodable.encode q + 3) 49).length with
        | 0 => (Except.ok Dbl.posInf : Except Err Dbl) | 1 => .ok .negInf | 2 => .ok .nan
        | n + 3 => match (Encodable.decode n : Option Rat) with | some q => .ok (.fin q) | none => .error .value) = _
      rw [List.length_replicate]
      dsimp only
      rw [Encodable.encodek]
  chars x c hc := by
    have : c = 49 := by
      cases x with
      | posInf => simp [exactRuntime] at hc
      | negInf => simpa [exactRuntime] using hc
      | nan => simpa [exactRuntime] using hc
      | fin q => exact (List.mem_replicate.1 hc).2
    omega
  pickle _ := rfl

/-- microseconds of a duration do not reach the bytes -/
theorem C51_microseconds_lost {O : Type} (R : Runtime O) (d s us us' : Int) :
    toBytes R (.timedelta d s us) = toBytes R (.timedelta d s us') := rfl

/-- a text holding a lone surrogate has no bytes -/
theorem C51_surrogate_raises {O : Type} (R : Runtime O) (t : PyText) (c : Nat) (hc : c ∈ t) (hs : 55296 ≤ c ∧ c < 57344) :
    ∃ e, toBytes R (.str t) = .error e := by
  show ∃ e, utf8Encode t = .error e
  induction t with
  | nil => cases hc
  | cons a l ih =>
    rw [utf8Encode]
    rcases List.mem_cons.1 hc with rfl | h
    · refine ⟨.value, ?_⟩
      rw [utf8Char, if_neg (by omega), if_neg (by omega), if_pos (by omega), if_pos hs]; rfl
    · obtain ⟨e, he⟩ := ih h
      rw [he]
      cases utf8Char a with
      | error e' => exact ⟨e', rfl⟩
      | ok x => exact ⟨e, rfl⟩

/-- C51 is false: a duration of one microsecond does not come back -/
theorem C51_fails : ¬ C51_statement := by
  intro h
  obtain ⟨b, h1, h2⟩ := h Unit exactRuntime exactRuntime_ok (.timedelta 0 0 0) (by simp [PVOk])
  obtain ⟨b', h1', h2'⟩ := h Unit exactRuntime exactRuntime_ok (.timedelta 0 0 1) (by simp [PVOk])
  rw [C51_microseconds_lost _ 0 0 1 0, h1] at h1'
  cases h1'
  have h3 : fromTypeCode exactRuntime b 10 = .ok (.timedelta 0 0 0) := h2
  have h4 : fromTypeCode exactRuntime b 10 = .ok (.timedelta 0 0 1) := h2'
  rw [h3] at h4
  simp at h4

/-- the hypotheses are met by a text outside ASCII, an aware time, and a negative duration -/
example : PVOk exactRuntime (.str [233, 8364, 128512]) ∧ Codable (.str [233, 8364, 128512] : PV Unit) := by
  constructor <;> simp [PVOk, Codable]
example : toBytes exactRuntime (.str [233, 8364, 128512]) = .ok [195, 169, 226, 130, 172, 240, 159, 152, 128] := by decide
example : toBytes exactRuntime (.datetime ⟨2024, 2, 29⟩ ⟨23, 59, 1, 20, some (-330)⟩) = .ok (txt "2024-02-29T23:59:01.000020-05:30") := by
  decide +kernel
example : PVOk exactRuntime (.datetime ⟨2024, 2, 29⟩ ⟨23, 59, 1, 20, some (-330)⟩) := by constructor <;> decide +kernel
example : PVOk exactRuntime (.timedelta (-1) 43200 0) ∧ Codable (.timedelta (-1) 43200 0 : PV Unit) := by
  constructor <;> simp [PVOk, Codable]

/-! ## C52 -/

theorem inNones_str (c : Nat) (t : PyText) (h : c ≠ 110 ∧ c ≠ 78 ∧ c ≠ 35) : inNones (.str (c :: t)) = false := by
  rw [inNones, List.contains_eq_mem, decide_eq_false_iff_not]
  intro hm
  simp only [noneTexts, txt, List.mem_cons, List.not_mem_nil, or_false] at hm
  simp at hm
  rcases hm with ⟨h1, _⟩ | ⟨h1, _⟩ | ⟨h1, _⟩ | ⟨h1, _⟩ | ⟨h1, _⟩ | ⟨h1, _⟩ <;> omega

/-- C52 in full: JSON and type of every value that has a JSON form give the value back -/
def C52_statement : Prop :=
  ∀ (O : Type) (R : Runtime O), RuntimeOk R → ∀ v : PV O, PVOk R v → v ≠ .float .nan → v.type ≠ .bytes → v.type ≠ .other →
    ∃ j, toJson R v = .ok j ∧ fromJson R j v.type = .ok v

theorem splitDT_none (b : PyText) (hb : 68 ∉ b) : splitDT b = [b] := by
  induction b with
  | nil => rfl
  | cons c l ih =>
    cases l with
    | nil => rfl
    | cons d r =>
      have hc : c ≠ 68 := fun h => hb (by rw [h]; exact List.mem_cons_self)
      rw [splitDT, if_neg (fun h => hc h.1), ih fun h => hb (List.mem_cons_of_mem _ h)]

theorem splitDT_append (a b : PyText) (ha : 68 ∉ a) (hb : 68 ∉ b) : splitDT (a ++ 68 :: 84 :: b) = [a, b] := by
  induction a with
  | nil => rw [List.nil_append, splitDT, if_pos ⟨rfl, rfl⟩, splitDT_none b hb]
  | cons c l ih =>
    have hc : c ≠ 68 := fun h => ha (by rw [h]; exact List.mem_cons_self)
    have hl : 68 ∉ l := fun h => ha (List.mem_cons_of_mem _ h)
    cases l with
    | nil =>
      rw [List.cons_append, List.nil_append, splitDT, if_neg (fun h => hc h.1)]
      have := ih hl
      rw [List.nil_append] at this
      rw [this]
    | cons d r =>
      rw [List.cons_append, List.cons_append, splitDT, if_neg (fun h => hc h.1)]
      have := ih hl
      rw [List.cons_append] at this
      rw [this]

theorem dropWhile_none (t : PyText) (x : Nat) (h : x ∉ t) : t.dropWhile (· == x) = t := by
  cases t with
  | nil => rfl
  | cons c l =>
    have hc : c ≠ x := fun e => h (by rw [e]; exact List.mem_cons_self)
    rw [List.dropWhile_cons_of_neg (by simpa using hc)]

/-- C52 for every value but NaN and the texts `null`, `Null`, `NULL`, `#N/A`, `#n/a` and `None`.
Missing: those texts, which come back as `None`, see `C52_fails`. -/
theorem C52_partial {O : Type} (R : Runtime O) (hR : RuntimeOk R) (v : PV O) (hv : PVOk R v) (hn : v ≠ .float .nan)
    (hb : v.type ≠ .bytes) (ho : v.type ≠ .other)
    (ht : ∀ t, v = .str t → t ∉ [txt "null", txt "Null", txt "NULL", txt "#N/A", txt "#n/a", txt "None"]) :
    ∃ j, toJson R v = .ok j ∧ fromJson R j v.type = .ok v := by
  cases v with
  | none => exact ⟨_, rfl, rfl⟩
  | bool b => cases b <;> exact ⟨_, rfl, rfl⟩
  | int z => exact ⟨_, rfl, rfl⟩
  | float x =>
    refine ⟨_, rfl, ?_⟩
    have : inNones (.float x) = false := by
      simp only [inNones, beq_eq_false_iff_ne]
      intro h; exact hn (by rw [h])
    rw [fromJson, this]; rfl
  | str t =>
    refine ⟨_, rfl, ?_⟩
    by_cases he : t = []
    · subst he; rfl
    · have hm := ht t rfl
      have : inNones (.str t) = false := by
        rw [inNones, List.contains_eq_mem, decide_eq_false_iff_not]
        intro h
        apply hm
        simp only [noneTexts, List.mem_cons, List.not_mem_nil, or_false] at h ⊢
        have hempty : txt "" = [] := rfl
        rw [hempty] at h
        tauto
      rw [fromJson, this]; rfl
  | bytes b => exact absurd rfl hb
  | datetime d t =>
    refine ⟨_, rfl, ?_⟩
    have : inNones (.str (isoDatetime d t)) = false := by
      have h := hv.1
      simp only [dateOk, Bool.and_eq_true, decide_eq_true_eq] at h
      exact inNones_str _ _ (by omega)
    rw [fromJson, this]
    show Except.bind _ _ = _
    rw [fromIsoDatetime_iso d t hv.1 hv.2]; rfl
  | date d =>
    refine ⟨_, rfl, ?_⟩
    have : inNones (.str (isoDate d)) = false := by
      have h := hv
      simp only [PVOk, dateOk, Bool.and_eq_true, decide_eq_true_eq] at h
      exact inNones_str _ _ (by omega)
    rw [fromJson, this]
    show Except.bind _ _ = _
    rw [fromIsoDate_iso d hv]; rfl
  | time t =>
    refine ⟨_, rfl, ?_⟩
    have : inNones (.str (isoTime t)) = false := by
      have h := hv
      simp only [PVOk, timeOk, Bool.and_eq_true, decide_eq_true_eq] at h
      exact inNones_str _ _ (by omega)
    rw [fromJson, this]
    show Except.bind _ _ = _
    rw [fromIsoTime_iso t hv]; rfl
  | timedelta d s us =>
    refine ⟨_, rfl, ?_⟩
    have : inNones (.str (txt "P" ++ (intText d ++ (txt "DT" ++ (R.text (.fin (R.fl (s + R.fl (us / 1000000)))) ++ txt "S"))))) = false :=
      inNones_str _ _ (by decide)
    rw [fromJson, this]
    show textToTimedelta R _ = _
    generalize hX : R.fl (s + R.fl (us / 1000000)) = X
    have hx : R.parse (R.text (.fin X)) = .ok (.fin X) := hR.parse _ (by rw [← hX]; exact hR.idem _)
    have hch := hR.chars (.fin X)
    generalize R.text (.fin X) = T at *
    have hd : txt "P" ++ (intText d ++ (txt "DT" ++ (T ++ txt "S"))) = (80 :: intText d) ++ 68 :: 84 :: (T ++ [83]) := rfl
    rw [textToTimedelta, hd, splitDT_append]
    · dsimp only
      rw [List.dropWhile_cons_of_pos (by rfl), dropWhile_none _ _ (fun h => by have := intText_chars d _ h; omega)]
      rw [parseIntText_intText]
      dsimp only [Except.bind]
      rw [List.reverse_append, List.reverse_singleton, List.singleton_append, List.dropWhile_cons_of_pos (by rfl)]
      rw [dropWhile_none _ _ (fun h => (hch 83 (List.mem_reverse.1 h)).2.2 rfl), List.reverse_reverse, hx]
      dsimp only
      have he := seconds_error R.fl hR.round s us hv.2.1 hv.2.2
      rw [hX] at he
      rw [timedelta_near R.fl hR.round d X _ he]
      rw [show d * 86400000000 + (s * 1000000 + us) = (d * 86400 + s) * 1000000 + us by ring]
      rw [tdOf_fields d s us hv.1 hv.2.1 hv.2.2]
    · intro h
      rcases List.mem_cons.1 h with h | h
      · omega
      · have := intText_chars d _ h; omega
    · intro h
      rcases List.mem_append.1 h with h | h
      · exact (hch _ h).2.1 rfl
      · simp at h
  | other o => exact absurd rfl ho

/-- `from_json` of a duration whose seconds are no number or infinite raises -/
theorem C52_timedelta_raises {O : Type} (R : Runtime O) (hR : RuntimeOk R) (d : Int) (x : Dbl) (hx : IsDouble R.fl x) (hn : ∀ q, x ≠ .fin q) :
    fromJson R (.str (txt "P" ++ (intText d ++ (txt "DT" ++ (R.text x ++ txt "S"))))) .timedelta = .error (if x = .nan then .value else .overflow) := by
  have : inNones (.str (txt "P" ++ (intText d ++ (txt "DT" ++ (R.text x ++ txt "S"))))) = false := inNones_str _ _ (by decide)
  rw [fromJson, this]
  show textToTimedelta R _ = _
  have hp := hR.parse _ hx
  have hch := hR.chars x
  generalize R.text x = T at *
  have hd : txt "P" ++ (intText d ++ (txt "DT" ++ (T ++ txt "S"))) = (80 :: intText d) ++ 68 :: 84 :: (T ++ [83]) := rfl
  rw [textToTimedelta, hd, splitDT_append]
  · dsimp only
    rw [List.dropWhile_cons_of_pos (by rfl), dropWhile_none _ _ (fun h => by have := intText_chars d _ h; omega)]
    rw [parseIntText_intText]
    dsimp only [Except.bind]
    rw [List.reverse_append, List.reverse_singleton, List.singleton_append, List.dropWhile_cons_of_pos (by rfl)]
    rw [dropWhile_none _ _ (fun h => (hch 83 (List.mem_reverse.1 h)).2.2 rfl), List.reverse_reverse, hp]
    dsimp only
    cases x with
    | fin q => exact absurd rfl (hn q)
    | nan => rfl
    | posInf => rfl
    | negInf => rfl
  · intro h
    rcases List.mem_cons.1 h with h | h
    · omega
    · have := intText_chars d _ h; omega
  · intro h
    rcases List.mem_append.1 h with h | h
    · exact (hch _ h).2.1 rfl
    · simp at h

example : fromJson exactRuntime (.str (txt "P" ++ (intText 3 ++ (txt "DT" ++ (exactRuntime.text .nan ++ txt "S"))))) .timedelta = .error .value :=
  C52_timedelta_raises exactRuntime exactRuntime_ok 3 .nan trivial (by simp)

/-- the six texts come back as `None` -/
theorem C52_none_texts {O : Type} (R : Runtime O) (t : PyText)
    (ht : t ∈ [txt "null", txt "Null", txt "NULL", txt "#N/A", txt "#n/a", txt "None"]) :
    toJson R (.str t) = .ok (.str t) ∧ fromJson R (.str t) .str = .ok .none := by
  refine ⟨rfl, ?_⟩
  simp only [List.mem_cons, List.not_mem_nil, or_false] at ht
  rcases ht with rfl | rfl | rfl | rfl | rfl | rfl <;> rfl

/-- C52 is false: the text "None" comes back as `None` -/
theorem C52_fails : ¬ C52_statement := by
  intro h
  obtain ⟨j, h1, h2⟩ := h Unit exactRuntime exactRuntime_ok (.str (txt "None")) (by
    intro c hc; simp [txt] at hc; omega) (by simp) (by decide) (by decide)
  have := C52_none_texts exactRuntime (txt "None") (by simp)
  rw [this.1] at h1
  cases h1
  rw [show (PV.str (txt "None") : PV Unit).type = .str from rfl, this.2] at h2
  simp at h2

/-- the hypotheses are met by a negative duration with microseconds and by the empty text -/
example : PVOk exactRuntime (.timedelta (-3) 7 250000) := by simp [PVOk]
example : toJson exactRuntime (.time ⟨1, 2, 3, 0, none⟩) = .ok (.str (txt "01:02:03")) := by decide +kernel
example : fromJson exactRuntime (.str []) .str = .ok (.str []) := by decide +kernel

/-! ## C54 -/

theorem leBytes_length (k n : Nat) : (leBytes k n).length = k := by
  induction k generalizing n with
  | zero => rfl
  | succ k ih => rw [leBytes, List.length_cons, ih]

theorem leNat_leBytes (k n : Nat) (hn : n < 256 ^ k) : leNat (leBytes k n) = n := by
  induction k generalizing n with
  | zero => simp at hn; subst hn; rfl
  | succ k ih =>
    rw [leBytes, leNat, ih]
    · omega
    · rw [pow_succ] at hn; exact Nat.div_lt_of_lt_mul (by rw [Nat.mul_comm]; exact hn)

theorem packQ_unpackQ (z : Int) (hz : -9223372036854775808 ≤ z ∧ z < 9223372036854775808) :
    ∃ b, packQ z = .ok b ∧ unpackQ b = .ok z := by
  refine ⟨_, by rw [packQ, if_pos hz], ?_⟩
  rw [unpackQ, if_pos (leBytes_length _ _), leNat_leBytes _ _ (by norm_num; omega)]
  congr 1
  split_ifs <;> omega

/-- what is assumed of `struct.pack('d', …)` and pickling -/
structure XlsRuntimeOk {O : Type} (R : XlsRuntime O) : Prop where
  double : ∀ x, R.unpackD (R.packD x) = .ok x
  date : ∀ d, dateOk d = true → R.loads (R.dumps (.date d)) = .ok (.date d)
  time : ∀ t, timeOk t = true → R.loads (R.dumps (.time t)) = .ok (.time t)
  datetime : ∀ d t, dateOk d = true → timeOk t = true → R.loads (R.dumps (.datetime d t)) = .ok (.datetime d t)

/-- the cells the importer writes: the types Excel readers deliver, ints of 64 bits, no lone surrogates, payloads below 2^32 bytes -/
def XlsCell {O : Type} (R : XlsRuntime O) : PV O → Prop
  | .int z => -9223372036854775808 ≤ z ∧ z < 9223372036854775808
  | .float x => (R.packD x).length < 4294967296
  | .str t => (∀ c ∈ t, Scalar c) ∧ ∀ b, utf8Encode t = .ok b → b.length < 4294967296
  | .bool _ => True
  | .none => True
  | .date d => dateOk d = true ∧ (R.dumps (.date d)).length < 4294967296
  | .time t => timeOk t = true ∧ (R.dumps (.time t)).length < 4294967296
  | .datetime d t => (dateOk d = true ∧ timeOk t = true) ∧ (R.dumps (.datetime d t)).length < 4294967296
  | _ => False

theorem xlsPayload_ok {O : Type} (R : XlsRuntime O) (hR : XlsRuntimeOk R) (v : PV O) (hv : XlsCell R v) :
    ∃ x, xlsPayload R v = .ok x ∧ x.2.length < 4294967296 ∧ xlsValue R x.1 x.2 = .ok v := by
  cases v with
  | int z =>
    obtain ⟨b, h1, h2⟩ := packQ_unpackQ z hv
    refine ⟨(113, b), by rw [xlsPayload, h1]; rfl, ?_, ?_⟩
    · unfold unpackQ at h2
      split_ifs at h2 with hl
      all_goals (dsimp only; omega)
    · show Except.bind _ _ = _
      rw [h2]; rfl
  | float x =>
    refine ⟨_, rfl, hv, ?_⟩
    show Except.bind _ _ = _
    rw [hR.double]; rfl
  | str t =>
    obtain ⟨b, h1, h2⟩ := utf8_roundtrip t hv.1
    refine ⟨(115, b), by rw [xlsPayload, h1]; rfl, hv.2 b h1, ?_⟩
    show Except.bind _ _ = _
    rw [h2]; rfl
  | bool b => cases b <;> exact ⟨_, rfl, by simp, rfl⟩
  | none => exact ⟨_, rfl, by simp, rfl⟩
  | date d => exact ⟨_, rfl, hv.2, hR.date _ hv.1⟩
  | time t => exact ⟨_, rfl, hv.2, hR.time _ hv.1⟩
  | datetime d t => exact ⟨_, rfl, hv.2, hR.datetime _ _ hv.1.1 hv.1.2⟩
  | bytes b => exact hv.elim
  | timedelta d s u => exact hv.elim
  | other o => exact hv.elim

theorem xlsRead_record {O : Type} (R : XlsRuntime O) (t : Nat) (b : List Nat) (hb : b.length < 4294967296) (rest : List Nat) (fuel : Nat) :
    xlsReadFuel R (fuel + 1) (t :: (leBytes 4 b.length ++ b) ++ rest) =
      (xlsValue R t b).bind fun v => (xlsReadFuel R fuel rest).bind fun l => .ok (v :: l) := by
  rw [List.cons_append, xlsReadFuel, List.append_assoc]
  have hl := leBytes_length 4 b.length
  have h1 : (leBytes 4 b.length ++ (b ++ rest)).take 4 = leBytes 4 b.length := List.take_left' hl
  have h2 : (leBytes 4 b.length ++ (b ++ rest)).drop 4 = b ++ rest := List.drop_left' hl
  rw [h1, h2, if_neg (by omega), leNat_leBytes _ _ (by norm_num; omega), List.take_left' rfl, List.drop_left' rfl]

theorem xlsRead_fuel {O : Type} (R : XlsRuntime O) (hR : XlsRuntimeOk R) (cells : List (PV O)) (hc : ∀ v ∈ cells, XlsCell R v) :
    ∃ file, xlsWrite R cells = .ok file ∧ ∀ fuel, file.length ≤ fuel → xlsReadFuel R fuel file = .ok cells := by
  induction cells with
  | nil => exact ⟨[], rfl, fun fuel _ => by cases fuel <;> rfl⟩
  | cons v l ih =>
    obtain ⟨f, h1, h2⟩ := ih fun v h => hc v (List.mem_cons_of_mem _ h)
    obtain ⟨x, g1, g2, g3⟩ := xlsPayload_ok R hR v (hc v List.mem_cons_self)
    refine ⟨x.1 :: (leBytes 4 x.2.length ++ x.2) ++ f, ?_, ?_⟩
    · rw [xlsWrite, xlsRecord, g1]
      dsimp only [Except.bind]
      rw [if_pos g2]
      dsimp only
      rw [h1]
    · intro fuel hf
      cases fuel with
      | zero => simp at hf
      | succ fuel =>
        rw [xlsRead_record R _ _ g2, g3, h2 fuel (by simp at hf; omega)]; rfl

/-- C54: the cells written to a temporary page are read back in order, whatever their number -/
theorem C54_roundtrip {O : Type} (R : XlsRuntime O) (hR : XlsRuntimeOk R) (cells : List (PV O)) (hc : ∀ v ∈ cells, XlsCell R v) :
    ∃ file, xlsWrite R cells = .ok file ∧ xlsRead R file = .ok cells := by
  obtain ⟨f, h1, h2⟩ := xlsRead_fuel R hR cells hc
  exact ⟨f, h1, h2 _ (le_refl _)⟩

/-- C54, the other half: a cell outside that range stops the import with an error, nothing wrong is stored -/
theorem C54_raises {O : Type} (R : XlsRuntime O) (cells : List (PV O)) (v : PV O) (hv : v ∈ cells)
    (h : (∃ z, v = .int z ∧ ¬ (-9223372036854775808 ≤ z ∧ z < 9223372036854775808)) ∨ v.type = .timedelta ∨ v.type = .bytes ∨ v.type = .other) :
    ∃ e, xlsWrite R cells = .error e := by
  induction cells with
  | nil => cases hv
  | cons a l ih =>
    rw [xlsWrite]
    rcases List.mem_cons.1 hv with rfl | hm
    · have : ∃ e, xlsPayload R v = .error e := by
        rcases h with ⟨z, rfl, hz⟩ | h | h | h
        · exact ⟨.value, by rw [xlsPayload, packQ, if_neg hz]; rfl⟩
        all_goals cases v <;> first | exact ⟨_, rfl⟩ | cases h
      obtain ⟨e, he⟩ := this
      exact ⟨e, by rw [xlsRecord, he]; rfl⟩
    · obtain ⟨e, he⟩ := ih hm
      rw [he]
      cases xlsRecord R a with
      | error e' => exact ⟨e', rfl⟩
      | ok x => exact ⟨e, rfl⟩

/-- a runtime meeting the assumptions -/
def exactXls : XlsRuntime Unit where
  packD := exactRuntime.text
  unpackD := exactRuntime.parse
  dumps
    | .date d => 1 :: isoDate d
    | .time t => 2 :: isoTime t
    | .datetime d t => 3 :: isoDatetime d t
    | _ => []
  loads
    | 1 :: t => (fromIsoDate t).bind fun d => .ok (.date d)
    | 2 :: t => (fromIsoTime t).bind fun d => .ok (.time d)
    | 3 :: t => (fromIsoDatetime t).bind fun d => .ok (.datetime d.1 d.2)
    | _ => .error .value

theorem exactXls_ok : XlsRuntimeOk exactXls where
  double x := exactRuntime_ok.parse x (by cases x <;> first | rfl | trivial)
  date d hd := by show Except.bind _ _ = _; rw [fromIsoDate_iso d hd]; rfl
  time t ht := by show Except.bind _ _ = _; rw [fromIsoTime_iso t ht]; rfl
  datetime d t hd ht := by show Except.bind _ _ = _; rw [fromIsoDatetime_iso d t hd ht]; rfl

/-- cells of several types meet the hypotheses; the page of a negative int, a text and an empty cell -/
example : ∀ v ∈ ([.int (-2), .str [228], .none, .bool true] : List (PV Unit)), XlsCell exactXls v := by
  intro v hv
  simp only [List.mem_cons, List.not_mem_nil, or_false] at hv
  rcases hv with rfl | rfl | rfl | rfl
  · simp [XlsCell]
  · refine ⟨by simp [Scalar], fun b hb => ?_⟩
    have : utf8Encode [228] = .ok [195, 164] := by decide
    rw [this] at hb; cases hb; simp
  · trivial
  · trivial
example : xlsWrite exactXls [.int (-2), .str [228], .none] =
    .ok [113, 8, 0, 0, 0, 254, 255, 255, 255, 255, 255, 255, 255, 115, 2, 0, 0, 0, 195, 164, 110, 0, 0, 0, 0] := by decide +kernel

end Tablite
