import Verif.Lemmas.Table
import Verif.Model.Npy
import Verif.Props.Pickle
import Verif.Props.Dates

/-! Properties of page files written and read by the native code: C70. -/
namespace Tablite

/-! ## header -/

theorem cutAt_append (c : Nat) (a r : PyText) (h : c ∉ a) : cutAt c (a ++ c :: r) = some (a, r) := by
  induction a with
  | nil => simp [cutAt]
  | cons x t ih =>
    rw [List.cons_append, cutAt, if_neg (fun e => h (by simp [e])), ih (fun e => h (by simp [e]))]
    rfl

theorem shapeScan_append (a acc r : PyText) (h0 : 40 ∉ a) (h1 : 41 ∉ a) : shapeScan (some acc) (a ++ 41 :: r) = .ok (acc.reverse ++ a, 41 :: r) := by
  induction a generalizing acc with
  | nil => simp [shapeScan]
  | cons x t ih =>
    rw [List.cons_append, shapeScan, if_neg (fun e => h1 (by simp [e])), if_neg (fun e => h0 (by simp [e]))]
    rw [Option.map_some, ih _ (fun e => h0 (by simp [e])) (fun e => h1 (by simp [e]))]
    simp

theorem splitComma_no (a : PyText) (h : 44 ∉ a) : splitComma (a ++ [44]) = [a, []] := by
  induction a with
  | nil => rfl
  | cons x t ih =>
    rw [List.cons_append, splitComma, if_neg (fun e => h (by simp [e])), ih (fun e => h (by simp [e]))]

theorem natText_not (n c : Nat) (hc : c < 48) : c ∉ natText n := fun h => by
  have := natText_digits n c h
  omega

theorem natText_length_pos (n : Nat) : 0 < (natText n).length := List.length_pos_iff.2 (natText_ne_nil n)

theorem natText_length (n k : Nat) (hk : 1 ≤ k) (h : n < 10 ^ k) : (natText n).length ≤ k := by
  rw [natText]
  split
  · simpa using hk
  · rw [List.length_map, List.length_reverse]
    exact (Nat.digits_length_le_iff (by norm_num) n).2 h

/-- a header of the layout `numpy` and the native code write is parsed to its descriptor and length, whatever follows the shape -/
theorem parseHeader_text (descr : PyText) (n : Nat) (t : NpyType) (rest : PyText) (hq : 39 ∉ descr) (hd : descrParse descr = .ok t) :
    parseHeader (txt "{'descr': '" ++ (descr ++ (txt "', 'fortran_order': False, 'shape': (" ++ (natText n ++ (44 :: 41 :: rest))))) = .ok (t, n) := by
  have e0 : ∀ X, cutAt 123 (txt "{'descr': '" ++ X) = some ([], txt "'descr': '" ++ X) := fun X => rfl
  have e1 : ∀ X, headString (txt "'descr': '" ++ X) = .ok (txt "descr", txt ": '" ++ X) := fun X => rfl
  have e2 : ∀ X, cutAt 39 (txt ": '" ++ X) = some (txt ": ", X) := fun X => rfl
  have e3 : ∀ X, (txt "', 'fortran_order': False, 'shape': (" ++ X) = 39 :: (txt ", 'fortran_order': False, 'shape': (" ++ X) := fun X => rfl
  have e4 : ∀ X, cutAt 44 (txt ", 'fortran_order': False, 'shape': (" ++ X) = some ([], txt " 'fortran_order': False, 'shape': (" ++ X) := fun X => rfl
  have e5 : ∀ X, headString (txt " 'fortran_order': False, 'shape': (" ++ X) = .ok (txt "fortran_order", txt ": False, 'shape': (" ++ X) := fun X => rfl
  have e6 : ∀ X, headBool (txt ": False, 'shape': (" ++ X) = .ok (false, txt " 'shape': (" ++ X) := fun X => rfl
  have e7 : ∀ X, headString (txt " 'shape': (" ++ X) = .ok (txt "shape", txt ": (" ++ X) := fun X => rfl
  have e8 : ∀ X, shapeScan none (txt ": (" ++ X) = shapeScan (some []) X := fun X => rfl
  rw [parseHeader, e0]
  dsimp only
  have h1 : headDescr (txt ": '" ++ (descr ++ (txt "', 'fortran_order': False, 'shape': (" ++ (natText n ++ (44 :: 41 :: rest))))) =
      .ok (t, txt " 'fortran_order': False, 'shape': (" ++ (natText n ++ (44 :: 41 :: rest))) := by
    rw [headDescr, headString, e2]
    dsimp only
    rw [e3, cutAt_append _ _ _ hq]
    dsimp only [Except.bind]
    rw [hd]
    dsimp only [Except.bind]
    rw [e4]
  have h2 : headShape (txt ": (" ++ (natText n ++ (44 :: 41 :: rest))) = .ok ([n], 41 :: rest) := by
    have hs : natText n ++ (44 :: 41 :: rest) = (natText n ++ [44]) ++ 41 :: rest := by simp
    rw [headShape, e8, hs, shapeScan_append]
    · dsimp only [Except.bind]
      have := natText_length_pos n
      rw [List.reverse_nil, List.nil_append, if_neg (by simp only [List.length_append, List.length_cons, List.length_nil]; omega),
        splitComma_no _ (natText_not n 44 (by omega)), shapeInts, if_neg (natText_ne_nil n), parseNatText_natText]
      · rfl
      · simp
    · simp [natText_not n 40 (by omega)]
    · simp [natText_not n 41 (by omega)]
  rw [headLoop, e1]
  dsimp only [Except.bind]
  rw [if_pos rfl, h1]
  dsimp only [Except.bind]
  rw [headLoop, e5]
  dsimp only [Except.bind]
  rw [if_neg (by decide), if_pos rfl, e6]
  dsimp only [Except.bind]
  rw [headLoop, e7]
  dsimp only [Except.bind]
  rw [if_neg (by decide), if_neg (by decide), if_pos rfl, h2]
  rfl

theorem npyText_length (descr : PyText) (n : Nat) : (npyText descr n).length = descr.length + (natText n).length + 51 := by
  rw [npyText]
  simp only [List.length_append]
  rw [show (txt "{'descr': '").length = 11 from rfl, show (txt "', 'fortran_order': False, 'shape': (").length = 37 from rfl,
    show (txt ",)}").length = 3 from rfl]
  omega

/-- C70: the header written is read back as the format and the number of values, and the payload starts where it should -/
theorem npyInfo_header (descr : PyText) (n : Nat) (t : NpyType) (body : List Nat) (hq : 39 ∉ descr) (hd : descrParse descr = .ok t)
    (hl : descr.length ≤ 60000) (hn : n < 10 ^ 20) : npyInfo (npyHeader descr n ++ body) = .ok (t, n, body) := by
  have hL := npyText_length descr n
  have hN := natText_length n 20 (by norm_num) hn
  have hp : npyPadding (npyText descr n).length ≤ 64 ∧ 1 ≤ npyPadding (npyText descr n).length := by rw [npyPadding]; omega
  rw [npyInfo, npyHeader, List.append_assoc, pTake_append _ _ 8 rfl]
  dsimp only [Except.bind]
  rw [if_pos rfl, List.append_assoc, pTake_append _ _ 2 (leBytes_length 2 _)]
  dsimp only [Except.bind]
  rw [Nat.mod_eq_of_lt (by omega), leNat_leBytes _ _ (by norm_num; omega)]
  rw [pTake_append]
  · dsimp only [Except.bind]
    have e : npyText descr n ++ (List.replicate (npyPadding (npyText descr n).length - 1) 32 ++ [10]) =
        txt "{'descr': '" ++ (descr ++ (txt "', 'fortran_order': False, 'shape': (" ++ (natText n ++ (44 :: 41 :: (125 ::
          (List.replicate (npyPadding (npyText descr n).length - 1) 32 ++ [10])))))) := by
      rw [npyText]
      simp only [List.append_assoc]
      rfl
    rw [e, parseHeader_text descr n t _ hq hd]
  · simp only [List.length_append, List.length_replicate, List.length_cons, List.length_nil]
    omega

/-! ## payload -/

theorem chunksOf_flatMap {α : Type} (k : Nat) (f : α → List Nat) (l : List α) (rest : List Nat) (h : ∀ x ∈ l, (f x).length = k) :
    chunksOf k l.length (l.flatMap f ++ rest) = l.map f := by
  induction l with
  | nil => rfl
  | cons a t ih =>
    rw [List.length_cons, chunksOf, List.flatMap_cons, List.append_assoc, List.take_left' (h a (by simp)), List.drop_left' (h a (by simp)),
      ih fun x hx => h x (by simp [hx])]
    rfl

theorem flatMap_length {α : Type} (k : Nat) (f : α → List Nat) (l : List α) (h : ∀ x ∈ l, (f x).length = k) :
    (l.flatMap f).length = l.length * k := by
  induction l with
  | nil => simp
  | cons a t ih =>
    rw [List.flatMap_cons, List.length_append, ih fun x hx => h x (by simp [hx]), h a (by simp), List.length_cons, Nat.succ_mul]
    omega

theorem readChunks_flatMap {α : Type} (k : Nat) (f : α → List Nat) (l : List α) (h : ∀ x ∈ l, (f x).length = k) :
    readChunks k l.length (l.flatMap f) = .ok (l.map f) := by
  rw [readChunks, flatMap_length k f l h, if_pos (Nat.le_refl _)]
  have := chunksOf_flatMap k f l [] h
  rw [List.append_nil] at this
  rw [this]

theorem sintBytes_length (k : Nat) (z : Int) : (sintBytes k z).length = k := leBytes_length _ _

/-- signed numbers in range survive -/
theorem sintOf_sintBytes (k : Nat) (z : Int) (h0 : -(256 ^ k : Nat) ≤ 2 * z) (h1 : 2 * z < (256 ^ k : Nat)) : sintOf (sintBytes k z) = z := by
  have hM : 0 < 256 ^ k := by positivity
  rw [sintOf, sintBytes_length, sintBytes]
  have hlt : (z % (256 ^ k : Nat)).toNat < 256 ^ k := by
    have a := Int.emod_lt_of_pos z (show (0 : Int) < (256 ^ k : Nat) by exact_mod_cast hM)
    have b := Int.emod_nonneg z (show ((256 ^ k : Nat) : Int) ≠ 0 by exact_mod_cast hM.ne')
    omega
  rw [leNat_leBytes _ _ hlt]
  by_cases hz : 0 ≤ z
  · have e : z % (256 ^ k : Nat) = z := Int.emod_eq_of_lt hz (by omega)
    rw [e]
    have : 2 * z.toNat < 256 ^ k := by omega
    rw [if_pos this]
    omega
  · have e : z % (256 ^ k : Nat) = z + (256 ^ k : Nat) := by
      rw [← Int.add_emod_right]
      exact Int.emod_eq_of_lt (by omega) (by omega)
    rw [e]
    have : ¬ 2 * (z + (256 ^ k : Nat)).toNat < 256 ^ k := by omega
    rw [if_neg this]
    omega

/-! ## calendar -/

/-- days before month `m` -/
def monthOff (b : Bool) (m : Int) : Int := (367 * m - 362) / 12 - (if m ≤ 2 then 0 else if b then 1 else 2)

/-- what is checked for one day of the calendar -/
def monthOffCheck (b : Bool) (m d : Nat) : Bool :=
  !(decide (1 ≤ m) && decide (1 ≤ d) && decide ((d : Int) ≤ monthLenB b m)) ||
    (monthLoop (monthTable b) 0 (monthOff b m + d - 1) == some ((m : Int), (d : Int)) &&
      decide (0 ≤ monthOff b m + d - 1) && decide (monthOff b m + d - 1 < if b then 366 else 365))

/-- all days of both kinds of year (a complete finite table) -/
theorem monthOffCheck_all : ∀ b : Bool, ∀ m < 13, ∀ d < 32, monthOffCheck b m d = true := by decide +kernel

theorem monthLoop_off (b : Bool) (m d : Nat) (hm : m < 13) (hd : d < 32) (h1 : 1 ≤ m) (h2 : 1 ≤ d) (h3 : (d : Int) ≤ monthLenB b m) :
    monthLoop (monthTable b) 0 (monthOff b m + d - 1) = some ((m : Int), (d : Int)) ∧
    0 ≤ monthOff b m + d - 1 ∧ monthOff b m + d - 1 < (if b then 366 else 365) := by
  have := monthOffCheck_all b m hm d hd
  simp only [monthOffCheck, h1, h2, h3, decide_true, Bool.and_self, Bool.not_true, Bool.false_or, Bool.and_eq_true, beq_iff_eq,
    decide_eq_true_eq] at this
  exact ⟨this.1.1, this.1.2, this.2⟩

theorem monthOff_march (b : Bool) (m : Int) (h : 3 ≤ m) (h' : m ≤ 12) : monthOff b m = (153 * (m + -3) + 2) / 5 + 59 + (if b then 1 else 0) := by
  rw [monthOff, if_neg (by omega)]
  cases b <;> simp only [if_true, if_false, Bool.false_eq_true] <;> omega

theorem yearStart_400 (e r : Int) : yearStart (400 * e + r) = 146097 * e + yearStart r := by
  unfold yearStart
  have h1 : (400 * e + r - 1) / 4 = 100 * e + (r - 1) / 4 := by omega
  have h2 : (400 * e + r - 1) / 100 = 4 * e + (r - 1) / 100 := by omega
  have h3 : (400 * e + r - 1) / 400 = e + (r - 1) / 400 := by omega
  rw [h1, h2, h3]
  omega

theorem leap_400 (e r : Int) : isLeapYear (400 * e + r) = isLeapYear r := by
  have h1 := isLeapYear_iff (400 * e + r)
  have h2 := isLeapYear_iff r
  have h3 : Leap (400 * e + r) ↔ Leap r := by unfold Leap; omega
  rw [h3, ← h2] at h1
  exact Bool.eq_iff_iff.2 h1

theorem march_all : ∀ r : Nat, r < 400 →
    ((r : Int) * 365 + r / 4 - r / 100 - 719468 : Int) = yearStart r + 59 + (if isLeapYear r then 1 else 0) := by decide +kernel

theorem january_all : ∀ r : Nat, r < 400 → ((r : Int) * 365 + r / 4 - r / 100 - 719468 : Int) + 306 = yearStart (r + 1) := by decide +kernel

theorem toEpochDay_eq (y m d : Int) (hy : 1 ≤ y) (hm : 1 ≤ m) (hm' : m ≤ 12) :
    toEpochDay y m d = yearStart y + (monthOff (isLeapYear y) m + d - 1) := by
  rw [toEpochDay]
  have h0 : 0 ≤ (if m ≤ 2 then y - 1 else y) := by split <;> omega
  rw [if_pos h0, Int.tdiv_eq_ediv_of_nonneg h0]
  by_cases h2 : m ≤ 2
  · rw [if_pos h2, if_neg (by omega)]
    obtain ⟨e, he⟩ : ∃ e, e = (y - 1) / 400 := ⟨_, rfl⟩
    obtain ⟨r, hr⟩ : ∃ r : Nat, (r : Int) = (y - 1) % 400 := ⟨((y - 1) % 400).toNat, by omega⟩
    have hy' : y = 400 * e + (r + 1) := by omega
    have hj := january_all r (by omega)
    have hq : y - 1 - e * 400 = r := by omega
    rw [← he, hq, hy', yearStart_400, ← hj]
    have hd : (153 * (m + 9) + 2) / 5 = 306 + monthOff (isLeapYear (400 * e + (r + 1))) m := by
      rw [monthOff, if_pos h2]
      omega
    rw [hd]
    generalize monthOff (isLeapYear (400 * e + (r + 1))) m = x
    generalize (r : Int) / 4 = x4
    generalize (r : Int) / 100 = x100
    omega
  · rw [if_neg h2, if_pos (by omega)]
    obtain ⟨e, he⟩ : ∃ e, e = y / 400 := ⟨_, rfl⟩
    obtain ⟨r, hr⟩ : ∃ r : Nat, (r : Int) = y % 400 := ⟨(y % 400).toNat, by omega⟩
    have hy' : y = 400 * e + r := by omega
    have hj := march_all r (by omega)
    have hq : y - e * 400 = r := by omega
    rw [← he, hq, hy', yearStart_400, leap_400, monthOff_march _ _ (by omega) hm']
    generalize (153 * (m + -3) + 2) / 5 = x at *
    generalize (r : Int) / 4 = x4 at *
    generalize (r : Int) / 100 = x100 at *
    generalize yearStart r = ys at *
    generalize (if isLeapYear (r : Int) = true then (1 : Int) else 0) = lp at *
    omega

/-- a calendar date of years 1 to 9999 -/
def DateOk (x : Nat × Nat × Nat) : Prop := 1 ≤ x.1 ∧ x.1 ≤ 9999 ∧ ValidDate (x.1, x.2.1, x.2.2)

theorem days2Components_epoch (y m d : Nat) (h : DateOk (y, m, d)) : days2Components (toEpochDay y m d) = some ((y : Int), (m : Int), (d : Int)) := by
  obtain ⟨hy, -, h1, h2, h3, h4⟩ := h
  dsimp only at hy h1 h2 h3 h4
  have hlen : monthLen y m ≤ 31 := by unfold monthLen; split <;> (try split) <;> omega
  rw [monthLen_eq] at h4
  have key := monthLoop_off (isLeapYear y) m d (by omega) (by rw [monthLen_eq] at hlen; omega) (by omega) (by omega) h4
  obtain ⟨e, k0, k1⟩ := key
  have hE := toEpochDay_eq y m d (by omega) h1 h2
  obtain ⟨s0, s1, s2⟩ := days2YearsDays_spec (toEpochDay y m d)
  have hu := year_unique _ _ _ _ (s0.trans hE) s1 s2 k0 (by rw [yearLen_eq]; exact k1)
  unfold days2Components
  rw [show days2YearsDays (toEpochDay y m d) = ((y : Int), monthOff (isLeapYear y) m + d - 1) from Prod.ext hu.1 hu.2]
  dsimp only
  rw [e]
  rfl

theorem dateOf_days (x : Nat × Nat × Nat) (h : DateOk x) : dateOf (dateDays x) = .ok x := by
  obtain ⟨y, m, d⟩ := x
  rw [dateOf, dateDays, days2Components_epoch y m d h]
  dsimp only
  rw [if_pos (by omega)]
  simp

/-- a datetime of years 1 to 9999 with its fields in range -/
def NDT.Ok (x : NDT) : Prop := DateOk (x.y, x.m, x.d) ∧ x.h ≤ 23 ∧ x.mi ≤ 59 ∧ x.s ≤ 59 ∧ x.ns < 1000000000

theorem timeOf_secs (x : NDT) (ns : Nat) (h : x.Ok) : timeOf x.secs ns = .ok { x with ns := ns } := by
  obtain ⟨hd, h1, h2, h3, -⟩ := h
  have hE := dateOf_days _ hd
  rw [dateDays] at hE
  rw [timeOf, NDT.secs]
  dsimp only at hE
  generalize toEpochDay x.y x.m x.d = E at *
  rw [show (E * 86400 + x.h * 3600 + x.mi * 60 + x.s) / 86400 = E by omega, hE]
  dsimp only [Except.bind]
  have e1 : ((E * 86400 + x.h * 3600 + x.mi * 60 + x.s) % 86400 / 3600).toNat = x.h := by omega
  have e2 : ((E * 86400 + x.h * 3600 + x.mi * 60 + x.s) % 3600 / 60).toNat = x.mi := by omega
  have e3 : ((E * 86400 + x.h * 3600 + x.mi * 60 + x.s) % 60).toNat = x.s := by omega
  rw [e1, e2, e3]

/-- what a datetime becomes: its microseconds are read as nanoseconds -/
theorem dtOfUs_micros (x : NDT) (h : x.Ok) : dtOfUs x.micros = .ok { x with ns := x.ns / 1000 } := by
  have hns := h.2.2.2.2
  have e : divmod x.micros 1000000 = (x.secs, ((x.ns / 1000 : Nat) : Int)) := by
    rw [divmod, NDT.micros]
    generalize x.secs = S
    have hlt : x.ns / 1000 < 1000000 := by omega
    generalize x.ns / 1000 = u at *
    have : (S * 1000000 + (u : Int)) / 1000000 = S := by omega
    rw [this]
    refine Prod.ext rfl ?_
    dsimp only
    omega
  rw [dtOfUs, e]
  dsimp only
  rw [Int.toNat_natCast, timeOf_secs x _ h]

theorem toEpochDay_range (x : Nat × Nat × Nat) (h : DateOk x) : -1000000 ≤ dateDays x ∧ dateDays x ≤ 10000000 := by
  obtain ⟨y, m, d⟩ := x
  obtain ⟨h0, h1, h2, h3, h4, h5⟩ := h
  dsimp only at h0 h1 h2 h3 h4 h5
  have hlen : monthLen y m ≤ 31 := by unfold monthLen; split <;> (try split) <;> omega
  rw [dateDays]
  dsimp only
  rw [toEpochDay_eq y m d (by omega) h2 h3, yearStart, monthOff]
  split
  · omega
  · split <;> omega

theorem micros_range (x : NDT) (h : x.Ok) : -(256 ^ 8 : Nat) ≤ 2 * x.micros ∧ 2 * x.micros < (256 ^ 8 : Nat) := by
  have hr := toEpochDay_range _ h.1
  obtain ⟨-, h1, h2, h3, h4⟩ := h
  rw [dateDays] at hr
  dsimp only at hr
  rw [NDT.micros, NDT.secs]
  generalize toEpochDay x.y x.m x.d = E at *
  norm_num
  omega

theorem mapM_map_ok {α β γ : Type} (f : α → β) (g : β → Except Err γ) (k : α → γ) (l : List α) (h : ∀ x ∈ l, g (f x) = .ok (k x)) :
    (l.map f).mapM g = .ok (l.map k) := by
  rw [List.mapM_map]
  exact mapM_ok _ _ _ h

/-! ## pages -/

theorem descr_int (size : Nat) : descrParse (txt "<i" ++ natText size) = .ok (.int size) := by
  show (parseNatText (natText size)).bind _ = _
  rw [parseNatText_natText]; rfl
theorem descr_float (size : Nat) : descrParse (txt "<f" ++ natText size) = .ok (.float size) := by
  show (parseNatText (natText size)).bind _ = _
  rw [parseNatText_natText]; rfl
theorem descr_str (size : Nat) (h : 1 ≤ size) : descrParse (txt "<U" ++ natText size) = .ok (.str size) := by
  show (parseNatText (natText size)).bind _ = _
  rw [parseNatText_natText]
  dsimp only [Except.bind]
  rw [if_neg (by omega)]

theorem descr_quote (pre : PyText) (n : Nat) (h : 39 ∉ pre) : 39 ∉ pre ++ natText n := by
  simp [h, natText_not n 39 (by omega)]

theorem npyRead_eq (descr : PyText) (n : Nat) (t : NpyType) (body : List Nat) (hq : 39 ∉ descr) (hd : descrParse descr = .ok t)
    (hl : descr.length ≤ 60000) (hn : n < 10 ^ 20) : npyRead (npyHeader descr n ++ body) = npyBody t n body := by
  rw [npyRead, npyInfo_header descr n t body hq hd hl hn]
  rfl

theorem read_bools (l : List Bool) (hn : l.length < 10 ^ 20) : npyRead (saveBools l) = .ok (.bool l) := by
  have hb : (l.map fun b => if b then 1 else 0) = l.flatMap fun b => [if b then 1 else 0] := by
    induction l with
    | nil => rfl
    | cons a t ih => rw [List.map_cons, List.flatMap_cons, ih (by simp at hn; omega)]; rfl
  rw [saveBools, npyRead_eq _ _ .bool _ (by decide) rfl (by decide) hn, npyBody, hb, readChunks_flatMap 1 _ l (by simp)]
  dsimp only [Except.bind]
  congr 2
  rw [List.map_map]
  conv_rhs => rw [← List.map_id l]
  apply List.map_congr_left
  intro b _
  cases b <;> rfl

theorem read_ints (size : Nat) (l : List Int) (hs : size = 1 ∨ size = 2 ∨ size = 4 ∨ size = 8) (hn : l.length < 10 ^ 20)
    (hr : ∀ z ∈ l, -(256 ^ size : Nat) ≤ 2 * z ∧ 2 * z < (256 ^ size : Nat)) : npyRead (saveInts size l) = .ok (.int size l) := by
  have hlen := natText_length size 1 (by norm_num) (by omega)
  rw [saveInts, npyRead_eq _ _ (.int size) _ (descr_quote _ _ (by decide)) (descr_int size) (by rw [List.length_append]; simp [txt]; omega) hn, npyBody,
    if_pos hs, readChunks_flatMap size _ l (fun x _ => sintBytes_length _ _)]
  dsimp only [Except.bind]
  congr 2
  rw [List.map_map]
  conv_rhs => rw [← List.map_id l]
  apply List.map_congr_left
  intro z hz
  exact sintOf_sintBytes size z (hr z hz).1 (hr z hz).2

theorem read_floats (size : Nat) (l : List Nat) (hs : size = 4 ∨ size = 8) (hn : l.length < 10 ^ 20)
    (hr : ∀ b ∈ l, b < 256 ^ size) : npyRead (saveFloats size l) = .ok (.float size l) := by
  have hlen := natText_length size 1 (by norm_num) (by omega)
  rw [saveFloats, npyRead_eq _ _ (.float size) _ (descr_quote _ _ (by decide)) (descr_float size) (by rw [List.length_append]; simp [txt]; omega) hn, npyBody,
    if_pos hs, readChunks_flatMap size _ l (fun x _ => leBytes_length _ _)]
  dsimp only [Except.bind]
  congr 2
  rw [List.map_map]
  conv_rhs => rw [← List.map_id l]
  exact List.map_congr_left fun b hb => leNat_leBytes size b (hr b hb)

theorem read_rows (size : Nat) (l : List PyText) (hs : 1 ≤ size) (hs' : size < 10 ^ 20) (hn : l.length < 10 ^ 20)
    (hr : ∀ row ∈ l, row.length = size ∧ ∀ c ∈ row, c < 2 ^ 32) : npyRead (saveRows size l) = .ok (.str size l) := by
  have hlen := natText_length size 20 (by norm_num) (by omega)
  have hw : ∀ row ∈ l, (runeBytes row).length = 4 * size := fun row hrow => by
    rw [runeBytes, flatMap_length 4 _ _ fun x _ => leBytes_length 4 x, (hr row hrow).1]; omega
  rw [saveRows, npyRead_eq _ _ (.str size) _ (descr_quote _ _ (by decide)) (descr_str size hs) (by rw [List.length_append]; simp [txt]; omega) hn, npyBody,
    readChunks_flatMap (4 * size) _ l hw]
  dsimp only [Except.bind]
  congr 2
  rw [List.map_map]
  conv_rhs => rw [← List.map_id l]
  apply List.map_congr_left
  intro row hrow
  obtain ⟨h1, h2⟩ := hr row hrow
  show rowOf size (runeBytes row) = row
  have := chunksOf_flatMap 4 (leBytes 4) row [] fun x _ => leBytes_length 4 x
  rw [List.append_nil, h1] at this
  rw [rowOf, runeBytes, this, List.map_map]
  conv_rhs => rw [← List.map_id row]
  exact List.map_congr_left fun c hc => leNat_leBytes 4 c (by have := h2 c hc; norm_num; omega)

theorem read_dates (l : List (Nat × Nat × Nat)) (hn : l.length < 10 ^ 20) (hr : ∀ x ∈ l, DateOk x) : npyRead (saveDates l) = .ok (.date l) := by
  rw [saveDates, npyRead_eq _ _ .dateDays _ (by decide) rfl (by decide) hn, npyBody, readChunks_flatMap 8 _ l (fun x _ => sintBytes_length _ _)]
  dsimp only [Except.bind]
  rw [mapM_map_ok _ _ id l]
  · rw [List.map_id]; rfl
  · intro x hx
    have := toEpochDay_range x (hr x hx)
    rw [sintOf_sintBytes 8 _ (by norm_num; omega) (by norm_num; omega), dateOf_days x (hr x hx)]
    rfl

/-- C70: what a page of datetimes becomes -/
theorem read_datetimes (l : List NDT) (hn : l.length < 10 ^ 20) (hr : ∀ x ∈ l, x.Ok) :
    npyRead (saveDatetimes l) = .ok (.datetime (l.map fun x => { x with ns := x.ns / 1000 })) := by
  rw [saveDatetimes, npyRead_eq _ _ .dtUs _ (by decide) rfl (by decide) hn, npyBody, readChunks_flatMap 8 _ l (fun x _ => sintBytes_length _ _)]
  dsimp only [Except.bind]
  rw [mapM_map_ok _ _ (fun x : NDT => { x with ns := x.ns / 1000 }) l]
  · rfl
  · intro x hx
    have := micros_range x (hr x hx)
    rw [sintOf_sintBytes 8 _ this.1 this.2, dtOfUs_micros x (hr x hx)]

/-- C70: an object page in the object format -/
theorem read_pickled (vs : List ObjV) (hv : ∀ v ∈ vs, v.Fits) (hn : vs.length < 2 ^ 31) :
    npyRead (npyHeader (txt "|O8") vs.length ++ pickleWrite vs) = .ok (.object (vs.map (distort (usOf nimUs)))) := by
  rw [npyRead_eq _ _ .object _ (by decide) rfl (by decide) (by omega), npyBody, C69_exact nimUs vs hv hn]
  dsimp only [Except.bind]
  rw [if_pos (by simp)]

/-! ## texts -/

/-- a text without zeros at either end is what is read from its padded row -/
theorem rowText_pad (t : PyText) (k : Nat) (h1 : t.head? ≠ some 0) (h2 : t.getLast? ≠ some 0) : rowText (t ++ List.replicate k 0) = t := by
  rw [rowText]
  cases k with
  | zero => rw [List.replicate_zero, List.append_nil, if_pos h2]
  | succ k =>
    have hl : (t ++ List.replicate (k + 1) 0).getLast? = some 0 := by
      rw [List.replicate_succ', ← List.append_assoc, List.getLast?_concat]
    rw [if_neg (by rw [hl]; simp)]
    cases t with
    | nil => rw [if_pos (by simp [List.replicate_succ])]
    | cons a l =>
      rw [if_neg (by simpa using h1)]
      rw [List.reverse_append, List.reverse_replicate, List.dropWhile_append_of_pos (by simp)]
      have : ((a :: l).reverse.dropWhile fun x => decide (x = 0)) = (a :: l).reverse := by
        rw [List.getLast?_eq_head?_reverse] at h2
        cases hr : (a :: l).reverse with
        | nil => simp at hr
        | cons b r =>
          rw [hr] at h2
          have : b ≠ 0 := by simpa using h2
          rw [List.dropWhile_cons_of_neg (by simpa using this)]
      rw [this, List.reverse_reverse]

theorem utf8Encode_length (t : PyText) (b : List Nat) (h : utf8Encode t = .ok b) : t.length ≤ b.length := by
  induction t generalizing b with
  | nil => simp
  | cons c l ih =>
    rw [utf8Encode] at h
    cases hc : utf8Char c with
    | error e => rw [hc] at h; exact absurd h (by simp [Except.bind])
    | ok hb =>
      cases hl : utf8Encode l with
      | error e => rw [hc, hl] at h; exact absurd h (by simp [Except.bind])
      | ok tb =>
        rw [hc, hl] at h
        have e : hb ++ tb = b := by simpa [Except.bind] using h
        have hpos : 1 ≤ hb.length := by
          rw [utf8Char] at hc
          split_ifs at hc <;> (obtain rfl := Except.ok.inj hc; simp)
        have := ih tb hl
        rw [← e, List.length_append, List.length_cons]
        omega

theorem longest_spec (l : List (List Nat)) (a : Nat) : a ≤ l.foldl (fun a b => max a b.length) a ∧
    (∀ b ∈ l, b.length ≤ l.foldl (fun a b => max a b.length) a) ∧
    ∀ B, a ≤ B → (∀ b ∈ l, b.length ≤ B) → l.foldl (fun a b => max a b.length) a ≤ B := by
  induction l generalizing a with
  | nil => simp
  | cons x t ih =>
    obtain ⟨h1, h2, h3⟩ := ih (max a x.length)
    rw [List.foldl_cons]
    refine ⟨by omega, ?_, ?_⟩
    · intro b hb
      rcases List.mem_cons.1 hb with rfl | hb
      · omega
      · exact h2 b hb
    · intro B ha hB
      exact h3 B (by have := hB x (by simp); omega) fun b hb => hB b (by simp [hb])

/-- a text of the page: valid code points, no zero at either end, less than 2 GB -/
def TextOk (t : PyText) (b : List Nat) : Prop :=
  (∀ c ∈ t, Scalar c) ∧ utf8Encode t = .ok b ∧ t.head? ≠ some 0 ∧ t.getLast? ≠ some 0 ∧ b.length < 2 ^ 31

theorem read_texts (widen : Nat → Nat) (l : List (PyText × List Nat)) (hn : l.length < 10 ^ 20) (h : ∀ x ∈ l, TextOk x.1 x.2) :
    ∃ f q, saveUnicode (l.map (·.2)) = .ok f ∧ npyRead f = .ok q ∧ q.vals widen = .ok (l.map fun x => .str x.2) := by
  obtain ⟨g1, g2, g3⟩ := longest_spec (l.map (·.2)) 1
  have hB := g3 (2 ^ 31) (by norm_num) (by
    intro b hb
    obtain ⟨x, hx, rfl⟩ := List.mem_map.1 hb
    exact (h x hx).2.2.2.2.le)
  rw [saveUnicode]
  generalize (l.map (·.2)).foldl (fun a b => max a b.length) 1 = L at *
  have hrow : ∀ x ∈ l, runeRow L x.2 = .ok (x.1 ++ List.replicate (L - x.1.length) 0) := by
    intro x hx
    obtain ⟨hs, he, -⟩ := h x hx
    obtain ⟨b, hb, hd⟩ := utf8_roundtrip x.1 hs
    have : b = x.2 := by rw [hb] at he; exact Except.ok.inj he
    rw [runeRow, ← this, hd]
    rfl
  refine ⟨saveRows L (l.map fun x => x.1 ++ List.replicate (L - x.1.length) 0), .str L (l.map fun x => x.1 ++ List.replicate (L - x.1.length) 0), ?_, ?_, ?_⟩
  rotate_left
  · refine read_rows L _ g1 (by omega) (by simpa using hn) ?_
    intro row hrow
    obtain ⟨x, hx, rfl⟩ := List.mem_map.1 hrow
    have h1 := utf8Encode_length x.1 x.2 (h x hx).2.1
    have h2 := g2 x.2 (List.mem_map_of_mem hx)
    refine ⟨by simp; omega, ?_⟩
    intro c hc
    rcases List.mem_append.1 hc with hc | hc
    · have := (h x hx).1 c hc
      unfold Scalar at this
      omega
    · rw [(List.mem_replicate.1 hc).2]; norm_num
  · rw [NPage.vals]
    apply mapM_map_ok
    intro x hx
    obtain ⟨-, he, hh, hl, -⟩ := h x hx
    rw [rowText_pad _ _ hh hl, he]
    rfl
  · rw [mapM_map_ok _ _ _ l hrow]
    rfl

/-! ## object pages -/

theorem kindCounts_uniform (vs : List ObjV) (k : ObjKind) (hne : vs ≠ []) (h : ∀ v ∈ vs, v.kind = k) : kindCounts vs = [(k, vs.length)] := by
  induction vs using List.reverseRecOn with
  | nil => exact absurd rfl hne
  | append_singleton l v ih =>
    have e : kindCounts (l ++ [v]) = dUpd 0 v.kind (· + 1) (kindCounts l) := by
      rw [kindCounts, List.foldl_append]; rfl
    have hk := h v (by simp)
    cases l with
    | nil => rw [e, hk]; rfl
    | cons a t =>
      rw [e, ih (by simp) (fun w hw => h w (by simp only [List.mem_append]; exact .inl hw)), hk]
      simp [dUpd]

/-- the kind all values have, if they have one in common -/
theorem activeKinds_iff (vs : List ObjV) (k : ObjKind) : activeKinds vs = [k] ↔ vs ≠ [] ∧ ∀ v ∈ vs, v.kind = k := by
  constructor
  · intro h
    refine ⟨fun e => by rw [e] at h; simp [activeKinds, kindCounts] at h, ?_⟩
    intro v hv
    have hg := kindCounts_count vs v.kind
    have hm : v.kind ∈ vs.map ObjV.kind := List.mem_map_of_mem hv
    rw [if_pos hm] at hg
    have hmem := dGet_mem _ _ _ hg
    have : v.kind ∈ activeKinds vs := by
      rw [activeKinds]
      refine List.mem_map.2 ⟨_, List.mem_filter.2 ⟨hmem, ?_⟩, rfl⟩
      have := List.count_pos_iff.2 hm
      simp only [ne_eq, decide_not, Bool.not_eq_eq_eq_not, Bool.not_true, decide_eq_false_iff_not]
      omega
    rw [h] at this
    simpa using this
  · rintro ⟨hne, h⟩
    rw [activeKinds, kindCounts_uniform vs k hne h]
    have : vs.length ≠ 0 := by simpa using hne
    simp [this]

/-- the kinds with a format of their own -/
def typedKinds : List ObjKind := [.bool, .int, .float, .str, .date, .datetime]

/-- a value that survives in the format of its kind -/
def ObjV.TypedOk : ObjV → Prop
  | .int z => -2 ^ 63 ≤ z ∧ z < 2 ^ 63
  | .float bits => bits < 2 ^ 64
  | .str b => ∃ t, TextOk t b
  | .date y m d => DateOk (y, m, d)
  | .datetime y m d h mi s us => NDT.Ok ⟨y, m, d, h, mi, s, us * 1000⟩ ∧ us = 0
  | _ => True

/-- an object page that survives: values of one kind in the format of the kind, mixed values in the object format -/
def ObjsOk (vs : List ObjV) : Prop :=
  ((∃ k ∈ typedKinds, vs ≠ [] ∧ ∀ v ∈ vs, v.kind = k) → ∀ v ∈ vs, v.TypedOk) ∧
  ((¬ ∃ k ∈ typedKinds, vs ≠ [] ∧ ∀ v ∈ vs, v.kind = k) → ∀ v ∈ vs, v.Fits ∧ v.Plain)

theorem exists_list {α β : Type} (c : α → β) (P : α → Prop) (l : List β) (h : ∀ v ∈ l, ∃ x, P x ∧ v = c x) :
    ∃ xs : List α, (∀ x ∈ xs, P x) ∧ l = xs.map c := by
  induction l with
  | nil => exact ⟨[], by simp, rfl⟩
  | cons a t ih =>
    obtain ⟨xs, h1, h2⟩ := ih fun v hv => h v (by simp [hv])
    obtain ⟨x, hx, he⟩ := h a (by simp)
    refine ⟨x :: xs, ?_, by rw [he, h2]; rfl⟩
    intro y hy
    rcases List.mem_cons.1 hy with rfl | hy
    · exact hx
    · exact h1 y hy

theorem saveObject_ok (widen : Nat → Nat) (vs : List ObjV) (h : ObjsOk vs) (hn : vs.length < 2 ^ 31) :
    ∃ f q, saveObject vs = .ok f ∧ npyRead f = .ok q ∧ q.vals widen = .ok vs := by
  by_cases hu : ∃ k ∈ typedKinds, vs ≠ [] ∧ ∀ v ∈ vs, v.kind = k
  · have ht := h.1 hu
    obtain ⟨k, hk, hne, hall⟩ := hu
    have ha := (activeKinds_iff vs k).2 ⟨hne, hall⟩
    rw [saveObject, ha]
    cases k with
    | none => simp [typedKinds] at hk
    | time => simp [typedKinds] at hk
    | bool =>
      obtain ⟨l, -, rfl⟩ := exists_list ObjV.bool (fun _ => True) vs (by
        intro v hv
        have := hall v hv
        cases v <;> simp [ObjV.kind] at this ⊢)
      dsimp only
      rw [mapM_map_ok _ asBool id l (fun _ _ => rfl), List.map_id]
      exact ⟨_, _, rfl, read_bools l (by simp at hn; omega), rfl⟩
    | int =>
      obtain ⟨l, hl, rfl⟩ := exists_list ObjV.int (fun z => -2 ^ 63 ≤ z ∧ z < 2 ^ 63) vs (by
        intro v hv
        have := hall v hv
        have := ht v hv
        cases v <;> simp [ObjV.kind, ObjV.TypedOk] at *
        assumption)
      dsimp only
      rw [mapM_map_ok _ asInt id l (fun _ _ => rfl), List.map_id]
      refine ⟨_, _, rfl, read_ints 8 l (by simp) (by simp at hn; omega) ?_, rfl⟩
      intro z hz
      have := hl z hz
      norm_num at this ⊢
      omega
    | float =>
      obtain ⟨l, hl, rfl⟩ := exists_list ObjV.float (fun b => b < 2 ^ 64) vs (by
        intro v hv
        have := hall v hv
        have := ht v hv
        cases v <;> simp [ObjV.kind, ObjV.TypedOk] at *
        assumption)
      dsimp only
      rw [mapM_map_ok _ asFloat id l (fun _ _ => rfl), List.map_id]
      refine ⟨_, _, rfl, read_floats 8 l (by simp) (by simp at hn; omega) ?_, rfl⟩
      intro z hz
      have := hl z hz
      norm_num at this ⊢
      omega
    | str =>
      obtain ⟨l, hl, rfl⟩ := exists_list (fun x : PyText × List Nat => ObjV.str x.2) (fun x => TextOk x.1 x.2) vs (by
        intro v hv
        have h1 := hall v hv
        have h2 := ht v hv
        cases v <;> simp only [ObjV.kind, ObjV.TypedOk, reduceCtorEq] at h1 h2
        obtain ⟨t, h2⟩ := h2
        exact ⟨(t, _), h2, rfl⟩)
      dsimp only
      rw [mapM_map_ok _ asStr (fun x : PyText × List Nat => x.2) l (fun _ _ => rfl)]
      exact read_texts widen l (by simp at hn; omega) hl
    | date =>
      obtain ⟨l, hl, rfl⟩ := exists_list (fun x : Nat × Nat × Nat => ObjV.date x.1 x.2.1 x.2.2) DateOk vs (by
        intro v hv
        have h1 := hall v hv
        have h2 := ht v hv
        cases v <;> simp only [ObjV.kind, ObjV.TypedOk, reduceCtorEq] at h1 h2
        exact ⟨(_, _, _), h2, rfl⟩)
      dsimp only
      rw [mapM_map_ok _ asDate id l (fun _ _ => rfl), List.map_id]
      exact ⟨_, _, rfl, read_dates l (by simp at hn; omega) hl, rfl⟩
    | datetime =>
      obtain ⟨l, hl, rfl⟩ := exists_list (fun x : NDT => ObjV.datetime x.y x.m x.d x.h x.mi x.s 0) (fun x => x.Ok ∧ x.ns = 0) vs (by
        intro v hv
        have h1 := hall v hv
        have h2 := ht v hv
        cases v <;> simp only [ObjV.kind, ObjV.TypedOk, reduceCtorEq] at h1 h2
        obtain ⟨h2, rfl⟩ := h2
        exact ⟨_, ⟨h2, rfl⟩, rfl⟩)
      dsimp only
      rw [mapM_map_ok _ _ id l (fun x hx => by
        have := (hl x hx).2
        obtain ⟨y, m, d, h, mi, s, ns⟩ := x
        dsimp only at this
        subst this
        rfl), List.map_id]
      refine ⟨_, _, rfl, read_datetimes l (by simp at hn; omega) (fun x hx => (hl x hx).1), ?_⟩
      rw [NPage.vals, List.map_map]
      congr 1
      apply List.map_congr_left
      intro x hx
      simp [(hl x hx).2]
  · have hp := h.2 hu
    have hs : saveObject vs = .ok (npyHeader (txt "|O8") vs.length ++ pickleWrite vs) := by
      have hk : ∀ k ∈ typedKinds, activeKinds vs ≠ [k] := fun k hk e => hu ⟨k, hk, (activeKinds_iff vs k).1 e⟩
      rw [saveObject]
      split
      all_goals first | rfl | (rename_i e; exact absurd e (hk _ (by simp [typedKinds])))
    refine ⟨_, _, hs, read_pickled vs (fun v hv => (hp v hv).1) hn, ?_⟩
    rw [NPage.vals]
    congr 1
    conv_rhs => rw [← List.map_id vs]
    exact List.map_congr_left fun v hm => (distort_iff v (hp v hm).1).2 (hp v hm).2

/-! ## C70 -/

/-- a page Nim can hold -/
def NPage.Valid : NPage → Prop
  | .bool l => l.length < 2 ^ 31
  | .int size l => (size = 1 ∨ size = 2 ∨ size = 4 ∨ size = 8) ∧ l.length < 2 ^ 31 ∧ ∀ z ∈ l, -(256 ^ size : Nat) ≤ 2 * z ∧ 2 * z < (256 ^ size : Nat)
  | .float size l => (size = 4 ∨ size = 8) ∧ l.length < 2 ^ 31 ∧ ∀ b ∈ l, b < 256 ^ size
  | .str size l => 1 ≤ size ∧ size < 2 ^ 31 ∧ l.length < 2 ^ 31 ∧ ∀ row ∈ l, row.length = size ∧ ∀ c ∈ row, Scalar c
  | .date l => l.length < 2 ^ 31 ∧ ∀ x ∈ l, DateOk x
  | .datetime l => l.length < 2 ^ 31 ∧ ∀ x ∈ l, x.Ok
  | .object vs => vs.length < 2 ^ 31 ∧ (∀ v ∈ vs, v.Fits) ∧ (∀ z, ObjV.int z ∈ vs → -2 ^ 63 ≤ z ∧ z < 2 ^ 63) ∧
      ∀ b, ObjV.str b ∈ vs → ∃ t, TextOk t b

/-- the whole claim: any page comes back with its values -/
def C70_statement : Prop :=
  ∀ (widen : Nat → Nat) (p : NPage), p.Valid → ∃ f q, npySave p = .ok f ∧ npyRead f = .ok q ∧ q.vals widen = p.vals widen

/-- the pages that survive: datetimes without fractions of a second, objects as in `ObjsOk` -/
def NPage.Plain : NPage → Prop
  | .datetime l => ∀ x ∈ l, x.ns < 1000
  | .object vs => ObjsOk vs
  | _ => True

/-- C70: typed pages of booleans, numbers, texts and dates come back exactly; datetimes without fractions of a second; object
pages when their values survive in the chosen format. Missing: datetimes with fractions of a second, and in mixed pages integers
beyond 32 bits -/
theorem C70_partial (widen : Nat → Nat) (p : NPage) (hv : p.Valid) (hp : p.Plain) :
    ∃ f q, npySave p = .ok f ∧ npyRead f = .ok q ∧ q.vals widen = p.vals widen := by
  cases p with
  | bool l => exact ⟨_, _, rfl, read_bools l (by have : l.length < 2 ^ 31 := hv; omega), rfl⟩
  | int size l => exact ⟨_, _, rfl, read_ints size l hv.1 (by have := hv.2.1; omega) hv.2.2, rfl⟩
  | float size l => exact ⟨_, _, rfl, read_floats size l hv.1 (by have := hv.2.1; omega) hv.2.2, rfl⟩
  | str size l =>
    obtain ⟨h1, h2, h3, h4⟩ := hv
    refine ⟨_, _, rfl, read_rows size l h1 (by omega) (by omega) ?_, rfl⟩
    intro row hrow
    refine ⟨(h4 row hrow).1, fun c hc => ?_⟩
    have := (h4 row hrow).2 c hc
    unfold Scalar at this
    omega
  | date l => exact ⟨_, _, rfl, read_dates l (by have := hv.1; omega) hv.2, rfl⟩
  | datetime l =>
    refine ⟨_, _, rfl, read_datetimes l (by have := hv.1; omega) hv.2, ?_⟩
    rw [NPage.vals, NPage.vals, List.map_map]
    congr 1
    apply List.map_congr_left
    intro x hx
    have : x.ns < 1000 := hp x hx
    simp [show x.ns / 1000 = 0 by omega]
  | object vs => exact saveObject_ok widen vs hp hv.1

/-- C70: the pages without datetimes and objects come back as they are, not only with the same values -/
theorem C70_typed (p : NPage) (hv : p.Valid) (hd : ∀ l, p ≠ .datetime l) (ho : ∀ vs, p ≠ .object vs) : (npySave p).bind npyRead = .ok p := by
  cases p with
  | bool l => exact read_bools l (by have : l.length < 2 ^ 31 := hv; omega)
  | int size l => exact read_ints size l hv.1 (by have := hv.2.1; omega) hv.2.2
  | float size l => exact read_floats size l hv.1 (by have := hv.2.1; omega) hv.2.2
  | str size l =>
    obtain ⟨h1, h2, h3, h4⟩ := hv
    refine read_rows size l h1 (by omega) (by omega) ?_
    intro row hrow
    refine ⟨(h4 row hrow).1, fun c hc => ?_⟩
    have := (h4 row hrow).2 c hc
    unfold Scalar at this
    omega
  | date l => exact read_dates l (by have := hv.1; omega) hv.2
  | datetime l => exact absurd rfl (hd l)
  | object vs => exact absurd rfl (ho vs)

/-- C70: a datetime page comes back with the same values exactly if no datetime has a fraction of a second of a microsecond or more -/
theorem C70_datetime_iff (widen : Nat → Nat) (l : List NDT) (hv : (NPage.datetime l).Valid) :
    ((npySave (.datetime l)).bind npyRead).bind (NPage.vals widen) = (NPage.datetime l).vals widen ↔ ∀ x ∈ l, x.ns < 1000 := by
  have e : (npySave (.datetime l)).bind npyRead = .ok (.datetime (l.map fun x => { x with ns := x.ns / 1000 })) :=
    read_datetimes l (by have := hv.1; omega) hv.2
  rw [e]
  dsimp only [Except.bind, NPage.vals]
  rw [List.map_map, Except.ok.injEq, List.map_inj_left]
  apply forall₂_congr
  intro x hx
  simp
  omega

/-- C70: a tenth of a second becomes a hundred microseconds -/
theorem C70_us_fails (widen : Nat → Nat) : ((npySave (.datetime [⟨2024, 2, 29, 12, 30, 0, 100000000⟩])).bind npyRead).bind (NPage.vals widen) =
    .ok [.datetime 2024 2 29 12 30 0 100] := by
  have h : ∀ x ∈ [(⟨2024, 2, 29, 12, 30, 0, 100000000⟩ : NDT)], x.Ok := by simp [NDT.Ok, DateOk, ValidDate, monthLen, Leap]
  have e := read_datetimes [⟨2024, 2, 29, 12, 30, 0, 100000000⟩] (by simp) h
  rw [npySave]
  generalize saveDatetimes [⟨2024, 2, 29, 12, 30, 0, 100000000⟩] = f at *
  rw [Except.bind, e]
  simp [Except.bind, NPage.vals]

/-- C70: the whole claim is false -/
theorem C70_fails : ¬ C70_statement := by
  intro h
  have hv : (NPage.datetime [⟨2024, 2, 29, 12, 30, 0, 100000000⟩]).Valid := by
    refine ⟨by decide, ?_⟩
    simp [NDT.Ok, DateOk, ValidDate, monthLen, Leap]
  obtain ⟨f, q, h1, h2, h3⟩ := h id _ hv
  have := C70_us_fails id
  rw [h1] at this
  dsimp only [Except.bind] at this
  rw [h2] at this
  dsimp only at this
  rw [h3] at this
  simp [NPage.vals] at this

/-- the hypotheses of `C70_partial` hold of pages of several kinds -/
example : (NPage.str 3 [[104, 105, 0], [0, 0, 0], [8364, 128512, 97]]).Valid ∧ (NPage.str 3 [[104, 105, 0], [0, 0, 0], [8364, 128512, 97]]).Plain := by
  simp [NPage.Valid, NPage.Plain, Scalar]
example : (NPage.int 2 [-32768, 32767, 0]).Valid := by simp [NPage.Valid]
example : (NPage.datetime [⟨1969, 12, 31, 23, 59, 59, 0⟩, ⟨2024, 2, 29, 0, 0, 0, 0⟩]).Valid ∧
    (NPage.datetime [⟨1969, 12, 31, 23, 59, 59, 0⟩, ⟨2024, 2, 29, 0, 0, 0, 0⟩]).Plain := by
  simp [NPage.Valid, NPage.Plain, NDT.Ok, DateOk, ValidDate, monthLen, Leap]
example : (NPage.object [.int 9000000000, .int (-1)]).Valid ∧ (NPage.object [.int 9000000000, .int (-1)]).Plain := by
  refine ⟨by simp [NPage.Valid, ObjV.Fits], ?_, ?_⟩
  · simp [ObjV.TypedOk]
  · intro h
    exact absurd ⟨.int, by simp [typedKinds], by simp, by simp [ObjV.kind]⟩ h
example : (NPage.object [.none, .int (-1), .str [104, 105]]).Valid ∧ (NPage.object [.none, .int (-1), .str [104, 105]]).Plain := by
  refine ⟨?_, ?_, ?_⟩
  · simp only [NPage.Valid]
    refine ⟨by decide, by simp [ObjV.Fits], by simp, ?_⟩
    intro b hb
    obtain rfl : b = [104, 105] := by simpa using hb
    exact ⟨[104, 105], by simp [Scalar], rfl, by simp, by simp, by simp⟩
  · rintro ⟨k, -, -, h⟩
    have h1 := h .none (by simp)
    have h2 := h (.int (-1)) (by simp)
    rw [← h1] at h2
    simp [ObjV.kind] at h2
  · simp [ObjV.Fits, ObjV.Plain]

end Tablite
