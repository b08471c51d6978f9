import Verif.Model.FilterIn
import Verif.Props.Filter
import Verif.Props.Cast
import Verif.Props.Lookup
import Verif.Props.ExprFilter
import Mathlib.Data.List.GetD
/-!
# C115, C116, C117: the operators `in` and `not in`, and the filter in Python
-/

namespace Tablite

/-! ## what Python calls the text of a value (spec) -/

/-- two digits -/
def twoD (n : Nat) : List Char := padDigits 2 n

/-- `HH:MM:SS`, with six more digits for a fraction of a second -/
def strClock (h m s us : Nat) : List Char :=
  twoD h ++ ':' :: (twoD m ++ ':' :: (twoD s ++ if us = 0 then [] else '.' :: padDigits 6 us))

/-- `YYYY-MM-DD` -/
def strDate (x : Nat × Nat × Nat) : List Char := padDigits 4 x.1 ++ '-' :: (twoD x.2.1 ++ '-' :: twoD x.2.2)

/-- Python's `str`; `fs` gives the text of a float -/
inductive StrOf (fs : Flt → List Char) : PyVal → List Char → Prop
  | none : StrOf fs .none "None".toList
  | true : StrOf fs (.bool true) "True".toList
  | false : StrOf fs (.bool false) "False".toList
  | nat (n : Nat) : StrOf fs (.int n) (Nat.toDigits 10 n)
  | neg (n : Nat) (h : 0 < n) : StrOf fs (.int (-n)) ('-' :: Nat.toDigits 10 n)
  | float (f : Flt) : StrOf fs (.float f) (fs f)
  | str (s : String) : StrOf fs (.str s) s.toList
  | date (x : Nat × Nat × Nat) (h : DateOk x) : StrOf fs (.date (toEpochDay x.1 x.2.1 x.2.2 * dayUs)) (strDate x)
  | time (h m s us : Nat) (hh : h < 24) (hm : m < 60) (hs : s < 60) (hu : us < 1000000) :
      StrOf fs (.time (((h * 3600 + m * 60 + s : Nat) : Int) * 1000000 + us)) (strClock h m s us)
  | datetime (x : Nat × Nat × Nat) (hx : DateOk x) (h m s us : Nat) (hh : h < 24) (hm : m < 60) (hs : s < 60) (hu : us < 1000000) :
      StrOf fs (.datetime (toEpochDay x.1 x.2.1 x.2.2 * dayUs + (((h * 3600 + m * 60 + s : Nat) : Int) * 1000000 + us))) (strDate x ++ ' ' :: strClock h m s us)

/-- values whose text is the same in Python and in Nim: no booleans, no fractions of a second -/
def SameText : PyVal → Prop
  | .bool _ => False
  | .time us => us % 1000000 = 0
  | .datetime us => us % 1000000 = 0
  | _ => True

theorem fmtTime_clock (d : Int) (h m s : Nat) (hh : h < 24) (hm : m < 60) (hs : s < 60) (us : Nat) (hu : us < 1000000) :
    fmtTime (d * dayUs + (((h * 3600 + m * 60 + s : Nat) : Int) * 1000000 + us)) = strClock h m s 0 := by
  have e : (d * dayUs + (((h * 3600 + m * 60 + s : Nat) : Int) * 1000000 + us)) / 1000000 % 86400 = ((h * 3600 + m * 60 + s : Nat) : Int) := by
    unfold dayUs
    omega
  unfold fmtTime strClock twoD
  dsimp only
  rw [e, Int.toNat_natCast, if_pos rfl, List.append_nil]
  rw [show (h * 3600 + m * 60 + s) / 3600 = h by omega, show (h * 3600 + m * 60 + s) % 3600 / 60 = m by omega, show (h * 3600 + m * 60 + s) % 60 = s by omega]

theorem fmtDate_day (x : Nat × Nat × Nat) (h : DateOk x) (r : Int) (h0 : 0 ≤ r) (h1 : r < dayUs) : fmtDate (toEpochDay x.1 x.2.1 x.2.2 * dayUs + r) = .ok (strDate x) := by
  obtain ⟨y, m, d⟩ := x
  have e : (toEpochDay y m d * dayUs + r) / dayUs = toEpochDay y m d := by
    unfold dayUs at *
    omega
  unfold fmtDate
  dsimp only
  rw [e, days2Components_epoch y m d h]
  dsimp only
  obtain ⟨h2, h3, -⟩ := h
  dsimp only at h2 h3
  rw [if_pos (by omega)]
  rfl

theorem nimText_str (fl : Flt → List Char) (v : PyVal) (s : List Char) (h : StrOf fl v s) (hs : SameText v) : nimText fl v = s := by
  cases h with
  | none => rfl
  | true => exact hs.elim
  | false => exact hs.elim
  | nat n => simp [nimText, nimIntText]
  | neg n h =>
    show (if (-(n : Int)) < 0 then ['-'] else []) ++ Nat.toDigits 10 (-(n : Int)).natAbs = _
    rw [if_pos (by omega)]
    simp
  | float f => rfl
  | str s => rfl
  | date x hx =>
    have := fmtDate_day x hx 0 (by omega) (by unfold dayUs; omega)
    rw [Int.add_zero] at this
    show (fmtDate (toEpochDay x.1 x.2.1 x.2.2 * dayUs)).toOption.getD [] = _
    rw [this]
    rfl
  | time h m s us hh hm hs' hu =>
    have : us = 0 := by
      unfold SameText at hs
      omega
    subst this
    have := fmtTime_clock 0 h m s hh hm hs' 0 (by omega)
    rw [Int.zero_mul, Int.zero_add] at this
    exact this
  | datetime x hx h m s us hh hm hs' hu =>
    have : us = 0 := by
      unfold SameText dayUs at hs
      omega
    subst this
    show (fmtDateTime _).toOption.getD [] = _
    unfold fmtDateTime
    rw [fmtDate_day x hx _ (by omega) (by unfold dayUs; omega), fmtTime_clock _ h m s hh hm hs' 0 (by omega)]
    rfl

/-! ## C115 -/

/-- what a user expects: the criterion `in` holds when the text of the left value occurs in the text of the right value (mp_utils.py:17) -/
def InRight (fl fs : Flt → List Char) (a b : PyVal) : Prop := ∀ sa sb, StrOf fs a sa → StrOf fs b sb → (nimIn fl a b = true ↔ sa <:+: sb)

/-- the whole claim -/
def C115_statement : Prop := ∀ fl fs : Flt → List Char, fl = fs → ∀ a b, InRight fl fs a b

theorem nimIn_iff (fl : Flt → List Char) (a b : PyVal) : nimIn fl a b = true ↔ nimText fl a <:+: nimText fl b := by
  unfold nimIn
  cases a with
  | none =>
    cases b with
    | none => simp [PyVal.kind, nimText]
    | _ => simp only [PyVal.kind, reduceCtorEq, decide_false, Bool.false_or, isIn_iff]
  | _ => exact isIn_iff _ _

/-- **C115** (partial).  On texts, whole numbers, dates, None, and times and datetimes without a fraction of a second, in any combination, the criterion `in` is a search of the
text of the left value in the text of the right value.  So it is on floats if Nim writes them as Python does.  Missing: booleans, fractions of a second. -/
theorem C115_partial (fl : Flt → List Char) (a b : PyVal) (ha : SameText a) (hb : SameText b) : InRight fl fl a b := by
  intro sa sb h1 h2
  rw [nimIn_iff, nimText_str fl a sa h1 ha, nimText_str fl b sb h2 hb]

/-- **C115** (the claim in full is false): True is not in the text "True". -/
theorem C115_fails : ¬ C115_statement := by
  intro h
  have := (h (fun _ => []) (fun _ => []) rfl (.bool true) (.str "True") _ _ .true (.str "True")).2 (List.infix_refl _)
  revert this
  decide +kernel

/-- **C115** a fraction of a second is not searched for: 10:30:15.5 is in the text "10:30:15", though its own text is longer -/
theorem C115_fraction_fails (fl : Flt → List Char) : nimIn fl (.time 37815500000) (.str "10:30:15") = true ∧ StrOf fl (.time 37815500000) "10:30:15.500000".toList ∧
    ¬ "10:30:15.500000".toList <:+: "10:30:15".toList := by
  refine ⟨by rw [nimIn_iff, ← isIn_iff]; exact (by decide +kernel : isIn (fmtTime 37815500000) "10:30:15".toList = true), ?_, ?_⟩
  · exact StrOf.time (fs := fl) 10 30 15 500000 (by omega) (by omega) (by omega) (by omega)
  · intro h
    have := h.length_le
    revert this
    decide

theorem infix_antisymm {β : Type} {a b : List β} (h1 : a <:+: b) (h2 : b <:+: a) : a = b := h1.eq_of_length (Nat.le_antisymm h1.length_le h2.length_le)

theorem strClock_fraction (h m s us : Nat) (hu : us ≠ 0) : (strClock h m s 0).length < (strClock h m s us).length := by
  unfold strClock
  rw [if_neg hu]
  simp

/-- the text in Nim is the text in Python exactly for the values of `SameText` -/
theorem nimText_iff (fl : Flt → List Char) (v : PyVal) (s : List Char) (h : StrOf fl v s) : nimText fl v = s ↔ SameText v := by
  refine ⟨fun he => ?_, nimText_str fl v s h⟩
  cases h with
  | none => trivial
  | true => exact absurd (show "true".toList = "True".toList from he) (by decide)
  | false => exact absurd (show "false".toList = "False".toList from he) (by decide)
  | nat n => trivial
  | neg n h => trivial
  | float f => trivial
  | str s => trivial
  | date x hx => trivial
  | time h m s us hh hm hs' hu =>
    by_cases h0 : us = 0
    · subst h0
      unfold SameText
      omega
    · exfalso
      have e := fmtTime_clock 0 h m s hh hm hs' us hu
      rw [Int.zero_mul, Int.zero_add] at e
      have := strClock_fraction h m s us h0
      rw [← he, ← e] at this
      exact absurd this (Nat.lt_irrefl _)
  | datetime x hx h m s us hh hm hs' hu =>
    by_cases h0 : us = 0
    · subst h0
      unfold SameText dayUs
      omega
    · exfalso
      have e : nimText fl (.datetime (toEpochDay x.1 x.2.1 x.2.2 * dayUs + (((h * 3600 + m * 60 + s : Nat) : Int) * 1000000 + us))) = strDate x ++ ' ' :: strClock h m s 0 := by
        show (fmtDateTime _).toOption.getD [] = _
        unfold fmtDateTime
        rw [fmtDate_day x hx _ (by omega) (by unfold dayUs; omega), fmtTime_clock _ h m s hh hm hs' us hu]
        rfl
      have := strClock_fraction h m s us h0
      rw [e] at he
      have := congrArg List.length he
      simp only [List.length_append, List.length_cons] at this
      omega

/-- **C115**, exactly when: searched for in texts, a value is found where its Python text occurs if and only if it is no boolean and has no fraction of a second;
and so it is for the value searched in. -/
theorem C115_exact (fl : Flt → List Char) (a : PyVal) (sa : List Char) (ha : StrOf fl a sa) :
    ((∀ s, InRight fl fl a (.str s)) ↔ SameText a) ∧ ((∀ s, InRight fl fl (.str s) a) ↔ SameText a) := by
  have ht : ∀ l : List Char, nimText fl (.str (String.ofList l)) = l := fun l => by simp [nimText]
  have hs : ∀ l : List Char, StrOf fl (.str (String.ofList l)) l := fun l => by simpa using StrOf.str (fs := fl) (String.ofList l)
  constructor
  · refine ⟨fun h => ?_, fun h s => C115_partial fl a _ h trivial⟩
    rw [← nimText_iff fl a sa ha]
    have h1 := (h (String.ofList sa) sa sa ha (hs sa)).2 (List.infix_refl _)
    have h2 := h (String.ofList (nimText fl a)) sa (nimText fl a) ha (hs _)
    rw [nimIn_iff, ht] at h1 h2
    exact infix_antisymm h1 (h2.1 (List.infix_refl _))
  · refine ⟨fun h => ?_, fun h s => C115_partial fl _ a trivial h⟩
    rw [← nimText_iff fl a sa ha]
    have h1 := (h (String.ofList sa) sa sa (hs sa) ha).2 (List.infix_refl _)
    have h2 := h (String.ofList (nimText fl a)) (nimText fl a) sa (hs _) ha
    rw [nimIn_iff, ht] at h1 h2
    exact infix_antisymm (h2.1 (List.infix_refl _)) h1

/-- `True` searched in texts is not right, a date is -/
example (fl : Flt → List Char) : (¬ ∀ s, InRight fl fl (.bool true) (.str s)) ∧ ∀ s, InRight fl fl (.date (toEpochDay 2024 2 29 * dayUs)) (.str s) := by
  constructor
  · rw [(C115_exact fl _ _ .true).1]
    exact id
  · exact (C115_exact fl _ _ (.date (2024, 2, 29) (by simp [DateOk, ValidDate, monthLen, Leap]))).1.2 trivial

/-- **C115** (order).  A value is in itself, and if one value is in a second and the second in a third, the first is in the third. -/
theorem C115_order (fl : Flt → List Char) : (∀ a, nimIn fl a a = true) ∧ ∀ a b c, nimIn fl a b = true → nimIn fl b c = true → nimIn fl a c = true := by
  simp only [nimIn_iff]
  exact ⟨fun a => List.infix_refl _, fun a b c h1 h2 => h1.trans h2⟩

/-- **C115** (equality).  Two texts are in each other exactly when they are equal; values of other kinds exactly when they are written alike. -/
theorem C115_antisymm (fl : Flt → List Char) (a b : PyVal) : (nimIn fl a b = true ∧ nimIn fl b a = true) ↔ nimText fl a = nimText fl b := by
  simp only [nimIn_iff]
  constructor
  · rintro ⟨h1, h2⟩
    exact infix_antisymm h1 h2
  · intro h
    rw [h]
    exact ⟨List.infix_refl _, List.infix_refl _⟩

section
variable {ν : Type} [DecidableEq ν]

/-- **C115** (the rows).  `t.filter([{"column1": x, "criteria": "in", "value2": v}])` keeps the rows in which the text of the value of `x` occurs in the text of `v`, and returns the others
as second table, whatever the pages. -/
theorem C115_filter (toF : Int → Flt) (fl : Flt → List Char) (ps : Nat) (hps : 0 < ps) (all : Bool) (t : Tbl ν PyVal) (n : Nat) (ht : Rect t n) (x : ν) (hx : x ∈ t.map (·.1))
    (v : PyVal) (sv : List Char) (hv : StrOf fl v sv) (hsv : SameText v) (hcol : ∀ i, i < n → SameText (cell .none t x i)) :
    ∃ p f, tblFilter .none (filterCmp toF fl) ps all t [⟨.col x, .isIn, .val v⟩] = .ok (p, f) ∧ ∃ keep : Nat → Bool,
      (∀ i, i < n → ∀ s, StrOf fl (cell .none t x i) s → (keep i = true ↔ s <:+: sv)) ∧
      tview p = rowsOf .none t ((List.range n).filter keep) ∧ tview f = rowsOf .none t ((List.range n).filter fun i => !keep i) := by
  have hne : t ≠ [] := by
    rintro rfl
    simp at hx
  obtain ⟨p, f, h1, h2, h3⟩ := C29_filter_partial .none (filterCmp toF fl) ps hps all t n ht hne [⟨.col x, .isIn, .val v⟩] ⟨_, List.mem_singleton.2 rfl, x, .inl rfl⟩ (by
    intro e he y hy
    rw [List.mem_singleton] at he
    subst he
    rcases hy with hy | hy <;> cases hy
    exact hx)
  refine ⟨p, f, h1, fun i => nimIn fl (cell .none t x i) v, fun i hi s hs => C115_partial fl _ _ (hcol i hi) hsv s sv hs hv, ?_, ?_⟩
  · rw [h2]
    congr 1
    apply List.filter_congr
    intro i _
    cases all <;> simp [rowHolds, filterCmp, fVal]
  · rw [h3]
    congr 1
    apply List.filter_congr
    intro i _
    cases all <;> simp [rowHolds, filterCmp, fVal]

end

/-! ## C116 -/

section
variable {α : Type}

/-- what a user expects of the operators of `lookup`: `not in` is the opposite of `in` -/
def C116_statement : Prop := ∀ (α : Type) (str : α → List Char) (a b : α), pyNotIn str a b = !pyIn str a b

/-- **C116** (the claim is false): "a" is in "ab" and, at the same time, not in "ab" -/
theorem C116_fails : ¬ C116_statement := by
  intro h
  have := h (List Char) id "a".toList "ab".toList
  revert this
  decide

/-- **C116** (effect): `a not in b` is the opposite of `b in a` -/
theorem C116_effect (str : α → List Char) (a b : α) : pyNotIn str a b = !pyIn str b a := rfl

/-- **C116** (exact): `not in` is the opposite of `in` exactly when the two texts are equal or neither of them contains the other -/
theorem C116_exact (str : α → List Char) (a b : α) : pyNotIn str a b = (!pyIn str a b) ↔ str a = str b ∨ (¬ str a <:+: str b ∧ ¬ str b <:+: str a) := by
  unfold pyNotIn pyIn
  rw [← isIn_iff, ← isIn_iff, Bool.not_inj_iff]
  constructor
  · intro h
    by_cases h1 : isIn (str a) (str b) = true
    · exact .inl (infix_antisymm ((isIn_iff _ _).1 h1) ((isIn_iff _ _).1 (h.trans h1)))
    · exact .inr ⟨h1, by rw [h]; exact h1⟩
  · rintro (h | ⟨h1, h2⟩)
    · rw [h]
    · rw [Bool.not_eq_true] at h1 h2
      rw [h1, h2]

/-- **C116** (partial): on texts of the same length it is.  Missing: other texts. -/
theorem C116_partial (str : α → List Char) (a b : α) (h : (str a).length = (str b).length) : pyNotIn str a b = !pyIn str a b := by
  rw [C116_exact]
  by_cases h1 : str a <:+: str b
  · exact .inl (h1.eq_of_length h)
  · refine .inr ⟨h1, fun h2 => h1 ?_⟩
    rw [h2.eq_of_length h.symm]

/-- **C116** (lookup): looking up the row of "ab" whose value does not contain "a" finds the very row -/
theorem C116_lookup_fails : tblLookup (η := List (List Char)) id id 4 (fun x i => x ++ toString i) [] true [("A", [["a".toList]])] [("B", [["ab".toList]])]
    [⟨pyNotIn id, .name "A" [], .name "B" []⟩] = .ok [("A", [["a".toList]]), ("B", [["ab".toList]])] ∧ pyIn id "a".toList "ab".toList = true := by decide +kernel

end

/-! ## C117 -/

section
variable {α ν κ : Type} [DecidableEq ν]

/-- the operator as a test: a TypeError counts as false -/
def holdsOp (ev : κ → α → α → Except Err Bool) (op : κ) (a b : α) : Bool := (ev op a b).toOption.getD false

/-- the operator raises nothing but TypeError -/
def OnlyType (ev : κ → α → α → Except Err Bool) : Prop := ∀ op a b e, ev op a b = .error e → e = .type

theorem mapM_error_mem {β γ : Type} (f : β → Except Err γ) (l : List β) (e : Err) (h : l.mapM f = .error e) : ∃ x ∈ l, f x = .error e := by
  induction l with
  | nil => cases h
  | cons a u ih =>
    rw [List.mapM_cons] at h
    cases ha : f a with
    | error e' =>
      rw [ha] at h
      injection h with h
      subst h
      exact ⟨a, by simp, ha⟩
    | ok b =>
      rw [ha] at h
      simp only [bind, Except.bind] at h
      cases hu : u.mapM f with
      | error e' =>
        rw [hu] at h
        injection h with h
        subst h
        obtain ⟨x, hx, hfx⟩ := ih hu
        exact ⟨x, by simp [hx], hfx⟩
      | ok r =>
        rw [hu] at h
        cases h

theorem mapM_each_ok {β γ : Type} (f : β → Except Err γ) (g : β → γ) (l : List β) (h : ∀ x ∈ l, f x = .ok (g x)) : l.mapM f = .ok (l.map g) := by
  induction l with
  | nil => rfl
  | cons a u ih =>
    rw [List.mapM_cons, h a (by simp), ih fun x hx => h x (by simp [hx])]
    rfl

theorem mapM_ok_map {β γ : Type} (f : β → Except Err γ) (g : β → γ) (hg : ∀ x y, f x = .ok y → g x = y) (l : List β) (r : List γ) (h : l.mapM f = .ok r) : r = l.map g := by
  induction l generalizing r with
  | nil => cases h; rfl
  | cons a u ih =>
    rw [List.mapM_cons] at h
    cases ha : f a with
    | error e => rw [ha] at h; cases h
    | ok b =>
      rw [ha] at h
      simp only [bind, Except.bind] at h
      cases hu : u.mapM f with
      | error e => rw [hu] at h; cases h
      | ok r' =>
        rw [hu] at h
        cases h
        rw [List.map_cons, hg a b ha, ih r' hu]

theorem evalPage_eq (ev : κ → α → α → Except Err Bool) (hev : OnlyType ev) (op : κ) (as bs : List α) : evalPage (ev op) as bs = .ok (List.zipWith (holdsOp ev op) as bs) := by
  have hz : List.zipWith (holdsOp ev op) as bs = (as.zip bs).map fun x => holdsOp ev op x.1 x.2 := by
    rw [List.zip, List.map_zipWith]
  unfold evalPage
  cases h : (as.zip bs).mapM (fun x => ev op x.1 x.2) with
  | ok r =>
    dsimp only
    rw [hz, mapM_ok_map (fun x : α × α => ev op x.1 x.2) (fun x => holdsOp ev op x.1 x.2) (by
      intro x y e
      unfold holdsOp
      rw [e]
      rfl) _ r h]
  | error e =>
    obtain ⟨x, -, hx⟩ := mapM_error_mem _ _ _ h
    have := hev _ _ _ _ hx
    subst this
    dsimp only
    rw [hz, mapM_each_ok]
    intro x _
    unfold safeTest holdsOp
    cases hx : ev op x.1 x.2 with
    | ok b => rfl
    | error e' =>
      have := hev _ _ _ _ hx
      subst this
      rfl

/-- the values of an operand, row by row -/
def operandVals (nul : α) (t : Tbl ν α) (n : Nat) (o : FOperand ν α) : List α := (List.range n).map fun i => fVal nul t i o

theorem operandPage_eq (nul : α) (t : Tbl ν α) (n : Nat) (ht : Rect t n) (o : FOperand ν α) (ho : operandOk t o = true) (s e : Nat) (hse : s ≤ e) (he : e ≤ n) :
    operandPage t s e o = .ok (((operandVals nul t n o).take e).drop s) := by
  cases o with
  | val v =>
    unfold operandPage operandVals fVal
    rw [← replicate_range, List.take_replicate, List.drop_replicate, Nat.min_eq_left he]
  | col x =>
    unfold operandOk at ho
    rw [decide_eq_true_eq] at ho
    unfold operandPage
    dsimp only
    rw [getSlice_nat _ s e hse]
    have hl := Rect.len_of_get ht x ho
    have : operandVals nul t n (.col x) = colIter ((dGet x t).getD []) := by
      unfold operandVals fVal
      apply List.ext_getElem
      · rw [List.length_map, List.length_range, colIter_eq, ← colLen_eq, hl]
      · intro i h1 h2
        simp only [List.length_map, List.length_range] at h1
        simp only [List.getElem_map, List.getElem_range, ← cell_getD]
        rw [List.getD_eq_getElem _ _ h2]
    rw [this]

theorem foldlM_append_ok {β γ : Type} (f : β → Except Err (List γ)) (g : β → List γ) (l : List β) (h : ∀ x ∈ l, f x = .ok (g x)) (acc : List γ) :
    l.foldlM (fun bits x => do .ok (bits ++ (← f x))) acc = .ok (acc ++ (l.map g).flatten) := by
  induction l generalizing acc with
  | nil => simp [pure, Except.pure]
  | cons a u ih =>
    rw [List.foldlM_cons, h a (by simp)]
    simp only [bind, Except.bind]
    have := ih (fun x hx => h x (by simp [hx])) (acc ++ g a)
    simp only [bind, Except.bind] at this
    rw [this, List.map_cons, List.flatten_cons, List.append_assoc]

theorem exprBits_eq (nul : α) (ev : κ → α → α → Except Err Bool) (hev : OnlyType ev) (ps : Nat) (hps : 0 < ps) (t : Tbl ν α) (n : Nat) (ht : Rect t n) (hne : t ≠ [])
    (e : FExpr ν α κ) (hl : operandOk t e.left = true) (hr : operandOk t e.right = true) :
    exprBits ev ps t e = .ok ((List.range n).map fun i => holdsOp ev e.op (fVal nul t i e.left) (fVal nul t i e.right)) := by
  unfold exprBits
  rw [tblLen_rect t n ht hne]
  have hs := C49_page_steps ps n hps
  have key := foldlM_append_ok (fun se : Nat × Nat => do
    let as ← operandPage t se.1 se.2 e.left
    let bs ← operandPage t se.1 se.2 e.right
    if as.length ≠ bs.length then .error .value else evalPage (ev e.op) as bs)
    (fun se => ((((List.range n).map fun i => holdsOp ev e.op (fVal nul t i e.left) (fVal nul t i e.right)).take se.2).drop se.1)) (pageSteps ps n) (by
      intro se hse
      have hb := hs.2.1 se hse
      rw [operandPage_eq nul t n ht e.left hl se.1 se.2 hb.1 hb.2.1, operandPage_eq nul t n ht e.right hr se.1 se.2 hb.1 hb.2.1]
      simp only [bind, Except.bind]
      rw [if_neg (by simp [operandVals]), evalPage_eq ev hev]
      unfold operandVals
      rw [← List.drop_zipWith, ← List.take_zipWith, List.zipWith_map_left, List.zipWith_map_right, List.zipWith_self]) []
  rw [List.nil_append] at key
  have hp := pageSteps_slices ps hps ((List.range n).map fun i => holdsOp ev e.op (fVal nul t i e.left) (fVal nul t i e.right))
  rw [List.length_map, List.length_range] at hp
  rw [hp] at key
  rw [← key]
  congr 1
  funext bits se
  simp only [bind, Except.bind]
  cases operandPage t se.1 se.2 e.left with
  | error => rfl
  | ok as =>
    cases operandPage t se.1 se.2 e.right with
    | error => rfl
    | ok bs =>
      dsimp only
      split <;> rfl

/-- **C117**.  `filter_non_primitive` returns the rows that satisfy all (any) of the expressions, and the others, for every list of expressions over existing columns, whatever the
pages: also for the empty list and for expressions without a column, with which `filter` cannot deal (`C29_fails`, `C29_constants_raise`).  An operator that raises TypeError on two
values counts as not satisfied by them. -/
theorem C117_filter (nul : α) (ev : κ → α → α → Except Err Bool) (hev : OnlyType ev) (ps : Nat) (hps : 0 < ps) (all : Bool) (t : Tbl ν α) (n : Nat) (ht : Rect t n) (hne : t ≠ [])
    (es : List (FExpr ν α κ)) (hcols : ∀ e ∈ es, ∀ x, e.left = .col x ∨ e.right = .col x → x ∈ t.map (·.1)) (hn : 0 < n) :
    ∃ p f, filterNonPrimitive ev ps all t es = .ok (p, f) ∧
      tview p = rowsOf nul t ((List.range n).filter fun i => rowHolds nul (holdsOp ev) all es t i) ∧
      tview f = rowsOf nul t ((List.range n).filter fun i => !rowHolds nul (holdsOp ev) all es t i) := by
  have hlen := tblLen_rect t n ht hne
  have hok : ∀ e ∈ es, operandOk t e.left = true ∧ operandOk t e.right = true := by
    intro e he
    constructor
    · cases h : e.left with
      | val v => rfl
      | col x => exact decide_eq_true (hcols e he x (.inl h))
    · cases h : e.right with
      | val v => rfl
      | col x => exact decide_eq_true (hcols e he x (.inr h))
  unfold filterNonPrimitive
  rw [hlen, if_neg (by omega), if_neg (by
    simp only [not_not, List.all_eq_true, Bool.and_eq_true]
    exact hok)]
  rw [mapM_each_ok (exprBits ev ps t) (fun e => (List.range n).map fun i => holdsOp ev e.op (fVal nul t i e.left) (fVal nul t i e.right)) es
    fun e he => exprBits_eq nul ev hev ps hps t n ht hne e (hok e he).1 (hok e he).2]
  simp only [bind, Except.bind]
  have hm : bitmapMask all n (es.map fun e => (List.range n).map fun i => holdsOp ev e.op (fVal nul t i e.left) (fVal nul t i e.right)) =
      (List.range n).map fun i => rowHolds nul (holdsOp ev) all es t i := by
    unfold bitmapMask rowHolds
    apply List.map_congr_left
    intro i hi
    rw [List.mem_range] at hi
    rw [List.all_map, List.any_map]
    have : ∀ e : FExpr ν α κ, ((List.range n).map fun i => holdsOp ev e.op (fVal nul t i e.left) (fVal nul t i e.right)).getD i false =
        holdsOp ev e.op (fVal nul t i e.left) (fVal nul t i e.right) := by
      intro e
      rw [List.getD_eq_getElem _ _ (by simpa using hi)]
      simp
    simp only [Function.comp_def, this]
  rw [hm]
  exact C29_compress_both ps hps nul t n ht _

/-- **C117** (agreement).  Wherever `filter` is right, the two filters return the same rows if their operators agree. -/
theorem C117_agree (nul : α) (ev : κ → α → α → Except Err Bool) (hev : OnlyType ev) (cmp : κ → α → α → Bool) (hc : ∀ op a b, holdsOp ev op a b = cmp op a b) (ps : Nat) (hps : 0 < ps)
    (all : Bool) (t : Tbl ν α) (n : Nat) (ht : Rect t n) (hne : t ≠ []) (hn : 0 < n) (es : List (FExpr ν α κ)) (hx : ∃ e ∈ es, ∃ x, e.left = .col x ∨ e.right = .col x)
    (hcols : ∀ e ∈ es, ∀ x, e.left = .col x ∨ e.right = .col x → x ∈ t.map (·.1)) :
    ∃ p f p' f', filterNonPrimitive ev ps all t es = .ok (p, f) ∧ tblFilter nul cmp ps all t es = .ok (p', f') ∧ tview p = tview p' ∧ tview f = tview f' := by
  obtain ⟨p, f, h1, h2, h3⟩ := C117_filter nul ev hev ps hps all t n ht hne es hcols hn
  obtain ⟨p', f', h1', h2', h3'⟩ := C29_filter_partial nul cmp ps hps all t n ht hne es hx hcols
  have : holdsOp ev = cmp := funext fun op => funext fun a => funext fun b => hc op a b
  rw [this] at h2 h3
  exact ⟨p, f, p', f', h1, h1', h2.trans h2'.symm, h3.trans h3'.symm⟩

/-- **C117** an unknown column raises ValueError -/
theorem C117_unknown (ev : κ → α → α → Except Err Bool) (ps : Nat) (all : Bool) (t : Tbl ν α) (es : List (FExpr ν α κ)) (hn : tblLen t ≠ 0) (e : FExpr ν α κ) (he : e ∈ es) (x : ν)
    (hx : e.left = .col x ∨ e.right = .col x) (hm : x ∉ t.map (·.1)) : filterNonPrimitive ev ps all t es = .error .value := by
  unfold filterNonPrimitive
  rw [if_neg hn, if_pos]
  intro h
  have := List.all_eq_true.1 h e he
  rw [Bool.and_eq_true] at this
  rcases hx with hx | hx
  · rw [hx] at this
    exact hm (of_decide_eq_true this.1)
  · rw [hx] at this
    exact hm (of_decide_eq_true this.2)

end

/-! ### cases that meet the hypotheses -/

/-- 1 and "ab" are in "ab12", 3 is not; a date has a text -/
example : SameText (.int 1) ∧ nimIn (fun _ => []) (.int 1) (.str "ab12") = true ∧ nimIn (fun _ => []) (.int 3) (.str "ab12") = false ∧
    StrOf (fun _ => []) (.date (toEpochDay 2022 1 2 * dayUs)) "2022-01-02".toList ∧ nimIn (fun _ => []) (.str "-01-") (.date (toEpochDay 2022 1 2 * dayUs)) = true := by
  refine ⟨trivial, by decide +kernel, by decide +kernel, ?_, by decide +kernel⟩
  exact StrOf.date (fs := fun _ => []) (2022, 1, 2) (by unfold DateOk ValidDate; decide)

/-- an operator that raises TypeError for None, the empty list of expressions and an expression without a column -/
example : OnlyType (fun (_ : Unit) (a b : Option Nat) => match a, b with
    | some a, some b => Except.ok (decide (a < b))
    | _, _ => .error .type) ∧
    (filterNonPrimitive (fun (_ : Unit) (a b : Option Nat) => match a, b with
      | some a, some b => Except.ok (decide (a < b))
      | _, _ => .error .type) 2 true [("a", [[some 1, none], [some 3]])] [⟨.col "a", (), .val (some 2)⟩] = .ok ([("a", [[some 1]])], [("a", [[none], [some 3]])])) := by
  refine ⟨?_, by rfl⟩
  intro op a b e h
  cases a <;> cases b <;> simp at h <;> exact h.symm

end Tablite
