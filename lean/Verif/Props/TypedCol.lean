import Verif.Model.TypedCol
import Verif.Props.ColumnWrite
import Verif.Props.ColumnRead
import Mathlib.Tactic.Push
/-!
# C79: a column keeps the values it is given, C80: writes keep them too, C81: replaced values are stored as given
-/

namespace Tablite

section
variable {F : Type}

/-! ## specification -/

/-- values that survive being stored in a numpy array of their own type: no trailing NULs, no time zone, at most 64 bit of microseconds -/
def Keepable : CV F → Prop
  | .str s => s.getLast? ≠ some (Char.ofNat 0)
  | .bytes b => b.getLast? ≠ some 0
  | .datetime _ off => off = none
  | .timedelta us => -2 ^ 63 ≤ us ∧ us < 2 ^ 63
  | _ => True

/-- the integers of a list: all signed 64 bit, or all above that within 64 bit, or some beyond 64 bit -/
def IntsAlike (l : List (CV F)) : Prop :=
  (∀ n, CV.int n ∈ l → -2 ^ 63 ≤ n ∧ n < 2 ^ 63) ∨ (∀ n, CV.int n ∈ l → 2 ^ 63 ≤ n ∧ n < 2 ^ 64) ∨ ∃ n, CV.int n ∈ l ∧ (n < -2 ^ 63 ∨ 2 ^ 64 ≤ n)

/-- lists that can be stored: values of different types, or values of one type that each survive -/
def KeptList (l : List (CV F)) : Prop :=
  (∃ v ∈ l, ∃ w ∈ l, v.ty ≠ w.ty) ∨ ((∀ v ∈ l, Keepable v) ∧ IntsAlike l)

/-! ## C79 -/

theorem dropNuls_eq {α} [DecidableEq α] (nul : α) (s : List α) : dropNuls nul s = s ↔ s.getLast? ≠ some nul := by
  unfold dropNuls
  have e : s = s.reverse.reverse := by simp
  generalize hr : s.reverse = r at *
  rw [e, List.getLast?_reverse, List.reverse_inj]
  cases r with
  | nil => simp
  | cons a r =>
    by_cases h : a = nul
    · simp only [h, List.dropWhile_cons, decide_true, if_true, List.head?_cons, ne_eq, not_true_eq_false, iff_false]
      intro h'
      have := congrArg List.length h'
      have h2 := (List.dropWhile_sublist (fun x => decide (x = nul)) (l := r)).length_le
      simp only [List.length_cons] at this
      omega
    · simp [h]

theorem isI64_range (n : Int) : isI64 n = true ↔ -2 ^ 63 ≤ n ∧ n < 2 ^ 63 := by simp [isI64]
theorem isU64_iff (n : Int) : isU64 n = true ↔ 2 ^ 63 ≤ n ∧ n < 2 ^ 64 := by simp [isU64]

theorem stored_eq (R : NpRt F) (hw : ∀ us, -2 ^ 63 ≤ R.tdWrap us ∧ R.tdWrap us < 2 ^ 63) (v : CV F) : stored R v = v ↔ Keepable v := by
  cases v with
  | str s => simp only [stored, Keepable, CV.str.injEq, dropNuls_eq]
  | bytes b => simp only [stored, Keepable, CV.bytes.injEq, dropNuls_eq]
  | datetime us off => cases off <;> simp [stored, Keepable]
  | timedelta us =>
    simp only [stored, Keepable]
    split
    · rename_i h
      simpa using (isI64_range us).1 h
    · rename_i h
      rw [isI64_range] at h
      constructor
      · intro h'
        rw [CV.timedelta.injEq] at h'
        rw [← h']
        exact hw us
      · intro h'
        exact absurd h' h
  | _ => simp [stored, Keepable]

theorem map_fixed {α} (f : α → α) (l : List α) : l.map f = l ↔ ∀ v ∈ l, f v = v := by
  induction l with
  | nil => simp
  | cons a l ih => simp [ih]

theorem ty_int {v : CV F} (h : v.ty = .int) : v = .int v.intOf := by cases v <;> first | rfl | cases h

theorem npInts_eq (R : NpRt F) (l : List (CV F)) (hne : l ≠ []) (h : ∀ v ∈ l, v.ty = .int) : (npInts R l).data = l ↔ IntsAlike l := by
  have hm : ∀ n, CV.int n ∈ l ↔ ∃ v ∈ l, v.intOf = n := by
    intro n
    constructor
    · intro hn; exact ⟨_, hn, rfl⟩
    · rintro ⟨v, hv, rfl⟩; rw [← ty_int (h v hv)]; exact hv
  unfold npInts IntsAlike
  by_cases h1 : l.all (fun v => isI64 v.intOf) = true
  · rw [if_pos h1]
    simp only [true_iff]
    left
    intro n hn
    obtain ⟨v, hv, rfl⟩ := (hm n).1 hn
    exact (isI64_range _).1 (List.all_eq_true.1 h1 v hv)
  · rw [if_neg h1]
    by_cases h2 : l.all (fun v => isU64 v.intOf) = true
    · rw [if_pos h2]
      simp only [true_iff]
      right; left
      intro n hn
      obtain ⟨v, hv, rfl⟩ := (hm n).1 hn
      exact (isU64_iff _).1 (List.all_eq_true.1 h2 v hv)
    · rw [if_neg h2]
      by_cases h3 : l.all (fun v => isI64 v.intOf || isU64 v.intOf) = true
      · rw [if_pos h3]
        constructor
        · intro h'
          obtain ⟨v, hv⟩ := List.exists_mem_of_ne_nil l hne
          have := (map_fixed (fun v : CV F => CV.float (R.ofInt v.intOf)) l).1 h' v hv
          have h4 := h v hv
          rw [← this] at h4
          cases h4
        · rintro (h' | h' | ⟨n, hn, h'⟩)
          · exfalso
            apply h1
            rw [List.all_eq_true]
            intro v hv
            exact (isI64_range _).2 (h' _ ((hm _).2 ⟨v, hv, rfl⟩))
          · exfalso
            apply h2
            rw [List.all_eq_true]
            intro v hv
            exact (isU64_iff _).2 (h' _ ((hm _).2 ⟨v, hv, rfl⟩))
          · exfalso
            obtain ⟨v, hv, rfl⟩ := (hm n).1 hn
            have := List.all_eq_true.1 h3 v hv
            rw [Bool.or_eq_true, isI64_range, isU64_iff] at this
            omega
      · rw [if_neg h3]
        simp only [true_iff]
        right; right
        rw [List.all_eq_true] at h3
        push Not at h3
        obtain ⟨v, hv, h3⟩ := h3
        refine ⟨v.intOf, (hm _).2 ⟨v, hv, rfl⟩, ?_⟩
        rw [ne_eq, Bool.or_eq_true, isI64_range, isU64_iff] at h3
        omega

theorem intsAlike_of_ty (l : List (CV F)) (t : CT) (ht : t ≠ .int) (h : ∀ v ∈ l, v.ty = t) : IntsAlike l := by
  left
  intro n hn
  exact absurd (h _ hn).symm ht

/-- C79: the array made from a list has the values of the list exactly if the list can be stored -/
theorem C79_exact (R : NpRt F) (hw : ∀ us, -2 ^ 63 ≤ R.tdWrap us ∧ R.tdWrap us < 2 ^ 63) (l : List (CV F)) : (listToNp R l).data = l ↔ KeptList l := by
  cases l with
  | nil => simp [listToNp, KeptList, IntsAlike]
  | cons a r =>
    rw [listToNp]
    by_cases h : r.all (fun x => x.ty = a.ty) = true
    · rw [if_pos h]
      have hall : ∀ v ∈ a :: r, v.ty = a.ty := by
        intro v hv
        rcases List.mem_cons.1 hv with rfl | hv
        · rfl
        · simpa using List.all_eq_true.1 h v hv
      have hk : KeptList (a :: r) ↔ (∀ v ∈ a :: r, Keepable v) ∧ IntsAlike (a :: r) := by
        unfold KeptList
        constructor
        · rintro (⟨v, hv, w, hw', hne⟩ | h')
          · exact absurd ((hall v hv).trans (hall w hw').symm) hne
          · exact h'
        · exact .inr
      rw [hk]
      generalize ht : a.ty = t at *
      have triv : (∀ v : CV F, v.ty = t → Keepable v) → ∀ v ∈ a :: r, Keepable v := fun hh v hv => hh v (hall v hv)
      have st : (((a :: r).map (stored R)) = a :: r ↔ ∀ v ∈ a :: r, Keepable v) := by
        rw [map_fixed]
        constructor
        · intro h' v hv; exact (stored_eq R hw v).1 (h' v hv)
        · intro h' v hv; exact (stored_eq R hw v).2 (h' v hv)
      cases t with
      | int =>
        rw [show npOneType R CT.int (a :: r) = npInts R (a :: r) from rfl, npInts_eq R _ (by simp) hall]
        constructor
        · intro h'
          exact ⟨triv (by intro v hv; rw [ty_int hv]; trivial), h'⟩
        · exact And.right
      | str => exact ⟨fun h' => ⟨st.1 h', intsAlike_of_ty _ _ (by decide) hall⟩, fun h' => st.2 h'.1⟩
      | bytes => exact ⟨fun h' => ⟨st.1 h', intsAlike_of_ty _ _ (by decide) hall⟩, fun h' => st.2 h'.1⟩
      | datetime => exact ⟨fun h' => ⟨st.1 h', intsAlike_of_ty _ _ (by decide) hall⟩, fun h' => st.2 h'.1⟩
      | timedelta => exact ⟨fun h' => ⟨st.1 h', intsAlike_of_ty _ _ (by decide) hall⟩, fun h' => st.2 h'.1⟩
      | _ =>
        refine ⟨fun _ => ⟨triv ?_, intsAlike_of_ty _ _ (by decide) hall⟩, fun _ => rfl⟩
        intro v hv
        cases v <;> trivial
    · rw [if_neg h]
      simp only [true_iff]
      left
      rw [List.all_eq_true] at h
      push Not at h
      obtain ⟨x, hx, hne⟩ := h
      exact ⟨x, List.mem_cons_of_mem _ hx, a, List.mem_cons_self, by simpa using hne⟩

theorem npUnify_data (as : List (Arr F)) (h : as ≠ []) : ∃ d, npUnify as = .ok ⟨d, (as.map Arr.data).flatten⟩ := by
  cases as with
  | nil => exact absurd rfl h
  | cons a r =>
    rw [npUnify]
    split
    · exact ⟨_, rfl⟩
    · exact ⟨_, rfl⟩

theorem tPaginate_pages (ps : Nat) (a : Arr F) : (tPaginate ps a).pages = paginate ps a.data := by
  simp [TCol.pages, tPaginate, List.map_map, Function.comp_def]

theorem tcol_pages_append (c d : TCol F) : TCol.pages (c ++ d) = TCol.pages c ++ TCol.pages d := List.map_append

theorem tExtend_pages (ps : Nat) (c : TCol F) (a : Arr F) : (tExtend ps c a).pages = extend ps c.pages a.data := by
  rw [tExtend, tcol_pages_append, tPaginate_pages]
  rfl

theorem tReadAll_data (c : TCol F) : ∃ d, tReadAll c = .ok ⟨d, colIter c.pages⟩ := by
  have hf : ((c.filter (fun a => a.data ≠ [])).map Arr.data).flatten = colIter c.pages := by
    rw [colIter_eq, TCol.pages]
    induction c with
    | nil => rfl
    | cons a c ih =>
      by_cases h : a.data = []
      · rw [List.filter_cons_of_neg (by simpa using h), ih, List.map_cons, List.flatten_cons, h]; rfl
      · rw [List.filter_cons_of_pos (by simpa using h), List.map_cons, List.flatten_cons, ih, List.map_cons, List.flatten_cons]
  unfold tReadAll
  split
  · rename_i h
    rw [h] at hf
    exact ⟨.float64, by rw [← hf]; rfl⟩
  · rename_i a r h
    obtain ⟨d, hd⟩ := npUnify_data (a :: r) (by simp)
    rw [h] at hf
    exact ⟨d, by rw [hd, hf]⟩

/-- the whole claim: a column made from a list, iterated or read with `[:]`, gives the values of the list with their types -/
def C79_statement : Prop := ∀ (F : Type) (R : NpRt F) (ps : Nat) (l : List (CV F)), 0 < ps →
  colIter (tColumn R ps l).pages = l ∧ (tReadAll (tColumn R ps l)).map Arr.data = .ok l

/-- C79: for the lists that can be stored, and only for these. Missing: texts and byte strings with trailing NULs, aware datetimes, timedeltas beyond 64 bit
of microseconds and integers partly above 2^63, each in lists of a single type -/
theorem C79_partial (R : NpRt F) (hw : ∀ us, -2 ^ 63 ≤ R.tdWrap us ∧ R.tdWrap us < 2 ^ 63) (ps : Nat) (hps : 0 < ps) (l : List (CV F)) :
    (KeptList l ↔ colIter (tColumn R ps l).pages = l) ∧
    (KeptList l ↔ (tReadAll (tColumn R ps l)).map Arr.data = .ok l) := by
  have h : colIter (tColumn R ps l).pages = (listToNp R l).data := by
    rw [tColumn, tExtend_pages, colIter_eq]
    simp [extend, TCol.pages, paginate_flatten hps]
  obtain ⟨d, hd⟩ := tReadAll_data (tColumn R ps l)
  rw [hd, h, ← C79_exact R hw]
  exact ⟨Iff.rfl, by simp [Except.map]⟩

/-- a numpy with exact numbers -/
def exactNp : NpRt Rat where
  ofInt n := n
  tdWrap _ := 0
  trunc x := .ok (Int.tdiv x.num x.den)
  cast _ _ := .error .type

/-- C79: the text `a` followed by a NUL comes back as `a` -/
theorem C79_fails : ¬ C79_statement := by
  intro h
  have := (h Rat exactNp 10 [.str ['a', Char.ofNat 0]] (by decide)).1
  revert this
  decide +kernel

/-- C79: 2^63 and 1 come back as floats -/
theorem C79_integer_fails : colIter (tColumn exactNp 10 [.int (2 ^ 63), .int 1]).pages = [.float (2 ^ 63), .float 1] := by decide +kernel

/-- C79: an aware datetime comes back as a naive one, two hours earlier -/
theorem C79_zone_fails : colIter (tColumn exactNp 10 [.datetime 10800000000 (some 7200000000)]).pages = [.datetime 3600000000 none] := by decide +kernel

/-- lists of one type and of several types that can be stored -/
example : KeptList [CV.str ['a', Char.ofNat 0, 'b'], .str [], (.str ['c'] : CV Rat)] := by
  right
  refine ⟨?_, .inl (by simp)⟩
  simp only [List.mem_cons, List.not_mem_nil, or_false]
  rintro v (rfl | rfl | rfl) <;> simp [Keepable]
example : KeptList [CV.str ['a', Char.ofNat 0], (.int (2 ^ 63) : CV Rat), .none, .int 1] :=
  .inl ⟨_, List.mem_cons_self, .none, by simp, by simp [CV.ty]⟩
example : colIter (tColumn exactNp 2 [.str ['a', Char.ofNat 0], .int (2 ^ 63), .none, .int 1]).pages = [.str ['a', Char.ofNat 0], .int (2 ^ 63), .none, .int 1] := by decide +kernel

/-! ## C80 -/

/-- values that a slot of an array with a dtype takes as they are: any for an object array, texts no longer than the array is wide, integers within 64 bit,
otherwise values of the type of the array -/
def Fits : Dt → CV F → Prop
  | .obj, _ => True
  | .bool, .bool _ => True
  | .int64, .int n => -2 ^ 63 ≤ n ∧ n < 2 ^ 63
  | .float64, .float _ => True
  | .str w, .str s => s.length ≤ w
  | .bytes w, .bytes b => b.length ≤ w
  | .dtUs, .datetime _ _ => True
  | .dtD, .date _ => True
  | .tdUs, .timedelta _ => True
  | _, _ => False

theorem castInto_fits (R : NpRt F) (hw : ∀ us, -2 ^ 63 ≤ R.tdWrap us ∧ R.tdWrap us < 2 ^ 63) (d : Dt) (v : CV F) (h : Fits d v) (hk : d = .obj ∨ Keepable v) :
    castInto R d v = .ok v := by
  rcases hk with rfl | hk
  · cases v <;> rfl
  · have hs := (stored_eq R hw v).2 hk
    cases d <;> cases v <;> first | rfl | (exact absurd h id) | skip
    case int64.int n => rw [castInto, if_pos ((isI64_range n).2 h)]
    case str.str w s =>
      rw [castInto, List.take_of_length_le h, hs]
    case bytes.bytes w s =>
      rw [castInto, List.take_of_length_le h, hs]
    case dtUs.datetime us off => rw [castInto, hs]
    case tdUs.timedelta us => rw [castInto, hs]

theorem tSetIntLoop_pages (key : Int) (v : CV F) (start : Int) (c : TCol F) : (tSetIntLoop key v start c).pages = setIntLoop key v start c.pages := by
  induction c generalizing start with
  | nil => rfl
  | cons p c ih =>
    simp only [tSetIntLoop, TCol.pages, List.map_cons, setIntLoop]
    split
    · rfl
    · rw [List.map_cons]
      exact congrArg _ (ih _)

theorem tSetInt_pages (c : TCol F) (i : Int) (v : CV F) : (tSetInt c i v).map TCol.pages = setInt c.pages i v := by
  unfold tSetInt setInt
  dsimp only
  generalize (if i < 0 then (colLen c.pages : Int) + i else i) = key
  split
  · simp only [Except.map]
    rw [tSetIntLoop_pages]
  · rfl

theorem tSetExtendLoop_pages (ps : Nat) (key : Int) (a : Arr F) (done : TCol F) (start : Int) (c : TCol F) :
    (tSetExtendLoop ps key a done start c).map TCol.pages = .ok (setExtendLoop ps key a.data done.pages start c.pages) := by
  induction c generalizing start done with
  | nil => simp [tSetExtendLoop, TCol.pages, setExtendLoop, Except.map]
  | cons p c ih =>
    simp only [tSetExtendLoop, TCol.pages, List.map_cons, setExtendLoop]
    split
    · obtain ⟨d, hd⟩ := npUnify_data [⟨p.dt, p.data.take (key - start).toNat⟩, a] (by simp)
      rw [hd]
      simp only [bind, Except.bind, Except.map]
      rw [show List.map Arr.data done = TCol.pages done from rfl, tExtend_pages]
      simp
    · have := ih (done ++ [p]) (start + p.data.length)
      rw [tcol_pages_append] at this
      exact this

theorem tSetPrextendLoop_pages (ps : Nat) (stop : Int) (a : Arr F) (start : Int) (c : TCol F) :
    (tSetPrextendLoop ps stop a start c).map (Option.map TCol.pages) = .ok (setPrextendLoop ps stop a.data start c.pages) := by
  induction c generalizing start with
  | nil => simp [tSetPrextendLoop, TCol.pages, setPrextendLoop, Except.map]
  | cons p c ih =>
    simp only [tSetPrextendLoop, TCol.pages, List.map_cons, setPrextendLoop]
    split
    · obtain ⟨d, hd⟩ := npUnify_data [a, ⟨p.dt, p.data.drop (stop - start).toNat⟩] (by simp)
      rw [hd]
      simp only [bind, Except.bind, Except.map, Option.map]
      rw [tcol_pages_append, tExtend_pages]
      simp [TCol.pages]
    · exact ih _

theorem tSetPrextend_pages (ps : Nat) (c : TCol F) (stop : Int) (a : Arr F) :
    (tSetPrextend ps c stop a).map TCol.pages = .ok (setPrextend ps c.pages stop a.data) := by
  unfold tSetPrextend setPrextend
  split
  · simp only [Except.map]
    rw [tExtend_pages]
    rfl
  · dsimp only
    have h := tSetPrextendLoop_pages ps (if stop < 0 then (({ stop := some stop } : PySlice).indices (colLen c.pages)).2.1 else stop) a 0 c
    cases hx : tSetPrextendLoop ps (if stop < 0 then (({ stop := some stop } : PySlice).indices (colLen c.pages)).2.1 else stop) a 0 c with
    | error e => rw [hx] at h; cases h
    | ok o =>
      rw [hx] at h
      cases o with
      | none => simp only [Except.map, Option.map] at h; rw [← Except.ok.inj h]; rfl
      | some q => simp only [Except.map, Option.map] at h; rw [← Except.ok.inj h]; rfl

/-- the state of the loop as values -/
def TInsertAcc.vals (a : TInsertAcc F) : InsertAcc (CV F) := ⟨a.unchangedHead.pages, a.head.data, a.tail.data, a.unchangedTail.pages⟩

theorem tSetInsertLoop_pages (ks ke start : Int) (c : TCol F) (acc : TInsertAcc F) :
    (tSetInsertLoop ks ke start c acc).vals = setInsertLoop ks ke start c.pages acc.vals := by
  induction c generalizing start acc with
  | nil => rfl
  | cons p c ih =>
    simp only [tSetInsertLoop, TCol.pages, List.map_cons, setInsertLoop]
    rw [ih]
    refine congrArg (setInsertLoop ks ke _ (TCol.pages c)) ?_
    split <;> split <;> split <;> split <;> simp [TInsertAcc.vals, TCol.pages]

theorem tSetInsert_pages (ps : Nat) (c : TCol F) (start stop : Int) (a : Arr F) :
    (tSetInsert ps c start stop a).map TCol.pages = .ok (setInsert ps c.pages start stop a.data) := by
  unfold tSetInsert setInsert
  generalize ({ start := some start, stop := some stop } : PySlice).indices (colLen c.pages) = x
  obtain ⟨ks, ke0, k⟩ := x
  dsimp only
  have h := tSetInsertLoop_pages ks (if ks > ke0 then ks else ke0) 0 c {}
  rw [show (({} : TInsertAcc F)).vals = {} from rfl] at h
  rw [← h]
  generalize tSetInsertLoop ks (if ks > ke0 then ks else ke0) 0 c {} = acc
  obtain ⟨d, hd⟩ := npUnify_data [acc.head, a, acc.tail] (by simp)
  rw [hd]
  simp only [bind, Except.bind, Except.map]
  rw [tcol_pages_append, tcol_pages_append, tPaginate_pages]
  simp [TInsertAcc.vals]

/-- the state of the loop as values -/
def TUpdAcc.vals (a : TUpdAcc F) : UpdAcc (CV F) := ⟨a.head.pages, a.changed.pages, a.tail.pages, a.startsOn⟩

theorem changed_nil (c : TCol F) : c.isEmpty = true ↔ c.pages = [] := by simp [TCol.pages]

theorem tSetUpdateLoop_pages (ks ke start : Int) (c : TCol F) (acc : TUpdAcc F) :
    (tSetUpdateLoop ks ke start c acc).vals = setUpdateLoop ks ke start c.pages acc.vals := by
  induction c generalizing start acc with
  | nil => rfl
  | cons p c ih =>
    simp only [tSetUpdateLoop, TCol.pages, List.map_cons, setUpdateLoop]
    rw [ih]
    refine congrArg (setUpdateLoop ks ke _ (TCol.pages c)) ?_
    have e : (start + (p.data.length : Int) ≤ ks ∧ acc.changed.isEmpty = true) ↔ (start + (p.data.length : Int) ≤ ks ∧ acc.vals.changed = []) := by
      rw [changed_nil]; rfl
    simp only [e]
    split
    · simp [TUpdAcc.vals, TCol.pages]
    · split
      · simp [TUpdAcc.vals, TCol.pages]
      · split <;> simp [TUpdAcc.vals, TCol.pages]

theorem tDelSliceLoop_pages (ks ke start : Int) (c : TCol F) (acc : TUpdAcc F) :
    (tDelSliceLoop ks ke start c acc).vals = delSliceLoop ks ke start c.pages acc.vals := by
  induction c generalizing start acc with
  | nil => rfl
  | cons p c ih =>
    simp only [tDelSliceLoop, TCol.pages, List.map_cons, delSliceLoop]
    rw [ih]
    refine congrArg (delSliceLoop ks ke _ (TCol.pages c)) ?_
    have e : (ke < start ∧ acc.changed.isEmpty = true) ↔ (ke < start ∧ acc.vals.changed = []) := by
      rw [changed_nil]; rfl
    simp only [e]
    split
    · simp [TUpdAcc.vals, TCol.pages]
    · split
      · simp [TUpdAcc.vals, TCol.pages]
      · split <;> simp [TUpdAcc.vals, TCol.pages]

theorem tSetUpdateLoop_mem (ks ke start : Int) (c : TCol F) (acc : TUpdAcc F) (P : Arr F → Prop) (h1 : ∀ a ∈ acc.changed, P a) (h2 : ∀ a ∈ c, P a) :
    ∀ a ∈ (tSetUpdateLoop ks ke start c acc).changed, P a := by
  induction c generalizing start acc with
  | nil => exact h1
  | cons p c ih =>
    simp only [tSetUpdateLoop]
    apply ih
    · have hp : ∀ a ∈ acc.changed ++ [p], P a := by
        intro a ha
        rcases List.mem_append.1 ha with ha | ha
        · exact h1 a ha
        · rw [List.mem_singleton.1 ha]; exact h2 p List.mem_cons_self
      split
      · exact h1
      · split
        · exact hp
        · split
          · exact hp
          · exact h1
    · exact fun a ha => h2 a (List.mem_cons_of_mem _ ha)

theorem tSetUpdateWrite_fits (R : NpRt F) (so : Option Int) (seq : List Int) (vs : List (CV F)) (a : Arr F) (h : ∀ v ∈ vs, castInto R a.dt v = .ok v) :
    (tSetUpdateWrite R so seq vs a).map Arr.data = setUpdateWrite so seq vs a.data := by
  induction seq generalizing vs a with
  | nil => cases vs <;> rfl
  | cons i is ih =>
    cases vs with
    | nil => rfl
    | cons v vs =>
      cases so with
      | none => rfl
      | some s =>
        simp only [tSetUpdateWrite, setUpdateWrite, tNpSet]
        rw [h v List.mem_cons_self]
        dsimp only [bind, Except.bind]
        cases hx : npSet a.data (i - s) v with
        | error e => rfl
        | ok l =>
          dsimp only
          exact ih vs ⟨a.dt, l⟩ (fun v hv => h v (List.mem_cons_of_mem _ hv))

theorem npUnify_dt (as : List (Arr F)) (h : as ≠ []) : ∃ d, npUnify as = .ok ⟨d, (as.map Arr.data).flatten⟩ ∧ (d = .obj ∨ ∃ a ∈ as, a.dt = d) := by
  cases as with
  | nil => exact absurd rfl h
  | cons a r =>
    rw [npUnify]
    split
    · exact ⟨_, rfl, .inr ⟨a, List.mem_cons_self, rfl⟩⟩
    · exact ⟨_, rfl, .inl rfl⟩

theorem tSetUpdate_pages (R : NpRt F) (ps : Nat) (c : TCol F) (s : PySlice) (a : Arr F)
    (h : ∀ v ∈ a.data, ∀ p ∈ c, castInto R p.dt v = .ok v) :
    (tSetUpdate R ps c s a).map TCol.pages = setUpdate ps c.pages s a.data := by
  unfold tSetUpdate setUpdate
  split
  · rfl
  · generalize s.indices (colLen c.pages) = x
    obtain ⟨ks, ke, k⟩ := x
    dsimp only
    split
    · rfl
    · have hl := tSetUpdateLoop_pages ks ke 0 c {}
      rw [show (({} : TUpdAcc F)).vals = {} from rfl] at hl
      rw [← hl]
      have hmem := tSetUpdateLoop_mem ks ke 0 c {} (fun p => ∀ v ∈ a.data, castInto R p.dt v = .ok v) (by intro a ha; cases ha) (fun p hp v hv => h v hv p hp)
      generalize tSetUpdateLoop ks ke 0 c {} = acc at hmem
      show _ = if acc.changed.pages = [] then _ else _
      by_cases hc : acc.changed = []
      · rw [if_pos (by rw [hc]; rfl), hc]
        rfl
      · rw [if_neg (by simpa [TCol.pages] using hc)]
        obtain ⟨d, hd, hdt⟩ := npUnify_dt acc.changed hc
        rw [hd]
        dsimp only [bind, Except.bind]
        have hw := tSetUpdateWrite_fits R acc.startsOn (rangeList ks ke k) a.data ⟨d, (acc.changed.map Arr.data).flatten⟩ (by
          intro v hv
          rcases hdt with rfl | ⟨p, hp, rfl⟩
          · cases v <;> rfl
          · exact hmem p hp v hv)
        rw [show acc.vals.startsOn = acc.startsOn from rfl, show acc.vals.changed.flatten = (acc.changed.map Arr.data).flatten from rfl, ← hw]
        cases tSetUpdateWrite R acc.startsOn (rangeList ks ke k) a.data ⟨d, (acc.changed.map Arr.data).flatten⟩ with
        | error e => rfl
        | ok n =>
          simp only [Except.map]
          rw [tcol_pages_append, tcol_pages_append, tPaginate_pages]
          rfl

theorem tDelInt_pages (key start : Int) (c : TCol F) : (tDelInt key start c).map TCol.pages = delInt key start c.pages := by
  induction c generalizing start with
  | nil => rfl
  | cons p c ih =>
    have ih := ih (start + p.data.length)
    simp only [tDelInt, TCol.pages, List.map_cons, delInt]
    rw [show List.map Arr.data c = TCol.pages c from rfl, ← ih]
    split
    · split
      · cases tDelInt key (start + p.data.length) c <;> rfl
      · rfl
    · cases tDelInt key (start + p.data.length) c <;> rfl

theorem tDelSlice_pages (ps : Nat) (c : TCol F) (s : PySlice) : (tDelSlice ps c s).map TCol.pages = delSlice ps c.pages s := by
  unfold tDelSlice delSlice
  split
  · rfl
  · generalize s.indices (colLen c.pages) = x
    obtain ⟨ks, ke, k⟩ := x
    dsimp only
    have hl := tDelSliceLoop_pages ks ke 0 c {}
    rw [show (({} : TUpdAcc F)).vals = {} from rfl] at hl
    rw [← hl]
    generalize tDelSliceLoop ks ke 0 c {} = acc
    show _ = if acc.changed.pages = [] then _ else _
    by_cases hc : acc.changed = []
    · rw [if_pos (by rw [hc]; rfl), hc]
      rfl
    · rw [if_neg (by simpa [TCol.pages] using hc)]
      obtain ⟨d, hd⟩ := npUnify_data acc.changed hc
      rw [hd]
      dsimp only [bind, Except.bind]
      show _ = match acc.startsOn with | none => _ | some so => _
      cases acc.startsOn with
      | none =>
        dsimp only
        split
        · simp only [Except.map]
          rw [tcol_pages_append, tcol_pages_append, tPaginate_pages]
          rfl
        · rfl
      | some so =>
        dsimp only
        rw [show acc.vals.changed.flatten = (acc.changed.map Arr.data).flatten from rfl]
        cases npDelete (acc.changed.map Arr.data).flatten ((rangeList ks ke k).map (· - so)) with
        | error e => rfl
        | ok n =>
          simp only [Except.map]
          rw [tcol_pages_append, tcol_pages_append, tPaginate_pages]
          rfl

/-- C80 (refinement): a slice assignment of a list that can be stored does to the values what the untyped model does, if the step is 1 or every
value fits the dtype of every page -/
theorem tSetSlice_pages (R : NpRt F) (hw : ∀ us, -2 ^ 63 ≤ R.tdWrap us ∧ R.tdWrap us < 2 ^ 63) (ps : Nat) (c : TCol F) (s : PySlice) (l : List (CV F)) (hl : KeptList l)
    (hfit : (s.step = none ∨ s.step = some 1) ∨ ∀ v ∈ l, ∀ p ∈ c, p.dt = .obj ∨ (Fits p.dt v ∧ Keepable v)) :
    (tSetSlice R ps c s l).map TCol.pages = setSlice ps c.pages s l := by
  have hd := (C79_exact R hw l).2 hl
  unfold tSetSlice setSlice
  split
  · cases s.start with
    | none =>
      cases s.stop with
      | none =>
        simp only [Except.map]
        rw [tExtend_pages, hd]
        rfl
      | some b =>
        dsimp only
        rw [tSetPrextend_pages, hd]
    | some a =>
      cases s.stop with
      | none =>
        dsimp only
        rw [tSetExtendLoop_pages, hd]
        rfl
      | some b =>
        dsimp only
        rw [tSetInsert_pages, hd]
  · rename_i hs
    rcases hfit with h | h
    · exact absurd h hs
    · rw [tSetUpdate_pages, hd]
      rw [hd]
      intro v hv p hp
      rcases h v hv p hp with ho | ⟨hf, hk⟩
      · rw [ho]; cases v <;> rfl
      · exact castInto_fits R hw _ _ hf (.inr hk)

theorem map_map_pages {β : Type} (x : Except Err (TCol F)) (f : Pages (CV F) → β) : x.map (fun c => f c.pages) = (x.map TCol.pages).map f := by
  cases x <;> rfl

/-- the whole claim: a strided assignment of a list of the right length, on a page layout where the positions are found (see C06), stores the values given -/
def C80_statement : Prop := ∀ (F : Type) (R : NpRt F) (ps : Nat) (l0 l : List (CV F)) (s : PySlice), 0 < ps → KeptList l0 → KeptList l → s.step ≠ some 0 →
  s.step ≠ none → s.step ≠ some 1 → StrideOk (tColumn R ps l0).pages (s.indices l0.length).1 (s.indices l0.length).2.1 →
  l.length = (rangeList (s.indices l0.length).1 (s.indices l0.length).2.1 s.stepOr1).length →
  (tSetSlice R ps (tColumn R ps l0) s l).map (fun c => colIter c.pages) = pySetStride l0 s l

/-- C80: `column[i] = v` stores any value as it is, and keeps all others -/
theorem C80_int (c : TCol F) (i : Int) (v : CV F) : (tSetInt c i v).map (fun c => colIter c.pages) = pySetIndex (colIter c.pages) i v := by
  rw [← (C04_int_assign c.pages i v).1]
  rw [map_map_pages, tSetInt_pages]

/-- C80 (partial): `column[a:b] = l` stores the values of a list that can be stored, and keeps all others, whatever the dtypes of the pages. Missing: the
slices of `C05_slice_assign_partial` -/
theorem C80_slice_partial (R : NpRt F) (hw : ∀ us, -2 ^ 63 ≤ R.tdWrap us ∧ R.tdWrap us < 2 ^ 63) (ps : Nat) (hps : 0 < ps) (c : TCol F) (s : PySlice) (l : List (CV F))
    (hl : KeptList l) (hstep : s.step = none ∨ s.step = some 1)
    (hext : ∀ a, s.start = some a → s.stop = none → 0 ≤ a)
    (hpre : ∀ b, s.stop = some b → s.start = none → b ≤ colLen c.pages ∧ (b < 0 → 0 < colLen c.pages)) :
    (tSetSlice R ps c s l).map (fun c => colIter c.pages) = .ok (pySetSlice (colIter c.pages) s.start s.stop l) := by
  rw [map_map_pages, tSetSlice_pages R hw ps c s l hl (.inl hstep)]
  exact C05_slice_assign_partial ps hps c.pages s l hstep hext hpre

/-- C80 (partial): `column[a:b:k] = l` stores the values if each of them fits the dtype of every page. Missing: other values, see `C80_fails`; the layouts of
`C06_stride_partial` -/
theorem C80_stride_partial (R : NpRt F) (hw : ∀ us, -2 ^ 63 ≤ R.tdWrap us ∧ R.tdWrap us < 2 ^ 63) (ps : Nat) (hps : 0 < ps) (c : TCol F) (s : PySlice) (l : List (CV F))
    (hl : KeptList l) (h0 : s.step ≠ some 0) (h1 : s.step ≠ none) (h2 : s.step ≠ some 1)
    (hok : StrideOk c.pages (s.indices (colLen c.pages)).1 (s.indices (colLen c.pages)).2.1)
    (hlen : l.length = (rangeList (s.indices (colLen c.pages)).1 (s.indices (colLen c.pages)).2.1 s.stepOr1).length)
    (hfit : ∀ v ∈ l, ∀ p ∈ c, p.dt = .obj ∨ (Fits p.dt v ∧ Keepable v)) :
    (tSetSlice R ps c s l).map (fun c => colIter c.pages) = pySetStride (colIter c.pages) s l := by
  rw [map_map_pages, tSetSlice_pages R hw ps c s l hl (.inr hfit), setSlice, if_neg (fun h => h.elim h1 h2)]
  exact (C06_stride_partial ps hps c.pages s l h0 hok (Nat.le_of_eq hlen)).2 hlen

/-- C80: deletion does to the values of a column with dtypes what it does to the values alone (C07), also when it raises -/
theorem C80_delete (ps : Nat) (c : TCol F) (s : PySlice) (i : Int) :
    (tDelSlice ps c s).map TCol.pages = delSlice ps c.pages s ∧ (tDelInt i 0 c).map TCol.pages = delInt i 0 c.pages :=
  ⟨tDelSlice_pages ps c s, tDelInt_pages i 0 c⟩

/-- writes to a column -/
inductive ColWrite (F : Type) where
  | extend (l : List (CV F))
  | setInt (i : Int) (v : CV F)
  | setSlice (start stop : Option Int) (l : List (CV F))
  | delInt (i : Int)
  | delSlice (s : PySlice)

/-- the list that a write stores can be stored -/
def ColWrite.Kept : ColWrite F → Prop
  | .extend l => KeptList l
  | .setSlice _ _ l => KeptList l
  | _ => True

/-- a write to a column with dtypes -/
def runTyped (R : NpRt F) (ps : Nat) (c : TCol F) : ColWrite F → Except Err (TCol F)
  | .extend l => .ok (tExtend ps c (listToNp R l))
  | .setInt i v => tSetInt c i v
  | .setSlice a b l => tSetSlice R ps c { start := a, stop := b } l
  | .delInt i => tDelInt i 0 c
  | .delSlice s => tDelSlice ps c s

/-- the same write to a column of values -/
def runVals (ps : Nat) (c : Pages (CV F)) : ColWrite F → Except Err (Pages (CV F))
  | .extend l => .ok (extend ps c l)
  | .setInt i v => Tablite.setInt c i v
  | .setSlice a b l => Tablite.setSlice ps c { start := a, stop := b } l
  | .delInt i => Tablite.delInt i 0 c
  | .delSlice s => Tablite.delSlice ps c s

/-- C80: in every history of writes with step 1, deletions and integer assignments the values are those of the model without dtypes: no conversion of numpy
changes a value -/
theorem C80_history (R : NpRt F) (hw : ∀ us, -2 ^ 63 ≤ R.tdWrap us ∧ R.tdWrap us < 2 ^ 63) (ps : Nat) (ops : List (ColWrite F)) (hk : ∀ o ∈ ops, o.Kept) (c : TCol F) :
    (ops.foldlM (runTyped R ps) c).map TCol.pages = ops.foldlM (runVals ps) c.pages := by
  induction ops generalizing c with
  | nil => rfl
  | cons o ops ih =>
    have h : (runTyped R ps c o).map TCol.pages = runVals ps c.pages o := by
      have ho := hk o List.mem_cons_self
      cases o with
      | extend l =>
        simp only [runTyped, runVals, Except.map]
        rw [tExtend_pages, (C79_exact R hw l).2 ho]
      | setInt i v =>
        exact tSetInt_pages c i v
      | setSlice a b l => exact tSetSlice_pages R hw ps c _ l ho (.inl (.inl rfl))
      | delInt i => exact tDelInt_pages i 0 c
      | delSlice s => exact tDelSlice_pages ps c s
    rw [List.foldlM_cons, List.foldlM_cons, ← h]
    cases hx : runTyped R ps c o with
    | error e => rfl
    | ok c' => exact ih (fun o ho => hk o (List.mem_cons_of_mem _ ho)) c'

/-- C80: `c[::2] = ['xyz', 'q']` in a column of texts with one letter stores `x` instead of `xyz` -/
theorem C80_text_fails : (tSetSlice exactNp 10 (tColumn exactNp 10 [.str ['a'], .str ['b'], .str ['c']]) { step := some 2 } [.str ['x', 'y', 'z'], .str ['q']]).map
    (fun c => colIter c.pages) = .ok [.str ['x'], .str ['b'], .str ['q']] := by decide +kernel

/-- C80: `c[::2] = [1.5, 2.5]` in a column of integers stores 1 and 2 -/
theorem C80_number_fails : (tSetSlice exactNp 10 (tColumn exactNp 10 [.int 7, .int 8, .int 9]) { step := some 2 } [.float (3 / 2), .float (5 / 2)]).map
    (fun c => colIter c.pages) = .ok [.int 1, .int 8, .int 2] := by decide +kernel

theorem C80_fails : ¬ C80_statement := by
  intro h
  have := h Rat exactNp 10 [.str ['a'], .str ['b'], .str ['c']] [.str ['x', 'y', 'z'], .str ['q']] { step := some 2 } (by decide)
    (.inr ⟨by simp [Keepable], .inl (by simp)⟩) (.inr ⟨by simp [Keepable], .inl (by simp)⟩) (by decide) (by decide) (by decide)
    (.last [] [.str ['a'], .str ['b'], .str ['c']] (by decide) (by decide) (by decide) (by decide)) (by decide)
  rw [C80_text_fails] at this
  revert this
  decide +kernel

/-- a strided assignment of values that fit -/
example : (tSetSlice exactNp 10 (tColumn exactNp 10 [.str ['a', 'b'], .str ['b'], .str ['c']]) { step := some 2 } [.str ['x', 'y'], .str ['q']]).map
    (fun c => colIter c.pages) = .ok [.str ['x', 'y'], .str ['b'], .str ['q']] := by decide +kernel

/-- a history with pages of different dtypes -/
example : (([.extend [.str ['a']], .setSlice (some 1) (some 2) [.float (1 / 2), .none], .setInt 0 (.bool true), .delSlice { start := some 0, stop := some 1 }] : List (ColWrite Rat)).foldlM
    (runTyped exactNp 10) (tColumn exactNp 10 [.int 1, .int 2])).map (fun c => colIter c.pages) = .ok [.float (1 / 2), .none, .str ['a']] := by decide +kernel

/-! ## C81 -/

/-- the whole claim: `replace` puts the new value in the place of every old one -/
def C81_statement : Prop := ∀ (F : Type) (_ : DecidableEq F) (R : NpRt F) (ps : Nat) (l : List (CV F)) (mapping : List (CV F × CV F)), 0 < ps → KeptList l →
  (tReplace R (fun _ v => decide (v ∈ mapping.map (·.1))) mapping (tColumn R ps l)).map (fun c => colIter c.pages) = .ok (l.map fun v => (mapping.lookup v).getD v)

theorem mapping_some {α β : Type} [DecidableEq α] (m : List (α × β)) (v : α) (h : v ∈ m.map (·.1)) : ∃ w, m.lookup v = some w ∧ (v, w) ∈ m := by
  induction m with
  | nil => cases h
  | cons x m ih =>
    obtain ⟨k, w⟩ := x
    by_cases hk : v = k
    · subst hk
      exact ⟨w, by simp [List.lookup], List.mem_cons_self⟩
    · rw [List.map_cons, List.mem_cons] at h
      obtain ⟨w', h1, h2⟩ := ih (h.resolve_left hk)
      refine ⟨w', ?_, List.mem_cons_of_mem _ h2⟩
      rw [List.lookup_cons, show (v == k) = false by simpa using hk]
      exact h1

theorem mapping_none {α β : Type} [DecidableEq α] (m : List (α × β)) (v : α) (h : v ∉ m.map (·.1)) : m.lookup v = none := by
  rw [List.lookup_eq_none_iff]
  intro p hp
  simp only [bne_iff_ne, ne_eq]
  rintro rfl
  exact h (List.mem_map_of_mem hp)

theorem tReplaceItems_ok [DecidableEq F] (R : NpRt F) (dt : Dt) (isin : CV F → Bool) (mapping : List (CV F × CV F)) (l : List (CV F))
    (hisin : ∀ v ∈ l, (isin v = true ↔ v ∈ mapping.map (·.1))) (hfit : ∀ x ∈ mapping, castInto R dt x.2 = .ok x.2) :
    tReplaceItems R dt isin mapping l = .ok (l.map fun v => (mapping.lookup v).getD v) := by
  induction l with
  | nil => rfl
  | cons v l ih =>
    have ih := ih (fun v hv => hisin v (List.mem_cons_of_mem _ hv))
    rw [tReplaceItems]
    split
    · rename_i h
      obtain ⟨w, h1, h2⟩ := mapping_some mapping v ((hisin v List.mem_cons_self).1 h)
      rw [h1]
      dsimp only
      rw [hfit _ h2, ih]
      simp [bind, Except.bind, h1]
    · rename_i h
      have h1 := mapping_none mapping v (fun hm => h ((hisin v List.mem_cons_self).2 hm))
      rw [ih]
      simp [bind, Except.bind, h1]

/-- C81: every occurrence is replaced if the new values fit the dtypes of the pages. Missing: other new values, see `C81_fails`; keys for which `np.isin` finds other
values than the keys, see `C81_keys_fails` -/
theorem C81_partial [DecidableEq F] (R : NpRt F) (hw : ∀ us, -2 ^ 63 ≤ R.tdWrap us ∧ R.tdWrap us < 2 ^ 63) (isin : Arr F → CV F → Bool) (mapping : List (CV F × CV F)) (c : TCol F)
    (hisin : ∀ p ∈ c, ∀ v ∈ p.data, (isin p v = true ↔ v ∈ mapping.map (·.1)))
    (hfit : ∀ x ∈ mapping, ∀ p ∈ c, p.dt = .obj ∨ (Fits p.dt x.2 ∧ Keepable x.2)) :
    (tReplace R isin mapping c).map TCol.pages = .ok (c.pages.map fun p => p.map fun v => (mapping.lookup v).getD v) := by
  induction c with
  | nil => rfl
  | cons p c ih =>
    have ih := ih (fun q hq => hisin q (List.mem_cons_of_mem _ hq)) (fun x hx q hq => hfit x hx q (List.mem_cons_of_mem _ hq))
    have hp : ∃ p', tReplacePage R (isin p) mapping p = .ok p' ∧
        p'.data = p.data.map fun v => (mapping.lookup v).getD v := by
      unfold tReplacePage
      split
      · rw [tReplaceItems_ok R p.dt (isin p) mapping p.data (hisin p List.mem_cons_self)]
        · exact ⟨_, rfl, rfl⟩
        · intro x hx
          rcases hfit x hx p List.mem_cons_self with ho | ⟨hf, hk⟩
          · rw [ho]; cases x.2 <;> rfl
          · exact castInto_fits R hw _ _ hf (.inr hk)
      · rename_i h
        refine ⟨p, rfl, ?_⟩
        symm
        rw [map_fixed]
        intro v hv
        rw [mapping_none mapping v]
        · rfl
        · intro hm
          apply h
          rw [List.any_eq_true]
          exact ⟨v, hv, (hisin p List.mem_cons_self v hv).2 hm⟩
    obtain ⟨p', h1, h2⟩ := hp
    rw [tReplace, h1]
    dsimp only [bind, Except.bind]
    cases hx : tReplace R isin mapping c with
    | error e => rw [hx] at ih; cases ih
    | ok c' =>
      rw [hx] at ih
      simp only [Except.map] at ih ⊢
      have ih := Except.ok.inj ih
      simp only [TCol.pages, List.map_cons] at ih ⊢
      rw [ih, h2]

/-- C81: `c.replace({'a': 'apple'})` in a column of texts with one letter changes nothing: `apple` is cut to `a` -/
theorem C81_text_fails : (tReplace exactNp (fun _ v => decide (v ∈ [CV.str ['a']])) [(.str ['a'], .str ['a', 'p', 'p', 'l', 'e'])]
    (tColumn exactNp 10 [.str ['a'], .str ['b']])).map (fun c => colIter c.pages) = .ok [.str ['a'], .str ['b']] := by decide +kernel

/-- C81: `c.replace({2: 2.5})` in a column of integers stores 2 -/
theorem C81_number_fails : (tReplace exactNp (fun _ v => decide (v ∈ [CV.int 2])) [(.int 2, .float (5 / 2))]
    (tColumn exactNp 10 [.int 1, .int 2])).map (fun c => colIter c.pages) = .ok [.int 1, .int 2] := by decide +kernel

theorem C81_fails : ¬ C81_statement := by
  intro h
  have := h Rat inferInstance exactNp 10 [.str ['a'], .str ['b']] [(.str ['a'], .str ['a', 'p', 'p', 'l', 'e'])] (by decide) (.inr ⟨by simp [Keepable], .inl (by simp)⟩)
  simp only [List.map_cons, List.map_nil] at this
  rw [C81_text_fails] at this
  revert this
  decide +kernel

/-- C81: `c.replace({1: 5, 'x': 'y'})` raises KeyError in a column with the text `1`: the keys become the texts `1` and `x` -/
theorem C81_keys_fails : tReplace exactNp (fun _ v => decide (v ∈ npKeys (fun n => Nat.toDigits 10 n.toNat) [CV.int 1, .str ['x']])) [(.int 1, .int 5), (.str ['x'], .str ['y'])]
    (tColumn exactNp 10 [.str ['1'], .str ['2']]) = .error .key := by rfl

/-- a mapping whose values fit -/
example : (tReplace exactNp (fun _ v => decide (v ∈ [CV.int 2, .none])) [(.int 2, .int 20), (.none, .str ['n'])]
    (tColumn exactNp 2 [.int 1, .none, .int 2, .none])).map (fun c => colIter c.pages) = .ok [.int 1, .str ['n'], .int 20, .str ['n']] := by decide +kernel

end

end Tablite
