import Verif.Props.TypedCol
/-!
# C85 the arrays of a column hold values of their numpy type

The pages are read by dtype, by numpy and by the Nim code; a page whose values are not of its dtype would be misread.
-/

namespace Tablite

section
variable {F : Type}

/-! ## specification -/

/-- values of an array with a dtype -/
def Holds : Dt → CV F → Prop
  | .obj, _ => True
  | .bool, .bool _ => True
  | .int64, .int n => -2 ^ 63 ≤ n ∧ n < 2 ^ 63
  | .uint64, .int n => 0 ≤ n ∧ n < 2 ^ 64
  | .float64, .float _ => True
  | .str w, .str s => s.length ≤ w ∧ s.getLast? ≠ some (Char.ofNat 0)
  | .bytes w, .bytes b => b.length ≤ w ∧ b.getLast? ≠ some 0
  | .dtUs, .datetime _ off => off = none
  | .dtD, .date _ => True
  | .tdUs, .timedelta us => -2 ^ 63 ≤ us ∧ us < 2 ^ 63
  | _, _ => False

/-- all values of an array are of its dtype -/
def ArrOk (a : Arr F) : Prop := ∀ v ∈ a.data, Holds a.dt v

/-- all pages of a column are such arrays -/
def ColOk (c : TCol F) : Prop := ∀ a ∈ c, ArrOk a

/-- numpy's own conversions give values of the dtype -/
structure NpOk (R : NpRt F) : Prop where
  wrap : ∀ us, -2 ^ 63 ≤ R.tdWrap us ∧ R.tdWrap us < 2 ^ 63
  trunc : ∀ x n, R.trunc x = .ok n → -2 ^ 63 ≤ n ∧ n < 2 ^ 63
  cast : ∀ d v w, R.cast d v = .ok w → Holds d w

/-- changes of a column -/
inductive ColChange (F : Type) where
  | set (i : Int) (v : CV F)
  | assign (s : PySlice) (l : List (CV F))
  | extend (l : List (CV F))
  | del (i : Int)
  | delSlice (s : PySlice)
  | replace (isin : Arr F → CV F → Bool) (mapping : List (CV F × CV F))

/-- a change, as the methods of Column do it; an exception leaves the column as it was -/
def tStep [DecidableEq F] (R : NpRt F) (ps : Nat) (c : TCol F) (op : ColChange F) : TCol F :=
  let r := match op with
    | .set i v => tSetInt c i v
    | .assign s l => tSetSlice R ps c s l
    | .extend l => .ok (tExtend ps c (listToNp R l))
    | .del i => tDelInt i 0 c
    | .delSlice s => tDelSlice ps c s
    | .replace isin m => tReplace R isin m c
  match r with
  | .ok c' => c'
  | .error _ => c

/-! ## arrays -/

theorem dropNuls_length {α} [DecidableEq α] (nul : α) (s : List α) : (dropNuls nul s).length ≤ s.length := by
  unfold dropNuls
  rw [List.length_reverse]
  exact Nat.le_trans (List.dropWhile_sublist _).length_le (Nat.le_of_eq (List.length_reverse))

theorem dropNuls_last {α} [DecidableEq α] (nul : α) (s : List α) : (dropNuls nul s).getLast? ≠ some nul := by
  unfold dropNuls
  rw [List.getLast?_reverse]
  generalize s.reverse = r
  induction r with
  | nil => simp
  | cons a r ih =>
    rw [List.dropWhile_cons]
    split
    · exact ih
    · rename_i h
      simpa using h

theorem foldl_width_le (l : List (CV F)) (m : Nat) : m ≤ l.foldl (fun m v => max m v.width) m ∧ ∀ v ∈ l, v.width ≤ l.foldl (fun m v => max m v.width) m := by
  induction l generalizing m with
  | nil => simp
  | cons a l ih =>
    rw [List.foldl_cons]
    obtain ⟨h1, h2⟩ := ih (max m a.width)
    refine ⟨by omega, ?_⟩
    intro v hv
    rcases List.mem_cons.1 hv with rfl | hv
    · omega
    · exact h2 v hv

theorem width_le (l : List (CV F)) (v : CV F) (h : v ∈ l) : v.width ≤ maxWidth l := (foldl_width_le l 1).2 v h

theorem stored_str (R : NpRt F) (w : Nat) (s : List Char) (h : s.length ≤ w) : Holds (.str w) (stored R (.str s)) :=
  ⟨Nat.le_trans (dropNuls_length _ _) h, dropNuls_last _ _⟩

theorem stored_bytes (R : NpRt F) (w : Nat) (b : List Nat) (h : b.length ≤ w) : Holds (F := F) (.bytes w) (stored R (.bytes b)) :=
  ⟨Nat.le_trans (dropNuls_length _ _) h, dropNuls_last _ _⟩

theorem stored_datetime (R : NpRt F) (us : Int) (off : Option Int) : Holds .dtUs (stored R (.datetime us off)) := by
  cases off <;> simp [stored, Holds]

theorem stored_timedelta (R : NpRt F) (hR : NpOk R) (us : Int) : Holds .tdUs (stored R (.timedelta us)) := by
  rw [stored]
  split
  · rename_i h
    exact (isI64_range us).1 h
  · exact hR.wrap us

theorem npInts_ok (R : NpRt F) (l : List (CV F)) (h : ∀ v ∈ l, v.ty = .int) : ArrOk (npInts R l) := by
  unfold npInts
  split
  · rename_i h1
    intro v hv
    rw [ty_int (h v hv)]
    exact (isI64_range _).1 (List.all_eq_true.1 h1 v hv)
  · split
    · rename_i h1
      intro v hv
      rw [ty_int (h v hv)]
      have := (isU64_iff _).1 (List.all_eq_true.1 h1 v hv)
      exact ⟨by omega, this.2⟩
    · split
      · intro v hv
        obtain ⟨w, _, rfl⟩ := List.mem_map.1 hv
        trivial
      · intro v _
        trivial

theorem npOneType_ok (R : NpRt F) (hR : NpOk R) (t : CT) (l : List (CV F)) (h : ∀ v ∈ l, v.ty = t) : ArrOk (npOneType R t l) := by
  unfold npOneType
  cases t with
  | none => intro v _; trivial
  | time => intro v _; trivial
  | other => intro v _; trivial
  | bool => intro v hv; have := h v hv; cases v <;> trivial
  | int => exact npInts_ok R l h
  | float => intro v hv; have := h v hv; cases v <;> trivial
  | date => intro v hv; have := h v hv; cases v <;> trivial
  | str =>
    intro v hv
    obtain ⟨w, hw, rfl⟩ := List.mem_map.1 hv
    have hty := h w hw
    have hwd := width_le l w hw
    cases w <;> cases hty
    exact stored_str R _ _ hwd
  | bytes =>
    intro v hv
    obtain ⟨w, hw, rfl⟩ := List.mem_map.1 hv
    have hty := h w hw
    have hwd := width_le l w hw
    cases w <;> cases hty
    exact stored_bytes R _ _ hwd
  | datetime =>
    intro v hv
    obtain ⟨w, hw, rfl⟩ := List.mem_map.1 hv
    have hty := h w hw
    cases w <;> cases hty
    exact stored_datetime R _ _
  | timedelta =>
    intro v hv
    obtain ⟨w, hw, rfl⟩ := List.mem_map.1 hv
    have hty := h w hw
    cases w <;> cases hty
    exact stored_timedelta R hR _

theorem listToNp_ok (R : NpRt F) (hR : NpOk R) (l : List (CV F)) : ArrOk (listToNp R l) := by
  cases l with
  | nil => intro v hv; cases hv
  | cons a r =>
    rw [listToNp]
    split
    · rename_i h
      apply npOneType_ok R hR
      intro v hv
      rcases List.mem_cons.1 hv with rfl | hv
      · rfl
      · simpa using List.all_eq_true.1 h v hv
    · intro v _; trivial

theorem npUnify_ok (as : List (Arr F)) (h : ∀ a ∈ as, ArrOk a) (b : Arr F) (hb : npUnify as = .ok b) : ArrOk b := by
  cases as with
  | nil => cases hb
  | cons a r =>
    rw [npUnify] at hb
    split at hb
    · rename_i hall
      cases hb
      intro v hv
      obtain ⟨l, hl, hv⟩ := List.mem_flatten.1 hv
      obtain ⟨x, hx, rfl⟩ := List.mem_map.1 hl
      have := h x hx v hv
      rcases List.mem_cons.1 hx with rfl | hx'
      · exact this
      · have e := List.all_eq_true.1 hall x hx'
        simp only [decide_eq_true_eq] at e
        rw [e] at this
        exact this
    · cases hb
      intro v _; trivial

theorem sub_ok (a : Arr F) (h : ArrOk a) (l : List (CV F)) (hl : ∀ v ∈ l, v ∈ a.data) : ArrOk ⟨a.dt, l⟩ := fun v hv => h v (hl v hv)

theorem tPaginate_ok (ps : Nat) (hps : 0 < ps) (a : Arr F) (h : ArrOk a) : ColOk (tPaginate ps a) := by
  intro b hb
  obtain ⟨l, hl, rfl⟩ := List.mem_map.1 hb
  apply sub_ok a h
  intro v hv
  rw [← paginate_flatten hps a.data]
  exact List.mem_flatten.2 ⟨l, hl, hv⟩

theorem colOk_append {c d : TCol F} (hc : ColOk c) (hd : ColOk d) : ColOk (c ++ d) := by
  intro a ha
  rcases List.mem_append.1 ha with h | h
  · exact hc a h
  · exact hd a h

theorem colOk_cons {a : Arr F} {c : TCol F} (ha : ArrOk a) (hc : ColOk c) : ColOk (a :: c) := by
  intro b hb
  rcases List.mem_cons.1 hb with rfl | h
  · exact ha
  · exact hc b h

theorem colOk_nil : ColOk ([] : TCol F) := fun _ h => nomatch h

theorem colOk_head {a : Arr F} {c : TCol F} (h : ColOk (a :: c)) : ArrOk a := h a List.mem_cons_self
theorem colOk_tail {a : Arr F} {c : TCol F} (h : ColOk (a :: c)) : ColOk c := fun b hb => h b (List.mem_cons_of_mem _ hb)

theorem tExtend_ok (ps : Nat) (hps : 0 < ps) (c : TCol F) (hc : ColOk c) (a : Arr F) (h : ArrOk a) : ColOk (tExtend ps c a) :=
  colOk_append hc (tPaginate_ok ps hps a h)

/-! ## writes -/

theorem empty_ok (d : Dt) : ArrOk (⟨d, []⟩ : Arr F) := fun _ h => nomatch h

theorem obj_ok (l : List (CV F)) : ArrOk ⟨.obj, l⟩ := fun _ _ => trivial

theorem tSetIntLoop_ok (key : Int) (v : CV F) (start : Int) (c : TCol F) (hc : ColOk c) : ColOk (tSetIntLoop key v start c) := by
  induction c generalizing start with
  | nil => exact hc
  | cons p c ih =>
    rw [tSetIntLoop]
    split
    · exact colOk_cons (obj_ok _) (colOk_tail hc)
    · exact colOk_cons (colOk_head hc) (ih _ (colOk_tail hc))

theorem tSetExtendLoop_ok (ps : Nat) (hps : 0 < ps) (key : Int) (a : Arr F) (ha : ArrOk a) (done : TCol F) (hd : ColOk done) (start : Int) (c : TCol F) (hc : ColOk c)
    (r : TCol F) (h : tSetExtendLoop ps key a done start c = .ok r) : ColOk r := by
  induction c generalizing done start with
  | nil =>
    rw [tSetExtendLoop] at h
    cases h
    exact colOk_append hd (colOk_cons ha colOk_nil)
  | cons p c ih =>
    rw [tSetExtendLoop] at h
    split at h
    · cases hu : npUnify [⟨p.dt, p.data.take (key - start).toNat⟩, a] with
      | error e => rw [hu] at h; cases h
      | ok b =>
        rw [hu] at h
        cases h
        apply tExtend_ok ps hps _ hd
        refine npUnify_ok _ ?_ b hu
        intro x hx
        simp only [List.mem_cons, List.not_mem_nil, or_false] at hx
        rcases hx with rfl | rfl
        · exact sub_ok p (colOk_head hc) _ fun v hv => List.mem_of_mem_take hv
        · exact ha
    · exact ih _ (colOk_append hd (colOk_cons (colOk_head hc) colOk_nil)) _ (colOk_tail hc) h

theorem tSetPrextendLoop_ok (ps : Nat) (hps : 0 < ps) (stop : Int) (a : Arr F) (ha : ArrOk a) (start : Int) (c : TCol F) (hc : ColOk c)
    (r : TCol F) (h : tSetPrextendLoop ps stop a start c = .ok (some r)) : ColOk r := by
  induction c generalizing start with
  | nil => rw [tSetPrextendLoop] at h; cases h
  | cons p c ih =>
    rw [tSetPrextendLoop] at h
    split at h
    · cases hu : npUnify [a, ⟨p.dt, p.data.drop (stop - start).toNat⟩] with
      | error e => rw [hu] at h; cases h
      | ok b =>
        rw [hu] at h
        cases h
        refine colOk_append (tExtend_ok ps hps _ colOk_nil _ ?_) (colOk_tail hc)
        refine npUnify_ok _ ?_ b hu
        intro x hx
        simp only [List.mem_cons, List.not_mem_nil, or_false] at hx
        rcases hx with rfl | rfl
        · exact ha
        · exact sub_ok p (colOk_head hc) _ fun v hv => List.mem_of_mem_drop hv
    · exact ih _ (colOk_tail hc) h

theorem tSetPrextend_ok (ps : Nat) (hps : 0 < ps) (c : TCol F) (hc : ColOk c) (stop : Int) (a : Arr F) (ha : ArrOk a) (r : TCol F) (h : tSetPrextend ps c stop a = .ok r) :
    ColOk r := by
  unfold tSetPrextend at h
  split at h
  · cases h; exact tExtend_ok ps hps _ colOk_nil _ ha
  · dsimp only at h
    split at h
    · cases h
    · rename_i p hp
      cases h
      exact tSetPrextendLoop_ok ps hps _ a ha _ c hc _ hp
    · cases h; exact hc

/-- the parts collected by `_setitem_insert` -/
def InsertOk (acc : TInsertAcc F) : Prop := ColOk acc.unchangedHead ∧ ArrOk acc.head ∧ ArrOk acc.tail ∧ ColOk acc.unchangedTail

theorem tSetInsertLoop_ok (ks ke start : Int) (c : TCol F) (hc : ColOk c) (acc : TInsertAcc F) (h : InsertOk acc) : InsertOk (tSetInsertLoop ks ke start c acc) := by
  induction c generalizing start acc with
  | nil => exact h
  | cons p c ih =>
    rw [tSetInsertLoop]
    apply ih _ (colOk_tail hc)
    have hp := colOk_head hc
    have s1 : ∀ (b : Prop) [Decidable b] (x : TInsertAcc F), InsertOk x → InsertOk (if b then { x with unchangedHead := x.unchangedHead ++ [p] } else x) := by
      intro b _ x hx
      split
      · exact ⟨colOk_append hx.1 (colOk_cons hp colOk_nil), hx.2.1, hx.2.2.1, hx.2.2.2⟩
      · exact hx
    have s2 : ∀ (b : Prop) [Decidable b] (x : TInsertAcc F), InsertOk x → InsertOk (if b then { x with head := ⟨p.dt, p.data.take (ks - start).toNat⟩ } else x) := by
      intro b _ x hx
      split
      · exact ⟨hx.1, sub_ok p hp _ fun v hv => List.mem_of_mem_take hv, hx.2.2.1, hx.2.2.2⟩
      · exact hx
    have s3 : ∀ (b : Prop) [Decidable b] (x : TInsertAcc F), InsertOk x → InsertOk (if b then { x with tail := ⟨p.dt, p.data.drop (ke - start).toNat⟩ } else x) := by
      intro b _ x hx
      split
      · exact ⟨hx.1, hx.2.1, sub_ok p hp _ fun v hv => List.mem_of_mem_drop hv, hx.2.2.2⟩
      · exact hx
    have s4 : ∀ (b : Prop) [Decidable b] (x : TInsertAcc F), InsertOk x → InsertOk (if b then { x with unchangedTail := x.unchangedTail ++ [p] } else x) := by
      intro b _ x hx
      split
      · exact ⟨hx.1, hx.2.1, hx.2.2.1, colOk_append hx.2.2.2 (colOk_cons hp colOk_nil)⟩
      · exact hx
    exact s4 _ _ (s3 _ _ (s2 _ _ (s1 _ _ h)))

theorem tSetInsert_ok (ps : Nat) (hps : 0 < ps) (c : TCol F) (hc : ColOk c) (start stop : Int) (a : Arr F) (ha : ArrOk a) (r : TCol F) (h : tSetInsert ps c start stop a = .ok r) :
    ColOk r := by
  unfold tSetInsert at h
  generalize ({ start := some start, stop := some stop } : PySlice).indices (colLen c.pages) = x at h
  obtain ⟨ks, ke0, k⟩ := x
  dsimp only at h
  have hacc := tSetInsertLoop_ok ks (if ks > ke0 then ks else ke0) 0 c hc {} ⟨colOk_nil, empty_ok _, empty_ok _, colOk_nil⟩
  generalize tSetInsertLoop ks (if ks > ke0 then ks else ke0) 0 c {} = acc at h hacc
  cases hu : npUnify [acc.head, a, acc.tail] with
  | error e => rw [hu] at h; cases h
  | ok b =>
    rw [hu] at h
    cases h
    refine colOk_append (colOk_append hacc.1 (tPaginate_ok ps hps _ (npUnify_ok _ ?_ b hu))) hacc.2.2.2
    intro x hx
    simp only [List.mem_cons, List.not_mem_nil, or_false] at hx
    rcases hx with rfl | rfl | rfl
    · exact hacc.2.1
    · exact ha
    · exact hacc.2.2.1

/-- the parts collected by `_setitem_update` and `_del_by_slice` -/
def UpdOk (acc : TUpdAcc F) : Prop := ColOk acc.head ∧ ColOk acc.changed ∧ ColOk acc.tail

theorem updOk_step (p : Arr F) (hp : ArrOk p) (b1 b2 b3 : Prop) [Decidable b1] [Decidable b2] [Decidable b3] (start : Int) (acc : TUpdAcc F) (h : UpdOk acc) :
    UpdOk (if b1 then { acc with head := acc.head ++ [p] }
      else if b2 then { acc with changed := acc.changed ++ [p], startsOn := some start }
      else if b3 then { acc with changed := acc.changed ++ [p] }
      else { acc with tail := acc.tail ++ [p] }) := by
  have one := colOk_cons hp (colOk_nil (F := F))
  split
  · exact ⟨colOk_append h.1 one, h.2.1, h.2.2⟩
  · split
    · exact ⟨h.1, colOk_append h.2.1 one, h.2.2⟩
    · split
      · exact ⟨h.1, colOk_append h.2.1 one, h.2.2⟩
      · exact ⟨h.1, h.2.1, colOk_append h.2.2 one⟩

theorem tSetUpdateLoop_ok (ks ke start : Int) (c : TCol F) (hc : ColOk c) (acc : TUpdAcc F) (h : UpdOk acc) : UpdOk (tSetUpdateLoop ks ke start c acc) := by
  induction c generalizing start acc with
  | nil => exact h
  | cons p c ih =>
    rw [tSetUpdateLoop]
    exact ih _ (colOk_tail hc) _ (updOk_step p (colOk_head hc) _ _ _ start acc h)

theorem tDelSliceLoop_ok (ks ke start : Int) (c : TCol F) (hc : ColOk c) (acc : TUpdAcc F) (h : UpdOk acc) : UpdOk (tDelSliceLoop ks ke start c acc) := by
  induction c generalizing start acc with
  | nil => exact h
  | cons p c ih =>
    rw [tDelSliceLoop]
    exact ih _ (colOk_tail hc) _ (updOk_step p (colOk_head hc) _ _ _ start acc h)

theorem castInto_ok (R : NpRt F) (hR : NpOk R) (d : Dt) (v w : CV F) (h : castInto R d v = .ok w) : Holds d w := by
  unfold castInto at h
  split at h
  · trivial
  · cases h; trivial
  · split at h
    · rename_i h1
      cases h
      exact (isI64_range _).1 h1
    · cases h
  · cases h
    rename_i b
    cases b <;> simp [Holds]
  · rename_i x
    cases ht : R.trunc x with
    | error e => rw [ht] at h; cases h
    | ok n =>
      rw [ht] at h
      cases h
      exact hR.trunc x n ht
  · cases h; trivial
  · cases h; trivial
  · cases h
    exact stored_str R _ _ (List.length_take_le _ _)
  · cases h
    exact stored_bytes R _ _ (List.length_take_le _ _)
  · cases h; exact stored_datetime R _ _
  · cases h; trivial
  · cases h; exact stored_timedelta R hR _
  · exact hR.cast _ _ _ h

theorem mem_npSet (l : List (CV F)) (i : Int) (w : CV F) (r : List (CV F)) (h : npSet l i w = .ok r) (v : CV F) (hv : v ∈ r) : v ∈ l ∨ v = w := by
  unfold npSet at h
  split at h
  · cases h; exact List.mem_or_eq_of_mem_set hv
  · split at h
    · cases h; exact List.mem_or_eq_of_mem_set hv
    · cases h

theorem tNpSet_ok (R : NpRt F) (hR : NpOk R) (a : Arr F) (ha : ArrOk a) (i : Int) (v : CV F) (r : Arr F) (h : tNpSet R a i v = .ok r) : ArrOk r := by
  unfold tNpSet at h
  cases hc : castInto R a.dt v with
  | error e => rw [hc] at h; cases h
  | ok w =>
    rw [hc] at h
    dsimp only [bind, Except.bind] at h
    cases hs : npSet a.data i w with
    | error e => rw [hs] at h; cases h
    | ok l =>
      rw [hs] at h
      cases h
      intro x hx
      rcases mem_npSet _ _ _ _ hs x hx with hx | rfl
      · exact ha x hx
      · exact castInto_ok R hR _ _ _ hc

theorem tSetUpdateWrite_ok (R : NpRt F) (hR : NpOk R) (so : Option Int) (seq : List Int) (vs : List (CV F)) (a : Arr F) (ha : ArrOk a) (r : Arr F)
    (h : tSetUpdateWrite R so seq vs a = .ok r) : ArrOk r := by
  induction seq generalizing vs a with
  | nil => cases vs <;> (cases h; exact ha)
  | cons i is ih =>
    cases vs with
    | nil => cases h; exact ha
    | cons v vs =>
      cases so with
      | none => simp only [tSetUpdateWrite] at h; cases h
      | some s =>
        simp only [tSetUpdateWrite] at h
        cases hs : tNpSet R a (i - s) v with
        | error e => rw [hs] at h; cases h
        | ok b =>
          rw [hs] at h
          exact ih vs b (tNpSet_ok R hR a ha _ _ _ hs) h

theorem tSetUpdate_ok (R : NpRt F) (hR : NpOk R) (ps : Nat) (hps : 0 < ps) (c : TCol F) (hc : ColOk c) (s : PySlice) (a : Arr F) (r : TCol F)
    (h : tSetUpdate R ps c s a = .ok r) : ColOk r := by
  unfold tSetUpdate at h
  split at h
  · cases h
  · generalize s.indices (colLen c.pages) = x at h
    obtain ⟨ks, ke, k⟩ := x
    dsimp only at h
    split at h
    · cases h
    · have hacc := tSetUpdateLoop_ok ks ke 0 c hc {} ⟨colOk_nil, colOk_nil, colOk_nil⟩
      generalize tSetUpdateLoop ks ke 0 c {} = acc at h hacc
      cases hu : npUnify acc.changed with
      | error e => rw [hu] at h; cases h
      | ok b =>
        rw [hu] at h
        dsimp only [bind, Except.bind] at h
        cases hw : tSetUpdateWrite R acc.startsOn (rangeList ks ke k) a.data b with
        | error e => rw [hw] at h; cases h
        | ok b' =>
          rw [hw] at h
          cases h
          exact colOk_append (colOk_append hacc.1 (tPaginate_ok ps hps _ (tSetUpdateWrite_ok R hR _ _ _ _ (npUnify_ok _ hacc.2.1 b hu) _ hw))) hacc.2.2

theorem tSetSlice_ok (R : NpRt F) (hR : NpOk R) (ps : Nat) (hps : 0 < ps) (c : TCol F) (hc : ColOk c) (s : PySlice) (l : List (CV F)) (r : TCol F)
    (h : tSetSlice R ps c s l = .ok r) : ColOk r := by
  unfold tSetSlice at h
  have hl := listToNp_ok R hR l
  split at h
  · split at h
    · cases h; exact tExtend_ok ps hps _ colOk_nil _ hl
    · exact tSetExtendLoop_ok ps hps _ _ hl _ colOk_nil _ c hc r h
    · exact tSetPrextend_ok ps hps c hc _ _ hl r h
    · exact tSetInsert_ok ps hps c hc _ _ _ hl r h
  · exact tSetUpdate_ok R hR ps hps c hc s _ r h

theorem tDelInt_ok (key start : Int) (c : TCol F) (hc : ColOk c) (r : TCol F) (h : tDelInt key start c = .ok r) : ColOk r := by
  induction c generalizing start r with
  | nil => cases h; exact hc
  | cons p c ih =>
    rw [tDelInt] at h
    have hp := colOk_head hc
    split at h
    · split at h
      · cases hm : tDelInt key (start + p.data.length) c with
        | error e => rw [hm] at h; cases h
        | ok m =>
          rw [hm] at h
          cases h
          exact colOk_cons (sub_ok p hp _ fun v hv => List.mem_of_mem_eraseIdx hv) (ih _ (colOk_tail hc) _ hm)
      · cases h
    · cases hm : tDelInt key (start + p.data.length) c with
      | error e => rw [hm] at h; cases h
      | ok m =>
        rw [hm] at h
        cases h
        exact colOk_cons hp (ih _ (colOk_tail hc) _ hm)

theorem mem_npDelete (l : List (CV F)) (idx : List Int) (r : List (CV F)) (h : npDelete l idx = .ok r) (v : CV F) (hv : v ∈ r) : v ∈ l := by
  unfold npDelete at h
  split at h
  · cases h
    obtain ⟨p, hp, rfl⟩ := List.mem_map.1 hv
    obtain ⟨a, i⟩ := p
    exact (List.mem_zipIdx' (List.mem_filter.1 hp).1).2 ▸ List.getElem_mem _
  · cases h

theorem tDelSlice_ok (ps : Nat) (hps : 0 < ps) (c : TCol F) (hc : ColOk c) (s : PySlice) (r : TCol F) (h : tDelSlice ps c s = .ok r) : ColOk r := by
  unfold tDelSlice at h
  split at h
  · cases h
  · generalize s.indices (colLen c.pages) = x at h
    obtain ⟨ks, ke, k⟩ := x
    dsimp only at h
    have hacc := tDelSliceLoop_ok ks ke 0 c hc {} ⟨colOk_nil, colOk_nil, colOk_nil⟩
    generalize tDelSliceLoop ks ke 0 c {} = acc at h hacc
    cases hu : npUnify acc.changed with
    | error e => rw [hu] at h; cases h
    | ok b =>
      rw [hu] at h
      dsimp only [bind, Except.bind] at h
      have hb := npUnify_ok _ hacc.2.1 b hu
      split at h
      · split at h
        · cases h
          exact colOk_append (colOk_append hacc.1 (tPaginate_ok ps hps _ hb)) hacc.2.2
        · cases h
      · rename_i so _
        cases hd : npDelete b.data ((rangeList ks ke k).map (· - so)) with
        | error e => rw [hd] at h; cases h
        | ok l =>
          rw [hd] at h
          cases h
          exact colOk_append (colOk_append hacc.1 (tPaginate_ok ps hps _ (sub_ok b hb l fun v hv => mem_npDelete _ _ _ hd v hv))) hacc.2.2

theorem tReplaceItems_holds [DecidableEq F] (R : NpRt F) (hR : NpOk R) (dt : Dt) (isin : CV F → Bool) (m : List (CV F × CV F)) (l r : List (CV F)) (hl : ∀ v ∈ l, Holds dt v)
    (h : tReplaceItems R dt isin m l = .ok r) : ∀ v ∈ r, Holds dt v := by
  induction l generalizing r with
  | nil => cases h; exact hl
  | cons v l ih =>
    rw [tReplaceItems] at h
    have hl' : ∀ v ∈ l, Holds dt v := fun w hw => hl w (List.mem_cons_of_mem _ hw)
    split at h
    · split at h
      · cases h
      · rename_i w _
        cases hc : castInto R dt w with
        | error e => rw [hc] at h; cases h
        | ok x =>
          rw [hc] at h
          dsimp only [bind, Except.bind] at h
          cases hm : tReplaceItems R dt isin m l with
          | error e => rw [hm] at h; cases h
          | ok more =>
            rw [hm] at h
            cases h
            intro y hy
            rcases List.mem_cons.1 hy with rfl | hy
            · exact castInto_ok R hR _ _ _ hc
            · exact ih _ hl' hm y hy
    · cases hm : tReplaceItems R dt isin m l with
      | error e => rw [hm] at h; cases h
      | ok more =>
        rw [hm] at h
        cases h
        intro y hy
        rcases List.mem_cons.1 hy with rfl | hy
        · exact hl _ List.mem_cons_self
        · exact ih _ hl' hm y hy

theorem tReplacePage_ok [DecidableEq F] (R : NpRt F) (hR : NpOk R) (isin : CV F → Bool) (m : List (CV F × CV F)) (p q : Arr F) (hp : ArrOk p)
    (h : tReplacePage R isin m p = .ok q) : ArrOk q := by
  unfold tReplacePage at h
  split at h
  · cases hi : tReplaceItems R p.dt isin m p.data with
    | error e => rw [hi] at h; cases h
    | ok l =>
      rw [hi] at h
      cases h
      exact tReplaceItems_holds R hR _ _ _ _ _ hp hi
  · cases h; exact hp

theorem tReplace_ok [DecidableEq F] (R : NpRt F) (hR : NpOk R) (isin : Arr F → CV F → Bool) (m : List (CV F × CV F)) (c r : TCol F) (hc : ColOk c)
    (h : tReplace R isin m c = .ok r) : ColOk r := by
  induction c generalizing r with
  | nil => cases h; exact hc
  | cons p c ih =>
    rw [tReplace] at h
    cases hp : tReplacePage R (isin p) m p with
    | error e => rw [hp] at h; cases h
    | ok q =>
      rw [hp] at h
      dsimp only [bind, Except.bind] at h
      cases hm : tReplace R isin m c with
      | error e => rw [hm] at h; cases h
      | ok more =>
        rw [hm] at h
        cases h
        exact colOk_cons (tReplacePage_ok R hR _ _ _ _ (colOk_head hc) hp) (ih _ (colOk_tail hc) hm)

theorem tStep_ok [DecidableEq F] (R : NpRt F) (hR : NpOk R) (ps : Nat) (hps : 0 < ps) (c : TCol F) (hc : ColOk c) (op : ColChange F) : ColOk (tStep R ps c op) := by
  unfold tStep
  dsimp only
  split
  · rename_i c' h
    cases op with
    | set i v =>
      unfold tSetInt at h
      dsimp only at h
      generalize (if i < 0 then (colLen c.pages : Int) + i else i) = key at h
      split at h
      · cases h; exact tSetIntLoop_ok _ _ _ _ hc
      · cases h
    | assign s l => exact tSetSlice_ok R hR ps hps c hc s l _ h
    | extend l => cases h; exact tExtend_ok ps hps c hc _ (listToNp_ok R hR l)
    | del i => exact tDelInt_ok _ _ _ hc _ h
    | delSlice s => exact tDelSlice_ok ps hps c hc s _ h
    | replace isin m => exact tReplace_ok R hR isin m c _ hc h
  · exact hc

/-- C85: whatever list a column is made of and whatever is then written to it, replaced in it or deleted from it, every page holds values of
its numpy type only, and so does the array that reading the column gives. -/
theorem C85_consistent [DecidableEq F] (R : NpRt F) (hR : NpOk R) (ps : Nat) (hps : 0 < ps) (l : List (CV F)) (ops : List (ColChange F)) :
    ColOk (ops.foldl (tStep R ps) (tColumn R ps l)) ∧ ∃ a, tReadAll (ops.foldl (tStep R ps) (tColumn R ps l)) = .ok a ∧ ArrOk a := by
  have h : ColOk (ops.foldl (tStep R ps) (tColumn R ps l)) := by
    have : ∀ c, ColOk c → ColOk (ops.foldl (tStep R ps) c) := by
      induction ops with
      | nil => exact fun c hc => hc
      | cons op ops ih => exact fun c hc => ih _ (tStep_ok R hR ps hps c hc op)
    exact this _ (tExtend_ok ps hps _ colOk_nil _ (listToNp_ok R hR l))
  refine ⟨h, ?_⟩
  generalize ops.foldl (tStep R ps) (tColumn R ps l) = c at h
  obtain ⟨d, hd⟩ := tReadAll_data c
  refine ⟨_, hd, ?_⟩
  have hf : ColOk (c.filter fun a => a.data ≠ []) := fun x hx => h x (List.mem_filter.1 hx).1
  unfold tReadAll at hd
  generalize (c.filter fun a => a.data ≠ []) = l at hd hf
  cases l with
  | nil =>
    injection hd with hd
    rw [← hd]
    exact empty_ok _
  | cons a r => exact npUnify_ok _ hf _ hd

/-- C81: a page of empty texts has room for one character, so `c.replace({'': 'ab'})` stores `a` -/
theorem C81_empty_fails : (tReplace exactNp (fun _ v => decide (v ∈ [CV.str []])) [(.str [], .str ['a', 'b'])]
    (tColumn exactNp 10 [.str [], .str []])).map (fun c => colIter c.pages) = .ok [.str ['a'], .str ['a']] := by decide +kernel

/-- the runtime of the examples meets the hypotheses, with numbers cut to 64 bit -/
def clampNp : NpRt Rat where
  ofInt n := n
  tdWrap _ := 0
  trunc x := if -2 ^ 63 ≤ Int.tdiv x.num x.den ∧ Int.tdiv x.num x.den < 2 ^ 63 then .ok (Int.tdiv x.num x.den) else .error .overflow
  cast _ _ := .error .type

example : NpOk clampNp where
  wrap _ := by simp [clampNp]
  trunc x n h := by
    simp only [clampNp] at h
    split at h
    · cases h; assumption
    · cases h
  cast _ _ _ h := by cases h

/-- integers overwritten by a text: the page becomes an object array, and takes a float as it is -/
example : [ColChange.assign { start := some 1, stop := some 2 } [.str ['x']], .assign { start := some 0, stop := some 3, step := some 2 } [.float (1 / 2), .none]].foldl
    (tStep clampNp 10) (tColumn clampNp 10 [.int 1, .int 2, .int 3]) = [⟨.obj, [.float (1 / 2), .str ['x'], .none]⟩] := by rfl

end

end Tablite
