import Verif.Model.Hdf5
import Verif.Props.Guess
import Verif.Props.Reshape
/-!
# C103: a table through an HDF5 file
-/

namespace Tablite

variable {O : Type}

/-! ## specification -/

/-- spec: the text cannot be read as anything but text -/
def OnlyText (R : GuessRt O) (t : PyText) : Prop := ∀ u, u ≠ GT.str → Rejects (pyInfer R (.str t) u)

/-- spec: a column that an HDF5 file can hold: integers of 64 bits, floats, bools, or storable texts that are not text of anything else -/
def H5Kept (R : GuessRt O) (vs : List (PV O)) : Prop :=
  (∀ v ∈ vs, ∃ z, v = .int z ∧ -2 ^ 63 ≤ z ∧ z < 2 ^ 63) ∨ (∀ v ∈ vs, ∃ x, v = .float x) ∨ (∀ v ∈ vs, ∃ b, v = .bool b) ∨
  (∀ v ∈ vs, ∃ t, v = .str t ∧ OnlyText R t ∧ ∀ c ∈ t, c ≠ 0 ∧ ¬ (0xd800 ≤ c ∧ c < 0xe000))

/-- `str` of a text is the text -/
def StrOk (str : PV O → PyText) : Prop := ∀ t, str (.str t) = t

/-- write and read -/
def h5Round (R : GuessRt O) (str numText : PV O → PyText) (toFloat : Int → Dbl) (ps : Nat) (t : Tbl PyText (PV O)) : Except Err (Tbl PyText (PV O)) :=
  (toHdf5 str t).bind (fromHdf5 R numText toFloat ps)

/-! ## one column -/

theorem guess_onlyText (R : GuessRt O) (ts : List PyText) (h : ∀ t ∈ ts, OnlyText R t) : pyGuess R (ts.map .str) = .ok (ts.map .str) := by
  have := C86_homogeneous R (ts.map .str) .str id
    (by
      intro v hv
      obtain ⟨t, -, rfl⟩ := List.mem_map.1 hv
      unfold pyInfer
      rw [if_pos ⟨rfl, rfl⟩]
      rfl)
    (by
      intro v hv u hu
      obtain ⟨t, ht, rfl⟩ := List.mem_map.1 hv
      refine h t ht u ?_
      rintro rfl
      omega)
  rwa [List.map_id] at this

theorem h5Array_texts (numText : PV O → PyText) (toFloat : Int → Dbl) (ts : List PyText) : h5Array numText toFloat (ts.map .str) = ts.map .str := by
  unfold h5Array
  rw [if_neg (by simp [pvPlain])]
  cases ts with
  | nil => simp
  | cons t ts => rw [if_pos (by simp [pvStr])]; simp [h5AsText]

/-- a column that can be held comes back -/
theorem h5_kept (R : GuessRt O) (str numText : PV O → PyText) (hstr : StrOk str) (toFloat : Int → Dbl) (vs : List (PV O)) (h : H5Kept R vs) :
    ∃ d, h5Column str vs = .ok d ∧ h5Read R numText toFloat d = .ok vs := by
  unfold h5Column
  by_cases hn : h5Native vs = true
  · rw [if_pos hn]
    exact ⟨_, rfl, rfl⟩
  · rw [if_neg hn]
    have ht : ∀ v ∈ vs, ∃ t, v = .str t ∧ OnlyText R t ∧ ∀ c ∈ t, c ≠ 0 ∧ ¬ (0xd800 ≤ c ∧ c < 0xe000) := by
      unfold h5Native at hn
      simp only [Bool.or_eq_true, not_or, List.all_eq_true] at hn
      rcases h with h | h | h | h
      · refine absurd ?_ hn.1.1
        intro v hv
        obtain ⟨z, rfl, h1, h2⟩ := h v hv
        simp only [pvInt64, isInt64, Bool.and_eq_true, decide_eq_true_eq]
        omega
      · refine absurd ?_ hn.1.2
        intro v hv
        obtain ⟨z, rfl⟩ := h v hv
        rfl
      · refine absurd ?_ hn.2
        intro v hv
        obtain ⟨z, rfl⟩ := h v hv
        rfl
      · exact h
    obtain ⟨ts, rfl, hts⟩ : ∃ ts : List PyText, vs = ts.map .str ∧ ∀ t ∈ ts, OnlyText R t ∧ ∀ c ∈ t, c ≠ 0 ∧ ¬ (0xd800 ≤ c ∧ c < 0xe000) := by
      clear hn h
      induction vs with
      | nil => exact ⟨[], rfl, by simp⟩
      | cons v vs ih =>
        obtain ⟨t, rfl, h1⟩ := ht v (by simp)
        obtain ⟨ts, rfl, h2⟩ := ih (fun v hv => ht v (List.mem_cons_of_mem _ hv))
        refine ⟨t :: ts, rfl, ?_⟩
        intro x hx
        rcases List.mem_cons.1 hx with rfl | hx
        · exact h1
        · exact h2 x hx
    have e : (ts.map (PV.str (O := O))).map str = ts := by
      rw [List.map_map]
      conv_rhs => rw [← List.map_id ts]
      exact List.map_congr_left fun t _ => hstr t
    rw [e, if_pos]
    · refine ⟨_, rfl, ?_⟩
      unfold h5Read
      dsimp only
      rw [guess_onlyText R ts (fun t ht => (hts t ht).1)]
      show Except.ok (h5Array _ _ _) = _
      rw [h5Array_texts]
    · rw [List.all_eq_true]
      intro t ht
      unfold h5Text
      rw [List.all_eq_true]
      intro c hc
      have := (hts t ht).2 c hc
      simp only [Bool.and_eq_true, bne_iff_ne, ne_eq, Bool.not_eq_true', Bool.and_eq_false_iff, decide_eq_false_iff_not]
      refine ⟨this.1, ?_⟩
      omega

/-! ## the order of the names -/

theorem nameLe_total (a b : PyText) : nameLe a b = true ∨ nameLe b a = true := by
  induction a generalizing b with
  | nil => exact .inl rfl
  | cons x a ih =>
    cases b with
    | nil => exact .inr rfl
    | cons y b =>
      simp only [nameLe, Bool.or_eq_true, Bool.and_eq_true, decide_eq_true_eq]
      rcases lt_trichotomy x y with h | h | h
      · exact .inl (.inl h)
      · rcases ih b with h' | h'
        · exact .inl (.inr ⟨h, h'⟩)
        · exact .inr (.inr ⟨h.symm, h'⟩)
      · exact .inr (.inl h)

theorem nameLe_trans (a b c : PyText) (h1 : nameLe a b = true) (h2 : nameLe b c = true) : nameLe a c = true := by
  induction a generalizing b c with
  | nil => rfl
  | cons x a ih =>
    cases b with
    | nil => exact absurd h1 (by simp [nameLe])
    | cons y b =>
      cases c with
      | nil => exact absurd h2 (by simp [nameLe])
      | cons z c =>
        simp only [nameLe, Bool.or_eq_true, Bool.and_eq_true, decide_eq_true_eq] at h1 h2 ⊢
        rcases h1 with h1 | ⟨rfl, h1⟩
        · rcases h2 with h2 | ⟨rfl, h2⟩
          · exact .inl (by omega)
          · exact .inl h1
        · rcases h2 with h2 | ⟨rfl, h2⟩
          · exact .inl h2
          · exact .inr ⟨rfl, ih b c h1 h2⟩

/-- the full claim: a table of integers, floats, bools and texts is what it was -/
def C103_statement : Prop := ∀ (R : GuessRt Unit) (str numText : PV Unit → PyText) (toFloat : Int → Dbl), StrOk str → ∀ (ps : Nat), 0 < ps → ∀ (t : Tbl PyText (PV Unit)),
  (t.map (·.1)).Nodup → (∀ c ∈ t, c.1 ≠ [] ∧ 47 ∉ c.1) → (∀ c ∈ t, ∀ v ∈ colIter c.2, v.type = .int ∨ v.type = .float ∨ v.type = .bool ∨ v.type = .str) →
  ∃ t', h5Round R str numText toFloat ps t = .ok t' ∧ tview t' = tview t

/-- **C103**, partial: a table whose columns an HDF5 file can hold comes back with the same columns, each with its values in order, but in alphabetical order of the names.
Missing: the order of columns, texts that can be read as numbers, dates or missing values, columns of mixed types. -/
theorem C103_partial (R : GuessRt O) (str numText : PV O → PyText) (hstr : StrOk str) (toFloat : Int → Dbl) (ps : Nat) (hps : 0 < ps) (t : Tbl PyText (PV O))
    (hn : ∀ c ∈ t, 47 ∉ c.1) (h : ∀ c ∈ t, H5Kept R (colIter c.2)) :
    ∃ t', h5Round R str numText toFloat ps t = .ok t' ∧ (tview t').Perm (tview t) ∧ (tview t').Pairwise fun x y => nameLe x.1 y.1 = true := by
  obtain ⟨D, hD⟩ : ∃ D : List (PV O) → H5Data O, ∀ vs, D vs = ((h5Column str vs).toOption.getD (.native [])) := ⟨_, fun _ => rfl⟩
  obtain ⟨V, hV⟩ : ∃ V : H5Data O → List (PV O), ∀ d, V d = ((h5Read R numText toFloat d).toOption.getD []) := ⟨_, fun _ => rfl⟩
  have hcol : ∀ c ∈ t, h5Column str (colIter c.2) = .ok (D (colIter c.2)) ∧ h5Read R numText toFloat (D (colIter c.2)) = .ok (colIter c.2) ∧ V (D (colIter c.2)) = colIter c.2 := by
    intro c hc
    obtain ⟨d, e1, e2⟩ := h5_kept R str numText hstr toFloat _ (h c hc)
    have e3 : D (colIter c.2) = d := by rw [hD, e1]; rfl
    rw [e3]
    exact ⟨e1, e2, by rw [hV, e2]; rfl⟩
  have hf : toHdf5 str t = .ok (t.map fun c => (c.1, D (colIter c.2))) := by
    unfold toHdf5
    refine mapM_ok _ _ _ ?_
    intro c hc
    rw [(hcol c hc).1]
    rfl
  have hp : (h5Keys (t.map fun c => (c.1, D (colIter c.2)))).Perm (t.map fun c => (c.1, D (colIter c.2))) := List.perm_insertionSort _ _
  have hg : fromHdf5 R numText toFloat ps (t.map fun c => (c.1, D (colIter c.2))) =
      .ok ((h5Keys (t.map fun c => (c.1, D (colIter c.2)))).map fun x => (x.1, paginate ps (V x.2))) := by
    unfold fromHdf5
    refine mapM_ok _ _ _ ?_
    intro x hx
    obtain ⟨c, hc, rfl⟩ := List.mem_map.1 (hp.subset hx)
    unfold h5Get
    dsimp only
    rw [if_neg (hn c hc), (hcol c hc).2.1, (hcol c hc).2.2]
    rfl
  refine ⟨_, by unfold h5Round; rw [hf]; exact hg, ?_, ?_⟩
  · have e : tview ((h5Keys (t.map fun c => (c.1, D (colIter c.2)))).map fun x => (x.1, paginate ps (V x.2))) = (h5Keys (t.map fun c => (c.1, D (colIter c.2)))).map fun x => (x.1, V x.2) := by
      unfold tview
      rw [List.map_map]
      refine List.map_congr_left fun x _ => ?_
      simp only [Function.comp, colIter_paginate ps hps]
    rw [e]
    refine (hp.map fun x => (x.1, V x.2)).trans ?_
    rw [List.map_map]
    unfold tview
    refine List.Perm.of_eq (List.map_congr_left fun c hc => ?_)
    simp only [Function.comp, (hcol c hc).2.2]
  · unfold tview
    rw [List.pairwise_map, List.pairwise_map]
    haveI : Std.Total (fun x y : PyText × H5Data O => nameLe x.1 y.1 = true) := ⟨fun a b => nameLe_total a.1 b.1⟩
    haveI : IsTrans (PyText × H5Data O) (fun x y => nameLe x.1 y.1 = true) := ⟨fun a b c => nameLe_trans a.1 b.1 c.1⟩
    exact List.pairwise_insertionSort _ _

/-- the runtime `fewRt` with `str` of texts -/
def h5Str : PV Unit → PyText
  | .str t => t
  | _ => []

/-- the columns `b` and `a` come back as `a` and `b` -/
theorem C103_fails : ¬ C103_statement := by
  intro h
  obtain ⟨t', h1, h2⟩ := h fewRt h5Str h5Str (fun z => .fin z) (fun _ => rfl) 10 (by decide) [(txt "b", [[.int 1]]), (txt "a", [[.int 2]])] (by decide +kernel) (by decide +kernel) (by decide +kernel)
  have e : h5Round fewRt h5Str h5Str (fun z => .fin z) 10 [(txt "b", [[.int 1]]), (txt "a", [[.int 2]])] = .ok [(txt "a", [[.int 2]]), (txt "b", [[.int 1]])] := by decide +kernel
  rw [e] at h1
  cases h1
  exact absurd h2 (by decide +kernel)

/-- a column of texts that are written like integers (not readable as dates) comes back as integers -/
theorem C103_number_fails (R : GuessRt O) (str numText : PV O → PyText) (hstr : StrOk str) (toFloat : Int → Dbl) (zs : List Int) (hne : zs ≠ []) (hz : ∀ z ∈ zs, -2 ^ 63 ≤ z ∧ z < 2 ^ 63)
    (hd : ∀ z ∈ zs, Rejects (R.dateText (intText z)) ∧ Rejects (R.datetimeText (intText z))) :
    (h5Column str (zs.map fun z => .str (intText z))).bind (h5Read R numText toFloat) = .ok (zs.map .int) := by
  have e : (zs.map fun z => PV.str (O := O) (intText z)).map str = zs.map intText := by
    rw [List.map_map]
    exact List.map_congr_left fun z _ => hstr _
  have hplain : ∀ z : Int, plainText (intText z) = intText z := by
    intro z
    unfold plainText
    rw [List.filter_eq_self]
    intro c hc
    rcases intText_chars z c hc with h | h <;> simp <;> omega
  have hn : h5Native (zs.map fun z => PV.str (O := O) (intText z)) = false := by
    obtain ⟨z, zs, rfl⟩ := List.exists_cons_of_ne_nil hne
    rfl
  have ht : ((zs.map intText).all h5Text) = true := by
    rw [List.all_eq_true]
    intro t ht
    obtain ⟨z, -, rfl⟩ := List.mem_map.1 ht
    unfold h5Text
    rw [List.all_eq_true]
    intro c hc
    simp only [Bool.and_eq_true, bne_iff_ne, ne_eq, Bool.not_eq_true', Bool.and_eq_false_iff, decide_eq_false_iff_not]
    rcases intText_chars z c hc with h | h <;> omega
  unfold h5Column
  rw [hn, e, ht]
  show h5Read R numText toFloat (.texts (zs.map intText)) = _
  unfold h5Read
  dsimp only
  have hg := C86_int_column R (zs.map fun z => (intText z, z)) (by
    intro x hx
    obtain ⟨z, -, rfl⟩ := List.mem_map.1 hx
    exact hplain z) (by
    intro x hx
    obtain ⟨z, hz', rfl⟩ := List.mem_map.1 hx
    exact hd z hz')
  rw [List.map_map, List.map_map] at hg
  rw [List.map_map, show (PV.str ∘ intText : Int → PV O) = ((fun x : PyText × Int => PV.str x.1) ∘ fun z => (intText z, z)) from rfl, hg]
  show Except.ok (h5Array numText toFloat (zs.map .int)) = _
  congr 1
  unfold h5Array
  rw [if_neg, if_neg, if_neg, if_neg]
  · rw [List.map_map]
    rfl
  · obtain ⟨z, zs, rfl⟩ := List.exists_cons_of_ne_nil hne
    simp [pvBool]
  · simp [pvFloat]
  · simp [pvStr]
  · simp only [Bool.not_eq_true', Bool.not_eq_false, List.all_eq_true]
    intro v hv
    obtain ⟨z, hz', rfl⟩ := List.mem_map.1 hv
    have := hz z hz'
    simp only [pvPlain, isInt64, Bool.and_eq_true, decide_eq_true_eq]
    omega

/-- the hypotheses of `C103_partial` hold of a table of integers, texts and bools -/
example : ∃ t', h5Round fewRt h5Str h5Str (fun z => .fin z) 2 [(txt "n", [[.int 1, .int (-7)], [.int 0]]), (txt "b", [[.bool true], [.bool false, .bool true]])] = .ok t' ∧
    (tview t').Perm [(txt "n", [.int 1, .int (-7), .int 0]), (txt "b", [.bool true, .bool false, .bool true])] ∧ (tview t').Pairwise fun x y => nameLe x.1 y.1 = true :=
  C103_partial fewRt h5Str h5Str (fun _ => rfl) (fun z => .fin z) 2 (by decide) _ (by decide +kernel) (by
    intro c hc
    simp only [List.mem_cons, List.not_mem_nil, or_false] at hc
    rcases hc with rfl | rfl
    · left
      intro v hv
      simp only [colIter, List.flatMap_cons, List.flatMap_nil, List.cons_append, List.nil_append, List.append_nil, List.mem_cons, List.not_mem_nil, or_false] at hv
      rcases hv with rfl | rfl | rfl <;> exact ⟨_, rfl, by decide, by decide⟩
    · right; right; left
      intro v hv
      simp only [colIter, List.flatMap_cons, List.flatMap_nil, List.cons_append, List.nil_append, List.append_nil, List.mem_cons, List.not_mem_nil, or_false] at hv
      rcases hv with rfl | rfl | rfl <;> exact ⟨_, rfl⟩)

/-- and of a column of texts -/
example : H5Kept fewRt [.str (txt "a"), .str (txt "xyz")] := by
  right; right; right
  intro v hv
  simp only [List.mem_cons, List.not_mem_nil, or_false] at hv
  rcases hv with rfl | rfl
  · exact ⟨_, rfl, by intro u hu; cases u <;> first | exact absurd rfl hu | (unfold Rejects; decide +kernel), by decide +kernel⟩
  · exact ⟨_, rfl, by intro u hu; cases u <;> first | exact absurd rfl hu | (unfold Rejects; decide +kernel), by decide +kernel⟩

/-- in a column of a text and an integer, the integer comes back as text -/
theorem C103_mixed_fails : (h5Column (fun v => if v = .int 1 then txt "1" else h5Str v) [PV.str (txt "a"), .int 1]).bind (h5Read fewRt (fun _ => txt "1") (fun z => .fin z)) =
    .ok [.str (txt "a"), .str (txt "1")] := by decide +kernel

/-! ## columns of mixed types

What a column written as texts comes back as once `DataTypes.guess` has found the values `vs` of these texts. -/

theorem h5Read_texts (R : GuessRt O) (numText : PV O → PyText) (toFloat : Int → Dbl) (ts : List PyText) (vs : List (PV O)) (hg : pyGuess R (ts.map .str) = .ok vs) :
    h5Read R numText toFloat (.texts ts) = .ok (h5Array numText toFloat vs) := by
  show (pyGuess R (ts.map .str) >>= fun x => Except.ok (h5Array numText toFloat x)) = _
  rw [hg]
  rfl

/-- anything but numbers of 64 bits, bools and texts among the guessed values: they come back as guessed -/
theorem C103_objects (R : GuessRt O) (numText : PV O → PyText) (toFloat : Int → Dbl) (ts : List PyText) (vs : List (PV O)) (hg : pyGuess R (ts.map .str) = .ok vs) (v : PV O) (hv : v ∈ vs)
    (hi : ∀ z, v = .int z → ¬ (-2 ^ 63 ≤ z ∧ z < 2 ^ 63)) (hf : ∀ x, v ≠ .float x) (hb : ∀ b, v ≠ .bool b) (hs : ∀ t, v ≠ .str t) :
    h5Read R numText toFloat (.texts ts) = .ok vs := by
  have e : vs.all pvPlain = false := by
    rw [List.all_eq_false]
    refine ⟨v, hv, ?_⟩
    cases v with
    | int z =>
      intro h
      simp only [pvPlain, isInt64, Bool.and_eq_true, decide_eq_true_eq] at h
      exact hi z rfl ⟨by omega, by omega⟩
    | float x => exact absurd rfl (hf x)
    | bool b => exact absurd rfl (hb b)
    | str t => exact absurd rfl (hs t)
    | _ => simp [pvPlain]
  rw [h5Read_texts R numText toFloat ts vs hg]
  unfold h5Array
  rw [if_pos (by simp [e])]

/-- bools among integers come back as 1 and 0 -/
theorem C103_bools (R : GuessRt O) (numText : PV O → PyText) (toFloat : Int → Dbl) (ts : List PyText) (vs : List (PV O)) (hg : pyGuess R (ts.map .str) = .ok vs)
    (h : ∀ v ∈ vs, (∃ b, v = .bool b) ∨ ∃ z, v = .int z ∧ -2 ^ 63 ≤ z ∧ z < 2 ^ 63) (z : Int) (hz : .int z ∈ vs) :
    ∃ ws, h5Read R numText toFloat (.texts ts) = .ok ws ∧
      List.Forall₂ (fun v w => v = .bool true ∧ w = .int 1 ∨ v = .bool false ∧ w = .int 0 ∨ ∃ z, v = .int z ∧ w = .int z) vs ws := by
  refine ⟨vs.map h5AsInt, ?_, ?_⟩
  · rw [h5Read_texts R numText toFloat ts vs hg]
    unfold h5Array
    rw [if_neg, if_neg, if_neg, if_neg]
    · intro e
      exact absurd (List.all_eq_true.1 e _ hz) (by simp [pvBool])
    · intro e
      obtain ⟨v, hv, e⟩ := List.any_eq_true.1 e
      rcases h v hv with ⟨b, rfl⟩ | ⟨y, rfl, -⟩ <;> simp [pvFloat] at e
    · intro e
      obtain ⟨v, hv, e⟩ := List.any_eq_true.1 e
      rcases h v hv with ⟨b, rfl⟩ | ⟨y, rfl, -⟩ <;> simp [pvStr] at e
    · intro e
      simp only [Bool.not_eq_true', List.all_eq_false] at e
      obtain ⟨v, hv, e⟩ := e
      rcases h v hv with ⟨b, rfl⟩ | ⟨y, rfl, h1, h2⟩
      · simp [pvPlain] at e
      · refine e ?_
        simp only [pvPlain, isInt64, Bool.and_eq_true, decide_eq_true_eq]
        exact ⟨by omega, by omega⟩
  · clear hg hz
    induction vs with
    | nil => exact .nil
    | cons v vs ih =>
      refine .cons ?_ (ih fun w hw => h w (List.mem_cons_of_mem _ hw))
      rcases h v List.mem_cons_self with ⟨b, rfl⟩ | ⟨y, rfl, -⟩
      · cases b
        · exact .inr (.inl ⟨rfl, rfl⟩)
        · exact .inl ⟨rfl, rfl⟩
      · exact .inr (.inr ⟨y, rfl, rfl⟩)

/-- a float among numbers: the integers and bools come back as floats -/
theorem C103_floats (R : GuessRt O) (numText : PV O → PyText) (toFloat : Int → Dbl) (ts : List PyText) (vs : List (PV O)) (hg : pyGuess R (ts.map .str) = .ok vs)
    (h : ∀ v ∈ vs, (∃ b, v = .bool b) ∨ (∃ x, v = .float x) ∨ ∃ z, v = .int z ∧ -2 ^ 63 ≤ z ∧ z < 2 ^ 63) (x : Dbl) (hx : .float x ∈ vs) :
    ∃ ws, h5Read R numText toFloat (.texts ts) = .ok ws ∧
      List.Forall₂ (fun v w => v = .bool true ∧ w = .float (toFloat 1) ∨ v = .bool false ∧ w = .float (toFloat 0) ∨ (∃ z, v = .int z ∧ w = .float (toFloat z)) ∨ ∃ x, v = .float x ∧ w = .float x) vs ws := by
  refine ⟨vs.map (h5AsFloat toFloat), ?_, ?_⟩
  · rw [h5Read_texts R numText toFloat ts vs hg]
    unfold h5Array
    rw [if_neg, if_neg, if_pos]
    · exact List.any_eq_true.2 ⟨_, hx, rfl⟩
    · intro e
      obtain ⟨v, hv, e⟩ := List.any_eq_true.1 e
      rcases h v hv with ⟨b, rfl⟩ | ⟨y, rfl⟩ | ⟨y, rfl, -⟩ <;> simp [pvStr] at e
    · intro e
      simp only [Bool.not_eq_true', List.all_eq_false] at e
      obtain ⟨v, hv, e⟩ := e
      rcases h v hv with ⟨b, rfl⟩ | ⟨y, rfl⟩ | ⟨y, rfl, h1, h2⟩
      · simp [pvPlain] at e
      · simp [pvPlain] at e
      · refine e ?_
        simp only [pvPlain, isInt64, Bool.and_eq_true, decide_eq_true_eq]
        exact ⟨by omega, by omega⟩
  · clear hg hx
    induction vs with
    | nil => exact .nil
    | cons v vs ih =>
      refine .cons ?_ (ih fun w hw => h w (List.mem_cons_of_mem _ hw))
      rcases h v List.mem_cons_self with ⟨b, rfl⟩ | ⟨y, rfl⟩ | ⟨y, rfl, -⟩
      · cases b
        · exact .inr (.inl ⟨rfl, rfl⟩)
        · exact .inl ⟨rfl, rfl⟩
      · exact .inr (.inr (.inr ⟨y, rfl, rfl⟩))
      · exact .inr (.inr (.inl ⟨y, rfl, rfl⟩))

/-- a text among them: the numbers come back as texts -/
theorem C103_texts (R : GuessRt O) (numText : PV O → PyText) (toFloat : Int → Dbl) (ts : List PyText) (vs : List (PV O)) (hg : pyGuess R (ts.map .str) = .ok vs)
    (h : ∀ v ∈ vs, (∃ b, v = .bool b) ∨ (∃ x, v = .float x) ∨ (∃ t, v = .str t) ∨ ∃ z, v = .int z ∧ -2 ^ 63 ≤ z ∧ z < 2 ^ 63) (t : PyText) (ht : .str t ∈ vs) :
    ∃ ws, h5Read R numText toFloat (.texts ts) = .ok ws ∧
      List.Forall₂ (fun v w => (∃ t, v = .str t ∧ w = .str t) ∨ (∀ t, v ≠ .str t) ∧ w = .str (numText v)) vs ws := by
  refine ⟨vs.map (h5AsText numText), ?_, ?_⟩
  · rw [h5Read_texts R numText toFloat ts vs hg]
    unfold h5Array
    rw [if_neg, if_pos]
    · exact List.any_eq_true.2 ⟨_, ht, rfl⟩
    · intro e
      simp only [Bool.not_eq_true', List.all_eq_false] at e
      obtain ⟨v, hv, e⟩ := e
      rcases h v hv with ⟨b, rfl⟩ | ⟨y, rfl⟩ | ⟨y, rfl⟩ | ⟨y, rfl, h1, h2⟩
      · simp [pvPlain] at e
      · simp [pvPlain] at e
      · simp [pvPlain] at e
      · refine e ?_
        simp only [pvPlain, isInt64, Bool.and_eq_true, decide_eq_true_eq]
        exact ⟨by omega, by omega⟩
  · clear hg ht
    induction vs with
    | nil => exact .nil
    | cons v vs ih =>
      refine .cons ?_ (ih fun w hw => h w (List.mem_cons_of_mem _ hw))
      rcases h v List.mem_cons_self with ⟨b, rfl⟩ | ⟨y, rfl⟩ | ⟨y, rfl⟩ | ⟨y, rfl, -⟩
      · exact .inr ⟨fun _ => (by simp), rfl⟩
      · exact .inr ⟨fun _ => (by simp), rfl⟩
      · exact .inl ⟨y, rfl, rfl⟩
      · exact .inr ⟨fun _ => (by simp), rfl⟩

/-- guesses that meet the hypotheses: an integer and a missing value, an integer and a bool, a bool and a float, an integer and a text -/
example : pyGuess fewRt ([txt "1", txt "None"].map .str) = .ok [.int 1, .none] := by decide +kernel
example : pyGuess fewRt ([txt "1", txt "True"].map .str) = .ok [.int 1, .bool true] := by decide +kernel
example : pyGuess fewRt ([txt "True", txt "1.5"].map .str) = .ok [.bool true, .float (.fin (3 / 2))] := by decide +kernel
example : pyGuess fewRt ([txt "1", txt "a"].map .str) = .ok [.int 1, .str (txt "a")] := by decide +kernel

end Tablite
