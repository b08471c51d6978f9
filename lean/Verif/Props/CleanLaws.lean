import Verif.Props.Reshape
import Verif.Props.Replace
import Verif.Props.Impute
import Verif.Props.DiffExact
/-!
# C125: laws of cleaning a table: what a second run does, what is left to clean, and how a table compares with itself
-/

namespace Tablite

set_option linter.unusedSectionVars false

section
variable {ν α : Type} [DecidableEq ν] [DecidableEq α]

/-- a column after carry forward; `w` stands for leading missing values -/
def carriedCol (missing : α → Bool) (w : α) (l : List α) : List α :=
  l.zipIdx.map fun p => if missing p.1 then (lastPresent missing l p.2).getD w else p.1

theorem carriedCol_length (missing : α → Bool) (w : α) (l : List α) : (carriedCol missing w l).length = l.length := by
  simp [carriedCol]

theorem carriedCol_get (missing : α → Bool) (w : α) (l : List α) (i : Nat) (h : i < l.length) :
    (carriedCol missing w l)[i]'(by rw [carriedCol_length]; exact h) = if missing l[i] then (lastPresent missing l i).getD w else l[i] := by
  simp [carriedCol]

theorem lastPresent_none (missing : α → Bool) (l : List α) (i : Nat) :
    lastPresent missing l i = none ↔ ∀ j, (h : j < l.length) → j < i → missing l[j] = true := by
  unfold lastPresent
  rw [List.find?_eq_none]
  constructor
  · intro H j h hj
    have := H l[j] (List.mem_reverse.2 (List.mem_take_iff_getElem.2 ⟨j, by omega, rfl⟩))
    simpa using this
  · intro H x hx
    obtain ⟨j, hj, rfl⟩ := List.mem_take_iff_getElem.1 (List.mem_reverse.1 hx)
    simpa using H j (by omega) (by omega)

theorem lastPresent_present (missing : α → Bool) (l : List α) (i : Nat) (v : α) (h : lastPresent missing l i = some v) : missing v = false := by
  simpa using List.find?_some h

/-- a value that is missing after carry forward: it and everything before it was missing, and a missing value stands for leading missing values -/
theorem carriedCol_missing (missing : α → Bool) (w : α) (l : List α) (i : Nat) (h : i < l.length) :
    missing ((carriedCol missing w l)[i]'(by rw [carriedCol_length]; exact h)) = true ↔ missing w = true ∧ ∀ j, (hj : j < l.length) → j ≤ i → missing l[j] = true := by
  rw [carriedCol_get missing w l i h]
  by_cases hm : missing l[i] = true
  · rw [if_pos hm]
    cases hp : lastPresent missing l i with
    | none =>
      rw [Option.getD_none]
      constructor
      · refine fun hw => ⟨hw, fun j hj hji => ?_⟩
        rcases Nat.lt_or_ge j i with hlt | hge
        · exact (lastPresent_none missing l i).1 hp j hj hlt
        · have : j = i := by omega
          subst this
          exact hm
      · exact fun hw => hw.1
    | some v =>
      rw [Option.getD_some, lastPresent_present missing l i v hp]
      refine ⟨nofun, fun hw => ?_⟩
      rw [(lastPresent_none missing l i).2 fun j hj hji => hw.2 j hj (by omega)] at hp
      cases hp
  · rw [if_neg hm]
    exact ⟨fun hx => absurd hx hm, fun hw => absurd (hw.2 i h (by omega)) hm⟩

/-- a second run finds nothing to do, if leading missing values are stored again as they were -/
theorem carriedCol_twice (missing : α → Bool) (w w' : α) (l : List α) (hw : missing w = true → w' = w) :
    carriedCol missing w' (carriedCol missing w l) = carriedCol missing w l := by
  apply List.ext_getElem
  · rw [carriedCol_length]
  intro i h1 h2
  have hi : i < l.length := by rw [carriedCol_length] at h2; exact h2
  rw [carriedCol_get missing w' _ i h2]
  split
  · rename_i hm
    have hm' := (carriedCol_missing missing w l i hi).1 hm
    have hn : lastPresent missing (carriedCol missing w l) i = none := by
      rw [lastPresent_none]
      intro j hj hji
      have hjl : j < l.length := by rw [carriedCol_length] at hj; exact hj
      exact (carriedCol_missing missing w l j hjl).2 ⟨hm'.1, fun k hk hkj => hm'.2 k hk (by omega)⟩
    rw [hn, Option.getD_none, hw hm'.1, carriedCol_get missing w l i hi, if_pos (hm'.2 i hi (Nat.le_refl i)),
      (lastPresent_none missing l i).2 fun j hj hji => hm'.2 j hj (by omega), Option.getD_none]
  · rfl

/-- **C125**: carry forward twice is carry forward once.  `hst`: the array of a target stores a leading missing value (as `w`), and stores it again as it was
if that is missing too. -/
theorem C125_carry_twice (ps : Nat) (hps : 0 < ps) (missing : α → Bool) (store : List α → Except Err α) (t : Tbl ν α) (targets : List ν) (ht : TblWF t)
    (htg : ∀ x ∈ targets, x ∈ t.map (·.1)) (w : List α → α)
    (hst : ∀ c ∈ tview t, c.1 ∈ targets → ∀ v, c.2.head? = some v → missing v = true → store c.2 = .ok (w c.2) ∧
      ∀ l : List α, l.head? = some (w c.2) → missing (w c.2) = true → store l = .ok (w c.2)) :
    ∃ t1 t2, imputeCarry ps missing store t (.inr targets) = .ok t1 ∧ imputeCarry ps missing store t1 (.inr targets) = .ok t2 ∧ tview t2 = tview t1 := by
  obtain ⟨t1, h1, v1⟩ := C56_exact ps hps missing store t targets ht htg w (fun c hc hx v hv hm => (hst c hc hx v hv hm).1)
  have hnames : t1.map (·.1) = t.map (·.1) := by
    have := congrArg (List.map Prod.fst) v1
    simpa [tview, Function.comp_def] using this
  have hcols : ∀ c ∈ tview t1, c.1 ∈ targets → ∃ c0 ∈ tview t, c0.1 ∈ targets ∧ c.2 = carriedCol missing (w c0.2) c0.2 := by
    intro c hc hx
    rw [v1] at hc
    obtain ⟨c0, hc0, rfl⟩ := List.mem_map.1 hc
    exact ⟨c0, hc0, hx, by dsimp only; rw [if_pos hx]; rfl⟩
  -- the leading value of a column of the first outcome
  have hhead : ∀ c0 ∈ tview t, c0.1 ∈ targets → ∀ v, (carriedCol missing (w c0.2) c0.2).head? = some v → missing v = true →
      v = w c0.2 ∧ store (carriedCol missing (w c0.2) c0.2) = .ok (w c0.2) := by
    intro c0 hc0 hx v hv hm
    cases hl : c0.2 with
    | nil => rw [hl] at hv; simp [carriedCol] at hv
    | cons a u =>
      have h0 : 0 < c0.2.length := by rw [hl]; simp
      have hv' : (carriedCol missing (w c0.2) c0.2)[0]'(by rw [carriedCol_length]; exact h0) = v := by
        rw [List.head?_eq_getElem?, List.getElem?_eq_getElem (by rw [carriedCol_length]; exact h0)] at hv
        exact Option.some.inj hv
      have hm0 : missing ((carriedCol missing (w c0.2) c0.2)[0]'(by rw [carriedCol_length]; exact h0)) = true := by rw [hv']; exact hm
      have hmm := (carriedCol_missing missing (w c0.2) c0.2 0 h0).1 hm0
      have hw : v = w c0.2 := by
        rw [← hv', carriedCol_get missing _ _ 0 h0, if_pos (hmm.2 0 h0 (Nat.le_refl 0)), (lastPresent_none missing c0.2 0).2 (fun j _ hj => absurd hj (by omega)), Option.getD_none]
      have hh : c0.2.head? = some c0.2[0] := by rw [List.head?_eq_getElem?, List.getElem?_eq_getElem h0]
      rw [← hl]
      exact ⟨hw, (hst c0 hc0 hx _ hh (hmm.2 0 h0 (Nat.le_refl 0))).2 _ (by rw [hv, hw]) hmm.1⟩
  have hTW : TblWF t1 := by
    unfold TblWF at ht ⊢
    rw [hnames]
    exact ht
  obtain ⟨t2, h2, v2⟩ := C56_exact ps hps missing store t1 targets hTW (by rw [hnames]; exact htg) (fun l => l.headD (w l)) (by
    intro c hc hx v hv hm
    obtain ⟨c0, hc0, hx0, e⟩ := hcols c hc hx
    rw [e] at hv ⊢
    obtain ⟨e1, e2⟩ := hhead c0 hc0 hx0 v hv hm
    rw [e2, List.headD_eq_head?_getD, hv, e1]
    rfl)
  refine ⟨t1, t2, h1, h2, ?_⟩
  rw [v2]
  conv_rhs => rw [← List.map_id (tview t1)]
  apply List.map_congr_left
  intro c hc
  by_cases hx : c.1 ∈ targets
  swap
  · rw [if_neg hx]; rfl
  rw [if_pos hx]
  obtain ⟨c0, hc0, hx0, e⟩ := hcols c hc hx
  have hgo : carriedCol missing (c.2.headD (w c.2)) c.2 = c.2 := by
    rw [e]
    cases hl : c0.2 with
    | nil => rfl
    | cons a u =>
      rw [← hl]
      have h0 : 0 < c0.2.length := by rw [hl]; simp
      have hh : (carriedCol missing (w c0.2) c0.2).head? = some ((carriedCol missing (w c0.2) c0.2)[0]'(by rw [carriedCol_length]; exact h0)) := by
        rw [List.head?_eq_getElem?, List.getElem?_eq_getElem (by rw [carriedCol_length]; exact h0)]
      by_cases hm : missing ((carriedCol missing (w c0.2) c0.2)[0]'(by rw [carriedCol_length]; exact h0)) = true
      · have e1 := (hhead c0 hc0 hx0 _ hh hm).1
        rw [List.headD_eq_head?_getD, hh, Option.getD_some, e1]
        exact carriedCol_twice missing _ _ _ fun _ => rfl
      · apply List.ext_getElem
        · rw [carriedCol_length]
        intro i h1 h2
        rw [carriedCol_get missing _ _ i h2]
        split
        · rename_i hmi
          have hil : i < c0.2.length := by rw [carriedCol_length] at h2; exact h2
          have := (carriedCol_missing missing (w c0.2) c0.2 i hil).1 hmi
          exact absurd ((carriedCol_missing missing (w c0.2) c0.2 0 h0).2 ⟨this.1, fun j hj hj0 => this.2 j hj (by omega)⟩) hm
        · rfl
  exact Prod.ext rfl hgo

/-- **C125**: what is left to clean: after carry forward a value of a target is missing if and only if the value stored for leading missing values is missing
and the column begins with missing values up to this place. -/
theorem C125_carry_left (ps : Nat) (hps : 0 < ps) (missing : α → Bool) (store : List α → Except Err α) (t : Tbl ν α) (targets : List ν) (ht : TblWF t)
    (htg : ∀ x ∈ targets, x ∈ t.map (·.1)) (w : α) (hst : ∀ l, store l = .ok w) :
    ∃ t1, imputeCarry ps missing store t (.inr targets) = .ok t1 ∧ t1.map (·.1) = t.map (·.1) ∧
      ∀ k, (hk : k < (tview t).length) → (tview t)[k].1 ∈ targets → ∃ c1, (tview t1)[k]? = some c1 ∧ c1.2.length = (tview t)[k].2.length ∧
        ∀ i v, c1.2[i]? = some v → (missing v = true ↔ missing w = true ∧ ∀ u ∈ (tview t)[k].2.take (i + 1), missing u = true) := by
  obtain ⟨t1, h1, v1⟩ := C56_exact ps hps missing store t targets ht htg (fun _ => w) (fun c _ _ _ _ _ => hst c.2)
  refine ⟨t1, h1, ?_, ?_⟩
  · have := congrArg (List.map Prod.fst) v1
    simpa [tview, Function.comp_def] using this
  intro k hk hx
  refine ⟨_, by rw [v1, List.getElem?_map, List.getElem?_eq_getElem hk]; rfl, ?_, ?_⟩
  · dsimp only
    rw [if_pos hx]
    simp
  · intro i v hv
    dsimp only at hv
    rw [if_pos hx] at hv
    change (carriedCol missing w (tview t)[k].2)[i]? = some v at hv
    obtain ⟨hi, e⟩ := List.getElem?_eq_some_iff.1 hv
    have hi' : i < (tview t)[k].2.length := by rw [carriedCol_length] at hi; exact hi
    rw [← e, carriedCol_missing missing w _ i hi']
    constructor
    · rintro ⟨a, b⟩
      refine ⟨a, fun u hu => ?_⟩
      obtain ⟨j, hj, rfl⟩ := List.mem_take_iff_getElem.1 hu
      exact b j (by omega) (by omega)
    · rintro ⟨a, b⟩
      exact ⟨a, fun j hj hji => b _ (List.mem_take_iff_getElem.2 ⟨j, by omega, rfl⟩)⟩

/-- **C125**: two replacements one after the other map every value through both mappings, in order. -/
theorem C125_replace_replace (m1 m2 : List (α × α)) (t : Tbl ν α) (hn : (t.map (·.1)).Nodup) :
    (tblReplace m2 .all (tblReplace m1 .all t).1).2 = none ∧
      tview (tblReplace m2 .all (tblReplace m1 .all t).1).1 = (tview t).map fun c => (c.1, c.2.map fun x => mapped m2 (mapped m1 x)) := by
  have key : ∀ (m : List (α × α)) (t : Tbl ν α), (t.map (·.1)).Nodup → (tblReplace m .all t).2 = none ∧
      tview (tblReplace m .all t).1 = (tview t).map fun c => (c.1, c.2.map (mapped m)) := by
    intro m t hn
    have h := C104_partial m .all t hn hn
    rw [if_pos (show ∀ n ∈ meant t .all, n ∈ t.map (·.1) from fun n h => h)] at h
    refine ⟨h.1, h.2.trans (List.map_congr_left fun c hc => ?_)⟩
    rw [if_pos]
    obtain ⟨d, hd, rfl⟩ := List.mem_map.1 hc
    exact List.mem_map.2 ⟨d, hd, rfl⟩
  obtain ⟨-, v1⟩ := key m1 t hn
  have hn1 : ((tblReplace m1 .all t).1.map (·.1)).Nodup := by
    have : (tblReplace m1 .all t).1.map (·.1) = t.map (·.1) := by
      have := congrArg (List.map Prod.fst) v1
      simpa [tview, Function.comp_def] using this
    rw [this]
    exact hn
  obtain ⟨h2, v2⟩ := key m2 _ hn1
  refine ⟨h2, ?_⟩
  rw [v2, v1, List.map_map]
  refine List.map_congr_left fun c _ => ?_
  simp [Function.comp_def]

/-- **C125**, exactly: a second replacement changes nothing if and only if the mapping leaves alone every value it has put into the table. -/
theorem C125_replace_twice_exact (m : List (α × α)) (t : Tbl ν α) (hn : (t.map (·.1)).Nodup) :
    tview (tblReplace m .all (tblReplace m .all t).1).1 = tview (tblReplace m .all t).1 ↔
      ∀ c ∈ tview t, ∀ x ∈ c.2, mapped m (mapped m x) = mapped m x := by
  have h1 : tview (tblReplace m .all t).1 = (tview t).map fun c => (c.1, c.2.map (mapped m)) := by
    have h := C104_partial m .all t hn hn
    rw [if_pos (show ∀ n ∈ meant t .all, n ∈ t.map (·.1) from fun n h => h)] at h
    refine h.2.trans (List.map_congr_left fun c hc => ?_)
    rw [if_pos]
    obtain ⟨d, hd, rfl⟩ := List.mem_map.1 hc
    exact List.mem_map.2 ⟨d, hd, rfl⟩
  rw [(C125_replace_replace m m t hn).2, h1]
  simp only [List.map_inj_left, Prod.mk.injEq, true_and]

/-- the equality of a table with itself: whatever blocks difflib gives, if it calls them all equal, the outcome is the table with "=" twice in every row -/
theorem C125_diff_self (R : List α → List α → Prop) (ps : Nat) (hps : 0 < ps) (mk : ν → Nat → ν) (hmk : ∀ d a b, mk d a = mk d b → a = b)
    (npArr : List α → List α) (opcodes : List (List α) → List (List α) → List Opcode) (nul : α) (mark : Mark → α) (n1 n2 : ν) (t : Tbl ν α) (n : Nat) (cols : List ν)
    (ht : t.map (·.1) = cols) (hnd : cols.Nodup) (hne : cols ≠ []) (hrt : Rect t n) (hn : uniqueName mk n1 cols ≠ uniqueName mk n2 cols)
    (hops : Covers R (tupleRows nul t n) (tupleRows nul t n) 0 0 (opcodes (tupleRows nul t n) (tupleRows nul t n)))
    (heq : ∀ op ∈ opcodes (tupleRows nul t n) (tupleRows nul t n), op.tag = .equal)
    (hnp : ∀ x ∈ cols, ∀ l : List α, (∀ v ∈ l, ∃ i < n, v = cell nul t x i) → npArr l = l)
    (hnpm : ∀ l : List Mark, npArr (l.map mark) = l.map mark) :
    ∃ t', diff ps mk npArr opcodes nul mark n1 n2 t t none = .ok t' ∧
      tview t' = markedView nul mark cols (uniqueName mk n1 cols) (uniqueName mk n2 cols) ((tupleRows nul t n).map fun r => (r, .same, .same)) := by
  obtain ⟨t', h1, h2⟩ := diff_ok R ps hps mk hmk npArr opcodes nul mark n1 n2 t t n n cols ht ht hnd hne hrt hrt hn hops
    (fun x hx l hl => hnp x hx l fun v hv => (hl v hv).elim id id) hnpm none (.inl rfl)
  refine ⟨t', h1, h2.trans (congrArg (markedView nul mark cols (uniqueName mk n1 cols) (uniqueName mk n2 cols)) ?_)⟩
  have hs := hops.second
  have hall : ∀ r ∈ (opcodes (tupleRows nul t n) (tupleRows nul t n)).flatMap (outOf (tupleRows nul t n) (tupleRows nul t n)), r.2 = (.same, .same) := by
    intro r hr
    obtain ⟨op, ho, hr⟩ := List.mem_flatMap.1 hr
    unfold outOf at hr
    rw [heq op ho] at hr
    obtain ⟨q, hq, rfl⟩ := List.mem_map.1 hr
    rfl
  rw [List.filter_eq_self.2 (fun r hr => by rw [hall r hr]; rfl), List.drop_zero] at hs
  refine Eq.trans ?_ (congrArg (List.map fun r => (r, Mark.same, Mark.same)) hs)
  rw [List.map_map]
  refine Eq.trans (List.map_id _).symm (List.map_congr_left fun r hr => ?_)
  exact Prod.ext rfl (hall r hr)

end

section
variable {ν : Type} [DecidableEq ν]

theorem statsLoop_length (new : Pages IV → Except Err IV) (store : List IV → IV → Except Err IV) (missing : List IV) (targets : List ν) (l : OTbl ν)
    (s : Heap IV × OTbl ν) : (statsLoop new store missing targets s l).1.length = s.1.length := by
  induction l generalizing s with
  | nil => rfl
  | cons c l ih =>
    unfold statsLoop
    split
    · split
      · rfl
      · split
        · simp
        · rw [ih]; simp
    · rw [ih]

theorem imputeStat_length (srt : List IV → Option (List IV)) (same : IV → IV → Bool) (fmt : Rat → String) (store : List IV → IV → Except Err IV) (m : StatMethod)
    (missing : List IV) (targets : List ν) (h : Heap IV) (t : OTbl ν) : h.length ≤ (imputeStat srt same fmt store m missing targets h t).1.length := by
  unfold imputeStat
  split
  · rw [statsLoop_length]
    obtain ⟨L, h1, -⟩ := tCopy_new h t
    rw [h1, List.length_append]
    omega
  · exact Nat.le_refl _

/-- a filled column: only the new value itself can be missing; a most frequent value never is -/
theorem filled_left {m : StatMethod} {missing l l' : List IV} (h : Filled m missing l l') :
    l'.length = l.length ∧ ∃ v, IsStat m (present missing l) v ∧ (∀ x ∈ l', x ∈ missing → x = v) ∧ (m = .mode → ∀ x ∈ l', x ∉ missing) := by
  obtain ⟨v, hv, rfl⟩ := h
  have h1 : ∀ x ∈ l.map (fun x => if x ∈ missing then v else x), x ∈ missing → x = v := by
    intro x hx hm
    obtain ⟨y, hy, rfl⟩ := List.mem_map.1 hx
    by_cases hy : y ∈ missing
    · exact if_pos hy
    · rw [if_neg hy] at hm
      exact absurd hm hy
  refine ⟨by simp, v, hv, h1, ?_⟩
  rintro rfl x hx hm
  have := h1 x hx hm
  subst this
  exact absurd hm (by simpa [present] using (List.mem_filter.1 hv.1).2)

/-- **C125**: imputation with the mode leaves no missing value in a target, and a second imputation changes nothing. -/
theorem C125_mode_twice (srt : List IV → Option (List IV)) (hsrt : ∀ l s, srt l = some s → s.Perm l) (same : IV → IV → Bool) (hsame : ∀ p, Faithful same p) (fmt : Rat → String)
    (store : List IV → IV → Except Err IV) (missing : List IV) (targets : List ν) (h : Heap IV) (t : OTbl ν) (hw : OWF h t)
    (htg : ∀ x ∈ targets, x ∈ t.map (·.1)) (hi : ∀ c ∈ t, c.1 ∈ targets → Imputable .mode missing (colIter (colAt h c.2)) ∧
      ∀ p ∈ colAt h c.2, (∃ x ∈ p, x ∈ missing) → ∀ v, store p v = .ok v) :
    ∃ h1 h2, imputeStat srt same fmt store .mode missing targets h t = (h1, t, none) ∧
      imputeStat srt same fmt store .mode missing targets h1 t = (h2, t, none) ∧
      (∀ c ∈ t, c.1 ∈ targets → ∀ x ∈ colIter (colAt h1 c.2), x ∉ missing) ∧
      ∀ c ∈ t, colIter (colAt h2 c.2) = colIter (colAt h1 c.2) := by
  obtain ⟨h1, e1, f1⟩ := C78_partial srt hsrt same fmt store .mode missing targets h t hw htg
    (fun c hc hx => ⟨(hi c hc hx).1, fun p _ => hsame p, (hi c hc hx).2⟩)
  have hno : ∀ c ∈ t, c.1 ∈ targets → ∀ x ∈ colIter (colAt h1 c.2), x ∉ missing := by
    intro c hc hx
    have hf := f1 c hc
    rw [if_pos hx] at hf
    obtain ⟨-, v, -, -, g⟩ := filled_left hf
    exact g rfl
  have hlen : h.length ≤ h1.length := by
    have := imputeStat_length srt same fmt store .mode missing targets h t
    rw [e1] at this
    exact this
  obtain ⟨h2, e2, f2⟩ := C78_partial srt hsrt same fmt store .mode missing targets h1 t ⟨hw.1, hw.2.1, fun i hi => Nat.lt_of_lt_of_le (hw.2.2 i hi) hlen⟩ htg (by
    intro c hc hx
    refine ⟨?_, fun p _ => hsame p, ?_⟩
    · obtain ⟨T, hT, hne, hty, -⟩ := (hi c hc hx).1
      have hf := f1 c hc
      rw [if_pos hx] at hf
      have hno' := hno c hc hx
      obtain ⟨v, hv, e⟩ := hf
      have hp : present missing (colIter (colAt h1 c.2)) = colIter (colAt h1 c.2) := List.filter_eq_self.2 fun x hx' => by simpa using hno' x hx'
      refine ⟨T, hT, ?_, ?_, fun x hx' hm => absurd hm (hno' x hx')⟩
      · rw [hp, e]
        intro hnil
        exact hne (by rw [List.map_eq_nil_iff.1 hnil]; rfl)
      · rw [hp, e]
        intro x hx'
        obtain ⟨y, hy, rfl⟩ := List.mem_map.1 hx'
        split
        · exact hty v hv.1
        · rename_i hm
          exact hty y (List.mem_filter.2 ⟨hy, by simpa using hm⟩)
    · rintro p hp ⟨x, hxp, hm⟩
      refine absurd hm (hno c hc hx x ?_)
      rw [colIter_eq]
      exact List.mem_flatten.2 ⟨p, hp, hxp⟩)
  refine ⟨h1, h2, e1, e2, hno, fun c hc => ?_⟩
  have hf := f2 c hc
  split at hf
  · rename_i hx
    obtain ⟨v, -, e⟩ := hf
    rw [e]
    conv_rhs => rw [← List.map_id (colIter (colAt h1 c.2))]
    exact List.map_congr_left fun x hx' => if_neg (hno c hc hx x hx')
  · rw [hf]

/-- **C125**: imputation with the mean leaves missing values in a target only if the mean itself is a missing value. -/
theorem C125_mean_left (srt : List IV → Option (List IV)) (hsrt : ∀ l s, srt l = some s → s.Perm l) (same : IV → IV → Bool) (fmt : Rat → String)
    (store : List IV → IV → Except Err IV) (missing : List IV) (targets : List ν) (h : Heap IV) (t : OTbl ν) (hw : OWF h t)
    (htg : ∀ x ∈ targets, x ∈ t.map (·.1)) (hi : ∀ c ∈ t, c.1 ∈ targets → Imputable .mean missing (colIter (colAt h c.2)) ∧
      (∀ p ∈ colAt h c.2, Faithful same p) ∧ ∀ p ∈ colAt h c.2, (∃ x ∈ p, x ∈ missing) → ∀ v, store p v = .ok v) :
    ∃ h1, imputeStat srt same fmt store .mean missing targets h t = (h1, t, none) ∧
      ∀ c ∈ t, c.1 ∈ targets → ((∃ x ∈ colIter (colAt h1 c.2), x ∈ missing) ↔ (∃ x ∈ colIter (colAt h c.2), x ∈ missing) ∧
        IV.float (((present missing (colIter (colAt h c.2))).map IV.value).sum / (present missing (colIter (colAt h c.2))).length) ∈ missing) := by
  obtain ⟨h1, e1, f1⟩ := C78_partial srt hsrt same fmt store .mean missing targets h t hw htg hi
  refine ⟨h1, e1, fun c hc hx => ?_⟩
  have hf := f1 c hc
  rw [if_pos hx] at hf
  obtain ⟨v, hv, e⟩ := hf
  have hv' : v = IV.float (((present missing (colIter (colAt h c.2))).map IV.value).sum / (present missing (colIter (colAt h c.2))).length) := hv
  rw [← hv', e]
  constructor
  · rintro ⟨x, hx', hm⟩
    obtain ⟨y, hy, rfl⟩ := List.mem_map.1 hx'
    by_cases hym : y ∈ missing
    · rw [if_pos hym] at hm
      exact ⟨⟨y, hy, hym⟩, hm⟩
    · rw [if_neg hym] at hm
      exact absurd hm hym
  · rintro ⟨⟨y, hy, hym⟩, hm⟩
    exact ⟨v, List.mem_map.2 ⟨y, hy, if_pos hym⟩, hm⟩

end

/-- the full claim for replacements: a second run changes nothing -/
def C125_statement : Prop := ∀ (m : List (Nat × Nat)) (t : Tbl Nat Nat), (t.map (·.1)).Nodup → (m.map (·.1)).Nodup →
  tview (tblReplace m .all (tblReplace m .all t).1).1 = tview (tblReplace m .all t).1

/-- a mapping that swaps two values undoes itself -/
theorem C125_fails : ¬ C125_statement := by
  intro h
  have := h [(1, 2), (2, 1)] [(0, [[1]])] (by decide) (by decide)
  revert this
  decide

/-- carry forward over None (0 here) in an array of objects: two targets of three columns; the leading None stays -/
example : ∃ t1 t2, imputeCarry 2 (fun v : Nat => v == 0) (fun _ => .ok 0) [("a", [[0, 3], [0, 0]]), ("b", [[1, 0], [0, 2]]), ("c", [[0, 0], [1, 0]])] (.inr ["a", "b"]) = .ok t1 ∧
    imputeCarry 2 (fun v : Nat => v == 0) (fun _ => .ok 0) t1 (.inr ["a", "b"]) = .ok t2 ∧ tview t2 = tview t1 :=
  C125_carry_twice 2 (by decide) _ _ _ _ (by unfold TblWF; decide) (by decide) (fun _ => 0) (fun _ _ _ _ _ _ => ⟨rfl, fun _ _ _ => rfl⟩)

example : (imputeCarry 2 (fun v : Nat => v == 0) (fun _ => .ok 0) [("a", [[0, 3], [0, 0]]), ("b", [[1, 0], [0, 2]]), ("c", [[0, 0], [1, 0]])] (.inr ["a", "b"])).map tview =
    .ok [("a", [0, 3, 3, 3]), ("b", [1, 1, 1, 2]), ("c", [0, 0, 1, 0])] := by decide +kernel

example : tview (tblReplace [(2, 3)] .all (tblReplace [(1, 2)] .all [((0 : Nat), [[1], [2, 5]])]).1).1 = [(0, [3, 3, 5])] := by decide

/-- one block of equal rows -/
def equalAll (t1 t2 : List (List GVal)) : List Opcode := [⟨.equal, 0, t1.length, 0, t2.length⟩]

example : Covers (· = ·) [[GVal.int 1], [.int 2]] [[GVal.int 1], [.int 2]] 0 0 (equalAll [[GVal.int 1], [.int 2]] [[GVal.int 1], [.int 2]]) := by
  refine .equal 0 2 0 2 [] (by omega) (by decide) (by omega) (by decide) ?_ .done
  simp

example : viewOf (diff 10 suffixed (npArray npText) equalAll .none markText "1st" "2nd" [("a", [[.int 1, .int 2]]), ("b", [[.int 3], [.int 4]])] [("a", [[.int 1, .int 2]]), ("b", [[.int 3], [.int 4]])] none) =
    [("a", [.int 1, .int 2]), ("b", [.int 3, .int 4]), ("1st", [.str "=", .str "="]), ("2nd", [.str "=", .str "="])] := by decide +kernel

/-- a column that meets the hypotheses of `C125_mode_twice`, and two imputations of it -/
example : Imputable .mode [.none] (colIter [[.int 1, .none], [.int 3, .int 3]]) :=
  ⟨.int, .inl rfl, by decide, by decide, fun x _ hm ht => by
    simp only [List.mem_singleton] at hm
    subst hm
    simp [IV.ty] at ht⟩

example : imputeStat (fun _ => none) (fun a b => decide (a = b)) (fun _ => "") (fun _ v => .ok v) .mode [.none] ["a"] [[[.int 1, .none], [.int 3, .int 3]]] [("a", 0)] =
    ([[[.int 1, .int 3], [.int 3, .int 3]], [[.int 1, .none], [.int 3, .int 3]]], [("a", 0)], none) := by decide +kernel

end Tablite
