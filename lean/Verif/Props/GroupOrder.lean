import Verif.Props.GroupLaws
/-!
# C120: group-by and the order of rows, selections of rows, and parts of tables

No new model.
-/

namespace Tablite

set_option linter.unusedSectionVars false

/-! ## accumulators and the order of values -/

theorem foldlM_perm {σ α : Type} (upd : σ → α → Except Err σ)
    (hc : ∀ s a b r, ((upd s a).bind fun x => upd x b) = .ok r → ((upd s b).bind fun x => upd x a) = .ok r)
    {l m : List α} (p : l.Perm m) : ∀ s r, l.foldlM upd s = .ok r → m.foldlM upd s = .ok r := by
  induction p with
  | nil => exact fun _ _ h => h
  | cons a _ ih =>
    intro s r h
    rw [List.foldlM_cons] at h ⊢
    obtain ⟨x, h1, h2⟩ := ebind_ok h
    rw [h1]
    exact ih x r h2
  | swap a b l =>
    intro s r h
    rw [List.foldlM_cons] at h
    obtain ⟨x, h1, h2⟩ := ebind_ok h
    rw [List.foldlM_cons] at h2
    obtain ⟨y, h3, h4⟩ := ebind_ok h2
    have := hc s b a y (by rw [h1]; exact h3)
    obtain ⟨z, z1, z2⟩ := ebind_ok this
    rw [List.foldlM_cons, z1]
    show List.foldlM upd z (b :: l) = _
    rw [List.foldlM_cons, z2]
    exact h4
  | trans _ _ ih1 ih2 => exact fun s r h => ih2 s r (ih1 s r h)

theorem sumUpdate_comm (s : AState) (a b : GVal) (r : AState) (h : ((sumUpdate s a).bind fun x => sumUpdate x b) = .ok r) :
    ((sumUpdate s b).bind fun x => sumUpdate x a) = .ok r := by
  unfold sumUpdate at *
  cases ha : a.unsupported <;> cases hb : b.unsupported <;> simp [ha, hb, Except.bind] at h ⊢
  rw [← h]
  congr 1
  ring

theorem productUpdate_comm (s : AState) (a b : GVal) (r : AState) (h : ((productUpdate s a).bind fun x => productUpdate x b) = .ok r) :
    ((productUpdate s b).bind fun x => productUpdate x a) = .ok r := by
  unfold productUpdate at *
  cases ha : a.unsupported <;> cases hb : b.unsupported <;> simp [ha, hb, Except.bind] at h ⊢
  rw [← h]
  congr 1
  ring

theorem averageUpdate_comm (s : AState) (a b : GVal) (r : AState) (h : ((averageUpdate s a).bind fun x => averageUpdate x b) = .ok r) :
    ((averageUpdate s b).bind fun x => averageUpdate x a) = .ok r := by
  unfold averageUpdate at *
  cases ha : a.unsupported <;> cases hb : b.unsupported <;> cases na : a.num? <;> cases nb : b.num? <;>
    simp [ha, hb, na, nb, Except.bind, bind] at h ⊢
  rw [← h]
  congr 1
  · congr 2
    ring
  · ring

theorem stdevUpdate_comm (s : AState) (a b : GVal) (r : AState) (h : ((stdevUpdate s a).bind fun x => stdevUpdate x b) = .ok r) :
    ((stdevUpdate s b).bind fun x => stdevUpdate x a) = .ok r := by
  unfold stdevUpdate at *
  cases ha : a.unsupported <;> cases hb : b.unsupported <;> cases na : a.num? <;> cases nb : b.num? <;>
    simp [ha, hb, na, nb, Except.bind, bind] at h ⊢
  rename_i x y
  rw [← h]
  have h1 : (s.count : Rat) + 1 ≠ 0 := by positivity
  have h2 : (s.count : Rat) + 1 + 1 ≠ 0 := by positivity
  congr 1
  · field_simp
    ring
  · field_simp
    ring

theorem limitUpdate_comm (better : GVal → GVal → Bool) (hasym : ∀ a b, better a b = true → better b a = false)
    (hanti : ∀ a b : GVal, a.kind = b.kind → better a b = false → better b a = false → a = b)
    (htr : ∀ a b c : GVal, a.kind = b.kind → b.kind = c.kind → better a b = false → better b c = false → better a c = false)
    (s : AState) (a b : GVal) (r : AState) (h : ((limitUpdate better s a).bind fun x => limitUpdate better x b) = .ok r) :
    ((limitUpdate better s b).bind fun x => limitUpdate better x a) = .ok r := by
  unfold limitUpdate at *
  cases hv : s.value with
  | none =>
    simp only [hv, Except.bind] at h ⊢
    by_cases hk : a.kind = b.kind
    · rw [if_pos hk] at h
      rw [if_pos hk.symm]
      cases h1 : better b a <;> cases h2 : better a b <;> simp [h1, h2] at h ⊢
      · rw [hanti a b hk h2 h1] at h; exact h
      · exact h
      · exact h
      · rw [hasym _ _ h1] at h2; cases h2
    · rw [if_neg hk] at h
      cases h
  | some cur =>
    simp only [hv] at h ⊢
    by_cases ka : cur.kind = a.kind
    · rw [if_pos ka] at h
      by_cases kb : cur.kind = b.kind
      · rw [if_pos kb]
        have kab : a.kind = b.kind := ka.symm.trans kb
        cases h1 : better a cur <;> cases h2 : better b cur <;> simp [h1, h2, hv, Except.bind, kb, kab] at h ⊢
        · exact h
        · have h3 : better a b = false := htr a cur b ka.symm kb h1 (hasym _ _ h2)
          rw [h3]; exact h
        · have h3 : better b a = false := htr b cur a kb.symm ka h2 (hasym _ _ h1)
          rw [h3] at h; exact h
        · cases h3 : better b a <;> cases h4 : better a b <;> simp [h3, h4] at h ⊢
          · rw [hanti a b kab h4 h3] at h; exact h
          · exact h
          · exact h
          · rw [hasym _ _ h3] at h4; cases h4
      · exfalso
        simp only [Except.bind] at h
        cases h1 : better a cur
        · simp [h1, hv, kb] at h
        · simp [h1, ← ka, kb] at h
    · rw [if_neg ka] at h
      cases h

theorem firstOccs_perm {κ : Type} [DecidableEq κ] {l m : List κ} (p : l.Perm m) : (firstOccs l).Perm (firstOccs m) :=
  (List.perm_ext_iff_of_nodup (nodup_firstOccs l) (nodup_firstOccs m)).2 fun a => by rw [mem_firstOccs, mem_firstOccs, p.mem_iff]

/-- an int and a float of the same number do not both occur -/
def NoTwin (l : List GVal) : Prop := ∀ n : Int, .int n ∈ l → GVal.float n ∉ l

theorem NoTwin.perm {l m : List GVal} (p : l.Perm m) (h : NoTwin l) : NoTwin m := fun n h1 h2 => h n (p.mem_iff.2 h1) (p.mem_iff.2 h2)

/-- the values of one parity are told apart by their number, apart from texts -/
theorem eq_of_float {l : List GVal} (h : NoTwin l) {a b : GVal} (ha : a ∈ l) (hb : b ∈ l) (hs : a.isStr = false) (hp : a.parity = b.parity) (hf : a.toFloat = b.toFloat) : a = b := by
  cases a <;> cases b <;> simp [GVal.parity, GVal.toFloat, GVal.isStr] at * <;> try exact hf
  · rename_i x y
    cases x <;> cases y <;> simp at hf ⊢
  · rename_i n q
    subst hf
    exact h n ha hb
  · rename_i q n
    subst hf
    exact h n hb ha

theorem hist_perm {l m : List GVal} (p : l.Perm m) :
    ((firstOccs l).map fun k => (k, timesIn l k)).Perm ((firstOccs m).map fun k => (k, timesIn m k)) := by
  have e : (fun k => (k, timesIn l k)) = fun k => (k, timesIn m k) := by
    funext k
    congr 1
    exact (p.filter _).length_eq
  rw [e]
  exact (firstOccs_perm p).map _

theorem cmpHistText_total (a b : GVal × Nat) : cmpHistText a b = true ∨ cmpHistText b a = true := by
  unfold cmpHistText
  rcases lt_trichotomy a.1.text b.1.text with h | h | h
  · simp [h]
  · simp [h]; exact Nat.le_total _ _
  · simp [h]

theorem cmpHistText_trans (a b c : GVal × Nat) (h1 : cmpHistText a b = true) (h2 : cmpHistText b c = true) : cmpHistText a c = true := by
  unfold cmpHistText at *
  simp only [Bool.or_eq_true, Bool.and_eq_true, decide_eq_true_eq] at *
  rcases h1 with h1 | ⟨e1, h1⟩
  · rcases h2 with h2 | ⟨e2, _⟩
    · left; exact lt_trans h1 h2
    · left; rw [← e2]; exact h1
  · rcases h2 with h2 | ⟨e2, h2⟩
    · left; rw [e1]; exact h2
    · right; exact ⟨e1.trans e2, by omega⟩

instance : Std.Total (fun a b : GVal × Nat => cmpHistText a b = true) := ⟨cmpHistText_total⟩
instance : IsTrans (GVal × Nat) (fun a b => cmpHistText a b = true) := ⟨cmpHistText_trans⟩

theorem insertionSort_perm_eq (c : GVal × Nat → GVal × Nat → Bool) [Std.Total fun a b => c a b = true] [IsTrans _ fun a b => c a b = true] {h h' : List (GVal × Nat)} (p : h.Perm h')
    (ha : ∀ a ∈ h, ∀ b ∈ h, c a b = true → c b a = true → a = b) :
    h.insertionSort (fun a b => c a b = true) = h'.insertionSort (fun a b => c a b = true) := by
  apply List.Perm.eq_of_pairwise (le := fun a b => c a b = true)
  · intro a b h1 h2
    rw [List.mem_insertionSort] at h1 h2
    exact ha a h1 b (p.mem_iff.2 h2)
  · exact List.pairwise_insertionSort _ _
  · exact List.pairwise_insertionSort _ _
  · exact (List.perm_insertionSort _ _).trans (p.trans (List.perm_insertionSort _ _).symm)

theorem text_inj {a b : GVal} (ha : a.isStr = true) (hb : b.isStr = true) (h : a.text = b.text) : a = b := by
  cases a <;> cases b <;> simp [GVal.isStr, GVal.text] at *
  exact h

section
variable {l : List GVal} {h h' : List (GVal × Nat)}

theorem sortedHist_perm (ht : NoTwin l) (hm : ∀ e ∈ h, e.1 ∈ l) (p : h.Perm h') : sortedHist h = sortedHist h' := by
  unfold sortedHist
  congr 1
  · refine insertionSort_perm_eq cmpHist (p.filter _) ?_
    intro a ha b hb h1 h2
    obtain ⟨ha, hsa⟩ := List.mem_filter.1 ha
    obtain ⟨hb, hsb⟩ := List.mem_filter.1 hb
    unfold cmpHist at h1 h2
    simp only [Bool.or_eq_true, Bool.and_eq_true, decide_eq_true_eq] at h1 h2
    have hp : a.1.parity = b.1.parity := by rcases h1 with h1 | h1 <;> rcases h2 with h2 | h2 <;> omega
    simp only [hp, lt_irrefl, false_or, true_and] at h1 h2
    have hf : a.1.toFloat = b.1.toFloat := by
      rcases h1 with h1 | h1 <;> rcases h2 with h2 | h2
      · exact absurd (lt_trans h1 h2) (lt_irrefl _)
      · exact h2.1.symm
      · exact h1.1
      · exact h1.1
    simp only [hf, lt_irrefl, false_or, true_and] at h1 h2
    exact Prod.ext (eq_of_float ht (hm a ha) (hm b hb) (by simpa using hsa) hp hf) (Nat.le_antisymm h1 h2)
  · refine insertionSort_perm_eq cmpHistText (p.filter _) ?_
    intro a ha b hb h1 h2
    obtain ⟨ha, hsa⟩ := List.mem_filter.1 ha
    obtain ⟨hb, hsb⟩ := List.mem_filter.1 hb
    unfold cmpHistText at h1 h2
    simp only [Bool.or_eq_true, Bool.and_eq_true, decide_eq_true_eq] at h1 h2
    have hf : a.1.text = b.1.text := by
      rcases h1 with h1 | h1 <;> rcases h2 with h2 | h2
      · exact absurd (lt_trans h1 h2) (lt_irrefl _)
      · exact h2.1.symm
      · exact h1.1
      · exact h1.1
    simp only [hf, lt_irrefl, false_or, true_and] at h1 h2
    exact Prod.ext (text_inj hsa hsb hf) (Nat.le_antisymm h1 h2)

theorem sortedMode_perm (ht : NoTwin l) (hm : ∀ e ∈ h, e.1 ∈ l) (p : h.Perm h') : sortedMode h = sortedMode h' := by
  unfold sortedMode
  congr 1
  · refine insertionSort_perm_eq cmpMode (p.filter _) ?_
    intro a ha b hb h1 h2
    obtain ⟨ha, hsa⟩ := List.mem_filter.1 ha
    obtain ⟨hb, hsb⟩ := List.mem_filter.1 hb
    unfold cmpMode at h1 h2
    simp only [Bool.or_eq_true, Bool.and_eq_true, decide_eq_true_eq] at h1 h2
    have hc : a.2 = b.2 := by rcases h1 with h1 | h1 <;> rcases h2 with h2 | h2 <;> omega
    simp only [hc, lt_irrefl, false_or, true_and] at h1 h2
    have hp : a.1.parity = b.1.parity := by rcases h1 with h1 | h1 <;> rcases h2 with h2 | h2 <;> omega
    simp only [hp, lt_irrefl, false_or, true_and] at h1 h2
    exact Prod.ext (eq_of_float ht (hm a ha) (hm b hb) (by simpa using hsa) hp (le_antisymm h2 h1)) hc
  · refine insertionSort_perm_eq cmpModeText (p.filter _) ?_
    intro a ha b hb h1 h2
    obtain ⟨ha, hsa⟩ := List.mem_filter.1 ha
    obtain ⟨hb, hsb⟩ := List.mem_filter.1 hb
    unfold cmpModeText at h1 h2
    simp only [Bool.or_eq_true, Bool.and_eq_true, decide_eq_true_eq] at h1 h2
    have hc : a.2 = b.2 := by rcases h1 with h1 | h1 <;> rcases h2 with h2 | h2 <;> omega
    simp only [hc, lt_irrefl, false_or, true_and] at h1 h2
    exact Prod.ext (text_inj hsa hsb (le_antisymm h2 h1)) hc

theorem medianValue_perm (ht : NoTwin l) (hm : ∀ e ∈ h, e.1 ∈ l) (p : h.Perm h') : medianValue h = medianValue h' := by
  have hs : (h.map (·.2)).sum = (h'.map (·.2)).sum := (p.map _).sum_eq
  unfold medianValue
  rw [hs, sortedHist_perm ht hm p, p.length_eq]
  match h, h', p with
  | [], h', p => rw [List.nil_perm.1 p]
  | [x], h', p => rw [List.singleton_perm.1 p]
  | x :: y :: t, [], p => exact absurd p.length_eq (by simp)
  | x :: y :: t, [z], p => exact absurd p.length_eq (by simp)
  | x :: y :: t, z :: w :: u, p => rfl

end

/-- an accumulator gives the same value in every order of the values: all but `first` and `last`; `median` and `mode` unless an int and a float of the same
number occur -/
theorem accRun_perm (sqrt : Rat → Rat) (f : Acc) {l m : List GVal} (p : l.Perm m) (hf : f ≠ .first ∧ f ≠ .last) (ht : f = .median ∨ f = .mode → NoTwin l)
    (v : GVal) (h : accRun sqrt f l = .ok v) : accRun sqrt f m = .ok v := by
  have fold : (∀ s a b r, ((accUpdate f s a).bind fun x => accUpdate f x b) = .ok r → ((accUpdate f s b).bind fun x => accUpdate f x a) = .ok r) →
      accRun sqrt f m = .ok v := by
    intro hc
    unfold accRun at h ⊢
    obtain ⟨s, s1, s2⟩ := ebind_ok h
    rw [foldlM_perm _ hc p _ _ s1]
    exact s2
  have hmem : ∀ e ∈ (firstOccs l).map fun k => (k, timesIn l k), e.1 ∈ l := by
    intro e he
    obtain ⟨k, hk, rfl⟩ := List.mem_map.1 he
    exact mem_firstOccs.1 hk
  cases f with
  | max =>
    exact fold (limitUpdate_comm (fun a b => GVal.lt b a) (fun a b h => lt_asymm' h) (fun a b hk h1 h2 => lt_antisymm' hk h2 h1)
      (fun a b c h1 h2 h3 h4 => lt_neg_trans h2.symm h1.symm h4 h3))
  | min =>
    exact fold (limitUpdate_comm (fun a b => GVal.lt a b) (fun a b h => lt_asymm' h) (fun a b hk h1 h2 => lt_antisymm' hk h1 h2)
      (fun a b c h1 h2 h3 h4 => lt_neg_trans h1 h2 h3 h4))
  | sum => exact fold sumUpdate_comm
  | product => exact fold productUpdate_comm
  | average => exact fold averageUpdate_comm
  | stdev => exact fold stdevUpdate_comm
  | first => exact absurd rfl hf.1
  | last => exact absurd rfl hf.2
  | count => rw [C34_count] at h ⊢; rw [← p.length_eq]; exact h
  | countUnique => rw [C34_count_unique] at h ⊢; rw [← (firstOccs_perm (p.map sameAs)).length_eq]; exact h
  | median =>
    obtain ⟨s, s1, s2⟩ := hist_run .median (Or.inl rfl) l
    obtain ⟨s', s3, s4⟩ := hist_run .median (Or.inl rfl) m
    unfold accRun at h ⊢
    rw [s1] at h
    rw [s3]
    have h : accValue sqrt .median s = .ok v := h
    show accValue sqrt .median s' = .ok v
    unfold accValue at h ⊢
    rw [s4, ← medianValue_perm (ht (Or.inl rfl)) hmem (hist_perm p), ← s2]
    exact h
  | mode =>
    obtain ⟨s, s1, s2⟩ := hist_run .mode (Or.inr rfl) l
    obtain ⟨s', s3, s4⟩ := hist_run .mode (Or.inr rfl) m
    unfold accRun at h ⊢
    rw [s1] at h
    rw [s3]
    have h : accValue sqrt .mode s = .ok v := h
    show accValue sqrt .mode s' = .ok v
    unfold accValue at h ⊢
    rw [s4, ← sortedMode_perm (ht (Or.inr rfl)) hmem (hist_perm p), ← s2]
    exact h

/-! ## the rows of a group-by -/

/-- the rows `G` are the groups of the rows `R` by their first `kl` values: one for each key in the order of first occurrences, with the key and the values of the
functions `fs` on the following columns of the rows of the key -/
def GroupsOf (sqrt : Rat → Rat) (R : List (List GVal)) (kl : Nat) (fs : List Acc) (G : List (List GVal)) : Prop :=
  List.Forall₂ (fun k r => ∃ vs, r = k ++ vs ∧
      List.Forall₂ (fun (f : Acc × Nat) v => accRun sqrt f.1 ((R.filter fun x => x.take kl = k).map fun x => x.getD (kl + f.2) .none) = .ok v) fs.zipIdx vs)
    (firstOccs (R.map fun x => x.take kl)) G

section
variable {ν : Type} [DecidableEq ν]

/-- the names of the columns of a group-by -/
def groupNames (nm : Acc → ν → ν) (keys : List ν) (fs : List (ν × Acc)) : List ν := keys ++ fs.map fun f => nm f.2 f.1

theorem keyRows_take (t : Tbl ν GVal) (keys more : List ν) (n : Nat) :
    (keyRows GVal.none t (keys ++ more) n).map (fun x => x.take keys.length) = keyRows GVal.none t keys n := by
  unfold keyRows
  rw [List.map_map]
  apply List.map_congr_left
  intro i _
  simp only [Function.comp, List.map_append]
  rw [List.take_left' (by simp)]

theorem keyRows_group (t : Tbl ν GVal) (keys : List ν) (fs : List (ν × Acc)) (n : Nat) (k : List GVal) (j : Nat) (hj : j < fs.length) :
    ((keyRows GVal.none t (keys ++ fs.map (·.1)) n).filter fun x => x.take keys.length = k).map (fun x => x.getD (keys.length + j) .none) =
      (rowsWith .none t keys n k).map fun i => cell .none t fs[j].1 i := by
  unfold keyRows rowsWith
  rw [List.filter_map, List.map_map]
  have hp : ((fun x : List GVal => decide (x.take keys.length = k)) ∘ fun i => (keys ++ fs.map (·.1)).map fun a => cell .none t a i) =
      fun i => decide (keyAt .none t keys i = k) := by
    funext i
    simp only [Function.comp, List.map_append]
    rw [List.take_left' (by simp)]
    rfl
  rw [hp]
  apply List.map_congr_left
  intro i _
  simp only [Function.comp, List.map_append, List.getD_eq_getElem?_getD]
  rw [List.getElem?_append_right (by simp)]
  simp [hj]

theorem Forall2_of_map {ι γ : Type} {P : ι → γ → Prop} (l : List ι) (f : ι → γ) (h : ∀ x ∈ l, P x (f x)) : List.Forall₂ P l (l.map f) := by
  induction l with
  | nil => exact .nil
  | cons a l ih => exact .cons (h a (by simp)) (ih fun x hx => h x (by simp [hx]))

/-- the value of an accumulator, or None -/
def valueOr (x : Except Err GVal) : GVal := match x with | .ok v => v | .error _ => .none

/-- a group-by gives the rows of `GroupsOf`, exactly if there are such rows -/
theorem groupby_rows (sqrt : Rat → Rat) (nm : Acc → ν → ν) (ps : Nat) (hps : 0 < ps) (t : Tbl ν GVal) (L : List Nat) (keys : List ν) (fs : List (ν × Acc))
    (ha : AlignedOn t L (keys ++ fs.map (·.1))) (hsome : keys.length + fs.length ≠ 0) (hnd : (groupNames nm keys fs).Nodup) :
    (∀ g, groupbyG sqrt nm ps t keys fs = .ok g → ∃ G, tblRows .none g = .ok G ∧ g.map (·.1) = groupNames nm keys fs ∧
      GroupsOf sqrt (keyRows .none t (keys ++ fs.map (·.1)) L.sum) keys.length (fs.map (·.2)) G) ∧
    ((∃ G, GroupsOf sqrt (keyRows .none t (keys ++ fs.map (·.1)) L.sum) keys.length (fs.map (·.2)) G) → ∃ g, groupbyG sqrt nm ps t keys fs = .ok g) := by
  constructor
  · intro g hg
    have hok : ∀ f ∈ fs, ∀ k ∈ keyRows GVal.none t keys L.sum, ∃ v, aggOf accInit accUpdate (accValue sqrt) f.2 ((rowsWith .none t keys L.sum k).map fun i => cell .none t f.1 i) = .ok v := by
      intro f hf k hk
      cases he : aggOf accInit accUpdate (accValue sqrt) f.2 ((rowsWith .none t keys L.sum k).map fun i => cell .none t f.1 i) with
      | ok v => exact ⟨v, rfl⟩
      | error e =>
        obtain ⟨e', h'⟩ := C33_raises .none accInit accUpdate (accValue sqrt) nm ps t L keys fs ha f hf k hk e he
        rw [show groupby _ _ _ _ _ _ _ _ _ = _ from hg] at h'
        cases h'
    let agg : ν × Acc → List GVal → GVal := fun f k =>
      valueOr (aggOf accInit accUpdate (accValue sqrt) f.2 ((rowsWith .none t keys L.sum k).map fun i => cell .none t f.1 i))
    have hagg : ∀ f ∈ fs, ∀ k ∈ keyRows GVal.none t keys L.sum, aggOf accInit accUpdate (accValue sqrt) f.2 ((rowsWith .none t keys L.sum k).map fun i => cell .none t f.1 i) = .ok (agg f k) := by
      intro f hf k hk
      obtain ⟨v, hv⟩ := hok f hf k hk
      show _ = Except.ok (valueOr _)
      rw [hv]
      rfl
    obtain ⟨g', g1, g2⟩ := C33_partial .none accInit accUpdate (accValue sqrt) nm ps hps t L keys fs ha hsome hnd agg hagg
    rw [show groupby _ _ _ _ _ _ _ _ _ = _ from hg] at g1
    injection g1 with g1
    subst g1
    have hnames : g.map (·.1) = groupNames nm keys fs := by
      rw [← names_tview, g2]
      unfold groupView groupNames
      rw [List.map_append, List.map_map, List.map_map]
      congr 1
      have : ((fun (x : ν × List GVal) => x.1) ∘ fun (k : ν × Nat) => (k.1, (firstOccs (keyRows .none t keys L.sum)).map fun key => key.getD k.2 .none)) = Prod.fst := rfl
      rw [this, List.zipIdx_map_fst]
    have hfk : ∀ k ∈ firstOccs (keyRows GVal.none t keys L.sum), k.length = keys.length := by
      intro k hk
      obtain ⟨i, -, rfl⟩ := List.mem_map.1 (mem_firstOccs.1 hk)
      simp
    generalize hF : firstOccs (keyRows GVal.none t keys L.sum) = F at *
    have hlen : ∀ c ∈ tview g, c.2.length = F.length := by
      rw [g2]
      unfold groupView
      rw [hF]
      intro c hc
      rcases List.mem_append.1 hc with hc | hc <;> obtain ⟨x, -, rfl⟩ := List.mem_map.1 hc <;> simp
    have hgne : g ≠ [] := by
      rintro rfl
      have := congrArg List.length hnames
      simp [groupNames] at this
      omega
    have htl : tblLen g = F.length := by
      obtain ⟨c, hc, hcl⟩ := (C15_len g).2 hgne
      rw [← hcl]
      exact hlen (c.1, colIter c.2) (List.mem_map.2 ⟨c, hc, rfl⟩)
    refine ⟨F.map fun k => k ++ fs.map fun f => agg f k, ?_, hnames, ?_⟩
    · rw [C15_rows, htl]
      congr 1
      apply List.ext_getElem
      · simp
      · intro j h1 h2
        have hj : j < F.length := by simpa using h1
        rw [List.getElem_map, List.getElem_map, List.getElem_range]
        have e1 : (g.map fun c => (colIter c.2).getD j GVal.none) = (tview g).map fun c => c.2.getD j .none := by
          unfold tview
          rw [List.map_map]
          rfl
        rw [e1, g2]
        unfold groupView
        rw [hF, List.map_append, List.map_map, List.map_map]
        congr 1
        · apply List.ext_getElem
          · simp [hfk _ (List.getElem_mem hj)]
          · intro i h3 h4
            have hi : i < keys.length := by simpa using h3
            have hi2 : i < F[j].length := by rw [hfk _ (List.getElem_mem hj)]; exact hi
            simp [List.getD_eq_getElem?_getD, hj, hi2]
        · apply List.map_congr_left
          intro f _
          simp [Function.comp, List.getD_eq_getElem?_getD, hj]
    · unfold GroupsOf
      rw [keyRows_take, hF]
      apply Forall2_of_map
      intro k hk
      refine ⟨_, rfl, ?_⟩
      have hk' : k ∈ keyRows GVal.none t keys L.sum := by rw [← mem_firstOccs, hF]; exact hk
      rw [List.forall₂_iff_get]
      refine ⟨by simp, ?_⟩
      intro i h1 h2
      have hi : i < fs.length := by simpa using h2
      have e := keyRows_group t keys fs L.sum k i hi
      simp only [List.get_eq_getElem, List.getElem_zipIdx, List.getElem_map, Nat.zero_add]
      rw [e]
      exact hagg fs[i] (List.getElem_mem hi) k hk'
  · rintro ⟨G, hG⟩
    unfold GroupsOf at hG
    rw [keyRows_take] at hG
    have hok : ∀ f ∈ fs, ∀ k ∈ keyRows GVal.none t keys L.sum, ∃ v, aggOf accInit accUpdate (accValue sqrt) f.2 ((rowsWith .none t keys L.sum k).map fun i => cell .none t f.1 i) = .ok v := by
      intro f hf k hk
      obtain ⟨i, hi, rfl⟩ := List.getElem_of_mem (mem_firstOccs.2 hk)
      obtain ⟨hl, hall⟩ := List.forall₂_iff_get.1 hG
      obtain ⟨vs, -, hvs⟩ := hall i hi (hl ▸ hi)
      obtain ⟨j, hj, rfl⟩ := List.getElem_of_mem hf
      obtain ⟨hl2, hall2⟩ := List.forall₂_iff_get.1 hvs
      have hj2 : j < (fs.map (·.2)).zipIdx.length := by simpa using hj
      have := hall2 j hj2 (hl2 ▸ hj2)
      simp only [List.get_eq_getElem, List.getElem_zipIdx, List.getElem_map, Nat.zero_add] at this
      rw [keyRows_group t keys fs L.sum _ j hj] at this
      exact ⟨_, this⟩
    obtain ⟨g', g1, -⟩ := C33_partial .none accInit accUpdate (accValue sqrt) nm ps hps t L keys fs ha hsome hnd (fun f k =>
      valueOr (aggOf accInit accUpdate (accValue sqrt) f.2 ((rowsWith .none t keys L.sum k).map fun i => cell .none t f.1 i))) (by
        intro f hf k hk
        obtain ⟨v, hv⟩ := hok f hf k hk
        rw [hv]
        rfl)
    exact ⟨g', g1⟩

end

/-! ## laws of `GroupsOf` -/

/-- the values of function `f` in the group of `k` -/
def groupValues (R : List (List GVal)) (kl : Nat) (k : List GVal) (j : Nat) : List GVal := (R.filter fun x => x.take kl = k).map fun x => x.getD (kl + j) .none

/-- the row of a group -/
def groupRowOf (sqrt : Rat → Rat) (R : List (List GVal)) (kl : Nat) (fs : List Acc) (k : List GVal) : List GVal :=
  k ++ fs.zipIdx.map fun f => valueOr (accRun sqrt f.1 (groupValues R kl k f.2))

theorem GroupsOf_iff (sqrt : Rat → Rat) (R : List (List GVal)) (kl : Nat) (fs : List Acc) (G : List (List GVal)) :
    GroupsOf sqrt R kl fs G ↔ (∀ k ∈ R.map fun x => x.take kl, ∀ f ∈ fs.zipIdx, ∃ v, accRun sqrt f.1 (groupValues R kl k f.2) = .ok v) ∧
      G = (firstOccs (R.map fun x => x.take kl)).map (groupRowOf sqrt R kl fs) := by
  have inner : ∀ (l : List (Acc × Nat)) (k : List GVal) (vs : List GVal), List.Forall₂ (fun (f : Acc × Nat) v => accRun sqrt f.1 (groupValues R kl k f.2) = .ok v) l vs ↔
      (∀ f ∈ l, ∃ v, accRun sqrt f.1 (groupValues R kl k f.2) = .ok v) ∧ vs = l.map fun f => valueOr (accRun sqrt f.1 (groupValues R kl k f.2)) := by
    intro l k
    induction l with
    | nil => intro vs; simp
    | cons a l ih =>
      intro vs
      constructor
      · intro h
        cases h with
        | cons h1 h2 =>
          obtain ⟨i1, i2⟩ := (ih _).1 h2
          refine ⟨?_, ?_⟩
          · intro f hf
            rcases List.mem_cons.1 hf with rfl | hf
            · exact ⟨_, h1⟩
            · exact i1 f hf
          · rw [List.map_cons, ← i2, h1]
            rfl
      · rintro ⟨h1, rfl⟩
        obtain ⟨v, hv⟩ := h1 a (by simp)
        refine .cons ?_ ((ih _).2 ⟨fun f hf => h1 f (by simp [hf]), rfl⟩)
        dsimp only
        rw [hv]
        rfl
  have outer : ∀ (F G : List (List GVal)), List.Forall₂ (fun k r => ∃ vs, r = k ++ vs ∧
      List.Forall₂ (fun (f : Acc × Nat) v => accRun sqrt f.1 (groupValues R kl k f.2) = .ok v) fs.zipIdx vs) F G ↔
      (∀ k ∈ F, ∀ f ∈ fs.zipIdx, ∃ v, accRun sqrt f.1 (groupValues R kl k f.2) = .ok v) ∧ G = F.map (groupRowOf sqrt R kl fs) := by
    intro F
    induction F with
    | nil => intro G; simp
    | cons k F ih =>
      intro G
      constructor
      · intro h
        cases h with
        | cons h1 h2 =>
          obtain ⟨vs, rfl, hvs⟩ := h1
          obtain ⟨j1, j2⟩ := (inner _ _ _).1 hvs
          obtain ⟨i1, i2⟩ := (ih _).1 h2
          refine ⟨?_, ?_⟩
          · intro k' hk'
            rcases List.mem_cons.1 hk' with rfl | hk'
            · exact j1
            · exact i1 k' hk'
          · rw [List.map_cons, ← i2, j2]
            rfl
      · rintro ⟨h1, rfl⟩
        refine .cons ⟨_, rfl, (inner _ _ _).2 ⟨h1 k (by simp), rfl⟩⟩ ((ih _).2 ⟨fun k' hk' => h1 k' (by simp [hk']), rfl⟩)
  refine (outer _ G).trans ?_
  simp only [mem_firstOccs]

/-- rows in another order -/
theorem GroupsOf_perm (sqrt : Rat → Rat) {R S : List (List GVal)} (p : R.Perm S) (kl : Nat) (fs : List Acc) (hf : ∀ f ∈ fs, f ≠ .first ∧ f ≠ .last)
    (ht : ∀ f ∈ fs.zipIdx, f.1 = .median ∨ f.1 = .mode → NoTwin (R.map fun x => x.getD (kl + f.2) .none)) (G : List (List GVal)) (h : GroupsOf sqrt R kl fs G) :
    ∃ H, GroupsOf sqrt S kl fs H ∧ G.Perm H := by
  obtain ⟨h1, rfl⟩ := (GroupsOf_iff ..).1 h
  have hv : ∀ k ∈ R.map fun x => x.take kl, ∀ f ∈ fs.zipIdx, ∀ v, accRun sqrt f.1 (groupValues R kl k f.2) = .ok v → accRun sqrt f.1 (groupValues S kl k f.2) = .ok v := by
    intro k hk f hfm v hv
    refine accRun_perm sqrt f.1 ((p.filter _).map _) (hf f.1 ?_) ?_ v hv
    · have := List.mem_map_of_mem (f := Prod.fst) hfm
      rwa [List.zipIdx_map_fst] at this
    · intro hm n a b
      refine ht f hfm hm n ?_ ?_
      · obtain ⟨x, hx, e⟩ := List.mem_map.1 a
        exact List.mem_map.2 ⟨x, (List.mem_filter.1 hx).1, e⟩
      · obtain ⟨x, hx, e⟩ := List.mem_map.1 b
        exact List.mem_map.2 ⟨x, (List.mem_filter.1 hx).1, e⟩
  have pk := p.map fun x => x.take kl
  refine ⟨_, (GroupsOf_iff ..).2 ⟨?_, rfl⟩, ?_⟩
  · intro k hk f hfm
    obtain ⟨v, hv'⟩ := h1 k (pk.mem_iff.2 hk) f hfm
    exact ⟨v, hv k (pk.mem_iff.2 hk) f hfm v hv'⟩
  · have : (firstOccs (R.map fun x => x.take kl)).map (groupRowOf sqrt R kl fs) = (firstOccs (R.map fun x => x.take kl)).map (groupRowOf sqrt S kl fs) := by
      apply List.map_congr_left
      intro k hk
      have hk := mem_firstOccs.1 hk
      unfold groupRowOf
      congr 1
      apply List.map_congr_left
      intro f hfm
      obtain ⟨v, hv'⟩ := h1 k hk f hfm
      rw [hv', hv k hk f hfm v hv']
    rw [this]
    exact (firstOccs_perm pk).map _

theorem groupRowOf_take (sqrt : Rat → Rat) (R : List (List GVal)) (kl : Nat) (fs : List Acc) (k : List GVal) (h : k.length = kl) : (groupRowOf sqrt R kl fs k).take kl = k := by
  unfold groupRowOf
  rw [← h, List.take_left]

theorem key_length {R : List (List GVal)} {kl : Nat} (hl : ∀ r ∈ R, kl ≤ r.length) {k : List GVal} (hk : k ∈ R.map fun x => x.take kl) : k.length = kl := by
  obtain ⟨x, hx, rfl⟩ := List.mem_map.1 hk
  rw [List.length_take]
  have := hl x hx
  omega

/-- only the rows of some keys -/
theorem GroupsOf_filter (sqrt : Rat → Rat) (R : List (List GVal)) (kl : Nat) (fs : List Acc) (q : List GVal → Bool) (hl : ∀ r ∈ R, kl ≤ r.length) (G : List (List GVal))
    (h : GroupsOf sqrt R kl fs G) : GroupsOf sqrt (R.filter fun x => q (x.take kl)) kl fs (G.filter fun x => q (x.take kl)) := by
  obtain ⟨h1, rfl⟩ := (GroupsOf_iff ..).1 h
  have hv : ∀ k, q k = true → ∀ j, groupValues (R.filter fun x => q (x.take kl)) kl k j = groupValues R kl k j := by
    intro k hk j
    unfold groupValues
    rw [List.filter_filter]
    congr 1
    apply List.filter_congr
    intro x _
    by_cases e : x.take kl = k
    · simp [e, hk]
    · simp [e]
  have hkeys : (R.filter fun x => q (x.take kl)).map (fun x => x.take kl) = (R.map fun x => x.take kl).filter q := by
    rw [List.filter_map]
    rfl
  refine (GroupsOf_iff ..).2 ⟨?_, ?_⟩
  · intro k hk f hf
    rw [hkeys] at hk
    obtain ⟨hk, hq⟩ := List.mem_filter.1 hk
    rw [hv k hq]
    exact h1 k hk f hf
  · rw [hkeys, firstOccs_filter, List.filter_map]
    have e : (firstOccs (R.map fun x => x.take kl)).filter ((fun x => q (x.take kl)) ∘ groupRowOf sqrt R kl fs) = (firstOccs (R.map fun x => x.take kl)).filter q := by
      apply List.filter_congr
      intro k hk
      simp only [Function.comp]
      rw [groupRowOf_take _ _ _ _ _ (key_length hl (mem_firstOccs.1 hk))]
    rw [e]
    apply List.map_congr_left
    intro k hk
    have hq := (List.mem_filter.1 hk).2
    unfold groupRowOf
    congr 1
    apply List.map_congr_left
    intro f _
    rw [hv k hq]

/-- two parts without a common key -/
theorem GroupsOf_append (sqrt : Rat → Rat) (R S : List (List GVal)) (kl : Nat) (fs : List Acc) (hd : ∀ r ∈ R, ∀ s ∈ S, r.take kl ≠ s.take kl) (G H : List (List GVal))
    (hG : GroupsOf sqrt R kl fs G) (hH : GroupsOf sqrt S kl fs H) : GroupsOf sqrt (R ++ S) kl fs (G ++ H) := by
  obtain ⟨g1, rfl⟩ := (GroupsOf_iff ..).1 hG
  obtain ⟨h1, rfl⟩ := (GroupsOf_iff ..).1 hH
  have hR : ∀ k ∈ R.map fun x => x.take kl, ∀ j, groupValues (R ++ S) kl k j = groupValues R kl k j := by
    intro k hk j
    obtain ⟨r, hr, rfl⟩ := List.mem_map.1 hk
    unfold groupValues
    have e : (S.filter fun x => decide (x.take kl = r.take kl)) = [] := by
      rw [List.filter_eq_nil_iff]
      intro s hs
      simpa using fun e => hd r hr s hs e.symm
    rw [List.filter_append, e, List.append_nil]
  have hS : ∀ k ∈ S.map fun x => x.take kl, ∀ j, groupValues (R ++ S) kl k j = groupValues S kl k j := by
    intro k hk j
    obtain ⟨s, hs, rfl⟩ := List.mem_map.1 hk
    unfold groupValues
    have e : (R.filter fun x => decide (x.take kl = s.take kl)) = [] := by
      rw [List.filter_eq_nil_iff]
      intro r hr
      simpa using hd r hr s hs
    rw [List.filter_append, e, List.nil_append]
  refine (GroupsOf_iff ..).2 ⟨?_, ?_⟩
  · intro k hk f hf
    rw [List.map_append] at hk
    rcases List.mem_append.1 hk with hk | hk
    · rw [hR k hk]; exact g1 k hk f hf
    · rw [hS k hk]; exact h1 k hk f hf
  · rw [List.map_append, firstOccs_append, List.map_append]
    congr 1
    · apply List.map_congr_left
      intro k hk
      unfold groupRowOf
      congr 1
      apply List.map_congr_left
      intro f _
      rw [hR k (mem_firstOccs.1 hk)]
    · rw [List.filter_eq_self.2]
      · apply List.map_congr_left
        intro k hk
        unfold groupRowOf
        congr 1
        apply List.map_congr_left
        intro f _
        rw [hS k (mem_firstOccs.1 hk)]
      · intro k hk
        obtain ⟨s, hs, rfl⟩ := List.mem_map.1 (mem_firstOccs.1 hk)
        simp only [decide_eq_true_eq]
        intro hc
        obtain ⟨r, hr, e⟩ := List.mem_map.1 hc
        exact hd r hr s hs e

theorem firstOccs_firstOccs {κ : Type} [DecidableEq κ] (l m : List κ) : firstOccs (firstOccs l ++ firstOccs m) = firstOccs (l ++ m) := by
  have idem : ∀ l : List κ, firstOccs (firstOccs l) = firstOccs l := by
    intro l
    have : ∀ m : List κ, m.Nodup → firstOccs m = m := by
      intro m
      induction m with
      | nil => intro _; rfl
      | cons a m ih =>
        intro hm
        rw [List.nodup_cons] at hm
        rw [firstOccs, ih hm.2, List.filter_eq_self.2]
        intro b hb
        have : b ≠ a := fun e => hm.1 (e ▸ hb)
        simpa using this
    exact this _ (nodup_firstOccs l)
  rw [firstOccs_append, firstOccs_append, idem, idem]
  congr 1
  apply List.filter_congr
  intro x _
  simp [mem_firstOccs]

/-- the values of a group in the rows of a group-by: the value of the group, if there is one -/
theorem groupValues_groups (sqrt : Rat → Rat) (R : List (List GVal)) (kl : Nat) (f : Acc) (hl : ∀ r ∈ R, kl ≤ r.length) (k : List GVal) :
    groupValues ((firstOccs (R.map fun x => x.take kl)).map (groupRowOf sqrt R kl [f])) kl k 0 =
      if k ∈ R.map (fun x => x.take kl) then [valueOr (accRun sqrt f (groupValues R kl k 0))] else [] := by
  unfold groupValues
  rw [List.filter_map, List.map_map]
  have e : (firstOccs (R.map fun x => x.take kl)).filter ((fun x => decide (x.take kl = k)) ∘ groupRowOf sqrt R kl [f]) =
      (firstOccs (R.map fun x => x.take kl)).filter fun x => decide (x = k) := by
    apply List.filter_congr
    intro x hx
    simp only [Function.comp]
    rw [groupRowOf_take _ _ _ _ _ (key_length hl (mem_firstOccs.1 hx))]
  rw [e]
  by_cases hk : k ∈ R.map fun x => x.take kl
  · have hf : (firstOccs (R.map fun x => x.take kl)).filter (fun x => decide (x = k)) = [k] := by
      have h1 := List.Nodup.filter (fun x => decide (x = k)) (nodup_firstOccs (R.map fun x => x.take kl))
      have h2 : ∀ x, x ∈ (firstOccs (R.map fun x => x.take kl)).filter (fun x => decide (x = k)) ↔ x = k := by
        intro x
        rw [List.mem_filter, mem_firstOccs, decide_eq_true_eq]
        exact ⟨fun h => h.2, fun h => ⟨h ▸ hk, h⟩⟩
      exact List.perm_singleton.1 ((List.perm_ext_iff_of_nodup h1 (by simp)).2 fun x => by rw [h2]; simp)
    rw [hf, if_pos hk]
    simp only [List.map_cons, List.map_nil, Function.comp, groupRowOf]
    have hkl := key_length hl hk
    congr 1
    rw [List.getD_eq_getElem?_getD, List.getElem?_append_right (by omega)]
    simp [hkl, groupValues]
  · have hf : (firstOccs (R.map fun x => x.take kl)).filter (fun x => decide (x = k)) = [] := by
      rw [List.filter_eq_nil_iff]
      intro x hx
      have hx := mem_firstOccs.1 hx
      simp only [decide_eq_true_eq]
      rintro rfl
      exact hk hx
    rw [hf, if_neg hk]
    rfl

/-- the values of two parts put together: grouping the groups of the parts is grouping the whole, if the functions fit -/
theorem GroupsOf_merge (sqrt : Rat → Rat) (R S : List (List GVal)) (kl : Nat) (f h : Acc) (hR : ∀ r ∈ R, kl ≤ r.length) (hS : ∀ r ∈ S, kl ≤ r.length)
    (G H : List (List GVal)) (hG : GroupsOf sqrt R kl [f] G) (hH : GroupsOf sqrt S kl [f] H)
    (hc : ∀ k ∈ (R ++ S).map fun x => x.take kl, accRun sqrt h ((if k ∈ R.map (fun x => x.take kl) then [valueOr (accRun sqrt f (groupValues R kl k 0))] else []) ++
        if k ∈ S.map (fun x => x.take kl) then [valueOr (accRun sqrt f (groupValues S kl k 0))] else []) = accRun sqrt f (groupValues R kl k 0 ++ groupValues S kl k 0))
    (X : List (List GVal)) : GroupsOf sqrt (G ++ H) kl [h] X ↔ GroupsOf sqrt (R ++ S) kl [f] X := by
  obtain ⟨g1, rfl⟩ := (GroupsOf_iff ..).1 hG
  obtain ⟨h1, rfl⟩ := (GroupsOf_iff ..).1 hH
  have keysOf : ∀ T : List (List GVal), (∀ r ∈ T, kl ≤ r.length) →
      ((firstOccs (T.map fun x => x.take kl)).map (groupRowOf sqrt T kl [f])).map (fun x => x.take kl) = firstOccs (T.map fun x => x.take kl) := by
    intro T hT
    rw [List.map_map]
    conv_rhs => rw [← List.map_id (firstOccs (T.map fun x => x.take kl))]
    apply List.map_congr_left
    intro k hk
    exact groupRowOf_take _ _ _ _ _ (key_length hT (mem_firstOccs.1 hk))
  have hkeys : firstOccs (((firstOccs (R.map fun x => x.take kl)).map (groupRowOf sqrt R kl [f]) ++ (firstOccs (S.map fun x => x.take kl)).map (groupRowOf sqrt S kl [f])).map fun x => x.take kl) =
      firstOccs ((R ++ S).map fun x => x.take kl) := by
    rw [List.map_append, keysOf R hR, keysOf S hS, firstOccs_firstOccs, List.map_append]
  have hvals : ∀ k ∈ (R ++ S).map fun x => x.take kl,
      accRun sqrt h (groupValues ((firstOccs (R.map fun x => x.take kl)).map (groupRowOf sqrt R kl [f]) ++ (firstOccs (S.map fun x => x.take kl)).map (groupRowOf sqrt S kl [f])) kl k 0) =
      accRun sqrt f (groupValues (R ++ S) kl k 0) := by
    intro k hk
    have e1 : ∀ A B : List (List GVal), groupValues (A ++ B) kl k 0 = groupValues A kl k 0 ++ groupValues B kl k 0 := by
      intro A B
      unfold groupValues
      rw [List.filter_append, List.map_append]
    rw [e1, e1, groupValues_groups sqrt R kl f hR, groupValues_groups sqrt S kl f hS]
    exact hc k hk
  have hmem : ∀ k, k ∈ (((firstOccs (R.map fun x => x.take kl)).map (groupRowOf sqrt R kl [f]) ++ (firstOccs (S.map fun x => x.take kl)).map (groupRowOf sqrt S kl [f])).map fun x => x.take kl) ↔
      k ∈ (R ++ S).map fun x => x.take kl := by
    intro k
    rw [← mem_firstOccs, hkeys, mem_firstOccs]
  rw [GroupsOf_iff, GroupsOf_iff, hkeys]
  refine and_congr ?_ ?_
  · constructor
    · intro h2 k hk x hx
      have hx : x = (f, 0) := by simpa using hx
      subst hx
      rw [← hvals k hk]
      exact h2 k ((hmem k).2 hk) (h, 0) (by simp)
    · intro h2 k hk x hx
      have hx : x = (h, 0) := by simpa using hx
      subst hx
      have hk := (hmem k).1 hk
      show ∃ v, accRun sqrt h (groupValues _ kl k 0) = .ok v
      rw [hvals k hk]
      exact h2 k hk (f, 0) (by simp)
  · have : (firstOccs ((R ++ S).map fun x => x.take kl)).map (groupRowOf sqrt ((firstOccs (R.map fun x => x.take kl)).map (groupRowOf sqrt R kl [f]) ++
        (firstOccs (S.map fun x => x.take kl)).map (groupRowOf sqrt S kl [f])) kl [h]) = (firstOccs ((R ++ S).map fun x => x.take kl)).map (groupRowOf sqrt (R ++ S) kl [f]) := by
      apply List.map_congr_left
      intro k hk
      unfold groupRowOf
      simp only [List.zipIdx_cons, List.zipIdx_nil, List.map_cons, List.map_nil]
      congr 3
      exact hvals k (mem_firstOccs.1 hk)
    rw [this]

/-! ## C120 -/

section
variable {ν : Type} [DecidableEq ν]

/-- a table with the rows `R` whose columns, as far as named, have pages of the same lengths: what a group-by needs (C33) -/
def Groupable (t : Tbl ν GVal) (R : List (List GVal)) (names : List ν) : Prop :=
  tblRows .none t = .ok R ∧ Rect t R.length ∧ ∃ L, AlignedOn t L names

/-- the named values of a row -/
def projectRow (cols names : List ν) (r : List GVal) : List GVal := names.map fun a => rowGet .none cols r a

theorem Groupable.keyRows {t : Tbl ν GVal} {R : List (List GVal)} {names : List ν} (h : Groupable t R names) (hne : names ≠ []) :
    ∃ L, AlignedOn t L names ∧ keyRows .none t names L.sum = R.map (projectRow (t.map (·.1)) names) := by
  obtain ⟨h1, h2, L, h3⟩ := h
  refine ⟨L, h3, ?_⟩
  obtain ⟨a, ha⟩ := List.exists_mem_of_ne_nil names hne
  obtain ⟨p, hp, hpl⟩ := h3 a ha
  have htne : t ≠ [] := by
    rintro rfl
    cases hp
  have hL : L.sum = R.length := by
    have := h2 (a, p) (dGet_some_mem a t p hp)
    rw [← this, colLen_eq, List.length_flatten, hpl]
  have hR : R = (List.range R.length).map fun i => t.map fun c => (colIter c.2).getD i .none := by
    rw [C15_rows, tblLen_rect t _ h2 htne] at h1
    injection h1 with h1
    exact h1.symm
  rw [hL]
  conv_rhs => rw [hR]
  unfold Tablite.keyRows
  rw [List.map_map]
  apply List.map_congr_left
  intro i _
  simp only [Function.comp, projectRow]
  apply List.map_congr_left
  intro b _
  unfold rowGet
  have e : (t.map (·.1)).zip (t.map fun c => (colIter c.2).getD i GVal.none) = t.map fun c => (c.1, (colIter c.2).getD i .none) := by
    rw [List.zip_map']
  rw [e, dGet_map_val (fun p => (colIter p).getD i GVal.none), cell]
  cases dGet b t <;> rfl

theorem projectRow_length (cols names : List ν) (r : List GVal) : (projectRow cols names r).length = names.length := by simp [projectRow]

theorem projectRow_take (cols keys more : List ν) (r : List GVal) : (projectRow cols (keys ++ more) r).take keys.length = projectRow cols keys r := by
  unfold projectRow
  rw [List.map_append, List.take_left' (by simp)]

/-- group-by by the rows: the result has the rows `GroupsOf` describes, and there is one exactly if there are such rows -/
theorem groupby_groupable (sqrt : Rat → Rat) (nm : Acc → ν → ν) (ps : Nat) (hps : 0 < ps) {t : Tbl ν GVal} {R : List (List GVal)} {keys : List ν} {fs : List (ν × Acc)}
    (ht : Groupable t R (keys ++ fs.map (·.1))) (hsome : keys ++ fs.map (·.1) ≠ []) (hnd : (groupNames nm keys fs).Nodup) (G : List (List GVal)) :
    (∃ g, groupbyG sqrt nm ps t keys fs = .ok g ∧ tblRows .none g = .ok G ∧ g.map (·.1) = groupNames nm keys fs) ↔
      GroupsOf sqrt (R.map (projectRow (t.map (·.1)) (keys ++ fs.map (·.1)))) keys.length (fs.map (·.2)) G := by
  obtain ⟨L, hL, hk⟩ := ht.keyRows hsome
  have h0 : keys.length + fs.length ≠ 0 := by
    intro h
    apply hsome
    apply List.eq_nil_of_length_eq_zero
    rw [List.length_append, List.length_map]
    exact h
  obtain ⟨r1, r2⟩ := groupby_rows sqrt nm ps hps t L keys fs hL h0 hnd
  rw [hk] at r1 r2
  constructor
  · rintro ⟨g, g1, g2, -⟩
    obtain ⟨G', h1, -, h3⟩ := r1 g g1
    rw [g2] at h1
    injection h1 with h1
    subst h1
    exact h3
  · intro hG
    obtain ⟨g, hg⟩ := r2 ⟨G, hG⟩
    obtain ⟨G', h1, h2, h3⟩ := r1 g hg
    refine ⟨g, hg, ?_, h2⟩
    rw [h1, ((GroupsOf_iff ..).1 h3).2, ((GroupsOf_iff ..).1 hG).2]

theorem groupby_has_rows (sqrt : Rat → Rat) (nm : Acc → ν → ν) (ps : Nat) (hps : 0 < ps) {t g : Tbl ν GVal} {R : List (List GVal)} {keys : List ν} {fs : List (ν × Acc)}
    (ht : Groupable t R (keys ++ fs.map (·.1))) (hsome : keys ++ fs.map (·.1) ≠ []) (hnd : (groupNames nm keys fs).Nodup) (hg : groupbyG sqrt nm ps t keys fs = .ok g) :
    ∃ G, tblRows .none g = .ok G ∧ g.map (·.1) = groupNames nm keys fs ∧
      GroupsOf sqrt (R.map (projectRow (t.map (·.1)) (keys ++ fs.map (·.1)))) keys.length (fs.map (·.2)) G := by
  obtain ⟨L, hL, hk⟩ := ht.keyRows hsome
  have h0 : keys.length + fs.length ≠ 0 := by
    intro h
    apply hsome
    apply List.eq_nil_of_length_eq_zero
    rw [List.length_append, List.length_map]
    exact h
  obtain ⟨G, h1, h2, h3⟩ := (groupby_rows sqrt nm ps hps t L keys fs hL h0 hnd).1 g hg
  rw [hk] at h3
  exact ⟨G, h1, h2, h3⟩

/-- **C120** the order of the rows does not matter: if two tables have the same columns and the same rows in any order – one is the other sorted, say – then
group-bys without `first` and `last` give the same rows in some order. For `median` and `mode` an int and a float of the same number must not both be in the
column, see `C120_order_fails`. -/
theorem C120_order (sqrt : Rat → Rat) (nm : Acc → ν → ν) (ps : Nat) (hps : 0 < ps) (t u g : Tbl ν GVal) (R S : List (List GVal)) (keys : List ν) (fs : List (ν × Acc))
    (ht : Groupable t R (keys ++ fs.map (·.1))) (hu : Groupable u S (keys ++ fs.map (·.1))) (hcols : t.map (·.1) = u.map (·.1)) (hp : R.Perm S)
    (hsome : keys ++ fs.map (·.1) ≠ []) (hnd : (groupNames nm keys fs).Nodup) (hf : ∀ f ∈ fs, f.2 ≠ .first ∧ f.2 ≠ .last)
    (hm : ∀ f ∈ fs, f.2 = .median ∨ f.2 = .mode → NoTwin (R.map fun r => rowGet .none (t.map (·.1)) r f.1)) (hg : groupbyG sqrt nm ps t keys fs = .ok g) :
    ∃ h G H, groupbyG sqrt nm ps u keys fs = .ok h ∧ h.map (·.1) = g.map (·.1) ∧ tblRows .none g = .ok G ∧ tblRows .none h = .ok H ∧ G.Perm H := by
  obtain ⟨G, g1, g2, g3⟩ := groupby_has_rows sqrt nm ps hps ht hsome hnd hg
  obtain ⟨H, h1, h2⟩ := GroupsOf_perm sqrt (hp.map (projectRow (t.map (·.1)) (keys ++ fs.map (·.1)))) keys.length (fs.map (·.2)) (by
      intro f hfm
      obtain ⟨x, hx, rfl⟩ := List.mem_map.1 hfm
      exact hf x hx) (by
      intro f hfm hmm
      rw [List.map_map]
      obtain ⟨i, hi, e⟩ := List.getElem_of_mem hfm
      have hi' : i < fs.length := by simpa using hi
      rw [List.getElem_zipIdx, List.getElem_map] at e
      subst e
      have := hm fs[i] (List.getElem_mem hi') hmm
      convert this using 1
      apply List.map_congr_left
      intro r _
      simp only [Function.comp, projectRow, List.getD_eq_getElem?_getD, List.map_append]
      rw [List.getElem?_append_right (by simp)]
      simp [hi']) G g3
  rw [hcols] at h1
  obtain ⟨h, e1, e2, e3⟩ := (groupby_groupable sqrt nm ps hps hu hsome hnd H).2 h1
  exact ⟨h, G, H, e1, by rw [e3, g2], g1, e2, h2⟩

/-- **C120** group-by and filters on the keys can be exchanged: if `u` has the rows of `t` whose keys satisfy `q`, its group-by has the rows of the group-by of `t` whose
keys satisfy `q`, in the same order, for all functions. -/
theorem C120_filter (sqrt : Rat → Rat) (nm : Acc → ν → ν) (ps : Nat) (hps : 0 < ps) (t u g : Tbl ν GVal) (R : List (List GVal)) (keys : List ν) (fs : List (ν × Acc)) (q : List GVal → Bool)
    (ht : Groupable t R (keys ++ fs.map (·.1))) (hu : Groupable u (R.filter fun r => q (projectRow (t.map (·.1)) keys r)) (keys ++ fs.map (·.1)))
    (hcols : t.map (·.1) = u.map (·.1)) (hsome : keys ++ fs.map (·.1) ≠ []) (hnd : (groupNames nm keys fs).Nodup) (hg : groupbyG sqrt nm ps t keys fs = .ok g) :
    ∃ h G, groupbyG sqrt nm ps u keys fs = .ok h ∧ h.map (·.1) = g.map (·.1) ∧ tblRows .none g = .ok G ∧
      tblRows .none h = .ok (G.filter fun r => q (r.take keys.length)) := by
  obtain ⟨G, g1, g2, g3⟩ := groupby_has_rows sqrt nm ps hps ht hsome hnd hg
  have h1 := GroupsOf_filter sqrt _ keys.length (fs.map (·.2)) q (by
    intro r hr
    obtain ⟨x, -, rfl⟩ := List.mem_map.1 hr
    rw [projectRow_length]
    simp) G g3
  have e : (R.map (projectRow (t.map (·.1)) (keys ++ fs.map (·.1)))).filter (fun x => q (x.take keys.length)) =
      (R.filter fun r => q (projectRow (t.map (·.1)) keys r)).map (projectRow (u.map (·.1)) (keys ++ fs.map (·.1))) := by
    rw [List.filter_map, hcols]
    congr 1
    apply List.filter_congr
    intro r _
    simp only [Function.comp, projectRow_take]
  rw [e] at h1
  obtain ⟨h, e1, e2, e3⟩ := (groupby_groupable sqrt nm ps hps hu hsome hnd _).2 h1
  exact ⟨h, G, e1, by rw [e3, g2], g1, e2⟩

/-- **C120** parts without a common key: the group-by of the stacked table has the rows of the group-bys of the parts. -/
theorem C120_parts (sqrt : Rat → Rat) (nm : Acc → ν → ν) (ps : Nat) (hps : 0 < ps) (t u w g h : Tbl ν GVal) (R S : List (List GVal)) (keys : List ν) (fs : List (ν × Acc))
    (ht : Groupable t R (keys ++ fs.map (·.1))) (hu : Groupable u S (keys ++ fs.map (·.1))) (hw : Groupable w (R ++ S) (keys ++ fs.map (·.1)))
    (hcols : t.map (·.1) = w.map (·.1)) (hcols2 : u.map (·.1) = w.map (·.1)) (hsome : keys ++ fs.map (·.1) ≠ []) (hnd : (groupNames nm keys fs).Nodup)
    (hd : ∀ r ∈ R, ∀ s ∈ S, projectRow (w.map (·.1)) keys r ≠ projectRow (w.map (·.1)) keys s)
    (hg : groupbyG sqrt nm ps t keys fs = .ok g) (hh : groupbyG sqrt nm ps u keys fs = .ok h) :
    ∃ x G H, groupbyG sqrt nm ps w keys fs = .ok x ∧ x.map (·.1) = g.map (·.1) ∧ tblRows .none g = .ok G ∧ tblRows .none h = .ok H ∧ tblRows .none x = .ok (G ++ H) := by
  obtain ⟨G, g1, g2, g3⟩ := groupby_has_rows sqrt nm ps hps ht hsome hnd hg
  obtain ⟨H, h1, h2, h3⟩ := groupby_has_rows sqrt nm ps hps hu hsome hnd hh
  rw [hcols] at g3
  rw [hcols2] at h3
  have := GroupsOf_append sqrt _ _ keys.length (fs.map (·.2)) (by
    intro r hr s hs
    obtain ⟨x, hx, rfl⟩ := List.mem_map.1 hr
    obtain ⟨y, hy, rfl⟩ := List.mem_map.1 hs
    rw [projectRow_take, projectRow_take]
    exact hd x hx y hy) G H g3 h3
  rw [← List.map_append] at this
  obtain ⟨x, e1, e2, e3⟩ := (groupby_groupable sqrt nm ps hps hw hsome hnd _).2 this
  exact ⟨x, G, H, e1, by rw [e3, g2], g1, h1, e2⟩

/-- **C120** parts with common keys: the group-bys of two parts stacked and grouped again give the group-by of the whole table, if the functions fit: `h` of the values of
`f` on two parts is the value of `f` on both. Used for sum, max and min below. -/
theorem merge_groups (sqrt : Rat → Rat) (nm : Acc → ν → ν) (ps : Nat) (hps : 0 < ps) (t u w v g h x : Tbl ν GVal) (R S G H : List (List GVal)) (keys : List ν) (c : ν) (f k : Acc)
    (ht : Groupable t R (keys ++ [c])) (hu : Groupable u S (keys ++ [c])) (hw : Groupable w (R ++ S) (keys ++ [c]))
    (hcols : t.map (·.1) = w.map (·.1)) (hcols2 : u.map (·.1) = w.map (·.1)) (hnd : (keys ++ [nm f c]).Nodup) (hnd2 : (keys ++ [nm k (nm f c)]).Nodup)
    (hg : groupbyG sqrt nm ps t keys [(c, f)] = .ok g) (hG : tblRows .none g = .ok G) (hh : groupbyG sqrt nm ps u keys [(c, f)] = .ok h) (hH : tblRows .none h = .ok H)
    (hv : Groupable v (G ++ H) (keys ++ [nm f c])) (hvn : v.map (·.1) = keys ++ [nm f c]) (hx : groupbyG sqrt nm ps v keys [(nm f c, k)] = .ok x)
    (hfit : ∀ l m : List GVal, (∀ a ∈ l, ∃ r ∈ R, a = rowGet .none (w.map (·.1)) r c) → (∀ a ∈ m, ∃ r ∈ S, a = rowGet .none (w.map (·.1)) r c) → l ++ m ≠ [] →
      accRun sqrt k ((if l = [] then [] else [valueOr (accRun sqrt f l)]) ++ if m = [] then [] else [valueOr (accRun sqrt f m)]) = accRun sqrt f (l ++ m)) :
    ∃ y X, groupbyG sqrt nm ps w keys [(c, f)] = .ok y ∧ tblRows .none x = .ok X ∧ tblRows .none y = .ok X := by
  have hs1 : keys ++ [(c, f)].map (·.1) ≠ [] := by simp
  have hs2 : keys ++ [(nm f c, k)].map (·.1) ≠ [] := by simp
  obtain ⟨G', g1, g2, g3⟩ := groupby_has_rows sqrt nm ps hps (fs := [(c, f)]) ht hs1 hnd hg
  rw [hG] at g1
  injection g1 with g1
  subst g1
  obtain ⟨H', h1, h2, h3⟩ := groupby_has_rows sqrt nm ps hps (fs := [(c, f)]) hu hs1 hnd hh
  rw [hH] at h1
  injection h1 with h1
  subst h1
  obtain ⟨X, x1, x2, x3⟩ := groupby_has_rows sqrt nm ps hps (fs := [(nm f c, k)]) hv hs2 hnd2 hx
  rw [hcols] at g3
  rw [hcols2] at h3
  simp only [List.map_cons, List.map_nil] at g3 h3 x3
  have hlen : ∀ T : List (List GVal), ∀ r ∈ T.map (projectRow (w.map (·.1)) (keys ++ [c])), keys.length ≤ r.length := by
    intro T r hr
    obtain ⟨y, -, rfl⟩ := List.mem_map.1 hr
    rw [projectRow_length]
    simp
  have hgl : ∀ (T Y : List (List GVal)), GroupsOf sqrt (T.map (projectRow (w.map (·.1)) (keys ++ [c]))) keys.length [f] Y → ∀ r ∈ Y, r.length = (keys ++ [nm f c]).length := by
    intro T Y hY r hr
    rw [((GroupsOf_iff ..).1 hY).2] at hr
    obtain ⟨k', hk', rfl⟩ := List.mem_map.1 hr
    have := key_length (hlen T) (mem_firstOccs.1 hk')
    simp [groupRowOf, this]
  have hproj : (G ++ H).map (projectRow (v.map (·.1)) (keys ++ [nm f c])) = G ++ H := by
    conv_rhs => rw [← List.map_id (G ++ H)]
    apply List.map_congr_left
    intro r hr
    have hl : r.length = (keys ++ [nm f c]).length := by
      rcases List.mem_append.1 hr with hr | hr
      · exact hgl R G g3 r hr
      · exact hgl S H h3 r hr
    rw [hvn]
    unfold projectRow
    apply List.ext_getElem
    · simp [hl]
    · intro i i1 i2
      have i3 : i < (keys ++ [nm f c]).length := by simpa using i1
      rw [List.getElem_map]
      unfold rowGet
      have hz : (((keys ++ [nm f c]).zip r).map (·.1)).Nodup := by
        rw [List.map_fst_zip (by omega)]
        exact hnd
      have hmem : ((keys ++ [nm f c])[i], r[i]'(by omega)) ∈ (keys ++ [nm f c]).zip r := by
        rw [List.mem_iff_getElem]
        exact ⟨i, by rw [List.length_zip]; omega, by rw [List.getElem_zip]⟩
      rw [dGet_of_mem _ hz _ hmem]
      rfl
  rw [hproj] at x3
  have hmemv : ∀ (T : List (List GVal)) (k' : List GVal), ∀ a ∈ groupValues (T.map (projectRow (w.map (·.1)) (keys ++ [c]))) keys.length k' 0, ∃ r ∈ T, a = rowGet .none (w.map (·.1)) r c := by
    intro T k' a ha
    obtain ⟨y, hy, rfl⟩ := List.mem_map.1 ha
    obtain ⟨r, hr, rfl⟩ := List.mem_map.1 (List.mem_filter.1 hy).1
    refine ⟨r, hr, ?_⟩
    simp [projectRow, List.getD_eq_getElem?_getD]
  have hnil : ∀ (T : List (List GVal)) (k' : List GVal), groupValues T keys.length k' 0 = [] ↔ k' ∉ T.map fun r => r.take keys.length := by
    intro T k'
    unfold groupValues
    rw [List.map_eq_nil_iff, List.filter_eq_nil_iff]
    constructor
    · intro h1 h2
      obtain ⟨r, hr, rfl⟩ := List.mem_map.1 h2
      simpa using h1 r hr
    · intro h1 r hr
      simp only [decide_eq_true_eq]
      rintro rfl
      exact h1 (List.mem_map.2 ⟨r, hr, rfl⟩)
  have hmerge := (GroupsOf_merge sqrt _ _ keys.length f k (hlen R) (hlen S) G H g3 h3 (by
    intro k' hk'
    have := hfit (groupValues (R.map (projectRow (w.map (·.1)) (keys ++ [c]))) keys.length k' 0) (groupValues (S.map (projectRow (w.map (·.1)) (keys ++ [c]))) keys.length k' 0)
      (hmemv R k') (hmemv S k') (by
        intro e
        obtain ⟨e1, e2⟩ := List.append_eq_nil_iff.1 e
        rw [hnil] at e1 e2
        rw [List.map_append] at hk'
        rcases List.mem_append.1 hk' with h | h
        · exact e1 h
        · exact e2 h)
    rw [← this]
    congr 2
    · by_cases hk : k' ∈ (R.map (projectRow (w.map (·.1)) (keys ++ [c]))).map fun r => r.take keys.length
      · rw [if_pos hk, if_neg (by rw [hnil]; exact not_not.2 hk)]
      · rw [if_neg hk, if_pos ((hnil _ _).2 hk)]
    · by_cases hk : k' ∈ (S.map (projectRow (w.map (·.1)) (keys ++ [c]))).map fun r => r.take keys.length
      · rw [if_pos hk, if_neg (by rw [hnil]; exact not_not.2 hk)]
      · rw [if_neg hk, if_pos ((hnil _ _).2 hk)]) X).1 x3
  rw [← List.map_append] at hmerge
  obtain ⟨y, y1, y2, -⟩ := (groupby_groupable sqrt nm ps hps (fs := [(c, f)]) hw hs1 hnd X).2 hmerge
  exact ⟨y, X, y1, x1, y2⟩

/-- **C120** sums: if `w` has the rows of `t` and `u`, then summing by keys in `t` and in `u`, stacking the two results and summing again by the keys gives the rows of
the sum by keys in `w`, in the same order. -/
theorem C120_merge_sum (sqrt : Rat → Rat) (nm : Acc → ν → ν) (ps : Nat) (hps : 0 < ps) (t u w v g h x : Tbl ν GVal) (R S G H : List (List GVal)) (keys : List ν) (c : ν)
    (ht : Groupable t R (keys ++ [c])) (hu : Groupable u S (keys ++ [c])) (hw : Groupable w (R ++ S) (keys ++ [c]))
    (hcols : t.map (·.1) = w.map (·.1)) (hcols2 : u.map (·.1) = w.map (·.1)) (hnd : (keys ++ [nm .sum c]).Nodup) (hnd2 : (keys ++ [nm .sum (nm .sum c)]).Nodup)
    (hg : groupbyG sqrt nm ps t keys [(c, .sum)] = .ok g) (hG : tblRows .none g = .ok G) (hh : groupbyG sqrt nm ps u keys [(c, .sum)] = .ok h) (hH : tblRows .none h = .ok H)
    (hv : Groupable v (G ++ H) (keys ++ [nm .sum c])) (hvn : v.map (·.1) = keys ++ [nm .sum c]) (hx : groupbyG sqrt nm ps v keys [(nm .sum c, .sum)] = .ok x)
    (hq : ∀ r ∈ R ++ S, ∃ q, IsNum (rowGet .none (w.map (·.1)) r c) q) :
    ∃ y X, groupbyG sqrt nm ps w keys [(c, .sum)] = .ok y ∧ tblRows .none x = .ok X ∧ tblRows .none y = .ok X := by
  refine merge_groups sqrt nm ps hps t u w v g h x R S G H keys c .sum .sum ht hu hw hcols hcols2 hnd hnd2 hg hG hh hH hv hvn hx ?_
  have nums : ∀ l : List GVal, (∀ a ∈ l, ∃ q, IsNum a q) → ∃ qs, IsNums l qs := by
    intro l
    induction l with
    | nil => intro _; exact ⟨[], .nil⟩
    | cons a l ih =>
      intro hl
      obtain ⟨q, hq⟩ := hl a (by simp)
      obtain ⟨qs, hqs⟩ := ih fun b hb => hl b (by simp [hb])
      exact ⟨q :: qs, .cons hq hqs⟩
  intro l m hl hm hne
  obtain ⟨ql, hql⟩ := nums l (by
    intro a ha
    obtain ⟨r, hr, rfl⟩ := hl a ha
    exact hq r (by simp [hr]))
  obtain ⟨qm, hqm⟩ := nums m (by
    intro a ha
    obtain ⟨r, hr, rfl⟩ := hm a ha
    exact hq r (by simp [hr]))
  have e1 := C34_sum sqrt l ql hql
  have e2 := C34_sum sqrt m qm hqm
  have e3 := C34_sum sqrt (l ++ m) (ql ++ qm) (List.rel_append hql hqm)
  rw [e1, e2, e3]
  have el : l = [] → ql = [] := by rintro rfl; cases hql; rfl
  have em : m = [] → qm = [] := by rintro rfl; cases hqm; rfl
  by_cases hl0 : l = [] <;> by_cases hm0 : m = []
  · exact absurd (by rw [hl0, hm0]; rfl) hne
  · rw [if_pos hl0, if_neg hm0, el hl0]
    exact C34_sum sqrt [.float qm.sum] [qm.sum] (.cons (Or.inl rfl) .nil) |>.trans (by simp)
  · rw [if_neg hl0, if_pos hm0, em hm0]
    exact C34_sum sqrt [.float ql.sum] [ql.sum] (.cons (Or.inl rfl) .nil) |>.trans (by simp)
  · rw [if_neg hl0, if_neg hm0]
    exact C34_sum sqrt [.float ql.sum, .float qm.sum] [ql.sum, qm.sum] (.cons (Or.inl rfl) (.cons (Or.inl rfl) .nil)) |>.trans (by simp)

/-- the greatest (or least) of the greatest of two parts -/
theorem limit_fit (sqrt : Rat → Rat) (f : Acc) (less : GVal → GVal → Bool) (hf : ∀ l, SameKind l → l ≠ [] → ∃ v, accRun sqrt f l = .ok v ∧ v ∈ l ∧ ∀ x ∈ l, less v x = false)
    (hanti : ∀ a b : GVal, a.kind = b.kind → less a b = false → less b a = false → a = b) (htrans : ∀ a b c : GVal, a.kind = b.kind → b.kind = c.kind → less a b = false → less b c = false → less a c = false)
    (l m : List GVal) (hk : SameKind (l ++ m)) (hne : l ++ m ≠ []) :
    accRun sqrt f ((if l = [] then [] else [valueOr (accRun sqrt f l)]) ++ if m = [] then [] else [valueOr (accRun sqrt f m)]) = accRun sqrt f (l ++ m) := by
  have hkl : SameKind l := fun x hx y hy => hk x (by simp [hx]) y (by simp [hy])
  have hkm : SameKind m := fun x hx y hy => hk x (by simp [hx]) y (by simp [hy])
  have single : ∀ v, accRun sqrt f [v] = .ok v := by
    intro v
    obtain ⟨w, e1, e2, -⟩ := hf [v] (by intro x hx y hy; simp only [List.mem_singleton] at hx hy; rw [hx, hy]) (by simp)
    simp only [List.mem_singleton] at e2
    rw [e1, e2]
  obtain ⟨v, v1, v2, v3⟩ := hf (l ++ m) hk hne
  by_cases hl0 : l = [] <;> by_cases hm0 : m = []
  · exact absurd (by rw [hl0, hm0]; rfl) hne
  · rw [if_pos hl0, if_neg hm0, hl0, List.nil_append, List.nil_append]
    obtain ⟨b, b1, -, -⟩ := hf m hkm hm0
    rw [b1]
    exact single b
  · rw [if_neg hl0, if_pos hm0, hm0, List.append_nil, List.append_nil]
    obtain ⟨a, a1, -, -⟩ := hf l hkl hl0
    rw [a1]
    exact single a
  · rw [if_neg hl0, if_neg hm0, v1]
    obtain ⟨a, a1, a2, a3⟩ := hf l hkl hl0
    obtain ⟨b, b1, b2, b3⟩ := hf m hkm hm0
    rw [a1, b1]
    show accRun sqrt f [a, b] = _
    have ha : a ∈ l ++ m := by simp [a2]
    have hb : b ∈ l ++ m := by simp [b2]
    obtain ⟨c, c1, c2, c3⟩ := hf [a, b] (by
      intro x hx y hy
      simp only [List.mem_cons, List.not_mem_nil, or_false] at hx hy
      rcases hx with rfl | rfl <;> rcases hy with rfl | rfl <;> first | rfl | exact hk _ ‹_› _ ‹_›) (by simp)
    rw [c1]
    congr 1
    have hc : c ∈ l ++ m := by
      simp only [List.mem_cons, List.not_mem_nil, or_false] at c2
      rcases c2 with rfl | rfl
      · exact ha
      · exact hb
    refine hanti c v (hk c hc v v2) ?_ (v3 c hc)
    rcases List.mem_append.1 v2 with h | h
    · exact htrans c a v (hk c hc a ha) (hk a ha v v2) (c3 a (by simp)) (a3 v h)
    · exact htrans c b v (hk c hc b hb) (hk b hb v v2) (c3 b (by simp)) (b3 v h)

/-- **C120** maxima: the maxima by keys of two parts, stacked and grouped again by their maximum, are the maxima by keys of the whole table, for a column of one kind. -/
theorem C120_merge_max (sqrt : Rat → Rat) (nm : Acc → ν → ν) (ps : Nat) (hps : 0 < ps) (t u w v g h x : Tbl ν GVal) (R S G H : List (List GVal)) (keys : List ν) (c : ν)
    (ht : Groupable t R (keys ++ [c])) (hu : Groupable u S (keys ++ [c])) (hw : Groupable w (R ++ S) (keys ++ [c]))
    (hcols : t.map (·.1) = w.map (·.1)) (hcols2 : u.map (·.1) = w.map (·.1)) (hnd : (keys ++ [nm .max c]).Nodup) (hnd2 : (keys ++ [nm .max (nm .max c)]).Nodup)
    (hg : groupbyG sqrt nm ps t keys [(c, .max)] = .ok g) (hG : tblRows .none g = .ok G) (hh : groupbyG sqrt nm ps u keys [(c, .max)] = .ok h) (hH : tblRows .none h = .ok H)
    (hv : Groupable v (G ++ H) (keys ++ [nm .max c])) (hvn : v.map (·.1) = keys ++ [nm .max c]) (hx : groupbyG sqrt nm ps v keys [(nm .max c, .max)] = .ok x)
    (hk : SameKind ((R ++ S).map fun r => rowGet .none (w.map (·.1)) r c)) :
    ∃ y X, groupbyG sqrt nm ps w keys [(c, .max)] = .ok y ∧ tblRows .none x = .ok X ∧ tblRows .none y = .ok X := by
  refine merge_groups sqrt nm ps hps t u w v g h x R S G H keys c .max .max ht hu hw hcols hcols2 hnd hnd2 hg hG hh hH hv hvn hx ?_
  intro l m hl hm hne
  refine limit_fit sqrt .max GVal.lt (C34_max sqrt) (fun _ _ => lt_antisymm') (fun _ _ _ => lt_neg_trans) l m ?_ hne
  have : ∀ a ∈ l ++ m, a ∈ (R ++ S).map fun r => rowGet .none (w.map (·.1)) r c := by
    intro a ha
    rcases List.mem_append.1 ha with ha | ha
    · obtain ⟨r, hr, e⟩ := hl a ha
      exact List.mem_map.2 ⟨r, by simp [hr], e.symm⟩
    · obtain ⟨r, hr, e⟩ := hm a ha
      exact List.mem_map.2 ⟨r, by simp [hr], e.symm⟩
  exact fun a ha b hb => hk a (this a ha) b (this b hb)

/-- **C120** minima: likewise. -/
theorem C120_merge_min (sqrt : Rat → Rat) (nm : Acc → ν → ν) (ps : Nat) (hps : 0 < ps) (t u w v g h x : Tbl ν GVal) (R S G H : List (List GVal)) (keys : List ν) (c : ν)
    (ht : Groupable t R (keys ++ [c])) (hu : Groupable u S (keys ++ [c])) (hw : Groupable w (R ++ S) (keys ++ [c]))
    (hcols : t.map (·.1) = w.map (·.1)) (hcols2 : u.map (·.1) = w.map (·.1)) (hnd : (keys ++ [nm .min c]).Nodup) (hnd2 : (keys ++ [nm .min (nm .min c)]).Nodup)
    (hg : groupbyG sqrt nm ps t keys [(c, .min)] = .ok g) (hG : tblRows .none g = .ok G) (hh : groupbyG sqrt nm ps u keys [(c, .min)] = .ok h) (hH : tblRows .none h = .ok H)
    (hv : Groupable v (G ++ H) (keys ++ [nm .min c])) (hvn : v.map (·.1) = keys ++ [nm .min c]) (hx : groupbyG sqrt nm ps v keys [(nm .min c, .min)] = .ok x)
    (hk : SameKind ((R ++ S).map fun r => rowGet .none (w.map (·.1)) r c)) :
    ∃ y X, groupbyG sqrt nm ps w keys [(c, .min)] = .ok y ∧ tblRows .none x = .ok X ∧ tblRows .none y = .ok X := by
  refine merge_groups sqrt nm ps hps t u w v g h x R S G H keys c .min .min ht hu hw hcols hcols2 hnd hnd2 hg hG hh hH hv hvn hx ?_
  intro l m hl hm hne
  refine limit_fit sqrt .min (fun a b => GVal.lt b a) (C34_min sqrt) (fun _ _ h h1 h2 => lt_antisymm' h h2 h1) (fun _ _ _ h1 h2 h3 h4 => lt_neg_trans h2.symm h1.symm h4 h3) l m ?_ hne
  have : ∀ a ∈ l ++ m, a ∈ (R ++ S).map fun r => rowGet .none (w.map (·.1)) r c := by
    intro a ha
    rcases List.mem_append.1 ha with ha | ha
    · obtain ⟨r, hr, e⟩ := hl a ha
      exact List.mem_map.2 ⟨r, by simp [hr], e.symm⟩
    · obtain ⟨r, hr, e⟩ := hm a ha
      exact List.mem_map.2 ⟨r, by simp [hr], e.symm⟩
  exact fun a ha b hb => hk a (this a ha) b (this b hb)

end

/-- C120, in full: tables with the same rows in some order have the same groups, for all functions. -/
def C120_order_statement : Prop :=
  ∀ (sqrt : Rat → Rat) (ps : Nat), 0 < ps → ∀ (t u g : Tbl String GVal) (R S : List (List GVal)) (keys : List String) (fs : List (String × Acc)),
    Groupable t R (keys ++ fs.map (·.1)) → Groupable u S (keys ++ fs.map (·.1)) → t.map (·.1) = u.map (·.1) → R.Perm S → keys ++ fs.map (·.1) ≠ [] →
    (groupNames accName keys fs).Nodup → groupbyG sqrt accName ps t keys fs = .ok g →
    ∃ h G H, groupbyG sqrt accName ps u keys fs = .ok h ∧ tblRows .none g = .ok G ∧ tblRows .none h = .ok H ∧ G.Perm H

/-- two rows of one key; an int and a float of the same number -/
def twinRows : Tbl String GVal := [("k", [[.int 7, .int 7]]), ("v", [[.int 1, .float 1]])]

/-- the same rows the other way round -/
def twinRows' : Tbl String GVal := [("k", [[.int 7, .int 7]]), ("v", [[.float 1, .int 1]])]

theorem twinRows_groupable : Groupable twinRows [[.int 7, .int 1], [.int 7, .float 1]] ["k", "v"] ∧ Groupable twinRows' [[.int 7, .float 1], [.int 7, .int 1]] ["k", "v"] := by
  constructor
  · refine ⟨by decide +kernel, by intro c hc; simp only [twinRows, List.mem_cons, List.not_mem_nil, or_false] at hc; rcases hc with rfl | rfl <;> decide +kernel, [2], ?_⟩
    intro a ha
    simp only [List.mem_cons, List.not_mem_nil, or_false] at ha
    rcases ha with rfl | rfl
    · exact ⟨[[.int 7, .int 7]], by decide +kernel, by decide⟩
    · exact ⟨[[.int 1, .float 1]], by decide +kernel, by decide⟩
  · refine ⟨by decide +kernel, by intro c hc; simp only [twinRows', List.mem_cons, List.not_mem_nil, or_false] at hc; rcases hc with rfl | rfl <;> decide +kernel, [2], ?_⟩
    intro a ha
    simp only [List.mem_cons, List.not_mem_nil, or_false] at ha
    rcases ha with rfl | rfl
    · exact ⟨[[.int 7, .int 7]], by decide +kernel, by decide⟩
    · exact ⟨[[.float 1, .int 1]], by decide +kernel, by decide⟩

/-- C120 fails in full: which of an int and a float of the same number is the mode depends on the order of the rows. -/
theorem C120_order_fails : ¬ C120_order_statement := by
  intro H
  obtain ⟨h, G, K, e1, e2, e3, e4⟩ := H (fun x => x) 1 (by decide) twinRows twinRows' [("k", [[.int 7]]), (accName .mode "v", [[.int 1]])] _ _ ["k"] [("v", .mode)]
    twinRows_groupable.1 twinRows_groupable.2 rfl (List.Perm.swap _ _ _) (by simp) (by decide +kernel) (by decide +kernel)
  have hG : G = [[.int 7, .int 1]] := by
    have : tblRows .none ([("k", [[.int 7]]), (accName .mode "v", [[.int 1]])] : Tbl String GVal) = .ok [[.int 7, .int 1]] := by decide +kernel
    rw [this] at e2
    injection e2 with e2
    exact e2.symm
  have hh : groupbyG (fun x => x) accName 1 twinRows' ["k"] [("v", .mode)] = .ok [("k", [[.int 7]]), (accName .mode "v", [[.float 1]])] := by decide +kernel
  rw [hh] at e1
  injection e1 with e1
  subst e1
  have hK : K = [[.int 7, .float 1]] := by
    have : tblRows .none ([("k", [[.int 7]]), (accName .mode "v", [[.float 1]])] : Tbl String GVal) = .ok [[.int 7, .float 1]] := by decide +kernel
    rw [this] at e3
    injection e3 with e3
    exact e3.symm
  subst hG hK
  have := e4.mem_iff (a := [GVal.int 7, GVal.int 1])
  revert this
  decide +kernel

/-- a table with two columns of one page each can be grouped -/
theorem groupable_pair (ks vs : List GVal) (a b : String) (hab : a ≠ b) (hl : vs.length = ks.length) (R : List (List GVal)) (hR : tblRows .none [(a, [ks]), (b, [vs])] = .ok R) (hRl : R.length = ks.length) :
    Groupable [(a, [ks]), (b, [vs])] R [a, b] := by
  refine ⟨hR, ?_, [ks.length], ?_⟩
  · intro c hc
    simp only [List.mem_cons, List.not_mem_nil, or_false] at hc
    rcases hc with rfl | rfl <;> simp [colLen_eq, hl, hRl]
  · intro x hx
    simp only [List.mem_cons, List.not_mem_nil, or_false] at hx
    rcases hx with rfl | rfl
    · exact ⟨[ks], by simp [dGet], by simp⟩
    · exact ⟨[vs], by simp [dGet, hab], by simp [hl]⟩

/-- the conditions of `C120_order` are met by a table and the same table the other way round -/
example : ∃ h G H, groupbyG (fun x => x) accName 10 [("k", [[.int 2, .int 1, .int 2]]), ("v", [[.int 30, .int 20, .int 10]])] ["k"] [("v", .sum)] = .ok h ∧ h.map (·.1) = ["k", accName .sum "v"] ∧
    tblRows .none [("k", [[.int 2, .int 1]]), (accName .sum "v", [[.float 40, .float 20]])] = .ok G ∧ tblRows .none h = .ok H ∧ G.Perm H :=
  C120_order (fun x => x) accName 10 (by decide) [("k", [[.int 2, .int 1, .int 2]]), ("v", [[.int 10, .int 20, .int 30]])] _ [("k", [[.int 2, .int 1]]), (accName .sum "v", [[.float 40, .float 20]])]
    [[.int 2, .int 10], [.int 1, .int 20], [.int 2, .int 30]] [[.int 2, .int 30], [.int 1, .int 20], [.int 2, .int 10]] ["k"] [("v", .sum)]
    (by refine groupable_pair _ _ "k" "v" ?_ ?_ _ ?_ ?_ <;> decide +kernel) (by refine groupable_pair _ _ "k" "v" ?_ ?_ _ ?_ ?_ <;> decide +kernel) rfl (by decide +kernel) (by simp) (by decide +kernel) (by decide) (by
      intro f hf
      rw [List.mem_singleton] at hf
      subst hf
      simp) (by decide +kernel)

/-- the conditions of `C120_filter` are met by the rows whose key is 2 -/
example : ∃ h G, groupbyG (fun x => x) accName 10 [("k", [[.int 2, .int 2]]), ("v", [[.int 10, .int 30]])] ["k"] [("v", .last)] = .ok h ∧ h.map (·.1) = ["k", accName .last "v"] ∧
    tblRows .none [("k", [[.int 2, .int 1]]), (accName .last "v", [[.int 30, .int 20]])] = .ok G ∧ tblRows .none h = .ok (G.filter fun r => decide (r.take 1 = [.int 2])) :=
  C120_filter (fun x => x) accName 10 (by decide) [("k", [[.int 2, .int 1, .int 2]]), ("v", [[.int 10, .int 20, .int 30]])] _ [("k", [[.int 2, .int 1]]), (accName .last "v", [[.int 30, .int 20]])]
    [[.int 2, .int 10], [.int 1, .int 20], [.int 2, .int 30]] ["k"] [("v", .last)] (fun k => decide (k = [.int 2]))
    (by refine groupable_pair _ _ "k" "v" ?_ ?_ _ ?_ ?_ <;> decide +kernel) (by refine groupable_pair _ _ "k" "v" ?_ ?_ _ ?_ ?_ <;> decide +kernel) rfl (by simp) (by decide +kernel) (by decide +kernel)

/-- the conditions of `C120_parts` are met by two tables with different keys -/
example : ∃ x G H, groupbyG (fun x => x) accName 10 [("k", [[.int 2, .int 1, .int 3, .int 3]]), ("v", [[.int 10, .int 20, .int 5, .int 6]])] ["k"] [("v", .sum)] = .ok x ∧ x.map (·.1) = ["k", accName .sum "v"] ∧
    tblRows .none [("k", [[.int 2, .int 1]]), (accName .sum "v", [[.float 10, .float 20]])] = .ok G ∧ tblRows .none [("k", [[.int 3]]), (accName .sum "v", [[.float 11]])] = .ok H ∧ tblRows .none x = .ok (G ++ H) :=
  C120_parts (fun x => x) accName 10 (by decide) [("k", [[.int 2, .int 1]]), ("v", [[.int 10, .int 20]])] [("k", [[.int 3, .int 3]]), ("v", [[.int 5, .int 6]])] _
    [("k", [[.int 2, .int 1]]), (accName .sum "v", [[.float 10, .float 20]])] [("k", [[.int 3]]), (accName .sum "v", [[.float 11]])]
    [[.int 2, .int 10], [.int 1, .int 20]] [[.int 3, .int 5], [.int 3, .int 6]] ["k"] [("v", .sum)]
    (by refine groupable_pair _ _ "k" "v" ?_ ?_ _ ?_ ?_ <;> decide +kernel) (by refine groupable_pair _ _ "k" "v" ?_ ?_ _ ?_ ?_ <;> decide +kernel) (by refine groupable_pair _ _ "k" "v" ?_ ?_ _ ?_ ?_ <;> decide +kernel) rfl rfl (by simp)
    (by decide +kernel) (by decide +kernel) (by decide +kernel) (by decide +kernel)

end Tablite
