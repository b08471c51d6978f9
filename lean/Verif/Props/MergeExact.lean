import Verif.Props.MergeKeys
/-!
# C82: exactly when an inner join with merged keys removes the right columns
-/
namespace Tablite

section
variable {ν α : Type} [DecidableEq ν]

theorem mergeDelete_exact (mk : ν → Nat → ν) (cols rk : List ν) : ∀ (t : Tbl ν α) (ks : List ν) (g : ν → List α), tview t = ks.map (fun y => (y, g y)) →
    ((∃ t', mergeDelete mk cols rk t = .ok t') ↔ (rk.map fun b => uniqueName mk b cols).Nodup ∧ ∀ b ∈ rk, uniqueName mk b cols ∈ ks) := by
  induction rk with
  | nil => intro t ks g _; exact iff_of_true ⟨t, rfl⟩ ⟨List.nodup_nil, by simp⟩
  | cons b rk ih =>
    intro t ks g h
    have hks : t.map (·.1) = ks := by
      have := congrArg (List.map (·.1)) h
      rw [List.map_map] at this
      unfold tview at this
      rw [List.map_map] at this
      simpa [Function.comp_def] using this
    by_cases hm : uniqueName mk b cols ∈ ks
    · obtain ⟨t1, h1, h2⟩ := tblDel_view t (uniqueName mk b cols) ks g h hm
      have e : mergeDelete mk cols (b :: rk) t = mergeDelete mk cols rk t1 := by
        unfold mergeDelete
        rw [List.foldlM_cons, h1]
        rfl
      rw [e, ih t1 _ g h2, List.map_cons, List.nodup_cons]
      constructor
      · rintro ⟨a1, a2⟩
        refine ⟨⟨?_, a1⟩, ?_⟩
        · intro hmem
          obtain ⟨b', hb', e'⟩ := List.mem_map.1 hmem
          have := (List.mem_filter.1 (a2 b' hb')).2
          simp [e'] at this
        · intro b' hb'
          rcases List.mem_cons.1 hb' with rfl | hb'
          · exact hm
          · exact (List.mem_filter.1 (a2 b' hb')).1
      · rintro ⟨⟨a0, a1⟩, a2⟩
        refine ⟨a1, fun b' hb' => List.mem_filter.2 ⟨a2 b' (List.mem_cons_of_mem _ hb'), ?_⟩⟩
        simp only [decide_eq_true_eq]
        intro e'
        exact a0 (List.mem_map.2 ⟨b', hb', e'⟩)
    · refine iff_of_false ?_ (fun ⟨_, a⟩ => hm (a b (by simp)))
      rintro ⟨t', ht'⟩
      rw [mergeDelete_missing mk cols (b :: rk) t b (by simp) (by rw [hks]; exact hm)] at ht'
      cases ht'

variable [DecidableEq α]

/-- the names of the right keys in the joined table -/
def mergedNames (mk : ν → Nat → ν) (rk lc rc : List ν) : List ν := ((rc.zip (rightNames mk lc rc)).filter fun x => x.1 ∈ rk).map (·.2)

/-- **C82** (inner), exactly: an inner join with merged keys succeeds if and only if the names looked for are different names of the joined table; it then has the columns of the plain join but for
these, with the same values. -/
theorem C82_inner_effect (ps : Nat) (hps : 0 < ps) (mk : ν → Nat → ν) (hmk : ∀ d a b, mk d a = mk d b → a = b) (ord : List (List α) → List (List α)) (nul : α) (t o : Tbl ν α) (n m : Nat)
    (ht : Rect t n) (ho : Rect o m) (lk rk lc rc : List ν) (h : JoinOk t o lk rk lc rc) :
    ∃ t1, tblJoin ps mk ord nul .inner t o lk rk lc rc = .ok t1 ∧ t1.map (·.1) = lc ++ rightNames mk lc rc ∧
      ((∃ t2, tblJoinMerged ps mk ord nul .inner t o lk rk lc rc = .ok t2) ↔
        (rk.map fun b => uniqueName mk b (t.map (·.1))).Nodup ∧ ∀ b ∈ rk, uniqueName mk b (t.map (·.1)) ∈ lc ++ rightNames mk lc rc) ∧
      ∀ t2, tblJoinMerged ps mk ord nul .inner t o lk rk lc rc = .ok t2 → tview t2 = (tview t1).filter fun c => c.1 ∉ rk.map fun b => uniqueName mk b (t.map (·.1)) := by
  obtain ⟨pairs, -, -, t1, h1, h2⟩ := C23_inner ps hps mk hmk ord nul t o n m ht ho lk rk lc rc h
  have hnames : (tview t1).map (·.1) = lc ++ rightNames mk lc rc := by
    rw [h2]
    unfold joinedView
    rw [List.map_append, List.map_map, List.map_map]
    congr 1
    · exact List.map_id _
    · exact List.map_snd_zip (by rw [rightNames_length]; omega)
  have hn1 : t1.map (·.1) = lc ++ rightNames mk lc rc := by
    rw [← hnames]
    unfold tview
    rw [List.map_map]
    rfl
  have hnd := rightNames_nodup mk hmk lc rc h.lcnd
  have hrep := dict_repr ([] : List α) (tview t1) (by rw [hnames]; exact hnd)
  rw [hnames] at hrep
  have hrun : tblJoinMerged ps mk ord nul .inner t o lk rk lc rc = mergeDelete mk (t.map (·.1)) rk t1 := by
    unfold tblJoin at h1
    unfold tblJoinMerged
    rw [joinCheck_ok h] at *
    simp only [bind, Except.bind] at *
    cases hM : joinMapping ord .inner t o lk rk with
    | error e => rw [hM] at h1; cases h1
    | ok M =>
      rw [hM] at h1
      simp only at h1 ⊢
      rw [h1]
      have : mergeColumns ps mk .inner (t.map (·.1)) lk rk M t1 = .ok t1 := by
        unfold mergeColumns
        rw [if_neg (by decide)]
      simp only [this]
  refine ⟨t1, h1, hn1, ?_, ?_⟩
  · rw [hrun]
    exact mergeDelete_exact mk _ rk t1 _ _ hrep
  · intro t2 ht2
    rw [hrun] at ht2
    obtain ⟨a1, a2⟩ := (mergeDelete_exact mk _ rk t1 _ _ hrep).1 ⟨t2, ht2⟩
    obtain ⟨t', b1, b2⟩ := mergeDelete_view mk (t.map (·.1)) rk a1 t1 _ _ hrep a2
    rw [ht2] at b1
    cases b1
    rw [b2]
    conv_rhs => rw [hrep, List.filter_map]
    rfl

/-- **C82** (inner), exactly: an inner join with merged keys succeeds and has the columns it should have - those of the left table and those of the right table that are not keys - if and only if the
names the code looks for are, in some order, the names the right keys got in the join. -/
theorem C82_inner_exact (ps : Nat) (hps : 0 < ps) (mk : ν → Nat → ν) (hmk : ∀ d a b, mk d a = mk d b → a = b) (ord : List (List α) → List (List α)) (nul : α) (t o : Tbl ν α) (n m : Nat)
    (ht : Rect t n) (ho : Rect o m) (lk rk lc rc : List ν) (h : JoinOk t o lk rk lc rc) :
    (∃ t2, tblJoinMerged ps mk ord nul .inner t o lk rk lc rc = .ok t2 ∧ t2.map (·.1) = lc ++ ((rc.zip (rightNames mk lc rc)).filter fun x => x.1 ∉ rk).map (·.2)) ↔
      (rk.map fun b => uniqueName mk b (t.map (·.1))).Perm (mergedNames mk rk lc rc) := by
  obtain ⟨t1, h1, hn1, hex, heff⟩ := C82_inner_effect ps hps mk hmk ord nul t o n m ht ho lk rk lc rc h
  have hnd := rightNames_nodup mk hmk lc rc h.lcnd
  have hz2 : (rc.zip (rightNames mk lc rc)).map (·.2) = rightNames mk lc rc := List.map_snd_zip (by rw [rightNames_length]; omega)
  generalize hD : (rk.map fun b => uniqueName mk b (t.map (·.1))) = D at *
  have hin : (∀ b ∈ rk, uniqueName mk b (t.map (·.1)) ∈ lc ++ rightNames mk lc rc) ↔ ∀ d ∈ D, d ∈ lc ++ rightNames mk lc rc := by
    rw [← hD]
    simp
  rw [hin] at hex
  obtain ⟨n1, n2, n3⟩ := List.nodup_append.1 hnd
  have hK : ∀ y ∈ mergedNames mk rk lc rc, y ∈ rightNames mk lc rc := by
    intro y hy
    obtain ⟨x, hx, rfl⟩ := List.mem_map.1 hy
    rw [← hz2]
    exact List.mem_map_of_mem (List.mem_filter.1 hx).1
  have hKn : (mergedNames mk rk lc rc).Nodup := by
    refine List.Nodup.sublist (List.Sublist.map _ List.filter_sublist) ?_
    rw [hz2]
    exact n2
  have hwant : lc ++ ((rc.zip (rightNames mk lc rc)).filter fun x => x.1 ∉ rk).map (·.2) = (lc ++ rightNames mk lc rc).filter fun y => y ∉ mergedNames mk rk lc rc := by
    rw [List.filter_append]
    congr 1
    · symm
      rw [List.filter_eq_self]
      intro y hy
      simp only [decide_eq_true_eq]
      exact fun hk => n3 y hy y (hK y hk) rfl
    · conv_rhs => rw [← hz2]
      rw [List.filter_map]
      congr 1
      refine List.filter_congr fun x hx => ?_
      simp only [Function.comp_def, decide_eq_decide]
      refine not_congr ⟨fun hr => List.mem_map.2 ⟨x, List.mem_filter.2 ⟨hx, by simpa using hr⟩, rfl⟩, ?_⟩
      intro hk
      obtain ⟨x', hx', e⟩ := List.mem_map.1 hk
      obtain ⟨hx1, hx2⟩ := List.mem_filter.1 hx'
      have hinj := List.inj_on_of_nodup_map (by rw [hz2]; exact n2) hx1 hx e
      rw [← hinj]
      simpa using hx2
  have hname2 : ∀ t2, tblJoinMerged ps mk ord nul .inner t o lk rk lc rc = .ok t2 → t2.map (·.1) = (lc ++ rightNames mk lc rc).filter fun y => y ∉ D := by
    intro t2 h2
    have e1 : ∀ u : Tbl ν α, u.map (·.1) = (tview u).map (·.1) := fun u => by
      unfold tview
      rw [List.map_map]
      rfl
    rw [e1, heff t2 h2, ← hn1, e1, List.filter_map]
    rfl
  rw [hwant]
  constructor
  · rintro ⟨t2, h2, h3⟩
    rw [hname2 t2 h2] at h3
    obtain ⟨a1, a2⟩ := hex.1 ⟨t2, h2⟩
    refine (List.perm_ext_iff_of_nodup a1 hKn).2 fun y => ?_
    have key : ∀ y ∈ lc ++ rightNames mk lc rc, (y ∈ D ↔ y ∈ mergedNames mk rk lc rc) := by
      intro y hy
      have h4 : (y ∈ (lc ++ rightNames mk lc rc).filter fun y => y ∉ D) ↔ y ∈ (lc ++ rightNames mk lc rc).filter fun y => y ∉ mergedNames mk rk lc rc := by rw [h3]
      rw [List.mem_filter, List.mem_filter] at h4
      simp only [hy, true_and, decide_eq_true_eq] at h4
      exact not_iff_not.1 h4
    exact ⟨fun hy => (key y (a2 y hy)).1 hy, fun hy => (key y (List.mem_append_right _ (hK y hy))).2 hy⟩
  · intro hp
    obtain ⟨t2, h2⟩ := hex.2 ⟨hp.nodup_iff.2 hKn, fun d hd => List.mem_append_right _ (hK d (hp.mem_iff.1 hd))⟩
    refine ⟨t2, h2, ?_⟩
    rw [hname2 t2 h2]
    refine List.filter_congr fun y _ => ?_
    simp only [decide_eq_decide]
    exact not_congr hp.mem_iff

end

/-- the names agree where the left table has a column `k`, and do not where the right table has `k_1` before `k` -/
example : (["k"].map fun b => uniqueName suffixed b ["k", "a"]) = mergedNames suffixed ["k"] ["k"] ["k", "v"] ∧
    (["k"].map fun b => uniqueName suffixed b ["k"]) = ["k_1"] ∧ mergedNames suffixed ["k"] ["k"] ["k_1", "k"] = ["k_2"] := by decide +kernel

end Tablite
