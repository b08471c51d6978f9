import Verif.Props.ListSim

/-! C113: exactly which steps treat a column as a list. -/
namespace Tablite
variable {α : Type} [DecidableEq α]

/-- the steps that are decided here: all but writing fewer values than positions to a slice with a step, and deleting a slice that is empty or runs backwards -/
def StepDecided (pages : Pages α) : ColOp α → Prop
  | .setSlice s v => (colIter pages ++ v).Nodup ∧
      (s.step = none ∨ s.step = some 1 ∨ s.step = some 0 ∨ (rangeList (s.indices (colLen pages)).1 (s.indices (colLen pages)).2.1 s.stepOr1).length ≤ v.length)
  | .delSlice s => s.step = some 0 ∨ (0 < s.stepOr1 ∧ (s.indices (colLen pages)).1 < (s.indices (colLen pages)).2.1)
  | _ => True

/-- **C113, exactly**, for one step on a column of pairwise different values: it leaves the column with what the list would be left with, or raises the error of the list,
if and only if it is right in the sense of `C113_partial` -/
theorem C113_step_exact (ps : Nat) (hps : 0 < ps) (others : Nat → Pages α) (pages : Pages α) (o : ColOp α) (hd : (colIter pages).Nodup) (ho : StepDecided pages o) :
    (opPages ps others pages o).map colIter = listOp (fun d => colIter (others d)) (colIter pages) o ↔ OpRight pages o := by
  refine ⟨fun h => ?_, opPages_list ps hps others pages o⟩
  have hlen : (colIter pages).length = colLen pages := by rw [colIter_eq, colLen_eq]
  cases o with
  | imul n =>
    simp only [opPages, listOp] at h
    rw [C09_repeat] at h
    by_contra hn
    have hn : ¬ 0 < n := hn
    rw [if_neg hn] at h
    cases h
  | delInt i => exact (C07_int_exact pages i hd).1 h
  | delSlice s =>
    simp only [OpRight]
    rcases ho with h0 | ⟨h1, h2⟩
    · exact .inl h0
    · by_cases h0 : s.step = some 0
      · exact .inl h0
      · simp only [opPages, listOp] at h
        rw [if_neg h0] at h
        exact .inr (.inr ⟨h1, h2, (C07_exact ps hps pages s h1 hd h2).1 h⟩)
  | setSlice s v =>
    simp only [OpRight]
    simp only [opPages, listOp] at h
    by_cases hs : s.step = none ∨ s.step = some 1
    · rw [if_pos hs] at h ⊢
      exact (C05_exact ps hps pages s v hs).1 h
    · rw [if_neg hs] at h ⊢
      by_cases h0 : s.step = some 0
      · rw [if_pos h0]; trivial
      · rw [if_neg h0] at h ⊢
        obtain ⟨hnd, hv⟩ := ho
        have hv : (rangeList (s.indices (colLen pages)).1 (s.indices (colLen pages)).2.1 s.stepOr1).length ≤ v.length := by
          rcases hv with hv | hv | hv | hv
          · exact absurd (.inl hv) hs
          · exact absurd (.inr hv) hs
          · exact absurd hv h0
          · exact hv
        rcases Nat.lt_or_eq_of_le hv with hv | hv
        · exact .inl hv
        · right
          refine ⟨hv.symm, ?_⟩
          have hset : setSlice ps pages s v = setUpdate ps pages s v := by
            unfold setSlice
            rw [if_neg hs]
          rw [hset] at h
          have e : pySetStride (colIter pages) s v =
              if v.length = (rangeList (s.indices (colIter pages).length).1 (s.indices (colIter pages).length).2.1 s.stepOr1).length then
                .ok (setMany (colIter pages) (rangeList (s.indices (colIter pages).length).1 (s.indices (colIter pages).length).2.1 s.stepOr1) v) else .error .value := rfl
          rw [e, hlen, if_pos hv.symm] at h
          exact (C06_exact ps hps pages s v h0 hnd (by omega)).1 h
  | _ => trivial

/-- a step that is decided and not right: the last of three values, by its negative position -/
example : StepDecided ([[0, 1], [2]] : Pages Nat) (.delInt (-1)) ∧ ¬ OpRight ([[0, 1], [2]] : Pages Nat) (.delInt (-1)) := by
  refine ⟨trivial, ?_⟩
  rintro ⟨A, p, R, -, -, h, -⟩
  exact absurd h (by decide)

end Tablite
