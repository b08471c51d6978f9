import Verif.Props.Impute

/-! C78: when the source of an imputation keeps its values. -/
namespace Tablite
variable {ν : Type} [DecidableEq ν]

/-- **C78, exactly**: under the conditions of `C78_partial` the table returned is the source itself.  Its values are as before if and only if every missing value of a target
happens to be the mean (for the mode: there is none, as a mode is not missing) -/
theorem C78_exact (srt : List IV → Option (List IV)) (hsrt : ∀ l s, srt l = some s → s.Perm l) (same : IV → IV → Bool) (fmt : Rat → String)
    (store : List IV → IV → Except Err IV) (m : StatMethod) (missing : List IV) (targets : List ν) (h : Heap IV) (t : OTbl ν) (hw : OWF h t)
    (htg : ∀ x ∈ targets, x ∈ t.map (·.1)) (hi : ∀ c ∈ t, c.1 ∈ targets → Imputable m missing (colIter (colAt h c.2)) ∧
      (∀ p ∈ colAt h c.2, Faithful same p) ∧ ∀ p ∈ colAt h c.2, (∃ x ∈ p, x ∈ missing) → ∀ v, store p v = .ok v) :
    ∃ h', imputeStat srt same fmt store m missing targets h t = (h', t, none) ∧
      ((∀ c ∈ t, colIter (colAt h' c.2) = colIter (colAt h c.2)) ↔
        ∀ c ∈ t, c.1 ∈ targets → ∀ x ∈ colIter (colAt h c.2), x ∈ missing → IsStat m (present missing (colIter (colAt h c.2))) x) := by
  obtain ⟨h', e, hc⟩ := C78_partial srt hsrt same fmt store m missing targets h t hw htg hi
  refine ⟨h', e, ?_⟩
  constructor
  · intro hs c hct htar x hx hm
    have := hc c hct
    rw [if_pos htar] at this
    obtain ⟨v, hv, e⟩ := this
    rw [hs c hct] at e
    have hxv : (if x ∈ missing then v else x) = x := by
      have := List.map_inj_left.1 (e.symm.trans (List.map_id _).symm) x hx
      exact this
    rw [if_pos hm] at hxv
    rw [← hxv]
    exact hv
  · intro hs c hct
    have := hc c hct
    by_cases htar : c.1 ∈ targets
    · rw [if_pos htar] at this
      obtain ⟨v, hv, e⟩ := this
      rw [e]
      conv_rhs => rw [← List.map_id (colIter (colAt h c.2))]
      apply List.map_congr_left
      intro x hx
      by_cases hm : x ∈ missing
      · rw [if_pos hm]
        have hxs := hs c hct htar x hx hm
        cases m with
        | mean => exact hv.trans (Eq.symm hxs)
        | mode => exact absurd hm (mem_present.1 hxs.1).2
      · rw [if_neg hm]; rfl
    · rw [if_neg htar] at this
      rw [this]

/-- C78 with the mode: the source keeps its values only if no target has a missing value -/
theorem C78_mode_exact (srt : List IV → Option (List IV)) (hsrt : ∀ l s, srt l = some s → s.Perm l) (same : IV → IV → Bool) (fmt : Rat → String)
    (store : List IV → IV → Except Err IV) (missing : List IV) (targets : List ν) (h : Heap IV) (t : OTbl ν) (hw : OWF h t)
    (htg : ∀ x ∈ targets, x ∈ t.map (·.1)) (hi : ∀ c ∈ t, c.1 ∈ targets → Imputable .mode missing (colIter (colAt h c.2)) ∧
      (∀ p ∈ colAt h c.2, Faithful same p) ∧ ∀ p ∈ colAt h c.2, (∃ x ∈ p, x ∈ missing) → ∀ v, store p v = .ok v) :
    ∃ h', imputeStat srt same fmt store .mode missing targets h t = (h', t, none) ∧
      ((∀ c ∈ t, colIter (colAt h' c.2) = colIter (colAt h c.2)) ↔ ∀ c ∈ t, c.1 ∈ targets → ∀ x ∈ colIter (colAt h c.2), x ∉ missing) := by
  obtain ⟨h', e, hc⟩ := C78_exact srt hsrt same fmt store .mode missing targets h t hw htg hi
  refine ⟨h', e, hc.trans ?_⟩
  constructor
  · intro H c hct htar x hx hm
    exact (mem_present.1 (H c hct htar x hx hm).1).2 hm
  · intro H c hct htar x hx hm
    exact absurd hm (H c hct htar x hx)

/-- a table that meets the assumptions: 1, None, 3 -/
example : OWF ([[[.int 1, .none, .int 3]]] : Heap IV) [("a", 0)] ∧ Imputable .mean [.none] [.int 1, .none, .int 3] ∧ Faithful (α := IV) (fun a b => decide (a = b)) [.int 1, .none, .int 3] := by
  refine ⟨by unfold OWF objs; decide, ⟨.int, .inl rfl, by decide, by decide, ?_⟩, ?_⟩
  · intro x hx hm hty
    simp at hm
    subst hm
    cases hty
  · unfold Faithful
    simp

end Tablite
