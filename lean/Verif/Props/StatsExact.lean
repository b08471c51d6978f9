import Verif.Props.StatsAny
/-!
# C94, exactly: of which columns there are statistics
-/
namespace Tablite

/-- **C94**, exactly: a column of values (times being times of a day) has statistics if and only if the type no other outnumbers, the first of several, is neither `timedelta` nor one of the
types without a method; times are taken without rounding. -/
theorem C94_exact (clk : SClock) (vc : List (StVal × Nat)) (hne : vc ≠ []) (hpos : ∀ e ∈ vc, 0 < e.2) (hr : ∀ us n, (StVal.time us, n) ∈ vc → us < 86400000000) :
    (∃ r, summaryStatistics clk id vc = .ok (some r)) ↔ ∃ T l, dominant StVal.kind vc = some (T, l) ∧ T ≠ .timedelta ∧ T ≠ .other := by
  obtain ⟨a, ha⟩ := List.exists_mem_of_ne_nil vc hne
  obtain ⟨T, hT, hex, -, -⟩ := C66_dominant StVal.kind vc ⟨a, ha, hpos a ha⟩
  constructor
  · rintro ⟨r, h⟩
    refine ⟨T, _, hT, ?_, ?_⟩
    · rintro rfl
      rw [C94_timedelta_raises clk id vc hpos _ hT] at h
      cases h
    · rintro rfl
      rw [C94_other_raises clk id vc _ hT] at h
      cases h
  · rintro ⟨T', l, h, h1, h2⟩
    rw [hT] at h
    cases h
    by_cases h3 : T = .time
    · subst h3
      obtain ⟨p1, p2⟩ := pick_ok (fun | .time us => some us | _ => none) .time (by intro v hv; cases v <;> first | exact ⟨_, rfl⟩ | cases hv) vc hpos hex
      obtain ⟨d, hd⟩ := C94_time_total _ p1 p2 (by
        intro e he
        unfold pickVals at he
        obtain ⟨x, hx, hxe⟩ := List.mem_filterMap.1 he
        obtain ⟨v, n⟩ := x
        have hx' := (List.mem_filter.1 hx).1
        cases v <;> simp at hxe
        subst hxe
        exact hr _ _ hx')
      refine ⟨⟨d, vc.length, .time, vc⟩, ?_⟩
      unfold summaryStatistics
      rw [hT]
      have : methodOf clk id .time (vc.filter fun e => e.1.kind = .time) = .ok d := hd
      dsimp only
      rw [this]
      rfl
    · refine C94_partial clk id vc hne hpos ?_
      intro T' l h
      rw [hT] at h
      cases h
      exact ⟨h1, h2, h3⟩

/-- two texts and a time: the texts are most frequent, so there are statistics; two durations and a text: there are none -/
example : ((∃ T l, dominant StVal.kind [(StVal.str ['a'], 2), (.time 5, 1)] = some (T, l) ∧ T ≠ .timedelta ∧ T ≠ .other) ∧
    ¬ ∃ T l, dominant StVal.kind [(StVal.timedelta 5, 2), (.str ['a'], 1)] = some (T, l) ∧ T ≠ .timedelta ∧ T ≠ .other) ∧
    (∀ us n, (StVal.time us, n) ∈ [(StVal.str ['a'], 2), (.time 5, 1)] → us < 86400000000) := by
  refine ⟨⟨⟨.str, [(.str ['a'], 2)], by decide +kernel, by decide, by decide⟩, ?_⟩, ?_⟩
  · rintro ⟨T, l, h, h1, -⟩
    have e : dominant StVal.kind [(StVal.timedelta 5, 2), (.str ['a'], 1)] = some (.timedelta, [(StVal.timedelta 5, 2)]) := by decide +kernel
    rw [e] at h
    injection h with h
    exact h1 (Prod.ext_iff.1 h).1.symm
  · intro us n h
    simp at h
    omega

end Tablite
