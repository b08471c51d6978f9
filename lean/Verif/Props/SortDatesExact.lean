import Verif.Props.SortDates
import Verif.Props.InferDate

/-! C102: exactly which columns of dates and datetimes can be sorted in Excel order. -/
namespace Tablite
variable {K : Type} [LinearOrder K] {ν : Type} [DecidableEq ν]

/-- a sort that succeeds has ranked every key -/
theorem rankRows_each {α : Type} (rk : Bool → List α → Except Err (α → Option Nat)) (t : Tbl ν α) (mapping : List (ν × Bool)) : ∀ (acc r : List (List Nat)),
    rankRows rk t mapping acc = .ok r → ∀ k ∈ mapping, ∃ p look, dGet k.1 t = some p ∧ rk k.2 (colIter p) = .ok look := by
  induction mapping with
  | nil => intro acc r _ k hk; cases hk
  | cons x rest ih =>
    intro acc r h k hk
    rw [rankRows] at h
    cases hd : dGet x.1 t with
    | none => rw [hd] at h; cases h
    | some p =>
      rw [hd] at h
      dsimp only at h
      cases hl : rk x.2 (colIter p) with
      | error e => rw [hl] at h; cases h
      | ok look =>
        rw [hl] at h
        cases hm : (colIter p).mapM (rankOf look) with
        | error e => simp only [bind, Except.bind, hm] at h; cases h
        | ok rs =>
          simp only [bind, Except.bind, hm] at h
          rcases List.mem_cons.1 hk with rfl | hk
          · exact ⟨p, look, hd, hl⟩
          · exact ih _ _ h k hk

/-- **C102, exactly** (Excel order): a table is sorted by columns of dates, datetimes and None if and only if in no key column a date is in the same second as a datetime.
If it is sorted, the order is that of `C102_excel_partial`; if not, TypeError is raised by `C102_same_second_raises` -/
theorem C102_exact (fl : Rat → Rat) (hfl : IsRound fl) (key : String → K) (ord : List SVal → List SVal) (hord : ∀ l v, v ∈ ord l ↔ v ∈ l) (ps : Nat) (hps : 0 < ps) (t : Tbl ν SVal)
    (n : Nat) (hrect : Rect t n) (mapping : List (ν × Bool)) (hne : mapping ≠ []) (hk : ∀ k ∈ mapping, k.1 ∈ t.map (·.1))
    (v : ν → Nat → DVal) (hv : ∀ k ∈ mapping, ∀ i < n, (v k.1 i).Ok ∧ cell .none t k.1 i = (v k.1 i).sval fl excelEpoch)
    (hm : ∀ k ∈ mapping, ∀ i < n, v k.1 i = .none ∨ (∃ d, v k.1 i = .date d) ∨ ∃ m, v k.1 i = .datetime m) :
    (∃ t', tblSort (excelRank key ord) ps .none t mapping = .ok t') ↔
      ∀ k ∈ mapping, ∀ i < n, ∀ j < n, ∀ d m, v k.1 i = .date d → v k.1 j = .datetime m → m / 1000000 ≠ d * 86400 := by
  constructor
  · rintro ⟨t', h⟩ k hkm i hi j hj d m hd hmm heq
    unfold tblSort at h
    obtain ⟨idx, hidx, -⟩ := ebind_ok h
    unfold sortIndex at hidx
    rw [if_neg hne] at hidx
    split at hidx
    · cases hidx
    · obtain ⟨r, hr, -⟩ := ebind_ok hidx
      obtain ⟨p, look, hp, hl⟩ := rankRows_each _ t mapping _ _ hr k hkm
      have hmem : ∀ i < n, (v k.1 i).sval fl excelEpoch ∈ colIter p := by
        intro i hi
        rw [← (hv k hkm i hi).2]
        have hlen : (colIter p).length = n := by
          have := hrect (k.1, p) (dGet_mem _ _ _ hp)
          rw [colLen_eq] at this
          rw [colIter_eq]
          exact this
        unfold cell
        rw [hp]
        show (colIter p).getD i .none ∈ colIter p
        rw [List.getD_eq_getElem?_getD, List.getElem?_eq_getElem (by omega), Option.getD_some]
        exact List.getElem_mem _
      have h1 := hmem i hi
      have h2 := hmem j hj
      rw [hd] at h1
      rw [hmm] at h2
      rw [C102_same_second_raises fl key ord hord k.2 (colIter p) d m h1 h2 heq] at hl
      cases hl
  · intro H
    obtain ⟨idx, t', h, -⟩ := C102_excel_partial fl hfl key ord hord ps hps t n hrect mapping hne hk v hv (by
      intro k hkm i hi j hj
      unfold Alike
      rcases hm k hkm i hi with a | ⟨d, a⟩ | ⟨m, a⟩ <;> rcases hm k hkm j hj with b | ⟨d', b⟩ | ⟨m', b⟩ <;> rw [a, b] <;> simp only [DVal.kind, DVal.isMoment, DVal.instant, true_or, or_true, true_and]
      · have := H k hkm i hi j hj d m' a b
        right; right; right
        intro hc
        apply this
        rw [← hc]
        omega
      · have := H k hkm j hj i hi d' m b a
        right; right; right
        intro hc
        apply this
        rw [hc]
        omega)
    exact ⟨t', h⟩

/-- a date, None and a datetime one second after the midnight of the date can be sorted -/
example : ∃ t', tblSort (excelRank (fun s => s.length) id) 10 .none
    [((0 : Nat), [[DVal.date 693595, .none, .datetime 59926608001000000].map (DVal.sval flDouble excelEpoch)])] [(0, false)] = .ok t' := by
  refine (C102_exact flDouble isRound_double _ id (fun _ _ => Iff.rfl) 10 (by decide) _ 3 (by intro c hc; rw [List.mem_singleton.1 hc]; rfl) [(0, false)] (by simp) (by simp)
    (fun _ i => [DVal.date 693595, .none, .datetime 59926608001000000].getD i .none) ?_ ?_).2 ?_
  · intro k hk i hi
    rw [List.mem_singleton.1 hk]
    interval_cases i <;> exact ⟨by simp [DVal.Ok], rfl⟩
  · intro k hk i hi
    interval_cases i <;> simp
  · intro k hk i hi j hj d m h1 h2
    interval_cases i <;> interval_cases j <;> simp at h1 h2
    subst h1 h2
    decide

end Tablite
