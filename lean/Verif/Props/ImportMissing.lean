import Verif.Props.ImportTyped

/-! C129: fields missing at the end of a record. -/
namespace Tablite

/-- a row of a page: the fields that are in the record, and `none` for the others -/
theorem optRow_missing (n : Nat) (p : Nat → Bool) (r : List (List Char)) (j : Nat) (hj : j < ((List.range n).filter p).length)
    (hm : r.length ≤ ((List.range n).filter p).getD j 0) : (optRow ((List.range n).filter p) r).getD j none = none := by
  have h1 : ((List.range r.length).filter fun i => decide (i ∈ (List.range n).filter p)) = ((List.range n).filter p).filter fun i => decide (i < r.length) := by
    apply List.Perm.eq_of_pairwise (le := fun a b => a < b)
    · intro a b _ _ h1 h2; omega
    · exact range_filter_sorted _ _
    · exact List.Pairwise.filter _ (range_filter_sorted _ _)
    · apply (List.perm_ext_iff_of_nodup ?_ ?_).2
      · intro a
        simp only [List.mem_filter, List.mem_range, decide_eq_true_eq]
        tauto
      · exact List.nodup_range.filter _
      · exact (List.nodup_range.filter _).filter _
  have hlen : (((List.range n).filter p).filter fun i => decide (i < r.length)).length ≤ j := by
    generalize hL : (List.range n).filter p = L at *
    have hs : L.Pairwise (· < ·) := hL ▸ range_filter_sorted n p
    clear h1 hL
    induction L generalizing j with
    | nil => simp
    | cons a L ih =>
      have hs' := List.pairwise_cons.1 hs
      cases j with
      | zero =>
        have ha : r.length ≤ a := by simpa using hm
        rw [List.filter_eq_nil_iff.2]
        · rfl
        · intro b hb
          rcases List.mem_cons.1 hb with rfl | hb
          · simp; omega
          · have := hs'.1 b hb
            simp; omega
      | succ j =>
        have := ih j (by simpa using hj) (by simpa using hm) hs'.2
        rw [List.filter_cons]
        split <;> simp <;> omega
  unfold optRow
  dsimp only
  rw [h1, List.getD_eq_getElem?_getD, List.getElem?_append_right (by simpa using hlen)]
  rw [List.getElem?_replicate]
  split <;> rfl

/-- **C129, fields that are missing**: the value of a field that a record does not have is `None`, unless the page consists of texts only; then it is the
empty text -/
theorem C129_missing (pf : List Char → Option Rat) (d : Dialect) (lines : List (List Char)) (skip : Option Bool) (n : Nat) (p : Nat → Bool) (off count : Nat)
    (pages : List (List InfVal)) (recs : List (List (List Char)))
    (h : taskPages (typedCells (inferAs pf)) d lines skip ((List.range n).filter p) off count = .ok pages) (hr : parseLines d {} (lines.drop off) = .ok recs)
    (j : Nat) (hj : j < ((List.range n).filter p).length) (i : Nat) (r : List (List Char)) (hi : ((recs.take count).filter fun r => !checkSkip skip r)[i]? = some r)
    (hm : r.length ≤ ((List.range n).filter p).getD j 0) :
    ∃ page, pages[j]? = some page ∧ (page[i]? = some .none ∨ (page[i]? = some (.str []) ∧ ∀ v ∈ page, ∃ t, v = .str t)) := by
  unfold taskPages at h
  rw [hr] at h
  have h := mapM_rel h
  have hlen : pages.length = ((List.range n).filter p).length := by rw [← h.length_eq, List.length_range]
  refine ⟨pages[j]'(by omega), List.getElem?_eq_getElem _, ?_⟩
  have hp := (List.forall₂_iff_get.1 h).2 j (by rw [List.length_range]; exact hj) (by omega)
  simp only [List.get_eq_getElem, List.getElem_range] at hp
  unfold typedCells at hp
  obtain ⟨x, -, hp⟩ := ebind_ok hp
  obtain ⟨q, -, hp⟩ := ebind_ok hp
  have hp := mapM_rel hp
  have hi' : i < ((recs.take count).filter fun r => !checkSkip skip r).length := by
    by_contra hc
    rw [List.getElem?_eq_none (by omega)] at hi
    cases hi
  have hl := hp.length_eq
  simp only [List.length_map, pageLoop_eq, Nat.sub_zero] at hl
  have hv := (List.forall₂_iff_get.1 hp).2 i (by simpa [pageLoop_eq] using hi') (by omega)
  simp only [List.get_eq_getElem, List.getElem_map, pageLoop_eq, Nat.sub_zero] at hv
  have er : ((recs.take count).filter fun r => !checkSkip skip r)[i] = r := by
    rw [List.getElem?_eq_getElem hi'] at hi
    exact Option.some.inj hi
  rw [er, optRow_missing n p r j hj hm] at hv
  rw [List.getElem?_eq_getElem (by omega)]
  change writeMissing q.1 = _ at hv
  obtain ⟨q1, q2⟩ := q
  cases q1 with
  | unicode =>
    right
    have e : InfVal.str [] = pages[j][i] := Except.ok.inj hv
    refine ⟨by rw [← e], fun v hv' => ?_⟩
    obtain ⟨k, hk, rfl⟩ := List.getElem_of_mem hv'
    have := (List.forall₂_iff_get.1 hp).2 k (by rw [hp.length_eq]; exact hk) hk
    generalize (List.map _ _).get _ = c at this
    cases c with
    | none => exact ⟨[], (Except.ok.inj this).symm⟩
    | some s =>
      change writeValue _ .unicode _ _ _ = _ at this
      unfold writeValue at this
      dsimp only at this
      split at this
      · cases this
      · exact ⟨s, (Except.ok.inj this).symm⟩
  | object =>
    left
    have e : InfVal.none = pages[j][i] := Except.ok.inj hv
    rw [← e]
  | _ => exact absurd hv (by simp [writeMissing])

/-- records that meet the assumptions: the second lacks its second field -/
example : parseLines {} {} ["a,1\n".toList, "b\n".toList] = .ok [["a".toList, "1".toList], ["b".toList]] ∧
    (List.range 2).filter (fun _ => true) = [0, 1] ∧
    taskPages (typedCells (inferAs fun _ => none)) {} ["a,1\n".toList, "b\n".toList] none [0, 1] 0 2 = .ok [[.str ['a'], .str ['b']], [.int 1, .none]] := by
  decide +kernel

end Tablite
