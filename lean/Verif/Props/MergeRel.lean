import Verif.Props.CarryRel
/-!
# Conditional merge in rows

`where` (merge.py:7-50) seen as an operation on lists of rows (C63).
-/

namespace Tablite

section
variable {ν α : Type} [DecidableEq ν]

/-- Spec: the names after merging `left` and `right` into `new`: the merged column takes the place of the column of its name, or the last place -/
def Rel.mergedNames (r : Rel ν α) (left right new : ν) : List ν :=
  if new = right then r.names.filter fun x => x ≠ left
  else if new = left then r.names.filter fun x => x ≠ right
  else (r.names.filter fun x => x ≠ left ∧ x ≠ right) ++ [new]

/-- Spec: in the merged column a row has its own value of `left` where the criterion holds, and of `right` where it does not; its other values stay -/
def Rel.merged (nul : α) (r : Rel ν α) (crit : List Bool) (left right new : ν) : Rel ν α :=
  ⟨r.mergedNames left right new, (r.rows.zip crit).map fun p => (r.mergedNames left right new).map fun x =>
    r.get nul p.1 (if x = new then (if p.2 then left else right) else x)⟩

variable [DecidableEq α]

/-- **C63** partial, in rows: merging two columns of a table that fits a page gives the rows of the spec.  Missing: tables longer than a page (`C63_raises`,
`C63_exact`), and a target that names a third column (`C63_fails_leftover`). -/
theorem C63_rows_partial {nul : α} {t : Tbl ν α} {r : Rel ν α} (h : Shows nul t r) (ps : Nat) (hps : 0 < ps) (mk : ν → Nat → ν) (crit : List Bool) (left right new : ν)
    (hmk : ∀ a b, mk new a = mk new b → a = b) (hc : crit.length = r.rows.length) (hn : r.rows.length ≤ ps) (hl : left ∈ r.names) (hr : right ∈ r.names) (hlr : left ≠ right)
    (hnew : new = left ∨ new = right ∨ new ∉ r.names) :
    ∃ t', tblWhere ps mk t crit left right new = .ok t' ∧ Shows nul t' (r.merged nul crit left right new) := by
  have hnm := h.2.1
  obtain ⟨t', h1, h2⟩ := C63_where_partial ps hps mk nul t crit left right new hmk h.wf (by rw [hc]; exact h.2.2.1) (by omega) (hnm ▸ hl) (hnm ▸ hr) hlr (by rw [hnm]; exact hnew)
  refine ⟨t', h1, ?_⟩
  have hlen : tblLen t = crit.length := by rw [tblLen_rect t _ h.2.2.1 h.ne, hc]
  have hvals : ∀ x, valsOr nul t crit.length x = r.rows.map fun row => r.get nul row x := fun x => by rw [← hlen, valsOr_shows h x]
  have hnames : (if new = right then (t.map (·.1)).filter (fun x => x ≠ left)
          else if new = left then (t.map (·.1)).filter (fun x => x ≠ right)
          else (t.map (·.1)).filter (fun x => x ≠ left ∧ x ≠ right) ++ [new]) = r.mergedNames left right new := by
    rw [hnm]
    rfl
  rw [hnames] at h2
  rw [shows_iff]
  refine ⟨⟨?_, ?_, ?_⟩, ?_⟩
  · have : new ∈ r.mergedNames left right new := by
      unfold Rel.mergedNames
      split
      · next e => subst e; exact List.mem_filter.2 ⟨hr, by simpa using hlr.symm⟩
      · split
        · next e => subst e; exact List.mem_filter.2 ⟨hl, by simpa using hlr⟩
        · simp
    exact List.ne_nil_of_mem this
  · show (r.mergedNames left right new).Nodup
    unfold Rel.mergedNames
    split
    · exact h.1.2.1.filter _
    · split
      · exact h.1.2.1.filter _
      · next e1 e2 =>
        refine List.nodup_append.2 ⟨h.1.2.1.filter _, by simp, ?_⟩
        intro a ha b hb e
        rw [List.mem_singleton] at hb
        have : new ∉ r.names := by
          rcases hnew with g | g | g
          · exact absurd g e2
          · exact absurd g e1
          · exact g
        exact this (hb ▸ e ▸ (List.mem_filter.1 ha).1)
  · intro row hrow
    obtain ⟨p, -, rfl⟩ := List.mem_map.1 hrow
    simp [Rel.merged]
  · rw [h2]
    unfold Rel.cols Rel.merged
    dsimp only
    apply List.map_congr_left
    intro x hx
    rw [Prod.mk.injEq]
    refine ⟨rfl, ?_⟩
    rw [List.map_map]
    have hg : ∀ p : List α × Bool, Rel.get nul (⟨r.mergedNames left right new, (r.rows.zip crit).map fun p => (r.mergedNames left right new).map fun x =>
          r.get nul p.1 (if x = new then (if p.2 then left else right) else x)⟩ : Rel ν α)
        ((r.mergedNames left right new).map fun x => r.get nul p.1 (if x = new then (if p.2 then left else right) else x)) x =
        r.get nul p.1 (if x = new then (if p.2 then left else right) else x) :=
      fun p => rel_get_names nul _ (fun x => r.get nul p.1 (if x = new then (if p.2 then left else right) else x)) hx
    simp only [Function.comp_def, hg, hvals]
    apply List.ext_getElem
    · split <;> simp [chosen, hc]
    · intro i i1 i2
      have hi : i < r.rows.length := by
        rw [List.length_map, List.length_zip] at i2
        omega
      have hic : i < crit.length := by omega
      rw [List.getElem_map, List.getElem_zip]
      by_cases hxn : x = new
      · simp only [hxn, if_true, chosen, List.getElem_map, List.getElem_range]
        simp only [List.getD_eq_getElem?_getD, List.getElem?_map, List.getElem?_eq_getElem hi, List.getElem?_eq_getElem hic, Option.map_some, Option.getD_some]
        split <;> rfl
      · simp only [hxn, if_false, List.getElem_map]

end

/-- a table meets the conditions; the merged column takes the place of the second one -/
example : (⟨["a", "b", "c"], [[1, 5, 7], [2, 6, 8]]⟩ : Rel String Nat).merged 0 [true, false] "a" "b" "b" = ⟨["b", "c"], [[1, 7], [6, 8]]⟩ := by
  unfold Rel.merged
  rw [Rel.mk.injEq]
  exact ⟨by decide, by decide⟩

/-- the theorem applies to a table in two pages -/
example : ∃ t', tblWhere 4 (fun d i => d * 100 + i) [(1, [[10], [11]]), (2, [[20, 21]]), (3, [[30, 31]])] [true, false] 1 2 9 = .ok t' ∧
    Shows 0 t' ((⟨[1, 2, 3], [[10, 20, 30], [11, 21, 31]]⟩ : Rel Nat Nat).merged 0 [true, false] 1 2 9) :=
  C63_rows_partial ((shows_iff ..).2 ⟨⟨by decide, by decide, by decide⟩, by decide⟩) 4 (by omega) _ _ 1 2 9 (fun a b h => by simpa using h) rfl (by decide) (by decide) (by decide)
    (by decide) (by decide)

end Tablite
