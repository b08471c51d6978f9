import Verif.Props.TableSim
import Verif.Props.NearestRow
/-!
# C143 in terms of rows

Nearest neighbour imputation of one column as a step from a list of rows to a list of rows, so that scripts (C128) may use it.  Pages do not occur here; the table that the code makes is cut at the same places as the table it got.
-/

namespace Tablite

variable {ν α : Type} [DecidableEq ν] [DecidableEq α]

/-- Spec: the value of a column in the row of a number -/
def Rel.at (nul : α) (r : Rel ν α) (i : Nat) (x : ν) : α := r.get nul (r.rows.getD i []) x

/-- Spec: the distance of two rows: the sum of the differences of the ranks of their values in the source columns -/
def Rel.dist (sortVals : List α → List α) (missing : List α) (nul : α) (r : Rel ν α) (sources : List ν) (i j : Nat) : Rat :=
  (sources.map fun b => |normRank sortVals missing (r.rows.map fun row => r.get nul row b) (r.at nul i b) - normRank sortVals missing (r.rows.map fun row => r.get nul row b) (r.at nul j b)|).sum

/-- Spec: row `j` may give its value to row `i`: it has one, or it comes before and has been filled -/
def Rel.MayGive (m nul : α) (r : Rel ν α) (a : ν) (i j : Nat) : Prop := j < r.rows.length ∧ j ≠ i ∧ (r.at nul j a ≠ m ∨ j < i)

/-- Spec: `s` is `r` with the missing values `m` of the column `a` filled, each from the first of the nearest rows that may give one -/
structure Rel.Imputed (sortVals : List α → List α) (m nul : α) (r : Rel ν α) (sources : List ν) (a : ν) (s : Rel ν α) : Prop where
  wf : s.WF
  names : s.names = r.names
  len : s.rows.length = r.rows.length
  keep : ∀ i < r.rows.length, ∀ x ∈ r.names, ¬ (x = a ∧ r.at nul i a = m) → s.at nul i x = r.at nul i x
  fill : ∀ i < r.rows.length, r.at nul i a = m → ∃ j, r.MayGive m nul a i j ∧ s.at nul i a = s.at nul j a ∧
    ∀ k, r.MayGive m nul a i k → r.dist sortVals [m] nul (sources.filter fun b => b ≠ a) i j < r.dist sortVals [m] nul (sources.filter fun b => b ≠ a) i k ∨
      (r.dist sortVals [m] nul (sources.filter fun b => b ≠ a) i j = r.dist sortVals [m] nul (sources.filter fun b => b ≠ a) i k ∧ j ≤ k)

/-- Spec: the call makes sense: the columns exist, the sources are known, and so is a value of the column to fill -/
structure Rel.ImputeArgs (m nul : α) (r : Rel ν α) (sources : List ν) (a : ν) : Prop where
  some : sources ≠ []
  sourcesIn : ∀ b ∈ sources, b ∈ r.names
  target : a ∈ r.names
  clean : ∀ b ∈ sources, b ≠ a → ∀ i < r.rows.length, r.at nul i b ≠ m
  known : ∃ j < r.rows.length, r.at nul j a ≠ m

/-- two relations with the same names and the same values have the same rows -/
theorem Rel.ext_at {nul : α} {r s : Rel ν α} (hr : r.WF) (hs : s.WF) (hn : s.names = r.names) (hl : s.rows.length = r.rows.length)
    (h : ∀ i < r.rows.length, ∀ x ∈ r.names, s.at nul i x = r.at nul i x) : s = r := by
  obtain ⟨rn, rr⟩ := r
  obtain ⟨sn, sr⟩ := s
  dsimp only at hn hl
  subst hn
  rw [Rel.mk.injEq]
  refine ⟨rfl, List.ext_getElem hl fun i h1 h2 => ?_⟩
  rw [← Rel.row_get (nul := nul) hr (List.getElem_mem h2), ← Rel.row_get (nul := nul) hs (List.getElem_mem h1)]
  apply List.map_congr_left
  intro x hx
  have := h i h2 x hx
  simpa [Rel.at, List.getD_eq_getElem?_getD, List.getElem?_eq_getElem h1, List.getElem?_eq_getElem h2] using this

/-- the rows after imputation are determined by the rows before -/
theorem Rel.Imputed.unique {sortVals : List α → List α} {m nul : α} {r : Rel ν α} {sources : List ν} {a : ν} {s s' : Rel ν α} (h : r.Imputed sortVals m nul sources a s) (h' : r.Imputed sortVals m nul sources a s')
    (ha : a ∈ r.names) : s = s' := by
  refine Rel.ext_at (nul := nul) h'.wf h.wf (h.names.trans h'.names.symm) (h.len.trans h'.len.symm) ?_
  rw [h'.len, h'.names]
  intro i
  induction i using Nat.strong_induction_on with
  | _ i ih =>
    intro hi x hx
    by_cases hc : x = a ∧ r.at nul i a = m
    · obtain ⟨rfl, hm⟩ := hc
      obtain ⟨j, h1, h2, h3⟩ := h.fill i hi hm
      obtain ⟨j', h1', h2', h3'⟩ := h'.fill i hi hm
      have e : j = j' := by
        rcases h3 j' h1' with g | ⟨g, gl⟩ <;> rcases h3' j h1 with g' | ⟨g', gl'⟩
        · exact absurd (g.trans g') (lt_irrefl _)
        · rw [g'] at g; exact absurd g (lt_irrefl _)
        · rw [g] at g'; exact absurd g' (lt_irrefl _)
        · omega
      subst e
      rw [h2, h2']
      by_cases hj : r.at nul j x = m
      · exact ih j (h1.2.2.resolve_left (fun g => g hj)) h1.1 x hx
      · rw [h.keep j h1.1 x hx (fun g => hj g.2), h'.keep j h1.1 x hx (fun g => hj g.2)]
    · rw [h.keep i hi x hx hc, h'.keep i hi x hx hc]

/-- all values of the column are known afterwards -/
theorem Rel.Imputed.full {sortVals : List α → List α} {m nul : α} {r : Rel ν α} {sources : List ν} {a : ν} {s : Rel ν α} (h : r.Imputed sortVals m nul sources a s) (ha : a ∈ r.names) :
    ∀ i < r.rows.length, s.at nul i a ≠ m := by
  intro i
  induction i using Nat.strong_induction_on with
  | _ i ih =>
    intro hi
    by_cases hm : r.at nul i a = m
    · obtain ⟨j, h1, h2, -⟩ := h.fill i hi hm
      rw [h2]
      by_cases hj : r.at nul j a = m
      · exact ih j (h1.2.2.resolve_left (fun g => g hj)) h1.1
      · rw [h.keep j h1.1 a ha (fun g => hj g.2)]; exact hj
    · rw [h.keep i hi a ha (fun g => hm g.2)]; exact hm

/-- a table with rows of equal length shows its rows -/
theorem Rect.shows {nul : α} {t : Tbl ν α} {n : Nat} (hr : Rect t n) (hne : t ≠ []) (hw : (t.map (·.1)).Nodup) :
    ∃ r : Rel ν α, Shows nul t r ∧ r.names = t.map (·.1) ∧ r.rows.length = n := by
  refine ⟨⟨t.map (·.1), (List.range n).map fun i => (tview t).map fun c => c.2.getD i nul⟩, ⟨⟨by simpa using hne, hw, ?_⟩, rfl, ?_, rows_tview nul t n hr hne⟩, rfl, by simp⟩
  · intro row h
    obtain ⟨i, -, rfl⟩ := List.mem_map.1 h
    simp [tview]
  · simpa using hr

theorem shows_valuesOf {nul : α} {t : Tbl ν α} {r : Rel ν α} (h : Shows nul t r) {b : ν} (hb : b ∈ r.names) : valuesOf t b = r.rows.map fun row => r.get nul row b := by
  have h1 : dGet b (tview t) = some (r.rows.map fun row => r.get nul row b) := by
    rw [h.view, Rel.cols, dGet_map, if_pos hb]
  rw [dGet_tview] at h1
  unfold Tablite.valuesOf
  cases hd : dGet b t with
  | none => rw [hd] at h1; simp at h1
  | some p => rw [hd] at h1; simpa using h1

theorem shows_rowDist {nul : α} {t : Tbl ν α} {r : Rel ν α} (h : Shows nul t r) (sortVals : List α → List α) (missing : List α) (sources : List ν) (hs : ∀ b ∈ sources, b ∈ r.names) (i j : Nat) :
    rowDist sortVals missing nul t sources i j = r.dist sortVals missing nul sources i j := by
  unfold Tablite.rowDist Rel.dist
  congr 1
  apply List.map_congr_left
  intro b hb
  rw [shows_valuesOf h (hs b hb), h.cell, h.cell]
  rfl

/-- **C143** partial, in rows: imputation of one column with one kind of missing values, on a table cut at the same places: the rows are those of the spec, which are determined by the rows before, and the result is cut as before.  Missing: what `C143_partial` misses. -/
theorem C143_rows_partial {nul : α} {t : Tbl ν α} {r : Rel ν α} (h : Shows nul t r) (hal : ∃ L : List Nat, ∀ c ∈ t, c.2.map List.length = L) (sortVals : List α → List α) (hsv : ∀ l, (sortVals l).Perm l) (m : α) (sources : List ν) (a : ν)
    (ok : r.ImputeArgs m nul sources a) :
    ∃ t' s, nearest sortVals [m] sources [a] t = .ok t' ∧ r.Imputed sortVals m nul sources a s ∧ (∀ s', r.Imputed sortVals m nul sources a s' → s' = s) ∧ Shows nul t' s ∧ ∀ c' ∈ t', ∃ c ∈ t, c'.2.map List.length = c.2.map List.length := by
  obtain ⟨L, hL⟩ := hal
  have hin : ∀ b ∈ r.names, b ∈ t.map (·.1) := fun b hb => h.2.1 ▸ hb
  have hlens : ∀ b ∈ r.names, pageLens t b = L := by
    intro b hb
    obtain ⟨p, hp⟩ := Option.isSome_iff_exists.1 ((dGet_isSome b t).2 (hin b hb))
    unfold pageLens
    rw [hp]
    exact hL _ (dGet_mem b t p hp)
  have hcl : ∀ (nul' : α) (b : ν) (i : Nat), b ∈ r.names → i < r.rows.length → cell nul' t b i = r.at nul i b := by
    intro nul' b i hb hi
    have h1 := shows_valuesOf h hb
    unfold valuesOf at h1
    unfold cell
    obtain ⟨p, hp⟩ := Option.isSome_iff_exists.1 ((dGet_isSome b t).2 (hin b hb))
    rw [hp] at h1 ⊢
    simp only [Option.getD_some] at h1
    simp only [Rel.at, Option.elim_some, h1, List.getD_eq_getElem?_getD, List.getElem?_map, List.getElem?_eq_getElem hi, Option.map_some, Option.getD_some]
  have hf : FillCond [m] sources t r.rows.length a := by
    refine ⟨fun b hb => (hlens b (ok.sourcesIn b hb)).trans (hlens a ok.target).symm, fun b hb hne nul' i hi => ?_, .inl ⟨m, rfl⟩⟩
    rw [hcl nul' b i (ok.sourcesIn b hb) hi, List.mem_singleton]
    exact ok.clean b hb hne i hi
  have known : ∃ j < r.rows.length, cell nul t a j ≠ m := by
    obtain ⟨j, hj, hm⟩ := ok.known
    exact ⟨j, hj, by rw [hcl nul a j ok.target hj]; exact hm⟩
  obtain ⟨t', h1, ⟨h2, h3, h4⟩, h5⟩ := C143_partial sortVals m sources a t r.rows.length nul hsv h.wf h.2.2.1 ok.some (fun b hb => hin b (ok.sourcesIn b hb)) (hin a ok.target) hf known
  have hw' : (t'.map (·.1)).Nodup := h2 ▸ h.wf
  have hne' : t' ≠ [] := by
    rintro rfl
    exact h.ne (by simpa using h2.symm)
  obtain ⟨s, s1, s2, s3⟩ := h3.shows (nul := nul) hne' hw'
  have hs : ∀ i x, cell nul t' x i = s.at nul i x := fun i x => s1.cell x i
  have hr : ∀ i x, cell nul t x i = r.at nul i x := fun i x => h.cell x i
  have hnames : s.names = r.names := by rw [s2, h2, h.2.1]
  have himp : r.Imputed sortVals m nul sources a s := by
    refine ⟨s1.1, hnames, s3, ?_, ?_⟩
    · intro i hi x hx hn
      have := h4 x (hin x hx) i hi
      rw [if_neg (by
        rintro ⟨g1, g2, -⟩
        rw [List.mem_singleton] at g1 g2
        subst g1
        exact hn ⟨rfl, by rw [← hr]; exact g2⟩), hs, hr] at this
      exact this
    · intro i hi hm
      obtain ⟨j, g1, g2, g3, g4⟩ := h5 i hi (by rw [hr]; exact hm)
      have hready : ∀ k, ReadyFor [m] nul t a i k ↔ k ≠ i ∧ (r.at nul k a ≠ m ∨ k < i) := by
        intro k
        unfold ReadyFor
        rw [hr, List.mem_singleton]
      rw [hready] at g2
      refine ⟨j, ⟨g1, g2⟩, by rw [← hs, ← hs]; exact g3, ?_⟩
      intro k hk
      have := g4 k hk.1 ((hready k).2 hk.2)
      rw [shows_rowDist h _ _ _ (fun b hb => ok.sourcesIn b (List.mem_of_mem_filter hb)), shows_rowDist h _ _ _ (fun b hb => ok.sourcesIn b (List.mem_of_mem_filter hb))] at this
      exact this
  refine ⟨t', s, h1, himp, fun s' h' => h'.unique himp ok.target, s1, ?_⟩
  · have hord : [a] = (t.map (·.1)).filter fun b => b ∈ [a] := (filter_one _ h.wf a (hin a ok.target)).symm
    have := nearest_sound sortVals [m] sources [a] t t' h.wf hord h1
    clear himp h1 h2 h3 h4 h5 s1 s2 hs hw' hne'
    intro c' hc'
    have hlen : ∀ (P : Pages α) (Q : Pages α) (R : List α → List α → Prop), (∀ p q, R p q → q.length = p.length) → List.Forall₂ R P Q → Q.map List.length = P.map List.length := by
      intro P Q R hR hPQ
      induction hPQ with
      | nil => rfl
      | cons g _ ih => rw [List.map_cons, List.map_cons, ih, hR _ _ g]
    obtain ⟨c, hc, hR⟩ : ∃ c ∈ t, ColImputed [m] [a] c c' := by
      clear hord hL hlens hcl hf known hin hr h
      induction this with
      | nil => cases hc'
      | cons g _ ih =>
        rcases List.mem_cons.1 hc' with rfl | hc'
        · exact ⟨_, List.mem_cons_self, g⟩
        · obtain ⟨c, hc, e⟩ := ih hc'
          exact ⟨c, List.mem_cons_of_mem _ hc, e⟩
    exact ⟨c, hc, hlen _ _ _ (fun p q g => g.length_eq.symm) hR.2.2⟩

/-- the third row is filled from the second one, whose value of the source column is the nearest -/
example : Rel.ImputeArgs 0 0 (⟨[1, 2], [[1, 5], [4, 6], [7, 0], [20, 8]]⟩ : Rel Nat Nat) [1] 2 ∧
    nearest sortNat [0] [1] [2] [(1, [[1, 4], [7, 20]]), (2, [[5, 6], [0, 8]])] = .ok [(1, [[1, 4], [7, 20]]), (2, [[5, 6], [6, 8]])] := by
  refine ⟨⟨by decide, by decide, by decide, ?_, ⟨0, by decide, by decide⟩⟩, by decide +kernel⟩
  intro b hb _
  rw [List.mem_singleton] at hb
  subst hb
  decide

end Tablite
