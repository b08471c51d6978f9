import Verif.Props.Csv
/-!
# C37: exactly which quoted fields are read back
-/

namespace Tablite

theorem escapeBlanks_length (g : List Char) : (escapeBlanks g).length = g.length + (g.filter fun c => decide (c = '\n' ∨ c = '\t')).length := by
  unfold escapeBlanks
  induction g with
  | nil => rfl
  | cons c g ih =>
    rw [List.flatMap_cons, List.length_append, ih, List.filter_cons]
    by_cases h1 : c = '\n'
    · simp [h1]; omega
    · by_cases h2 : c = '\t'
      · simp [h2]; omega
      · simp [h1, h2]; omega

theorem escapeBlanks_last (g : List Char) (c : Char) (hc : nimSpace c = false) : ∃ h, escapeBlanks (g ++ [c]) = h ++ [c] := by
  unfold escapeBlanks
  rw [List.flatMap_append]
  refine ⟨_, congrArg _ ?_⟩
  have h1 : c ≠ '\n' := by rintro rfl; revert hc; decide
  have h2 : c ≠ '\t' := by rintro rfl; revert hc; decide
  simp [h1, h2]

theorem savedField_iff (d : Dialect) (hq : d.quoting ≠ .none) (f : List Char) :
    savedField d f = f ↔ (d.skiptrailingspace = true → ∀ h : f ≠ [], nimSpace (f.getLast h) = false) ∧ ∀ c ∈ f, c ≠ '\n' ∧ c ≠ '\t' := by
  refine ⟨fun h => ?_, fun h => savedField_id d f h.1 h.2⟩
  unfold savedField at h
  dsimp only at h
  rw [if_neg hq] at h
  have hstrip : d.skiptrailingspace = true → ∀ h : f ≠ [], nimSpace (f.getLast h) = false := by
    intro hs hf
    rw [if_pos hs] at h
    refine Bool.eq_false_iff.2 fun hsp => ?_
    unfold stripTrailing at h
    rcases he : (f.reverse.dropWhile nimSpace) with _ | ⟨c, g⟩
    · rw [he] at h
      exact hf h.symm
    · have hc : nimSpace c = false := by
        have := List.head_dropWhile_not nimSpace (l := f.reverse) (by rw [he]; simp)
        simpa [he] using this
      rw [he, List.reverse_cons] at h
      obtain ⟨k, hk⟩ := escapeBlanks_last g.reverse c hc
      rw [hk] at h
      have : f.getLast hf = c := by
        simp only [← h]
        exact List.getLast_concat
      rw [this, hc] at hsp
      cases hsp
  refine ⟨hstrip, ?_⟩
  have hg : (if d.skiptrailingspace = true then stripTrailing f else f) = f := by
    by_cases hs : d.skiptrailingspace = true
    · rw [if_pos hs]
      unfold stripTrailing
      rcases List.eq_nil_or_concat f with rfl | ⟨l, c, rfl⟩
      · rfl
      · have := hstrip hs (by simp)
        have h2 : nimSpace c = false := by simpa using this
        simp [h2]
    · rw [if_neg hs]
  rw [hg] at h
  have hl := congrArg List.length h
  rw [escapeBlanks_length] at hl
  have h0 : (f.filter fun c => decide (c = '\n' ∨ c = '\t')) = [] := List.eq_nil_of_length_eq_zero (by omega)
  intro c hc
  have := List.filter_eq_nil_iff.1 h0 c hc
  simpa using this

/-- **C37, exactly**: rows of fields written in quotes, of at most 131072 characters and without CR, are read back as they were if and only if
no field has a newline or a tab in it and, where the dialect strips blanks, none ends in a blank -/
theorem C37_exact (d : Dialect) (hd : d.Ok) (hqn : d.quoting ≠ .none) (rows : List (List (List Char))) (hne : ∀ r ∈ rows, r ≠ [])
    (hlen : ∀ r ∈ rows, ∀ f ∈ r, f.length ≤ 131072) (hcr : ∀ r ∈ rows, ∀ f ∈ r, '\r' ∉ f) :
    parseCSV d (writeRows d (rows.map fun r => r.map fun f => (true, f))) = .ok rows ↔
      ∀ r ∈ rows, ∀ f ∈ r, (d.skiptrailingspace = true → ∀ h : f ≠ [], nimSpace (f.getLast h) = false) ∧ ∀ c ∈ f, c ≠ '\n' ∧ c ≠ '\t' := by
  rw [C37_parse d hd]
  · rw [List.map_map]
    simp only [Function.comp_def, List.map_map, ← savedField_iff d hqn]
    constructor
    · intro h r hr f hf
      injection h with h
      have h1 : (fun r : List (List Char) => r.map fun f => savedField d f) r = r := by
        have := List.map_id rows
        rw [← h] at this
        exact (List.map_inj_left.1 (h.trans (List.map_id rows).symm)) r hr
      exact (List.map_inj_left.1 (h1.trans (List.map_id r).symm)) f hf
    · intro h
      congr 1
      refine (List.map_congr_left (g := id) ?_).trans (List.map_id rows)
      intro r hr
      refine (List.map_congr_left (g := id) ?_).trans (List.map_id r)
      exact fun f hf => h r hr f hf
  · intro r hr
    obtain ⟨r', hr', rfl⟩ := List.mem_map.1 hr
    refine ⟨by simpa using hne r' hr', fun f hf => ?_⟩
    obtain ⟨f', hf', rfl⟩ := List.mem_map.1 hf
    exact ⟨hlen r' hr' f' hf', (fun h => by cases h), fun _ => hqn⟩
  · intro r hr f hf
    obtain ⟨r', hr', rfl⟩ := List.mem_map.1 hr
    obtain ⟨f', hf', rfl⟩ := List.mem_map.1 hf
    exact hcr r' hr' f' hf'

/-- a field with a delimiter and a quote is read back; one with a newline is not -/
example : parseCSV {} (writeRows {} ([["a,\"b".toList]].map fun r => r.map fun f => (true, f))) = .ok [["a,\"b".toList]] :=
  (C37_exact {} ok_default (by decide) _ (by decide) (by decide +kernel) (by decide)).2 (by decide)
example : parseCSV {} (writeRows {} ([["a\nb".toList]].map fun r => r.map fun f => (true, f))) ≠ .ok [["a\nb".toList]] :=
  fun h => absurd ((C37_exact {} ok_default (by decide) _ (by decide) (by decide +kernel) (by decide)).1 h) (by decide)

/-- letters that mean nothing to the dialect are put at the end of the field, up to the limit -/
theorem fold_plain (d : Dialect) (x : Char) (hx : isCrnl x = false ∧ x ≠ d.escapechar ∧ x ≠ d.delimiter) (n : Nat) : ∀ s : CsvSt, s.state = .inField →
    (List.replicate n x).foldlM (fun s c => processChar d s (some c)) s =
      if n = 0 ∨ s.field.length + n ≤ 131072 then .ok { s with field := s.field ++ List.replicate n x } else .error .other := by
  induction n with
  | zero =>
    intro s _
    simp [pure, Except.pure]
  | succ n ih =>
    intro s hs
    obtain ⟨h1, h2, h3⟩ := hx
    have hstep : processChar d s (some x) = if s.field.length ≥ 131072 then .error .other else .ok { s with field := s.field ++ [x] } := by
      unfold processChar
      rw [hs]
      simp only [procInField, hs, h1, addChar, fieldLimit]
      by_cases h : s.field.length ≥ 131072
      · simp [h, h2, h3]
      · simp [h, h2, h3]
    rw [List.replicate_succ, List.foldlM_cons, hstep]
    by_cases h : s.field.length ≥ 131072
    · rw [if_pos h, if_neg (by omega)]
      rfl
    · rw [if_neg h]
      have := ih { s with field := s.field ++ [x] } hs
      simp only [List.length_append, List.length_cons, List.length_nil, List.append_assoc, List.singleton_append] at this
      refine this.trans ?_
      by_cases hn : s.field.length + (n + 1) ≤ 131072
      · rw [if_pos (by omega), if_pos (by omega)]
      · rw [if_neg (by omega), if_neg (by omega)]

/-- **C37, the limit**: a line of one field of `n` letters is read if and only if the field has at most 131072 characters -/
theorem C37_limit (n : Nat) (hn : 0 < n) :
    parseCSV {} (List.replicate n 'x') = if n ≤ 131072 then .ok [[List.replicate n 'x']] else .error .other := by
  obtain ⟨m, rfl⟩ : ∃ m, n = m + 1 := ⟨n - 1, by omega⟩
  have hlines : ∀ (k : Nat) (cur : List Char), cur ≠ [] → readLines cur (List.replicate k 'x') = [cur ++ List.replicate k 'x'] := by
    intro k
    induction k with
    | zero => intro cur hc; simp [readLines, hc]
    | succ k ih =>
      intro cur hc
      rw [List.replicate_succ, readLines, if_neg (by decide), ih _ (by simp)]
      simp
  have h0 : readLines [] (List.replicate (m + 1) 'x') = [List.replicate (m + 1) 'x'] := by
    rw [List.replicate_succ, readLines, if_neg (by decide), hlines m _ (by simp)]
    simp
  have hfirst : processChar {} {} (some 'x') = .ok { state := .inField, field := ['x'] } := by decide
  unfold parseCSV
  rw [h0, parseLines, List.foldlM_append, List.replicate_succ, List.foldlM_cons, hfirst]
  have hf := fold_plain {} 'x' (by decide) m { state := .inField, field := ['x'] } rfl
  simp only [List.length_cons, List.length_nil, List.singleton_append] at hf
  simp only [bind, Except.bind] at hf ⊢
  rw [hf]
  by_cases h : m + 1 ≤ 131072
  · rw [if_pos (by omega), if_pos h]
    have he : savedField {} ('x' :: List.replicate m 'x') = 'x' :: List.replicate m 'x' := savedField_id {} _ (fun h => absurd h (by decide)) (by
      intro c hc
      rw [← List.replicate_succ] at hc
      rw [List.eq_of_mem_replicate hc]
      decide)
    simp [processChar, procInField, isCrnl, saveField, he, procEat, parseLines, pure, Except.pure]
    rfl
  · rw [if_neg (by omega), if_neg h]

example : parseCSV {} (List.replicate 131072 'x') = .ok [[List.replicate 131072 'x']] := by rw [C37_limit 131072 (by decide), if_pos (by decide)]
example : parseCSV {} (List.replicate 131073 'x') = .error .other := by rw [C37_limit 131073 (by decide), if_neg (by decide)]

end Tablite
