import Verif.Props.Preview
/-!
# C95, exactly: which separator is found, which previews are marked as empty, and for which texts preview and import have the same lines
-/
namespace Tablite

/-- no line of a file in text mode has an end of line in it -/
theorem pyTextLines_plain (n : Nat) : ∀ (t cur : List Char), t.length ≤ n → '\r' ∉ cur → '\n' ∉ cur → ∀ l ∈ pyTextLines cur t, '\r' ∉ l ∧ '\n' ∉ l := by
  induction n with
  | zero =>
    intro t cur ht h1 h2 l hl
    cases t with
    | nil =>
      rw [pyTextLines] at hl
      split at hl
      · cases hl
      · rw [List.mem_singleton] at hl; subst hl; exact ⟨h1, h2⟩
    | cons c t => simp at ht
  | succ n ih =>
    intro t cur ht h1 h2 l hl
    have go : ∀ c rest, t = c :: rest → (if c = '\n' ∨ c = '\r' then cur :: pyTextLines [] rest else pyTextLines (cur ++ [c]) rest) = pyTextLines cur t → '\r' ∉ l ∧ '\n' ∉ l := by
      intro c rest e e'
      rw [← e'] at hl
      have hr : rest.length ≤ n := by rw [e] at ht; simpa using ht
      split at hl
      · rcases List.mem_cons.1 hl with rfl | hl
        · exact ⟨h1, h2⟩
        · exact ih rest [] hr (by simp) (by simp) l hl
      · rename_i hc
        rw [not_or] at hc
        refine ih rest (cur ++ [c]) hr ?_ ?_ l hl
        · simp only [List.mem_append, List.mem_singleton, not_or]; exact ⟨h1, fun h => hc.2 h.symm⟩
        · simp only [List.mem_append, List.mem_singleton, not_or]; exact ⟨h2, fun h => hc.1 h.symm⟩
    match t, ht, hl, go with
    | [], _, hl, _ =>
      rw [pyTextLines] at hl
      split at hl
      · cases hl
      · rw [List.mem_singleton] at hl; subst hl; exact ⟨h1, h2⟩
    | [c], _, _, go => exact go c [] rfl (by conv => rhs; rw [pyTextLines.eq_3 _ _ _ (by intro _ _ h; cases h)])
    | c :: d :: rest, ht, hl, go =>
      by_cases hcd : c = '\r' ∧ d = '\n'
      · obtain ⟨rfl, rfl⟩ := hcd
        rw [pyTextLines] at hl
        rcases List.mem_cons.1 hl with rfl | hl
        · exact ⟨h1, h2⟩
        · exact ih rest [] (by simp at ht; omega) (by simp) (by simp) l hl
      · exact go c (d :: rest) rfl (by
          symm
          rw [pyTextLines]
          intro x hx hx'
          cases hx'
          exact hcd ⟨hx, rfl⟩)

/-- if no line of the import has a carriage return then each of them stands before a line feed -/
theorem crBeforeLf_of_lines : ∀ (t cur : List Char), (∀ l ∈ readLines cur t, '\r' ∉ l) → CrBeforeLf (cur ++ t) := by
  have plain : ∀ u : List Char, '\r' ∉ u → CrBeforeLf u := by
    intro u hu a b e
    exact absurd (by rw [e]; simp) hu
  intro t
  induction t with
  | nil =>
    intro cur h
    rw [readLines] at h
    rw [List.append_nil]
    by_cases hc : cur = []
    · subst hc; exact plain _ (by simp)
    · rw [if_neg hc] at h
      exact plain _ (h cur (by simp))
  | cons c t ih =>
    intro cur h
    rw [readLines] at h
    by_cases hc : c = '\n'
    · rw [if_pos hc] at h
      subst hc
      have h1 := h (dropCr cur) (by simp)
      have h2 := ih [] fun l hl => h l (by simp [hl])
      intro a b e
      by_cases hlen : a.length < cur.length
      · -- the carriage return is in `cur`, so it is its last character
        obtain ⟨b', hb1, hb2⟩ : ∃ b', cur = a ++ '\r' :: b' ∧ b = b' ++ '\n' :: t := by
          rcases List.append_eq_append_iff.1 e with ⟨x, hx1, hx2⟩ | ⟨x, hx1, hx2⟩
          · have := congrArg List.length hx1
            rw [List.length_append] at this
            omega
          · cases x with
            | nil => rw [List.append_nil] at hx1; rw [hx1] at hlen; omega
            | cons y x =>
              injection hx2 with hy hx
              subst hy
              exact ⟨x, hx1, hx⟩
        unfold dropCr at h1
        rcases List.eq_nil_or_concat b' with rfl | ⟨w, z, rfl⟩
        · exact ⟨t, hb2⟩
        · exfalso
          rw [List.concat_eq_append] at hb1
          split at h1
          · apply h1
            rw [hb1, ← List.cons_append, ← List.append_assoc, List.dropLast_concat]
            simp
          · exact h1 (by rw [hb1]; simp)
      · obtain ⟨x, hx1, hx2⟩ : ∃ x, a = cur ++ x ∧ '\n' :: t = x ++ '\r' :: b := by
          rcases List.append_eq_append_iff.1 e with ⟨x, hx1, hx2⟩ | ⟨x, hx1, hx2⟩
          · exact ⟨x, hx1, hx2⟩
          · have hl := congrArg List.length hx1
            rw [List.length_append] at hl
            have : x = [] := List.eq_nil_of_length_eq_zero (by omega)
            subst this
            exact ⟨[], by rw [List.append_nil] at hx1 ⊢; exact hx1.symm, hx2.symm⟩
        cases x with
        | nil => injection hx2 with h3; exact absurd h3 (by decide)
        | cons y x =>
          injection hx2 with h3 h4
          exact h2 x b (by rw [List.nil_append]; exact h4)
    · rw [if_neg hc] at h
      have := ih (cur ++ [c]) h
      rwa [List.append_assoc] at this

/-- **C95** (lines), exactly: preview and import have the same lines if and only if every carriage return stands before a line feed. -/
theorem C95_lines_exact (text : List Char) : pyTextLines [] text = readLines [] text ↔ CrBeforeLf text := by
  refine ⟨fun h => ?_, C95_lines_partial text⟩
  have := crBeforeLf_of_lines text [] fun l hl => (pyTextLines_plain _ text [] (Nat.le_refl _) (by simp) (by simp) l (by rw [h]; exact hl)).1
  rwa [List.nil_append] at this

/-- **C95** (separator), exactly: `c` is found if and only if it is the candidate that occurs most often (of several the greatest character), or none occurs and `c` is a blank of the
text, or none occurs and no blank and `c` is an end of line of the text. -/
theorem C95_separator_exact (text : List Char) (c : Char) : detectSeparator text = .ok (some c) ↔
    IsSeparator text c ∨ ((∀ x ∈ [',', '\t', ';', ':', '|'], x ∉ text) ∧ c ∈ text ∧ (c = ' ' ∨ c = '\n' ∧ ' ' ∉ text)) := by
  by_cases h : ∃ x ∈ [',', '\t', ';', ':', '|'], x ∈ text
  · obtain ⟨c', h1, h2, h3⟩ := C95_separator text h
    rw [h1]
    constructor
    · intro e
      cases e
      exact .inl h2
    · rintro (hs | ⟨hn, _⟩)
      · rw [h3 c hs]
      · obtain ⟨x, hx, hxt⟩ := h
        exact absurd hxt (hn x hx)
  · push Not at h
    rw [C95_no_separator text h]
    have hno : ¬ IsSeparator text c := by
      rintro ⟨h1, h2, _⟩
      exact h c h1 (List.count_pos_iff.1 h2)
    by_cases ht : text = []
    · subst ht
      simp [hno]
    · rw [if_neg ht]
      by_cases hb : ' ' ∈ text
      · rw [if_pos hb]
        constructor
        · intro e; cases e; exact .inr ⟨h, hb, .inl rfl⟩
        · rintro (hs | ⟨_, _, rfl | ⟨_, h2⟩⟩)
          · exact absurd hs hno
          · rfl
          · exact absurd hb h2
      · rw [if_neg hb]
        by_cases hn : '\n' ∈ text
        · rw [if_pos hn]
          constructor
          · intro e; cases e; exact .inr ⟨h, hn, .inr ⟨rfl, hb⟩⟩
          · rintro (hs | ⟨_, h1, rfl | ⟨rfl, _⟩⟩)
            · exact absurd hs hno
            · exact absurd h1 hb
            · rfl
        · rw [if_neg hn]
          constructor
          · intro e; cases e
          · rintro (hs | ⟨_, h1, rfl | ⟨rfl, _⟩⟩)
            · exact absurd hs hno
            · exact absurd h1 hb
            · exact absurd h1 hn

/-- **C95** (empty), exactly: a preview is marked as empty if and only if no delimiter was given and from the header row on there is nothing, or among the lines looked at just one, and
that has none of the five candidates and no blank. -/
theorem C95_empty_exact (suffix : TextSuffix) (text : List Char) (delimiter : Option Char) (headerRow : Nat) (qualifier : Option Char) (linecount : Nat) :
    (∃ p, textHeaders suffix text delimiter headerRow qualifier linecount = .ok p ∧ p.isEmpty = true) ↔
      delimiter = none ∧ (((pyTextLines [] text).drop headerRow).take (linecount + 1)).length ≤ 1 ∧
        ∀ l ∈ ((pyTextLines [] text).drop headerRow).take (linecount + 1), ∀ x ∈ [',', '\t', ';', ':', '|', ' '], x ∉ l := by
  have hshape : delimiter = none → ((∃ p, textHeaders suffix text delimiter headerRow qualifier linecount = .ok p ∧ p.isEmpty = true) ↔ sampleDelimiter (sampleLines text headerRow linecount) = none) := by
    rintro rfl
    unfold textHeaders
    dsimp only
    change (∃ p, (match sampleDelimiter (sampleLines text headerRow linecount) with
      | none => Except.ok ({ delimiter := suffix.delimiter, rows := [sampleLines text headerRow linecount], isEmpty := true } : Preview)
      | some c =>
        match nimHeaders (textDialect c qualifier true) headerRow linecount (readLines [] text) with
        | .ok rows => .ok { delimiter := some c, rows := rows, isEmpty := false }
        | .error _ => .error Err.value) = .ok p ∧ p.isEmpty = true) ↔ _
    cases hs : sampleDelimiter (sampleLines text headerRow linecount) with
    | none => simp
    | some c =>
      dsimp only
      cases hn : nimHeaders (textDialect c qualifier true) headerRow linecount (readLines [] text) with
      | ok rows =>
        simp only [reduceCtorEq, iff_false]
        rintro ⟨p, h1, h2⟩
        cases h1
        cases h2
      | error e => simp
  have hlines : sampleLines text headerRow linecount = ((pyTextLines [] text).drop headerRow).take (linecount + 1) := rfl
  have hplain : ∀ l ∈ ((pyTextLines [] text).drop headerRow).take (linecount + 1), '\n' ∉ l := fun l hl =>
    (pyTextLines_plain _ text [] (Nat.le_refl _) (by simp) (by simp) l (List.mem_of_mem_drop (List.mem_of_mem_take hl))).2
  rw [← hlines] at hplain ⊢
  have hsample : ∀ L : List (List Char), (∀ l ∈ L, '\n' ∉ l) → (sampleDelimiter L = none ↔ L.length ≤ 1 ∧ ∀ l ∈ L, ∀ x ∈ [',', '\t', ';', ':', '|', ' '], x ∉ l) := by
    intro L hL
    constructor
    · intro h
      have h1 := sampleDelimiter_none L h
      refine ⟨h1, ?_⟩
      match L, h1 with
      | [], _ => simp
      | [l], _ =>
        intro l' hl' x hx hxl
        rw [List.mem_singleton] at hl'
        subst hl'
        unfold sampleDelimiter at h
        rw [joinLines] at h
        by_cases hsep : ∃ x ∈ [',', '\t', ';', ':', '|'], x ∈ l'
        · obtain ⟨c, hc, _⟩ := C95_separator _ hsep
          rw [hc] at h
          cases h
        · push Not at hsep
          have hb : x = ' ' := by
            by_contra hne
            refine hsep x ?_ hxl
            simp only [List.mem_cons, List.not_mem_nil, or_false] at hx ⊢
            tauto
          subst hb
          rw [C95_no_separator _ hsep, if_neg (List.ne_nil_of_mem hxl), if_pos hxl] at h
          cases h
    · rintro ⟨h1, h2⟩
      have hall : ∀ t : List Char, (∀ x ∈ [',', '\t', ';', ':', '|', ' '], x ∉ t) → '\n' ∉ t → detectSeparator t = .ok none ∨ detectSeparator t = .error .value := by
        intro t ht hn
        rw [C95_no_separator t fun x hx => ht x (by simp only [List.mem_cons, List.not_mem_nil, or_false] at hx ⊢; tauto)]
        by_cases h0 : t = []
        · rw [if_pos h0]; exact .inl rfl
        · rw [if_neg h0, if_neg (ht ' ' (by simp)), if_neg hn]
          exact .inr rfl
      match L, h1 with
      | [], _ => rfl
      | [l], _ =>
        unfold sampleDelimiter
        rw [joinLines]
        rcases hall l (h2 l (by simp)) (hL l (by simp)) with h | h <;> rw [h]
  constructor
  · rintro ⟨p, h1, h2⟩
    have hd := (C95_empty suffix text delimiter headerRow qualifier linecount p h1 h2).1
    exact ⟨hd, (hsample _ hplain).1 ((hshape hd).1 ⟨p, h1, h2⟩)⟩
  · rintro ⟨hd, h⟩
    exact (hshape hd).2 ((hsample _ hplain).2 h)

example : CrBeforeLf "a\r\nb\r\n".toList := by
  intro a b e
  have : ∀ k, k < 6 → ("a\r\nb\r\n".toList.drop k).head? = some '\r' → ("a\r\nb\r\n".toList.drop (k + 1)).head? = some '\n' := by decide +kernel
  have h1 : a.length < 6 := by
    have := congrArg List.length e
    simp at this
    omega
  have h2 := this a.length h1 (by rw [e, List.drop_left]; rfl)
  rw [e] at h2
  have h3 : (a ++ '\r' :: b).drop (a.length + 1) = b := by
    rw [← List.drop_drop, List.drop_left]
    rfl
  rw [h3] at h2
  cases b with
  | nil => cases h2
  | cons x b => simp only [List.head?_cons, Option.some.injEq] at h2; exact ⟨b, by rw [h2]⟩

example : ¬ CrBeforeLf "a\rb\n".toList := by
  intro h
  obtain ⟨b', hb⟩ := h ['a'] ['b', '\n'] (by decide +kernel)
  cases hb

end Tablite
