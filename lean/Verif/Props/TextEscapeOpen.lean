import Verif.Props.TextEscape
/-!
# C123: a quote that is not closed
-/
namespace Tablite

theorem mid_open (d q : Char) (hq : q ≠ '\\') (w f : List Char) (fs : List (List Char)) (b : Bool) (h1 : q ∉ w) (h2 : '\\' ∉ w) (hl : f.length + w.length ≤ fieldLimit) :
    pyMid d q b ⟨.inQuotedField, f, fs⟩ w = .ok [fs ++ [f ++ w]] := by
  induction w generalizing f b with
  | nil =>
    rw [List.append_nil]
    cases b
    · simp [pyMid, pyRecords]
    · simp [pyMid, pyStep, pyRecords, bind, Except.bind]
  | cons c w ih =>
    simp only [List.mem_cons, not_or] at h1 h2
    simp only [List.length_cons] at hl
    have e : pyStep d q ⟨.inQuotedField, f, fs⟩ (some c) = .ok ⟨.inQuotedField, f ++ [c], fs⟩ := by
      simp only [pyStep]
      rw [if_neg (Ne.symm h2.1), if_neg (Ne.symm h1.1), pyAdd_ok _ _ _ (by show f.length < fieldLimit; omega)]
    have hi := fun b => ih (f ++ [c]) b h1.2 h2.2 (by simp only [List.length_append, List.length_cons, List.length_nil]; omega)
    simp only [List.append_assoc, List.singleton_append] at hi
    by_cases hn : c = '\n'
    · subst hn
      have : pyMid d q b ⟨.inQuotedField, f, fs⟩ ('\n' :: w) = pyMid d q false ⟨.inQuotedField, f ++ ['\n'], fs⟩ w := by
        cases b <;> (rw [pyMid, e]; rfl)
      rw [this]
      exact hi false
    · rw [pyMid_cons d q b _ _ c w e hn]
      exact hi true

/-- **C123** (open quote): a quote that is never closed makes one field of the rest of the text, delimiters and line ends included -/
theorem C123_open (d q : Char) (hq : q ≠ '\\') (hqn : q ≠ '\n') (hqr : q ≠ '\r') (w : List Char) (h1 : q ∉ w) (h2 : '\\' ∉ w) (hl : w.length ≤ fieldLimit) :
    TextEsc.call ⟨[d], .quoted [q]⟩ (q :: w) = .ok [w] := by
  simp only [TextEsc.call, escQuoted]
  have e : pyStep d q {} (some q) = .ok ⟨.inQuotedField, [], []⟩ := by
    simp [pyStep, pyStartField, pyIsEnd, hqn, hqr]
  rw [(pyRecords_mid d q _).1, pyMid_cons d q false _ _ q w e hqn, mid_open d q hq w [] [] true h1 h2 (by simpa using hl)]
  rfl

/-- the text `"a,b` and a line end -/
example : TextEsc.call ⟨[','], .quoted ['"']⟩ "\"a,b\n".toList = .ok ["a,b\n".toList] :=
  C123_open ',' '"' (by decide) (by decide) (by decide) "a,b\n".toList (by decide) (by decide) (by decide)

end Tablite
