import Verif.Model.Pandas
import Verif.Props.JsonTable
/-!
# C106: exchange with pandas
-/

namespace Tablite

variable {ν α : Type} [DecidableEq ν]

/-- the full claim: with pandas installed, `from_pandas(t.to_pandas())` is `t` -/
def C106_statement : Prop := ∀ (ps : Nat) (h : Heap Nat) (t : Tbl String Nat), 0 < ps → (t.map (·.1)).Nodup →
  ∃ df r, toPandas (some id) t = .ok df ∧ fromPandas ps h df = .ok r ∧ lists r.1 r.2 = tview t

/-- **C106**, partial: `from_pandas` of a data frame is the table with its columns in order. Missing: `to_pandas`, which raises (`C106_raises_fails`). -/
theorem C106_partial (ps : Nat) (hps : 0 < ps) (h : Heap α) (df : List (ν × List α)) (hn : (df.map (·.1)).Nodup) :
    ∃ r, fromPandas ps h df = .ok r ∧ lists r.1 r.2 = df := C73_columns ps hps h df hn

/-- `to_pandas` raises UnboundLocalError for every table, with pandas or without -/
theorem C106_raises_fails {F : Type} (pandas : Option (List (ν × List α) → F)) (t : Tbl ν α) : toPandas pandas t = .error .unbound := rfl

theorem C106_fails : ¬ C106_statement := by
  intro h
  obtain ⟨df, r, h1, _⟩ := h 10 [] [("a", [[1, 2]])] (by decide) (by decide)
  exact absurd h1 (by simp [toPandas, readLocal, onImportError, Except.bind])

/-- two columns over several pages -/
example : ∃ r, fromPandas 2 [] [("a", [1, 2, 3]), ("b", [4, 5, 6])] = .ok r ∧ lists r.1 r.2 = [("a", [1, 2, 3]), ("b", [4, 5, 6])] :=
  C106_partial 2 (by decide) [] _ (by decide)

end Tablite
