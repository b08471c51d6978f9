import Verif.Props.TypedCol
import Verif.Props.InferDate

/-!
# Exact conditions: C81

Conditions under which a claim holds, in both directions.
-/

namespace Tablite

section C81
variable {F : Type} [DecidableEq F]

theorem cons_inj_ok {α : Type} {x : Except Err (List α)} {a b : α} {l : List α} : (do let more ← x; .ok (a :: more)) = (.ok (b :: l) : Except Err (List α)) ↔ a = b ∧ x = .ok l := by
  cases x with
  | error e => simp [bind, Except.bind]
  | ok y => simp [bind, Except.bind]

theorem tReplaceItems_exact (R : NpRt F) (dt : Dt) (isin : CV F → Bool) (mapping : List (CV F × CV F)) (l : List (CV F)) :
    tReplaceItems R dt isin mapping l = .ok (l.map fun v => (mapping.lookup v).getD v) ↔
      ∀ v ∈ l, if isin v then ∃ w, mapping.lookup v = some w ∧ castInto R dt w = .ok w else (mapping.lookup v).getD v = v := by
  induction l with
  | nil => simp [tReplaceItems]
  | cons v l ih =>
    rw [tReplaceItems, List.forall_mem_cons, ← ih, List.map_cons]
    by_cases h : isin v = true
    · rw [if_pos h, if_pos h]
      cases hm : mapping.lookup v with
      | none => simp
      | some w =>
        dsimp only
        cases hc : castInto R dt w with
        | error e =>
          simp only [bind, Except.bind, Option.some.injEq]
          constructor
          · intro h; cases h
          · rintro ⟨⟨w', rfl, h⟩, -⟩
            rw [hc] at h
            cases h
        | ok x =>
          have e : (do let x ← (Except.ok x : Except Err (CV F)); let more ← tReplaceItems R dt isin mapping l; .ok (x :: more)) = (do let more ← tReplaceItems R dt isin mapping l; .ok (x :: more) : Except Err (List (CV F))) := rfl
          rw [e, cons_inj_ok]
          simp only [Option.getD_some]
          refine and_congr ⟨?_, ?_⟩ Iff.rfl
          · rintro rfl
            exact ⟨x, rfl, hc⟩
          · rintro ⟨w', h1, h2⟩
            cases h1
            rw [hc] at h2
            exact Except.ok.inj h2
    · rw [if_neg h, if_neg h, cons_inj_ok]
      exact and_congr ⟨Eq.symm, Eq.symm⟩ Iff.rfl

/-- one page -/
theorem tReplacePage_exact (R : NpRt F) (isin : CV F → Bool) (mapping : List (CV F × CV F)) (p : Arr F) :
    (tReplacePage R isin mapping p).map Arr.data = .ok (p.data.map fun v => (mapping.lookup v).getD v) ↔
      ∀ v ∈ p.data, if isin v then ∃ w, mapping.lookup v = some w ∧ castInto R p.dt w = .ok w else (mapping.lookup v).getD v = v := by
  unfold tReplacePage
  split
  · rw [← tReplaceItems_exact]
    cases tReplaceItems R p.dt isin mapping p.data with
    | error e => simp [Except.map]
    | ok l => simp [Except.map]
  · next h =>
    have hno : ∀ v ∈ p.data, ¬ isin v = true := by
      intro v hv hi
      exact h (List.any_eq_true.2 ⟨v, hv, hi⟩)
    simp only [Except.map, Except.ok.injEq]
    constructor
    · intro he v hv
      rw [if_neg (hno v hv)]
      have := List.map_inj_left.1 ((List.map_id p.data).trans he) v hv
      exact this.symm
    · intro he
      conv_lhs => rw [← List.map_id p.data]
      refine List.map_inj_left.2 fun v hv => ?_
      have := he v hv
      rw [if_neg (hno v hv)] at this
      exact this.symm

/-- **C81** (exactly when): after `column.replace(mapping)` every value has been replaced as given exactly if, in each page, every value which `np.isin` finds is a key whose new value survives the conversion to the dtype of the
page, and every other value is no key (or a key that stands for itself). -/
theorem C81_exact (R : NpRt F) (isin : Arr F → CV F → Bool) (mapping : List (CV F × CV F)) (c : TCol F) :
    (tReplace R isin mapping c).map TCol.pages = .ok (c.pages.map fun p => p.map fun v => (mapping.lookup v).getD v) ↔
      ∀ p ∈ c, ∀ v ∈ p.data, if isin p v then ∃ w, mapping.lookup v = some w ∧ castInto R p.dt w = .ok w else (mapping.lookup v).getD v = v := by
  induction c with
  | nil => simp [tReplace, Except.map, TCol.pages]
  | cons p c ih =>
    rw [List.forall_mem_cons, ← ih, ← tReplacePage_exact, tReplace]
    cases tReplacePage R (isin p) mapping p with
    | error e => simp [bind, Except.bind, Except.map]
    | ok q =>
      cases tReplace R isin mapping c with
      | error e => simp [bind, Except.bind, Except.map]
      | ok d => simp [bind, Except.bind, Except.map, TCol.pages]

/-- the text `apple` does not survive in a page of single letters -/
example : castInto exactNp (.str 1) (.str ['a', 'p', 'p', 'l', 'e']) ≠ .ok (.str ['a', 'p', 'p', 'l', 'e']) ∧ castInto exactNp (.str 5) (.str ['a', 'p', 'p', 'l', 'e']) = .ok (.str ['a', 'p', 'p', 'l', 'e']) := by
  decide +kernel

end C81

end Tablite
