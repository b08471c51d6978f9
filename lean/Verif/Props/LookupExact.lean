import Verif.Props.Lookup
import Verif.Props.JoinLaws
/-!
# C28 exactly: what lookup does when rows have the same hash
-/

namespace Tablite
set_option linter.unusedSectionVars false

section

variable {ν α η : Type} [DecidableEq ν] [DecidableEq η]

/-- the first row with the same hash -/
def firstSame (h : Nat → η) (i : Nat) : Nat := ((List.range i).find? fun k => h k = h i).getD i

theorem firstSame_le (h : Nat → η) (i : Nat) : firstSame h i ≤ i := by
  unfold firstSame
  cases e : (List.range i).find? fun k => h k = h i with
  | none => exact Nat.le_refl _
  | some k => exact Nat.le_of_lt (List.mem_range.1 (List.mem_of_find?_eq_some e))

theorem firstSame_eq (h : Nat → η) (i : Nat) : h (firstSame h i) = h i := by
  unfold firstSame
  cases e : (List.range i).find? fun k => h k = h i with
  | none => rfl
  | some k => simpa using List.find?_some e

theorem dGet_snoc {κ β : Type} [DecidableEq κ] (k a : κ) (b : β) (d : List (κ × β)) : dGet k (d ++ [(a, b)]) = (dGet k d).or (if a = k then some b else none) := by
  induction d with
  | nil => rfl
  | cons x d ih =>
    simp only [List.cons_append, dGet]
    split
    · rfl
    · exact ih

/-- the loop gives each row what it found for the first row with the same hash -/
theorem lookupLoop_effect (hash : List α → η) (search : List α → Option Nat) (f : Nat → List α) (n : Nat) :
    lookupLoop hash search [] ((List.range n).map f) = (List.range n).map fun i => enc (search (f (firstSame (fun k => hash (f k)) i))) := by
  have H : ∀ (q p : Nat) (cache : List (η × Int)), (∀ h, dGet h cache = ((List.range p).find? fun k => hash (f k) = h).map fun k => enc (search (f k))) →
      lookupLoop hash search cache ((List.range' p q).map f) = (List.range' p q).map fun i => enc (search (f (firstSame (fun k => hash (f k)) i))) := by
    intro q
    induction q with
    | zero => intro p cache _; rfl
    | succ q ih =>
      intro p cache hc
      rw [List.range'_succ, List.map_cons, List.map_cons, lookupLoop]
      have hp := hc (hash (f p))
      cases e : (List.range p).find? fun k => hash (f k) = hash (f p) with
      | some k =>
        rw [e] at hp
        rw [hp]
        dsimp only [Option.map]
        have e1 : firstSame (fun k => hash (f k)) p = k := by unfold firstSame; rw [e]; rfl
        rw [e1]
        congr 1
        apply ih
        intro h
        rw [hc h, List.range_succ, List.find?_append]
        by_cases hh : hash (f p) = h
        · subst hh; rw [e]; rfl
        · simp [hh]
      | none =>
        rw [e] at hp
        rw [hp]
        dsimp only [Option.map]
        have e1 : firstSame (fun k => hash (f k)) p = p := by unfold firstSame; rw [e]; rfl
        rw [e1]
        congr 1
        apply ih
        intro h
        rw [dGet_snoc, hc h, List.range_succ, List.find?_append]
        by_cases hh : hash (f p) = h
        · subst hh; rw [e]; simp
        · cases (List.range p).find? fun k => hash (f k) = h <;> simp [hh]
  rw [List.range_eq_range']
  exact H n 0 [] (by intro h; rfl)

/-- the names are the columns of `t` that are operands -/
def OperandNames (t : Tbl ν α) (l : List (Operand ν α)) (names : List ν) : Prop := ∀ x, x ∈ names ↔ x ∈ t.map (·.1) ∧ ∃ v, Operand.name x v ∈ l

/-- **C28** (effect).  Row `i` gets the first match of the first row whose left columns have the same hash as those of row `i`. -/
theorem C28_effect (hash : List α → η) (ord : List ν → List ν) (hord : ∀ l, (ord l).Perm l) (ps : Nat) (hps : 0 < ps)
    (mk : ν → Nat → ν) (hmk : ∀ d a b, mk d a = mk d b → a = b) (nul : α) (all : Bool) (t o : Tbl ν α) (n m : Nat) (ht : Rect t n) (ho : Rect o m)
    (hwf : TblWF o) (crits : List (Criterion ν α))
    (hl : ∃ x v, Operand.name x v ∈ crits.map (·.left) ∧ x ∈ t.map (·.1)) (hr : ∃ x v, Operand.name x v ∈ crits.map (·.right) ∧ x ∈ o.map (·.1))
    (hmiss : (∃ i, i < n ∧ ∀ j, j < m → ¬ rowMatch nul all t o crits i j) → n ≤ ps ∧ ∀ c ∈ o, ∀ p ∈ c.2, p ≠ []) :
    ∃ names : List ν, OperandNames t (crits.map (·.left)) names ∧
    ∃ rows : List (Option Nat), rows.length = n ∧
      (∀ (i : Nat) r, rows[i]? = some r → IsFirst (rowMatch nul all t o crits (firstSame (fun k => hash (names.map fun x => cell nul t x k)) i)) m r) ∧
      ∃ t', tblLookup hash ord ps mk nul all t o crits = .ok t' ∧
        tview t' = tview t ++ ((o.map (·.1)).zip (rightNames mk (t.map (·.1)) (o.map (·.1)))).map
          fun x => (x.2, rows.map fun r => optCell nul o x.1 r) := by
  have hlne : operandColumns ord t (crits.map (·.left)) ≠ [] := by
    obtain ⟨x, v, h1, h2⟩ := hl
    exact List.ne_nil_of_mem ((mem_operandColumns ord hord t _ x).2 ⟨h2, v, h1⟩)
  have hrne : operandColumns ord o (crits.map (·.right)) ≠ [] := by
    obtain ⟨x, v, h1, h2⟩ := hr
    exact List.ne_nil_of_mem ((mem_operandColumns ord hord o _ x).2 ⟨h2, v, h1⟩)
  have hlr := subTable_rows nul t n ht _ hlne (fun x hx => ((mem_operandColumns ord hord t _ x).1 hx).1)
  have hrr := subTable_rows nul o m ho _ hrne (fun x hx => ((mem_operandColumns ord hord o _ x).1 hx).1)
  have hiff := critEval_iff ord hord nul all t o crits
  unfold tblLookup
  dsimp only
  rw [if_neg (by simp [hlne, hrne]), hlr, hrr]
  simp only [bind, Except.bind]
  have hon : OperandNames t (crits.map (·.left)) (operandColumns ord t (crits.map (·.left))) := mem_operandColumns ord hord t _
  refine ⟨_, hon, ?_⟩
  generalize operandColumns ord t (crits.map (·.left)) = ln at *
  generalize operandColumns ord o (crits.map (·.right)) = rn at *
  generalize hrrows : ((List.range m).map fun i => rn.map fun x => cell nul o x i) = rrows at *
  have hloop := lookupLoop_effect hash (fun r => firstMatch (fun q => critEval all crits ln r rn q) 0 rrows) (fun i => ln.map fun x => cell nul t x i) n
  have hfirst : ∀ i, IsFirst (rowMatch nul all t o crits i) m (firstMatch (fun q => critEval all crits ln (ln.map fun x => cell nul t x i) rn q) 0 rrows) := by
    intro i
    have hlen : rrows.length = m := by rw [← hrrows]; simp
    have := firstMatch_first (fun q => critEval all crits ln (ln.map fun x => cell nul t x i) rn q) rrows 0 (rowMatch nul all t o crits i) (by
      intro j r hj
      rw [Nat.zero_add, ← hiff i j]
      rw [← hrrows, List.getElem?_map] at hj
      cases e : (List.range m)[j]? with
      | none => rw [e] at hj; cases hj
      | some j' =>
        rw [List.getElem?_range] at e <;> first | (injection e with e) | skip
        · subst e
          rw [List.getElem?_range (by
            by_contra hge
            rw [List.getElem?_eq_none (by simp; omega)] at hj
            cases hj)] at hj
          injection hj with hj
          rw [← hj]
        · by_contra hge
          rw [List.getElem?_eq_none (by simp; omega)] at hj
          cases hj)
    generalize firstMatch (fun q => critEval all crits ln (ln.map fun x => cell nul t x i) rn q) 0 rrows = res at this
    cases res with
    | none =>
      simp only [Nat.zero_add, Nat.zero_le, true_implies, hlen] at this
      exact this
    | some j =>
      simp only [Nat.zero_add, Nat.zero_le, true_implies, true_and, hlen] at this
      exact this
  generalize hfm : (fun i : Nat => firstMatch (fun q => critEval all crits ln (ln.map fun x => cell nul t x i) rn q) 0 rrows) = fm at *
  have hfm' : ∀ i, firstMatch (fun q => critEval all crits ln (ln.map fun x => cell nul t x i) rn q) 0 rrows = fm i := fun i => congrFun hfm i
  simp only [hfm'] at hfirst
  simp only [hfm'] at hloop
  have hrep : ∀ i, i < n → firstSame (fun k => hash (ln.map fun x => cell nul t x k)) i < n := fun i hi => Nat.lt_of_le_of_lt (firstSame_le _ i) hi
  generalize firstSame (fun k => hash (ln.map fun x => cell nul t x k)) = rep at *
  rw [hloop]
  have hval : ∀ i, enc (fm i) = -1 ∧ fm i = none ∨ ∃ j, fm i = some j ∧ enc (fm i) = (j : Int) ∧ j < m := by
    intro i
    have := hfirst i
    cases e : fm i with
    | none => exact Or.inl ⟨rfl, rfl⟩
    | some j => rw [e] at this; exact Or.inr ⟨j, rfl, rfl, this.1⟩
  obtain ⟨second, s1, s2⟩ := C62_reindex_partial ps hps nul o ((List.range n).map fun i => enc (fm (rep i)))
    (by
      intro c hc i hi
      obtain ⟨k, _, rfl⟩ := List.mem_map.1 hi
      have := ho c hc
      rcases hval (rep k) with ⟨h, _⟩ | ⟨j, _, h2, h3⟩
      · exact Or.inl h
      · exact Or.inr (by omega))
    (by
      intro hin
      obtain ⟨k, hk, e⟩ := List.mem_map.1 hin
      have := hmiss ⟨rep k, hrep k (List.mem_range.1 hk), by
        have := hfirst (rep k)
        rcases hval (rep k) with ⟨_, h⟩ | ⟨j, _, h2, _⟩
        · rw [h] at this; exact this
        · omega⟩
      simpa using this)
  rw [s1]
  refine ⟨(List.range n).map fun i => fm (rep i), by simp, ?_, addColumns mk t second, rfl, ?_⟩
  · intro i r hi
    rw [List.getElem?_map] at hi
    by_cases h : i < n
    · rw [List.getElem?_range h] at hi
      injection hi with hi
      rw [← hi]; exact hfirst (rep i)
    · rw [List.getElem?_eq_none (by simp; omega)] at hi
      cases hi
  · rw [addColumns_view mk hmk]
    have hn : second.map (·.1) = o.map (·.1) := by
      have := congrArg (List.map (·.1)) s2
      simpa [tview, Function.comp_def] using this
    have hv : (second.map fun c => colIter c.2) = (o.map (·.1)).map fun x => (List.range n).map fun i => optCell nul o x (fm (rep i)) := by
      have := congrArg (List.map (·.2)) s2
      simp only [tview, List.map_map, Function.comp_def] at this
      rw [this, List.map_map]
      apply List.map_congr_left
      intro c hc
      simp only [Function.comp]
      apply List.map_congr_left
      intro i hi
      have hg : dGet c.1 o = some c.2 := dGet_of_mem o hwf c hc
      unfold optCell pick
      rcases hval (rep i) with ⟨h1, h2⟩ | ⟨j, h1, h2, h3⟩
      · rw [h1, h2]; rfl
      · rw [h2, h1, if_neg (by omega)]
        simp [cell, hg]
    rw [hn, hv]
    congr 1
    rw [List.zipWith_map_right]
    have hlen : (rightNames mk (t.map (·.1)) (o.map (·.1))).length = (o.map (·.1)).length := rightNames_length _ _ _
    generalize rightNames mk (t.map (·.1)) (o.map (·.1)) = rn' at hlen
    generalize o.map (·.1) = on at hlen
    clear s2 hn hv hl hr hrr hlr
    induction on generalizing rn' with
    | nil => simp
    | cons a u ih =>
      cases rn' with
      | nil => cases hlen
      | cons b w =>
        simp only [List.zip_cons_cons, List.zipWith_cons_cons, List.map_cons, List.map_map]
        rw [ih w (by simpa using hlen)]
        simp [Function.comp_def]

theorem isFirst_unique' (P : Nat → Prop) (m : Nat) (r s : Option Nat) (h1 : IsFirst P m r) (h2 : IsFirst P m s) : r = s := by
  cases r with
  | none =>
    cases s with
    | none => rfl
    | some j => exact absurd h2.2.1 (h1 j h2.1)
  | some i =>
    cases s with
    | none => exact absurd h1.2.1 (h2 i h1.1)
    | some j =>
      obtain ⟨a1, a2, a3⟩ := h1
      obtain ⟨b1, b2, b3⟩ := h2
      rcases Nat.lt_trichotomy i j with h | h | h
      · exact absurd a2 (b3 i h)
      · rw [h]
      · exact absurd b2 (a3 j h)

theorem isFirst_exists (P : Nat → Prop) (m : Nat) : ∃ r, IsFirst P m r := by
  classical
  by_cases h : ∃ j, j < m ∧ P j
  · refine ⟨some (Nat.find h), (Nat.find_spec h).1, (Nat.find_spec h).2, fun k hk hp => ?_⟩
    exact Nat.find_min h hk ⟨Nat.lt_trans hk (Nat.find_spec h).1, hp⟩
  · exact ⟨none, fun k hk hp => h ⟨k, hk, hp⟩⟩

/-- **C28** (exact).  Every row gets its own first match exactly when the first match of each row and that of the first row with the same hash have the same values. -/
theorem C28_exact (hash : List α → η) (ord : List ν → List ν) (hord : ∀ l, (ord l).Perm l) (ps : Nat) (hps : 0 < ps)
    (mk : ν → Nat → ν) (hmk : ∀ d a b, mk d a = mk d b → a = b) (nul : α) (all : Bool) (t o : Tbl ν α) (n m : Nat) (ht : Rect t n) (ho : Rect o m)
    (hwf : TblWF o) (crits : List (Criterion ν α))
    (hl : ∃ x v, Operand.name x v ∈ crits.map (·.left) ∧ x ∈ t.map (·.1)) (hr : ∃ x v, Operand.name x v ∈ crits.map (·.right) ∧ x ∈ o.map (·.1))
    (hmiss : (∃ i, i < n ∧ ∀ j, j < m → ¬ rowMatch nul all t o crits i j) → n ≤ ps ∧ ∀ c ∈ o, ∀ p ∈ c.2, p ≠ []) :
    ∃ names : List ν, OperandNames t (crits.map (·.left)) names ∧
    ((∃ rows : List (Option Nat), rows.length = n ∧ (∀ (i : Nat) r, rows[i]? = some r → IsFirst (rowMatch nul all t o crits i) m r) ∧
      ∃ t', tblLookup hash ord ps mk nul all t o crits = .ok t' ∧
        tview t' = tview t ++ ((o.map (·.1)).zip (rightNames mk (t.map (·.1)) (o.map (·.1)))).map
          fun x => (x.2, rows.map fun r => optCell nul o x.1 r)) ↔
      ∀ i < n, ∀ r s, IsFirst (rowMatch nul all t o crits i) m r → IsFirst (rowMatch nul all t o crits (firstSame (fun k => hash (names.map fun x => cell nul t x k)) i)) m s →
        ∀ x ∈ o.map (·.1), optCell nul o x r = optCell nul o x s) := by
  obtain ⟨names, hn, rows', l', f', t', e', v'⟩ := C28_effect hash ord hord ps hps mk hmk nul all t o n m ht ho hwf crits hl hr hmiss
  have hrl : (rightNames mk (t.map (·.1)) (o.map (·.1))).length = (o.map (·.1)).length := rightNames_length _ _ _
  have key : ∀ (rows : List (Option Nat)), (((o.map (·.1)).zip (rightNames mk (t.map (·.1)) (o.map (·.1)))).map (fun x => (x.2, rows.map fun r => optCell nul o x.1 r)) =
      ((o.map (·.1)).zip (rightNames mk (t.map (·.1)) (o.map (·.1)))).map (fun x => (x.2, rows'.map fun r => optCell nul o x.1 r))) ↔
      ∀ x ∈ o.map (·.1), (rows.map fun r => optCell nul o x r) = rows'.map fun r => optCell nul o x r := by
    intro rows
    generalize rightNames mk (t.map (·.1)) (o.map (·.1)) = rn at hrl
    generalize o.map (·.1) = on at hrl
    rw [List.map_inj_left]
    constructor
    · intro h x hx
      obtain ⟨i, hi, rfl⟩ := List.mem_iff_getElem.1 hx
      have := h (on[i], rn[i]) (List.mem_iff_getElem.2 ⟨i, by simp; omega, by simp⟩)
      simpa using this
    · intro h x hx
      simp only [Prod.mk.injEq, true_and]
      exact h x.1 (List.of_mem_zip hx).1
  refine ⟨names, hn, ?_⟩
  constructor
  · rintro ⟨rows, l, f, u, e, v⟩ i hi r s h1 h2 x hx
    rw [e] at e'
    injection e' with e'
    subst e'
    rw [v] at v'
    have h3 := (key rows).1 (List.append_cancel_left v') x hx
    have h4 := congrArg (fun q => q[i]?) h3
    simp only [List.getElem?_map, List.getElem?_eq_getElem (show i < rows.length by omega), List.getElem?_eq_getElem (show i < rows'.length by omega), Option.map_some,
      Option.some.injEq] at h4
    rw [isFirst_unique' _ m _ _ h1 (f i _ (List.getElem?_eq_getElem (by omega))), isFirst_unique' _ m _ _ h2 (f' i _ (List.getElem?_eq_getElem (by omega)))]
    exact h4
  · intro h
    choose fm hfm using fun i => isFirst_exists (rowMatch nul all t o crits i) m
    refine ⟨(List.range n).map fm, by simp, ?_, t', e', ?_⟩
    · intro i r hi
      by_cases hin : i < n
      · rw [List.getElem?_map, List.getElem?_range hin] at hi
        injection hi with hi
        rw [← hi]
        exact hfm i
      · rw [List.getElem?_eq_none (by simp; omega)] at hi
        cases hi
    · rw [v', (key ((List.range n).map fm)).2]
      intro x hx
      apply List.ext_getElem (by simp [l'])
      intro i h1 h2
      simp only [List.length_map, List.length_range] at h1
      simp only [List.getElem_map, List.getElem_range]
      exact h i h1 _ _ (hfm i) (f' i _ (List.getElem?_eq_getElem (by omega))) x hx

/-- C28: if no criterion names a column on one of the sides, `lookup` raises IndexError -/
theorem C28_no_column_raises (hash : List α → η) (ord : List ν → List ν) (hord : ∀ l, (ord l).Perm l) (ps : Nat) (mk : ν → Nat → ν) (nul : α) (all : Bool)
    (t o : Tbl ν α) (crits : List (Criterion ν α))
    (h : (∀ x v, Operand.name x v ∈ crits.map (·.left) → x ∉ t.map (·.1)) ∨ (∀ x v, Operand.name x v ∈ crits.map (·.right) → x ∉ o.map (·.1))) :
    tblLookup hash ord ps mk nul all t o crits = .error .index := by
  have H : ∀ (u : Tbl ν α) (l : List (Operand ν α)), (∀ x v, Operand.name x v ∈ l → x ∉ u.map (·.1)) → operandColumns ord u l = [] := by
    intro u l hu
    rw [List.eq_nil_iff_forall_not_mem]
    intro x hx
    obtain ⟨h1, v, h2⟩ := (mem_operandColumns ord hord u l x).1 hx
    exact hu x v h2 h1
  unfold tblLookup
  dsimp only
  rcases h with h | h
  · rw [if_pos (.inl (H t _ h))]
  · rw [if_pos (.inr (H o _ h))]

/-- a constant on the right side only -/
example : ∀ x v, Operand.name x v ∈ [(Criterion.mk (fun a b : Nat => a == b) (.name "a" 0) (.value 3) : Criterion String Nat)].map (·.right) → x ∉ ["b"] := by
  intro x v h
  simp at h

/-- -1 and -2 have the same hash: row 1 gets the match of row 0 -/
example : firstSame (fun k => pyHashInt ([-1, -2, 7].getD k 0)) 1 = 0 ∧ firstSame (fun k => pyHashInt ([-1, -2, 7].getD k 0)) 2 = 2 := by decide

end

end Tablite
